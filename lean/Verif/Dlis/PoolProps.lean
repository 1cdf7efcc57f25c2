/-
C25 and C28: histories of accesses to object sets and pools, damaged records.
-/
import Verif.Dlis.EflrMore

namespace Dlisio.Dlis

/-! ## C25 -/

/-- What can be asked of an object set from outside. -/
inductive Spec.Access where
  | objects | type | name | role
deriving DecidableEq

/-- An answer. -/
inductive Spec.Answer where
  | objects (os : List BasicObject)
  | bytes (b : Bytes)
  | role (r : Role)

/-- One access: the set afterwards and the answer; only `objects` parses. -/
def access (s : ObjectSet) : Spec.Access → ObjectSet × Spec.Answer
  | .objects => (s.objects.1, .objects s.objects.2)
  | .type => (s, .bytes s.type)
  | .name => (s, .bytes s.name)
  | .role => (s, .role s.role)

/-- The set after a history of accesses. -/
def afterAccesses (s : ObjectSet) (h : List Spec.Access) : ObjectSet :=
  h.foldl (fun s a => (access s a).1) s

/-- C25.  Parsing a second time changes nothing. -/
theorem c25_idempotent (s : ObjectSet) : s.parse.parse = s.parse := by
  have : s.parse.parsed = true := by
    unfold ObjectSet.parse
    split
    · assumption
    · split
      · exact (finish_objs _ _).2.2.2.2.2
      · simp only
        split
        · exact (finish_objs _ _).2.2.2.2.2
        · exact (finish_objs _ _).2.2.2.2.2
  generalize s.parse = t at this
  unfold ObjectSet.parse
  rw [if_pos this]

/-- C25.  The answer to a question does not depend on what was asked before. -/
theorem c25_history (bs : Bytes) (s : ObjectSet) (h : ObjectSet.new bs = .ok s)
    (hist : List Spec.Access) (a : Spec.Access) :
    (access (afterAccesses s hist) a).2 = (access s a).2 := by
  obtain ⟨_, _, _, _, _, h1, h2, h3, _⟩ := parse_stages h
  have key : afterAccesses s hist = s ∨ afterAccesses s hist = s.parse := by
    induction hist using List.reverseRecOn with
    | nil => exact Or.inl rfl
    | append_singleton hist x ih =>
      simp only [afterAccesses, List.foldl_append, List.foldl_cons, List.foldl_nil] at ih ⊢
      cases x with
      | objects =>
        right
        rcases ih with ih | ih
        · rw [ih]; rfl
        · rw [ih]; exact c25_idempotent s
      | type => exact ih
      | name => exact ih
      | role => exact ih
  rcases key with key | key
  · rw [key]
  · rw [key]
    cases a with
    | objects => simp only [access, ObjectSet.objects, c25_idempotent]
    | type => simp only [access, h1]
    | name => simp only [access, h2]
    | role => simp only [access, h3]

/-- C25.  Whatever follows a run of well-formed objects, these objects are kept. -/
theorem c25_keeps_objects (s : Spec.ObjSet) (bs rest : Bytes) (d : Byte)
    (h : Spec.ObjSetEnc s bs) (hd : component d = .object) :
    ∃ set more, ObjectSet.new (bs ++ d :: rest) = .ok set ∧
      set.parse.objs = s.values ++ more ∧ set.parse.type = s.type := by
  obtain ⟨b₁, b₂, b₃, rfl, h1, h2, h3, hne, hnd⟩ := h
  have e1 := setComponent_enc (b₂ ++ (b₃ ++ d :: rest)) h1
  have hwf := concat_wf h2
  have hnext : ObjectNext (d :: rest) := Or.inr ⟨d, rest, rfl, hd⟩
  have e2 := templateLoop_enc h2 (objectsNext h3 hnext) (Or.inr (by simp))
    ((b₂ ++ (b₃ ++ d :: rest)).length + 1) [] (Spec.roleNotes s.role) (by omega)
  obtain ⟨m, _, e3⟩ := objectsLoop_enc s.type hwf hnd h3 hnext (b₃ ++ d :: rest).length
    (Nat.le_refl _)
  refine ⟨_, (objectsLoop s.type (s.template.map Spec.TAttr.attr) m (d :: rest)).1,
    by simp only [ObjectSet.new, List.append_assoc, e1]; rfl, ?_⟩
  simp only [ObjectSet.parse, e1, parseTemplate, e2, List.nil_append,
    parseObjects, e3, Bool.false_eq_true, if_false, finish_objs, Spec.ObjSet.values, and_self]

theorem objectAttr_suffix {t a : ObjAttr} {inv : Bool} {f : AttribFlags} {xs r : Bytes}
    (h : objectAttr t inv f xs = .ok (a, r)) : r <:+ xs := by
  unfold objectAttr at h
  simp only at h
  generalize (if f.label = true then
    { (if inv = true then { t with log := t.log ++ [.major] } else t) with
      log := (if inv = true then { t with log := t.log ++ [.major] } else t).log ++ [.major] }
    else (if inv = true then { t with log := t.log ++ [.major] } else t)) = a' at h
  split at h
  · cases h
  rename_i b xs' hb
  have hs := (characteristics_ok hb).1
  split at h
  · cases h; exact hs
  · split at h
    · cases h; exact hs
    · cases h; exact hs

theorem attrLoop_suffix {ts cur attrs : List ObjAttr} {xs r : Bytes} {c c' : Bool}
    (h : attrLoop ts xs cur c = .ok (attrs, c', r)) : r <:+ xs := by
  induction ts generalizing xs cur c with
  | nil => cases h; exact List.suffix_rfl
  | cons t ts ih =>
    unfold attrLoop at h
    split at h
    · exact ih h
    · split at h
      · cases h; exact List.suffix_rfl
      · split at h
        · cases h
        · cases h; exact List.suffix_rfl
        · exact (ih h).trans (List.suffix_cons ..)
        · split at h
          · cases h
          · rename_i a rest ha
            exact ((ih h).trans (objectAttr_suffix ha)).trans (List.suffix_cons ..)

theorem parseObject_ok {type : Bytes} {ts : List ObjAttr} {d : Byte} {xs r : Bytes}
    {o : BasicObject} (h : parseObject type ts d xs = .ok (o, r)) :
    component d = .object ∧ r <:+ xs ∧ r.length < xs.length := by
  unfold parseObject at h
  split at h
  · cases h
  rename_i hasName hd
  split at h
  · cases h
  rename_i name xs' hn
  split at h
  · cases h
  rename_i attrs clear xs'' ha
  cases h
  have hrole : component d = .object := by
    unfold parseObjectDescriptor at hd
    split at hd
    · rename_i nm hc
      exact ((c15_component_flags d (component d)).2.2.2.2.1).1 ⟨_, hc⟩
    · cases hd
  obtain ⟨e, he, rfl⟩ := (c05_obname_decodes _ _ _).1 (need_ok hn)
  have hlen := (attrLoop_suffix ha).length_le
  refine ⟨hrole, (attrLoop_suffix ha).trans (List.suffix_append ..), ?_⟩
  have : e ≠ [] := by
    intro h0
    subst h0
    have := (c05_obname_decodes [] name []).2 ⟨[], he, rfl⟩
    simp [obname, origin, uvari, ushort] at this
  have : 0 < e.length := List.length_pos_of_ne_nil this
  simp only [List.length_append]
  omega

theorem objectsLoop_fuel {type : Bytes} {ts : List ObjAttr} {n m : Nat} {xs : Bytes}
    (hn : xs.length ≤ n) (hm : xs.length ≤ m) :
    objectsLoop type ts n xs = objectsLoop type ts m xs := by
  induction n generalizing m xs with
  | zero =>
    have : xs = [] := by simpa using hn
    subst this
    cases m <;> rfl
  | succ n ih =>
    cases xs with
    | nil => cases m <;> rfl
    | cons d xs =>
      simp only [List.length_cons] at hn hm
      obtain ⟨m, rfl⟩ : ∃ k, m = k + 1 := ⟨m - 1, by omega⟩
      unfold objectsLoop
      split
      · rfl
      · rename_i o xs' ho
        have := (parseObject_ok ho).2.2
        rw [ih (m := m) (xs := xs') (by omega) (by omega)]

/-- The bytes of the record divided among the objects: each chunk starts with an
OBJECT component. -/
def Spec.Chunks (os : List BasicObject) (chunks : List Bytes) : Prop :=
  os.length = chunks.length ∧
    ∀ c ∈ chunks, ∃ d rest, c = d :: rest ∧ component d = .object

theorem objectsLoop_chunks {type : Bytes} {ts : List ObjAttr} {n : Nat} {xs : Bytes}
    {os : List BasicObject} (h : objectsLoop type ts n xs = (os, .ok ())) :
    ∃ chunks, Spec.Chunks os chunks ∧ xs = chunks.flatten := by
  induction n generalizing xs os with
  | zero =>
    cases xs with
    | nil => cases h; exact ⟨[], ⟨rfl, by simp⟩, rfl⟩
    | cons d xs => simp [objectsLoop] at h
  | succ n ih =>
    cases xs with
    | nil => cases h; exact ⟨[], ⟨rfl, by simp⟩, rfl⟩
    | cons d xs =>
      unfold objectsLoop at h
      split at h
      · simp at h
      · rename_i o xs' ho
        obtain ⟨os', res, hrec⟩ : ∃ os' res, objectsLoop type ts n xs' = (os', res) := ⟨_, _, rfl⟩
        rw [hrec] at h
        simp only [Prod.mk.injEq] at h
        obtain ⟨rfl, rfl⟩ := h
        obtain ⟨chunks, ⟨c1, c2⟩, rfl⟩ := ih hrec
        obtain ⟨hd, ⟨pre, rfl⟩, _⟩ := parseObject_ok ho
        refine ⟨(d :: pre) :: chunks, ⟨by simp [c1], ?_⟩, by simp⟩
        intro c hc
        simp only [List.mem_cons] at hc
        rcases hc with rfl | hc
        · exact ⟨d, pre, rfl, hd⟩
        · exact c2 c hc

theorem setComponent_suffix {bs xs type name : Bytes} {log : List Severity} {role : Role}
    (h : parseSetComponent bs = (log, .ok (role, type, name, xs))) : xs <:+ bs := by
  unfold parseSetComponent at h
  split at h
  · simp at h
  split at h
  · simp at h
  rename_i d bs role hasType hasName hd
  split at h
  · simp at h
  simp only [Prod.mk.injEq] at h
  obtain ⟨_, h⟩ := h
  split at h
  · cases h
  rename_i t ys ht
  split at h
  · cases h
  rename_i n zs hn
  cases h
  have h1 : xs <:+ ys := by
    cases hasName with
    | true => exact ident_suffix (need_ok hn)
    | false => cases hn; exact List.suffix_rfl
  exact (h1.trans (ident_suffix (need_ok ht))).trans (List.suffix_cons ..)

theorem templateLoop_suffix {n : Nat} {xs ys : Bytes} {tmpl : List ObjAttr} {log : List Severity}
    (h : (templateLoop n xs tmpl log).res = .ok ys) : ys <:+ xs := by
  induction n generalizing xs tmpl log with
  | zero => cases h
  | succ n ih =>
    cases xs with
    | nil => cases h
    | cons d xs =>
      unfold templateLoop at h
      split at h
      · cases h
      · cases h; exact List.suffix_rfl
      · exact (ih h).trans (List.suffix_cons ..)
      · rename_i inv f _
        generalize (if f.label = true then log else log ++ [.major]) = log' at h
        simp only at h
        split at h
        · cases h
        · rename_i a xs' ha
          have hs := (templateAttr_ok ha).1.trans (List.suffix_cons d xs)
          split at h
          · cases h; exact List.nil_suffix
          · exact (ih h).trans hs

/-- C25.  Of every record, however damaged: either parsing read past its end, or a
critical error is in the log, or the whole record has been used: after the set
component and the template there is one chunk of bytes for each object, up to the
end. -/
theorem c25_complete_or_reported (bs : Bytes) (s : ObjectSet) (h : ObjectSet.new bs = .ok s) :
    s.parse.undefined = true ∨ .critical ∈ s.parse.log ∨
      ∃ pre chunks, bs = pre ++ chunks.flatten ∧ Spec.Chunks s.parse.objs chunks := by
  obtain ⟨log, xs, hsc, _, hst, _⟩ := parse_stages h
  rcases hst with ⟨e, _, _, h1, h2⟩ | ⟨ys, hres, ho, h1, h2⟩
  · cases e with
    | threw => exact Or.inr (Or.inl (by rw [h1 rfl]; simp))
    | outOfBounds => exact Or.inl (h2.2 rfl)
  · obtain ⟨os, res, hp⟩ : ∃ os res, parseObjects s.type s.parse.tmpl ys = (os, res) :=
      ⟨_, _, rfl⟩
    rw [hp] at ho h1 h2
    simp only at ho h1 h2
    match res, h1, h2, hp with
    | .error .threw, h1, _, _ => exact Or.inr (Or.inl (by rw [h1 rfl]; simp))
    | .error .outOfBounds, _, h2, _ => exact Or.inl (h2.2 rfl)
    | .ok (), _, _, hp =>
      obtain ⟨chunks, hc, rfl⟩ := objectsLoop_chunks hp
      obtain ⟨pre, hpre⟩ := (templateLoop_suffix hres).trans (setComponent_suffix hsc)
      exact Or.inr (Or.inr ⟨pre, chunks, hpre.symm, by rw [ho]; exact hc⟩)

/-! ## C28 -/

/-- The objects of a set that a query asks for. -/
def Spec.select (m : Matcher) (type : Bytes) (name : Option Bytes) (s : ObjectSet) :
    List BasicObject :=
  if m type s.type then
    match name with
    | none => s.parse.objs
    | some n => s.parse.objs.filter fun o => m n o.name.id
  else []

/-- C28.  A query returns, set by set in the order of the pool, the objects that match,
each once: what it returns of one set does not depend on the other sets.  It fails only
if an entry in the log of a set whose type matches cannot be reported, or the error handler raises
for it. -/
theorem c28_get (m : Matcher) (policy : Policy) (type : Bytes) (name : Option Bytes)
    (p : List ObjectSet) :
    (poolGet m policy type name p).2 =
      if (p.any fun s => m type s.type && s.parse.log.any fun sev => !s.parse.tellable || policy sev) then none
      else some (p.flatMap (Spec.select m type name)) := by
  induction p with
  | nil => rfl
  | cons s p ih =>
    unfold poolGet
    by_cases hm : m type s.type = true
    · simp only [hm, if_true, ObjectSet.objects, reportSetErrors, List.any_cons, Bool.true_and]
      by_cases hr : (s.parse.log.any fun sev => !s.parse.tellable || policy sev) = true
      · simp [hr]
      · simp only [hr, Bool.false_or, List.flatMap_cons]
        rw [ih]
        have hsel : s.parse.objs.filter (nameMatches m name) = Spec.select m type name s := by
          cases name with
          | none => simp [Spec.select, hm, nameMatches]
          | some n => simp only [Spec.select, hm, if_true]; rfl
        rw [hsel]
        simp only [Bool.false_eq_true, if_false]
        split <;> rfl
    · have hm' : m type s.type = false := by simpa using hm
      simp only [hm', Bool.false_eq_true, if_false, List.any_cons, Bool.false_and, Bool.false_or,
        List.flatMap_cons, ih, Spec.select, List.nil_append]

/-- C28.  With the exact matcher and an error handler that does not raise, a query
returns all and only the objects that stand in a set of the type and have the name, if the sets of
the type with entries in their logs have types and names in UTF-8. -/
theorem c28_exact_partial (type n : Bytes) (p : List ObjectSet)
    (hp : ∀ s ∈ p, s.type = type → s.parse.log ≠ [] → Spec.Tellable s.parse) :
    ∃ os, (poolGet (fun a b => decide (a = b)) (fun _ => false) type (some n) p).2 = some os ∧
      ∀ o, o ∈ os ↔ ∃ s ∈ p, s.type = type ∧ o ∈ s.parse.objs ∧ o.name.id = n := by
  refine ⟨p.flatMap (Spec.select (fun a b => decide (a = b)) type (some n)), ?_, ?_⟩
  · rw [c28_get]
    have : (p.any fun s => decide (type = s.type) &&
        s.parse.log.any fun _ => !s.parse.tellable || false) = false := by
      rw [List.any_eq_false]
      intro s hs
      simp only [Bool.and_eq_true, decide_eq_true_eq, List.any_eq_true, not_and, not_exists]
      intro ht sev hsev
      simp [(tellable_iff _).2 (hp s hs ht.symm fun h => by simp [h] at hsev)]
    rw [this]
    rfl
  · intro o
    simp only [List.mem_flatMap]
    constructor
    · rintro ⟨s, hs, ho⟩
      unfold Spec.select at ho
      split at ho
      · rename_i ht
        simp only [List.mem_filter, decide_eq_true_eq] at ho ht
        exact ⟨s, hs, ht.symm, ho.1, ho.2.symm⟩
      · cases ho
    · rintro ⟨s, hs, ht, ho, hn⟩
      exact ⟨s, hs, by simp [Spec.select, ht, ho, hn]⟩

/-- C28.  The types of a pool, and the answers to later queries, are not changed by a
query, also if it fails. -/
theorem c28_repeatable (m m' : Matcher) (policy policy' : Policy) (type type' : Bytes)
    (name name' : Option Bytes) (p : List ObjectSet)
    (hp : ∀ s ∈ p, ∃ bs, ObjectSet.new bs = .ok s ∨ ∃ s', ObjectSet.new bs = .ok s' ∧ s = s'.parse) :
    poolTypes (poolGet m policy type name p).1 = poolTypes p ∧
    (poolGet m' policy' type' name' (poolGet m policy type name p).1).2 =
      (poolGet m' policy' type' name' p).2 := by
  have key : ∀ s ∈ p, s.parse.type = s.type := by
    intro s hs
    obtain ⟨bs, h | ⟨s', h, rfl⟩⟩ := hp s hs
    · obtain ⟨_, _, _, _, _, h1, _⟩ := parse_stages h
      exact h1
    · rw [c25_idempotent]
  have hrel : List.Forall₂ (fun a b => a = b ∨ (a = b.parse ∧ b.parse.type = b.type))
      (poolGet m policy type name p).1 p := by
    clear hp
    induction p with
    | nil => exact .nil
    | cons s p ih =>
      have ih := ih fun x hx => key x (by simp [hx])
      unfold poolGet
      split
      · by_cases hrep : reportSetErrors policy s.parse = true
        · simp only [ObjectSet.objects, hrep, if_true]
          refine .cons (Or.inr ⟨rfl, key s (by simp)⟩) ?_
          exact List.forall₂_same.2 fun x _ => Or.inl rfl
        · simp only [ObjectSet.objects, hrep]
          exact .cons (Or.inr ⟨rfl, key s (by simp)⟩) ih
      · exact .cons (Or.inl rfl) ih
  generalize (poolGet m policy type name p).1 = q at hrel
  rw [c28_get, c28_get]
  clear hp key
  induction hrel with
  | nil => exact ⟨rfl, rfl⟩
  | @cons a b q p hab _ ih =>
    have ht : a.type = b.type := by
      rcases hab with rfl | ⟨rfl, h⟩
      · rfl
      · exact h
    have hpp : a.parse = b.parse := by
      rcases hab with rfl | ⟨rfl, h⟩
      · rfl
      · exact c25_idempotent b
    constructor
    · simp only [poolTypes, List.map_cons, ht] at ih ⊢
      rw [ih.1]
    · have hany := ih.2
      have hsel : Spec.select m' type' name' a = Spec.select m' type' name' b := by
        simp only [Spec.select, ht, hpp]
      simp only [List.any_cons, ht, hpp, List.flatMap_cons, hsel]
      cases (m' type' b.type && b.parse.log.any fun sev => !b.parse.tellable || policy' sev) with
      | true => simp
      | false =>
        simp only [Bool.false_or]
        generalize (q.any fun s => m' type' s.type &&
          s.parse.log.any fun sev => !s.parse.tellable || policy' sev) = c1 at hany ⊢
        generalize (p.any fun s => m' type' s.type &&
          s.parse.log.any fun sev => !s.parse.tellable || policy' sev) = c2 at hany ⊢
        cases c1 <;> cases c2 <;> simp at hany ⊢
        exact hany

end Dlisio.Dlis
