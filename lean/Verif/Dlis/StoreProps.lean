/-
Queries of the object store do not depend on the cache: C34.
-/
import Mathlib.Data.List.Perm.Basic
import Mathlib.Data.List.Nodup
import Verif.Dlis.Store
import Verif.Dlis.PoolProps

namespace Dlisio.Dlis

open _root_.Dlisio.Dlis.Spec

/-! ## What a query should give -/

/-- Is the object wanted by name? -/
def Spec.nameWanted (m : PyMatcher) (name : Option PyStr) (o : PyObj) : Bool :=
  match name with
  | none => true
  | some q => m.run q o.name

/-- The objects of one set that a query asks for, in the order of the file. -/
def Spec.wanted (e : Env) (m : PyMatcher) (type : PyStr) (name : Option PyStr) (x : ObjectSet) :
    List PyObj :=
  if m.run type (e.dec x.type) then (x.parse.objs.map e.promote).filter (Spec.nameWanted m name)
  else []

/-- Does reporting the log of a set of a wanted type raise?  If there are entries, type and name have to
be in UTF-8 (see `tellable_iff`), and the error handler must not raise. -/
def Spec.raises (e : Env) (m : PyMatcher) (type : PyStr) (p : List ObjectSet) : Bool :=
  p.any fun x => m.run type (e.dec x.type) &&
    x.parse.log.any fun sev => !x.parse.tellable || e.policy sev

/-- The log of a set can be reported: the error handler does not raise for any entry, and if there is
one, type and name are in UTF-8 (see `tellable_iff`). -/
def Spec.SetQuiet (e : Env) (x : ObjectSet) : Prop :=
  ∀ sev ∈ x.parse.log, e.policy sev = false ∧ x.parse.tellable = true

theorem raises_quiet {e : Env} {m : PyMatcher} {t : PyStr} {p : List ObjectSet}
    (h : ∀ x ∈ p, m.run t (e.dec x.type) = true → Spec.SetQuiet e x) : Spec.raises e m t p = false := by
  unfold Spec.raises
  rw [List.any_eq_false]
  intro x hx hb
  rw [Bool.and_eq_true] at hb
  obtain ⟨sv, hs, hs'⟩ := List.any_eq_true.1 hb.2
  obtain ⟨h1, h2⟩ := h x hx hb.1 sv hs
  rw [h1, h2] at hs'
  cases hs'

/-- The answer to a query: all wanted objects, set by set, unless the error handler
raises. -/
def Spec.answer (e : Env) (m : PyMatcher) (type : PyStr) (name : Option PyStr)
    (p : List ObjectSet) : Option (List PyObj) :=
  if Spec.raises e m type p then none else some (p.flatMap (Spec.wanted e m type name))

/-- What can be done to a store. -/
inductive Spec.StoreOp where
  | find (m : PyMatcher) (type : PyStr) (name : Option PyStr)
  | object (type name : PyStr) (origin copynr : Option Nat)
  | lookup (ref : RefType) (v : Val)
  | caching (on : Bool)
  | clear

/-- The store after an operation. -/
def Spec.StoreOp.run (e : Env) (s : Store) : Spec.StoreOp → Store
  | .find m t n => (s.find e m t n).1
  | .object t n o c => (s.object e t n o c).1
  | .lookup r v => (s.lookup e r v).1
  | .caching on => { s with caching := on }
  | .clear => s.clear

/-- The store after a history of operations on a logical file with the given sets. -/
def Spec.after (e : Env) (p : List ObjectSet) (hist : List Spec.StoreOp) : Store :=
  hist.foldl (Spec.StoreOp.run e) { pool := p, caching := true, cache := [] }

/-- The sets were read from a file and have not been parsed. -/
def Spec.Fresh (p : List ObjectSet) : Prop := ∀ s ∈ p, ∃ bs, ObjectSet.new bs = .ok s

/-- A string that is the same after the way to C++ and back. -/
def Spec.Stable (e : Env) (t : PyStr) : Prop := e.dec t.toStd = t

/-- Iteration over a set gives every element once. -/
def Spec.IsSetOrder (order : List PyStr → List PyStr) : Prop :=
  ∀ l, (order l).Nodup ∧ ∀ x, x ∈ order l ↔ x ∈ l

/-- Two answers are the same up to order. -/
def Spec.Same : Option (List PyObj) → Option (List PyObj) → Prop
  | none, none => True
  | some a, some b => a.Perm b
  | _, _ => False

/-! ## Lists -/

theorem perm_group {α κ : Type} [DecidableEq κ] (key : α → κ) (K : List κ) (hK : K.Nodup)
    (l : List α) (hc : ∀ x ∈ l, key x ∈ K) :
    (K.flatMap fun k => l.filter fun x => decide (key x = k)).Perm l := by
  induction K generalizing l with
  | nil =>
    cases l with
    | nil => simp
    | cons x l => exact absurd (hc x (by simp)) (by simp)
  | cons k K ih =>
    rw [List.nodup_cons] at hK
    rw [List.flatMap_cons]
    have h1 : (K.flatMap fun k' => l.filter fun x => decide (key x = k')) =
        K.flatMap fun k' => (l.filter fun x => !decide (key x = k)).filter
          fun x => decide (key x = k') := by
      apply List.flatMap_congr
      intro k' hk'
      rw [List.filter_filter]
      apply List.filter_congr
      intro x _
      by_cases h : key x = k'
      · have : key x ≠ k := by rintro rfl; exact hK.1 (h ▸ hk')
        simp [← h, this]
      · simp [h]
    rw [h1]
    have h2 := ih hK.2 (l.filter fun x => !decide (key x = k)) (by
      intro x hx
      simp only [List.mem_filter, Bool.not_eq_true', decide_eq_false_iff_not] at hx
      rcases List.mem_cons.1 (hc x hx.1) with h | h
      · exact absurd h hx.2
      · exact h)
    exact (h2.append_left _).trans (List.filter_append_perm _ l)

theorem dictGet_dictSet {β : Type} (k k' : PyStr) (v : β) (d : List (PyStr × β)) :
    dictGet k' (dictSet k v d) = if k' = k then some v else dictGet k' d := by
  induction d with
  | nil => simp only [dictSet, dictGet, eq_comm]
  | cons x d ih =>
    obtain ⟨a, b⟩ := x
    simp only [dictSet]
    by_cases h : a = k
    · simp only [h, if_true, dictGet]
      by_cases hk : k = k'
      · simp [hk]
      · simp [hk, Ne.symm hk]
    · simp only [h, if_false, dictGet, ih]
      by_cases ha : a = k'
      · simp [ha, ha ▸ h]
      · simp [ha]

theorem dictSet_keys {β : Type} (k : PyStr) (v : β) (d : List (PyStr × β)) :
    (dictSet k v d).map (·.1) = if k ∈ d.map (·.1) then d.map (·.1) else d.map (·.1) ++ [k] := by
  induction d with
  | nil => simp [dictSet]
  | cons x d ih =>
    obtain ⟨a, b⟩ := x
    simp only [dictSet]
    by_cases h : a = k
    · simp [h]
    · simp only [h, if_false, List.map_cons, ih, List.mem_cons, Ne.symm h, false_or]
      split <;> simp

theorem mem_of_dictGet {β : Type} {k : PyStr} {v : β} {d : List (PyStr × β)}
    (h : dictGet k d = some v) : (k, v) ∈ d := by
  induction d with
  | nil => simp [dictGet] at h
  | cons x d ih =>
    obtain ⟨a, b⟩ := x
    simp only [dictGet] at h
    split at h
    · rename_i ha; cases h; simp [ha]
    · exact List.mem_cons_of_mem _ (ih h)

theorem dictGet_eq_none {β : Type} {k : PyStr} {d : List (PyStr × β)} :
    dictGet k d = none ↔ k ∉ d.map (·.1) := by
  induction d with
  | nil => simp [dictGet]
  | cons x d ih =>
    obtain ⟨a, b⟩ := x
    simp only [dictGet, List.map_cons, List.mem_cons, not_or]
    by_cases h : a = k
    · simp [h]
    · simp [h, ih, Ne.symm h]

theorem dictGet_of_mem {β : Type} {k : PyStr} {v : β} {d : List (PyStr × β)}
    (hd : (d.map (·.1)).Nodup) (h : (k, v) ∈ d) : dictGet k d = some v := by
  induction d with
  | nil => cases h
  | cons x d ih =>
    obtain ⟨a, b⟩ := x
    simp only [List.map_cons, List.nodup_cons] at hd
    rcases List.mem_cons.1 h with h | h
    · cases h; simp [dictGet]
    · have : a ≠ k := by
        rintro rfl
        exact hd.1 (List.mem_map.2 ⟨_, h, rfl⟩)
      simp [dictGet, this, ih hd.2 h]

/-! ## Dicts of objects -/

/-- The dict has the objects by name. -/
structure DictOk (d : NameDict) (os : List PyObj) : Prop where
  nodup : (d.map (·.1)).Nodup
  get : ∀ n l, dictGet n d = some l → l = os.filter fun o => decide (o.name = n)
  cover : ∀ o ∈ os, o.name ∈ d.map (·.1)

theorem DictOk.set {d : NameDict} {os os' : List PyObj} {n : PyStr} {l : List PyObj}
    (h : DictOk d os) (hl : l = os'.filter fun o => decide (o.name = n))
    (hf : ∀ k, k ≠ n → (os'.filter fun o => decide (o.name = k)) =
      os.filter fun o => decide (o.name = k)) : DictOk (dictSet n l d) os' := by
  refine ⟨?_, ?_, ?_⟩
  · rw [dictSet_keys]
    split
    · exact h.nodup
    · rename_i hn
      rw [List.nodup_append]
      refine ⟨h.nodup, by simp, ?_⟩
      intro a ha b hb
      simp only [List.mem_singleton] at hb
      rintro rfl
      exact hn (hb ▸ ha)
  · intro k v hv
    rw [dictGet_dictSet] at hv
    split at hv
    · rename_i hk; cases hv; rw [hk, ← hl]
    · rename_i hk; rw [hf k hk]; exact h.get k v hv
  · intro o ho
    have : o.name = n ∨ o.name ∈ d.map (·.1) := by
      by_cases hn : o.name = n
      · exact Or.inl hn
      · right
        have hm : o ∈ os'.filter fun x => decide (x.name = o.name) := by simp [ho]
        rw [hf _ hn] at hm
        exact h.cover o (List.mem_filter.1 hm).1
    rw [dictSet_keys]
    split
    · rename_i hn
      rcases this with h | h
      · rw [h]; exact hn
      · exact h
    · rcases this with h | h
      · simp [h]
      · exact List.mem_append_left _ h

theorem dictGet_getD {d : NameDict} {os : List PyObj} (h : DictOk d os) (n : PyStr) :
    (dictGet n d).getD [] = os.filter fun o => decide (o.name = n) := by
  cases hd : dictGet n d with
  | some l => exact h.get n l hd
  | none =>
    rw [dictGet_eq_none] at hd
    symm
    simp only [Option.getD_none, List.filter_eq_nil_iff, decide_eq_true_eq]
    rintro o ho rfl
    exact hd (h.cover o ho)

theorem groupByName_ok (os : List PyObj) (d : NameDict) (pre : List PyObj) (h : DictOk d pre) :
    DictOk (groupByName os d) (pre ++ os) := by
  induction os generalizing d pre with
  | nil => simpa [groupByName] using h
  | cons o os ih =>
    have := ih (dictSet o.name ((dictGet o.name d).getD [] ++ [o]) d) (pre ++ [o]) (by
      refine h.set ?_ ?_
      · rw [dictGet_getD h]; simp
      · intro k hk
        simp [Ne.symm hk])
    simpa [groupByName] using this

theorem pickNames_perm (m : PyMatcher) (name : Option PyStr) {d : NameDict} {os : List PyObj}
    (h : DictOk d os) : (pickNames m name d).Perm (os.filter (Spec.nameWanted m name)) := by
  have h1 : pickNames m name d = (d.map (·.1)).flatMap fun n =>
      (os.filter (Spec.nameWanted m name)).filter fun o => decide (o.name = n) := by
    rw [List.flatMap_map]
    apply List.flatMap_congr
    rintro ⟨n, l⟩ hn
    have hl := h.get n l (dictGet_of_mem h.nodup hn)
    rw [List.filter_filter]
    cases name with
    | none => simp [Spec.nameWanted, hl]
    | some q =>
      simp only [Spec.nameWanted]
      split
      · rename_i hq
        rw [hl]
        apply List.filter_congr
        intro o _
        by_cases ho : o.name = n
        · simp [ho, hq]
        · simp [ho]
      · rename_i hq
        symm
        rw [List.filter_eq_nil_iff]
        intro o _ hc
        simp only [Bool.and_eq_true, decide_eq_true_eq] at hc
        rw [hc.1] at hc
        exact hq hc.2
  rw [h1]
  refine perm_group (fun o : PyObj => o.name) _ h.nodup _ ?_
  intro o ho
  exact h.cover o (List.mem_filter.1 ho).1

/-! ## Pools -/

theorem fresh_parse_type {s : ObjectSet} (h : ∃ bs, ObjectSet.new bs = .ok s) :
    s.parse.type = s.type := by
  obtain ⟨bs, h⟩ := h
  obtain ⟨_, _, _, _, _, h1, _⟩ := parse_stages h
  exact h1

/-- The pool is the given one, but some of its sets may have been parsed. -/
def PoolOk (p0 p : List ObjectSet) : Prop := List.Forall₂ (fun a b => b = a ∨ b = a.parse) p0 p

theorem PoolOk.refl (p : List ObjectSet) : PoolOk p p :=
  List.forall₂_same.2 fun _ _ => Or.inl rfl

theorem poolGet_pool (m : Matcher) (policy : Policy) (type : Bytes) (name : Option Bytes)
    (p0 p : List ObjectSet) (h : PoolOk p0 p) : PoolOk p0 (poolGet m policy type name p).1 := by
  induction h with
  | nil => exact .nil
  | @cons a b p0 p hab hp ih =>
    have hpar : b.parse = a.parse := by
      rcases hab with rfl | rfl
      · rfl
      · exact c25_idempotent _
    unfold poolGet
    split
    · by_cases hrep : reportSetErrors policy b.parse = true
      · simp only [ObjectSet.objects, hrep, if_true]
        exact .cons (Or.inr hpar) hp
      · simp only [ObjectSet.objects, hrep]
        exact .cons (Or.inr hpar) ih
    · exact .cons hab ih

theorem poolGet_answer (m : Matcher) (policy : Policy) (type : Bytes) (name : Option Bytes)
    {p0 p : List ObjectSet} (hf : Spec.Fresh p0) (h : PoolOk p0 p) :
    (poolGet m policy type name p).2 = (poolGet m policy type name p0).2 := by
  have hrel : List.Forall₂ (fun a b : ObjectSet => b.type = a.type ∧ b.parse = a.parse) p0 p := by
    induction h with
    | nil => exact .nil
    | @cons a b p0 p hab hp ih =>
      refine .cons ?_ (ih fun s hs => hf s (by simp [hs]))
      rcases hab with rfl | rfl
      · exact ⟨rfl, rfl⟩
      · exact ⟨fresh_parse_type (hf a (by simp)), c25_idempotent _⟩
  rw [c28_get, c28_get]
  clear hf h
  have h1 : (p.any fun s => m type s.type && s.parse.log.any fun sev => !s.parse.tellable || policy sev) =
      p0.any fun s => m type s.type && s.parse.log.any fun sev => !s.parse.tellable || policy sev := by
    induction hrel with
    | nil => rfl
    | cons hab _ ih => simp only [List.any_cons, hab.1, hab.2, ih]
  have h2 : p.flatMap (Spec.select m type name) = p0.flatMap (Spec.select m type name) := by
    clear h1
    induction hrel with
    | nil => rfl
    | cons hab _ ih => simp only [List.flatMap_cons, Spec.select, hab.1, hab.2] at ih ⊢; rw [ih]
  rw [h1, h2]

theorem poolTypes_ok {p0 p : List ObjectSet} (hf : Spec.Fresh p0) (h : PoolOk p0 p) :
    poolTypes p = poolTypes p0 := by
  induction h with
  | nil => rfl
  | @cons a b p0 p hab hp ih =>
    simp only [poolTypes, List.map_cons] at ih ⊢
    rw [ih fun s hs => hf s (by simp [hs])]
    rcases hab with rfl | rfl
    · rfl
    · rw [fresh_parse_type (hf a (by simp))]

/-! ## The store -/

/-- The objects of the sets of a type. -/
def objsOf (e : Env) (p0 : List ObjectSet) (t : PyStr) : List PyObj :=
  p0.flatMap fun x => if t = e.dec x.type then x.parse.objs.map e.promote else []

/-- What is true of the store at any time. -/
structure StoreOk (e : Env) (p0 : List ObjectSet) (s : Store) : Prop where
  pool : PoolOk p0 s.pool
  cache : ∀ t d, dictGet t s.cache = some d →
    DictOk d (objsOf e p0 (e.dec t.toStd)) ∧ Spec.raises e .exact (e.dec t.toStd) p0 = false

theorem promote_name (e : Env) (a : BasicObject) : (e.promote a).name = e.dec a.name.id := rfl

/-- The pool is asked, and gives the answer of the specification. -/
theorem poolGet_spec (e : Env) (m : PyMatcher) (type : PyStr) (name : Option PyStr)
    {p0 p : List ObjectSet} (hf : Spec.Fresh p0) (h : PoolOk p0 p)
    (hn : ∀ n, name = some n → Spec.Stable e n) :
    (poolGet (e.matcher m) e.policy type.toStd (name.map PyStr.toStd) p).2.map (·.map e.promote) =
      Spec.answer e m (e.dec type.toStd) name p0 := by
  rw [poolGet_answer _ _ _ _ hf h, c28_get]
  unfold Spec.answer
  have hr : (p0.any fun s => e.matcher m type.toStd s.type &&
      s.parse.log.any fun sev => !s.parse.tellable || e.policy sev) =
      Spec.raises e m (e.dec type.toStd) p0 := rfl
  rw [hr]
  split
  · rfl
  · simp only [Option.map_some, List.map_flatMap, Option.some.injEq]
    apply List.flatMap_congr
    intro x _
    unfold Spec.select Spec.wanted
    have hm : e.matcher m type.toStd x.type = m.run (e.dec type.toStd) (e.dec x.type) := rfl
    rw [hm]
    split
    · cases name with
      | none =>
        simp only [Option.map_none]
        rw [List.filter_eq_self.2 (by simp [Spec.nameWanted])]
      | some n =>
        simp only [Option.map_some, List.filter_map]
        congr 1
        apply List.filter_congr
        intro o _
        have := hn n rfl
        unfold Spec.Stable at this
        simp [Spec.nameWanted, promote_name, this, Env.matcher]
    · rfl

theorem answer_exact (e : Env) (p0 : List ObjectSet) (t : PyStr) (name : Option PyStr) :
    p0.flatMap (Spec.wanted e .exact t name) =
      (objsOf e p0 t).filter (Spec.nameWanted .exact name) := by
  unfold objsOf
  rw [List.filter_flatMap]
  apply List.flatMap_congr
  intro x _
  unfold Spec.wanted
  simp only [PyMatcher.run, decide_eq_true_eq]
  split <;> simp

theorem index_spec {e : Env} {p0 : List ObjectSet} (hf : Spec.Fresh p0) {s : Store}
    (h : StoreOk e p0 s) (t : PyStr) :
    StoreOk e p0 (s.index e t).1 ∧ (s.index e t).1.caching = s.caching ∧
    (if Spec.raises e .exact (e.dec t.toStd) p0 then (s.index e t).2 = none
     else ∃ d, (s.index e t).2 = some d ∧ DictOk d (objsOf e p0 (e.dec t.toStd)) ∧
       (s.caching = true → dictGet t (s.index e t).1.cache = some d)) := by
  unfold Store.index
  cases hc : dictGet t s.cache with
  | some d =>
    obtain ⟨h1, h2⟩ := h.cache t d hc
    simp only [h2]
    refine ⟨h, trivial, ?_⟩
    simpa using ⟨h1, fun _ => hc⟩
  | none =>
    have hans := poolGet_spec e .exact t none hf h.pool (by simp)
    have hpool := poolGet_pool (e.matcher .exact) e.policy t.toStd none p0 s.pool h.pool
    simp only [Option.map_none] at hans
    rcases hr : poolGet (e.matcher .exact) e.policy t.toStd none s.pool with ⟨p, r⟩
    rw [hr] at hans hpool
    simp only at hans hpool
    unfold Spec.answer at hans
    cases r with
    | none =>
      simp only
      refine ⟨⟨hpool, h.cache⟩, trivial, ?_⟩
      split
      · trivial
      · rename_i hx; rw [if_neg hx] at hans; cases hans
    | some attics =>
      simp only
      by_cases hx : Spec.raises e .exact (e.dec t.toStd) p0 = true
      · rw [if_pos hx] at hans; cases hans
      rw [if_neg hx] at hans
      have hok : DictOk (groupByName (attics.map e.promote) [])
          (objsOf e p0 (e.dec t.toStd)) := by
        simp only [Option.map_some, Option.some.injEq, answer_exact] at hans
        rw [List.filter_eq_self.2 (by simp [Spec.nameWanted])] at hans
        rw [← hans]
        have := groupByName_ok (attics.map e.promote) [] [] ⟨by simp, by simp [dictGet], by simp⟩
        simpa using this
      refine ⟨⟨hpool, ?_⟩, trivial, ?_⟩
      · intro t' d hd
        simp only at hd
        split at hd
        · rw [dictGet_dictSet] at hd
          split at hd
          · rename_i ht
            cases hd
            rw [ht]
            exact ⟨hok, by simpa using hx⟩
          · exact h.cache t' d hd
        · exact h.cache t' d hd
      · rw [if_neg hx]
        refine ⟨_, rfl, hok, ?_⟩
        intro hcach
        simp only [hcach, if_true]
        rw [dictGet_dictSet]
        simp

theorem findPool_spec {e : Env} {p0 : List ObjectSet} (hf : Spec.Fresh p0) {s : Store}
    (h : StoreOk e p0 s) (m : PyMatcher) (type : PyStr) (name : Option PyStr) :
    StoreOk e p0 (s.findPool e m type name).1 ∧
    ((∀ n, name = some n → n.isEmpty = false ∧ Spec.Stable e n) →
      (s.findPool e m type name).2 = Spec.answer e m (e.dec type.toStd) name p0) := by
  unfold Store.findPool
  refine ⟨⟨poolGet_pool _ _ _ _ _ _ h.pool, h.cache⟩, ?_⟩
  intro hn
  rw [← poolGet_spec e m type name hf h.pool fun n hx => (hn n hx).2]
  cases name with
  | none => rfl
  | some n => simp only [(hn n rfl).1]; rfl

theorem findExact_spec {e : Env} {p0 : List ObjectSet} (hf : Spec.Fresh p0) {s : Store}
    (h : StoreOk e p0 s) (type name : PyStr) :
    StoreOk e p0 (s.findExact e type name).1 ∧
    (s.findExact e type name).2 = Spec.answer e .exact (e.dec type.toStd) (some name) p0 := by
  obtain ⟨h1, h2, h3⟩ := index_spec hf h type
  unfold Store.findExact Spec.answer
  rcases hr : s.index e type with ⟨s', r⟩
  rw [hr] at h1 h2 h3
  simp only at h1 h2 h3
  by_cases hx : Spec.raises e .exact (e.dec type.toStd) p0 = true
  · rw [if_pos hx] at h3 ⊢
    rw [h3]
    exact ⟨h1, rfl⟩
  · rw [if_neg hx] at h3 ⊢
    obtain ⟨d, rfl, hd, hcd⟩ := h3
    have hw : p0.flatMap (Spec.wanted e .exact (e.dec type.toStd) (some name)) =
        (objsOf e p0 (e.dec type.toStd)).filter fun o => decide (o.name = name) := by
      rw [answer_exact]
      apply List.filter_congr
      intro o _
      simp [Spec.nameWanted, PyMatcher.run, eq_comm]
    rw [hw, ← dictGet_getD hd]
    simp only
    cases hg : dictGet name d with
    | some l => exact ⟨h1, rfl⟩
    | none =>
      refine ⟨⟨h1.pool, ?_⟩, rfl⟩
      intro t' d' hd'
      simp only at hd'
      rw [dictGet_dictSet] at hd'
      split at hd'
      · rename_i ht
        cases hd'
        rw [ht]
        refine ⟨hd.set ?_ fun _ _ => rfl, by simpa using hx⟩
        have := dictGet_getD hd name
        rw [hg] at this
        exact this
      · exact h1.cache t' d' hd'

theorem findLoop_spec {e : Env} {p0 : List ObjectSet} (hf : Spec.Fresh p0) (m : PyMatcher)
    (name : Option PyStr) (ts : List PyStr) {s : Store} (h : StoreOk e p0 s) :
    StoreOk e p0 (findLoop e m name ts s).1 ∧
    ((∀ t ∈ ts, Spec.Stable e t) →
      Spec.Same (findLoop e m name ts s).2
        (if (ts.any fun t => Spec.raises e .exact t p0) then none
         else some (ts.flatMap fun t => (objsOf e p0 t).filter (Spec.nameWanted m name)))) := by
  induction ts generalizing s with
  | nil => exact ⟨h, fun _ => by simp [findLoop, Spec.Same]⟩
  | cons t ts ih =>
    obtain ⟨h1, h2, h3⟩ := index_spec hf h t
    unfold findLoop
    rcases hr : s.index e t with ⟨s', r⟩
    rw [hr] at h1 h2 h3
    simp only at h1 h2 h3
    cases r with
    | none =>
      refine ⟨h1, fun hst => ?_⟩
      have hx : Spec.raises e .exact t p0 = true := by
        have ht : e.dec t.toStd = t := hst t (by simp)
        rw [ht] at h3
        by_contra hx
        rw [if_neg hx] at h3
        obtain ⟨d, hd, _⟩ := h3
        cases hd
      simp [hx, Spec.Same]
    | some d =>
      obtain ⟨g1, g2⟩ := ih h1
      rcases hr2 : findLoop e m name ts s' with ⟨s'', r''⟩
      rw [hr2] at g1 g2
      simp only at g1 g2
      simp only [hr2]
      have hd : (∀ x ∈ t :: ts, Spec.Stable e x) → Spec.raises e .exact t p0 = false ∧
          DictOk d (objsOf e p0 t) := by
        intro hst
        have ht : e.dec t.toStd = t := hst t (by simp)
        rw [ht] at h3
        by_cases hx : Spec.raises e .exact t p0 = true
        · rw [if_pos hx] at h3; cases h3
        · rw [if_neg hx] at h3
          obtain ⟨d', hd', h', _⟩ := h3
          cases hd'
          exact ⟨by simpa using hx, h'⟩
      cases r'' with
      | none =>
        refine ⟨g1, fun hst => ?_⟩
        have := g2 fun x hx => hst x (by simp [hx])
        simp only [List.any_cons, (hd hst).1, Bool.false_or]
        split at this
        · rename_i hx; simp [hx, Spec.Same]
        · exact this.elim
      | some rest =>
        refine ⟨g1, fun hst => ?_⟩
        have := g2 fun x hx => hst x (by simp [hx])
        simp only [List.any_cons, (hd hst).1, Bool.false_or]
        split at this
        · exact this.elim
        · rename_i hx
          simp only [hx, List.flatMap_cons]
          exact (pickNames_perm m name (hd hst).2).append this

theorem find_ok {e : Env} {p0 : List ObjectSet} (hf : Spec.Fresh p0) {s : Store}
    (h : StoreOk e p0 s) (m : PyMatcher) (type : PyStr) (name : Option PyStr) :
    StoreOk e p0 (s.find e m type name).1 := by
  unfold Store.find
  by_cases hc : s.caching = true
  · simp only [hc, Bool.not_true, Bool.false_eq_true, if_false]
    split
    · exact (findExact_spec hf h _ _).1
    · exact (findLoop_spec hf _ _ _ h).1
  · simp only [hc, Bool.not_false, if_true]
    exact (findPool_spec hf h m type name).1

theorem object_ok {e : Env} {p0 : List ObjectSet} (hf : Spec.Fresh p0) {s : Store}
    (h : StoreOk e p0 s) (type name : PyStr) (o c : Option Nat) :
    StoreOk e p0 (s.object e type name o c).1 := by
  have := find_ok hf h .exact type (some name)
  unfold Store.object
  split <;> rename_i hx <;> rw [hx] at this <;> exact this

theorem lookup_ok {e : Env} {p0 : List ObjectSet} (hf : Spec.Fresh p0) {s : Store}
    (h : StoreOk e p0 s) (r : RefType) (v : Val) : StoreOk e p0 (s.lookup e r v).1 := by
  unfold Store.lookup
  split
  · exact h
  · exact object_ok hf h _ _ _ _

/-- Whatever was done to it, the store is in order. -/
theorem after_ok {e : Env} {p0 : List ObjectSet} (hf : Spec.Fresh p0) (hist : List Spec.StoreOp) :
    StoreOk e p0 (Spec.after e p0 hist) := by
  unfold Spec.after
  have h0 : StoreOk e p0 { pool := p0, caching := true, cache := [] } :=
    ⟨PoolOk.refl _, by simp [dictGet]⟩
  generalize ({ pool := p0, caching := true, cache := [] } : Store) = s at h0
  induction hist generalizing s with
  | nil => exact h0
  | cons op hist ih =>
    refine ih _ ?_
    cases op with
    | find m t n => exact find_ok hf h0 m t n
    | object t n o c => exact object_ok hf h0 t n o c
    | lookup r v => exact lookup_ok hf h0 r v
    | caching on => exact ⟨h0.pool, h0.cache⟩
    | clear => exact ⟨h0.pool, fun t d hd => by cases hd⟩

/-- All types together give what the specification asks for. -/
theorem types_perm (e : Env) (m : PyMatcher) (type : PyStr) (name : Option PyStr)
    (p0 : List ObjectSet) (K : List PyStr) (hK : K.Nodup)
    (hc : ∀ t, t ∈ K ↔ t ∈ (poolTypes p0).map e.dec) :
    ((K.filter (m.run type)).flatMap fun t => (objsOf e p0 t).filter (Spec.nameWanted m name)).Perm
      (p0.flatMap (Spec.wanted e m type name)) := by
  let g : ObjectSet → List PyObj := fun x =>
    (x.parse.objs.map e.promote).filter (Spec.nameWanted m name)
  let q := p0.filter fun x => m.run type (e.dec x.type)
  have h1 : p0.flatMap (Spec.wanted e m type name) = q.flatMap g := by
    show _ = (p0.filter fun x => m.run type (e.dec x.type)).flatMap g
    induction p0 with
    | nil => rfl
    | cons x p0 ih =>
      clear hc
      simp only [List.flatMap_cons, List.filter_cons, Spec.wanted] at ih ⊢
      split
      · rw [List.flatMap_cons]
        congr 1
        clear ih q
        induction p0 with
        | nil => rfl
        | cons y p0 ih =>
          simp only [List.flatMap_cons, List.filter_cons, Spec.wanted]
          split <;> simp [ih, g]
      · simp only [List.nil_append]
        clear ih q
        induction p0 with
        | nil => rfl
        | cons y p0 ih =>
          simp only [List.flatMap_cons, List.filter_cons, Spec.wanted]
          split <;> simp [ih, g]
  have h2 : ((K.filter (m.run type)).flatMap fun t =>
      (objsOf e p0 t).filter (Spec.nameWanted m name)) =
      ((K.filter (m.run type)).flatMap fun t => q.filter fun x => decide (e.dec x.type = t)).flatMap
        g := by
    rw [List.flatMap_assoc]
    apply List.flatMap_congr
    intro t ht
    have ht := (List.mem_filter.1 ht).2
    clear h1 hc
    show ((p0.flatMap _).filter _) = ((p0.filter _).filter _).flatMap g
    rw [List.filter_filter]
    induction p0 with
    | nil => rfl
    | cons x p0 ih =>
      simp only [List.flatMap_cons, List.filter_append, List.filter_cons] at ih ⊢
      rw [ih]
      by_cases hx : t = e.dec x.type
      · have hx' : m.run type (e.dec x.type) = true := hx ▸ ht
        simp [← hx, ht, g]
      · simp [hx, Ne.symm hx]
  rw [h1, h2]
  refine List.Perm.flatMap_right _ (perm_group (fun x : ObjectSet => e.dec x.type) _
    (hK.filter _) q ?_)
  intro x hx
  obtain ⟨hx1, hx2⟩ := List.mem_filter.1 hx
  refine List.mem_filter.2 ⟨(hc _).2 ?_, hx2⟩
  exact List.mem_map.2 ⟨x.type, List.mem_map.2 ⟨x, hx1, rfl⟩, rfl⟩

theorem types_raises (e : Env) (m : PyMatcher) (type : PyStr) (p0 : List ObjectSet)
    (K : List PyStr) (hc : ∀ t, t ∈ K ↔ t ∈ (poolTypes p0).map e.dec) :
    ((K.filter (m.run type)).any fun t => Spec.raises e .exact t p0) = Spec.raises e m type p0 := by
  rw [Bool.eq_iff_iff]
  simp only [Spec.raises, List.any_eq_true, List.mem_filter, PyMatcher.run, Bool.and_eq_true,
    decide_eq_true_eq]
  constructor
  · rintro ⟨t, ⟨_, h2⟩, x, hx, rfl, h3⟩
    exact ⟨x, hx, h2, h3⟩
  · rintro ⟨x, hx, h2, h3⟩
    refine ⟨_, ⟨(hc _).2 ?_, h2⟩, x, hx, rfl, h3⟩
    exact List.mem_map.2 ⟨x.type, List.mem_map.2 ⟨x, hx, rfl⟩, rfl⟩

/-! ## C34 -/

/-- A query of a store that is in order. -/
theorem find_same {e : Env} {p : List ObjectSet} (hf : Spec.Fresh p)
    (horder : Spec.IsSetOrder e.order) (hp : ∀ x ∈ p, Spec.Stable e (e.dec x.type))
    {s : Store} (hok : StoreOk e p s) (m : PyMatcher) (type : PyStr) (name : Option PyStr)
    (ht : Spec.Stable e type) (hn : ∀ n, name = some n → n.isEmpty = false ∧ Spec.Stable e n) :
    Spec.Same (s.find e m type name).2 (Spec.answer e m type name p) := by
  have same_refl : ∀ a, Spec.Same a a := by rintro (_ | _) <;> simp [Spec.Same]
  have ht' : e.dec type.toStd = type := ht
  unfold Store.find
  by_cases hc : s.caching = true
  · simp only [hc, Bool.not_true, Bool.false_eq_true, if_false]
    split
    · rw [(findExact_spec hf hok _ _).2, ht']
      exact same_refl _
    · have hty : poolTypes s.pool = poolTypes p := poolTypes_ok hf hok.pool
      obtain ⟨hK, hmem⟩ := horder ((poolTypes p).map e.dec)
      have := (findLoop_spec hf m name ((s.types e).filter (m.run type)) hok).2 (by
        intro t htt
        have htt := (List.mem_filter.1 htt).1
        unfold Store.types at htt
        rw [hty, hmem, List.mem_map] at htt
        obtain ⟨b, hb, rfl⟩ := htt
        obtain ⟨x, hx, rfl⟩ := List.mem_map.1 hb
        exact hp x hx)
      unfold Store.types at this ⊢
      rw [hty, types_raises e m type p _ hmem] at this
      rw [hty]
      unfold Spec.answer
      split at this
      · rename_i hr
        rw [if_pos hr]
        exact this
      · rename_i hr
        rw [if_neg hr]
        match hres : (findLoop e m name (List.filter (m.run type)
          (e.order (List.map e.dec (poolTypes p)))) s).2, this with
        | some l, this => exact this.trans (types_perm e m type name p _ hK hmem)
  · simp only [hc, Bool.not_false, if_true]
    rw [(findPool_spec hf hok m type name).2 hn, ht']
    exact same_refl _

/-- C34.  After any history of queries, of switching the cache on and off and of clearing
it, a query gives the objects of the file that match, or fails if and only if the error
handler raises for a set of a matching type.  The name must not be empty. -/
theorem c34_find_partial (e : Env) (p : List ObjectSet) (hf : Spec.Fresh p)
    (horder : Spec.IsSetOrder e.order) (hp : ∀ x ∈ p, Spec.Stable e (e.dec x.type))
    (hist : List Spec.StoreOp) (m : PyMatcher) (type : PyStr) (name : Option PyStr)
    (ht : Spec.Stable e type) (hn : ∀ n, name = some n → n.isEmpty = false ∧ Spec.Stable e n) :
    Spec.Same ((Spec.after e p hist).find e m type name).2 (Spec.answer e m type name p) := by
  exact find_same hf horder hp (after_ok hf hist) m type name ht hn

/-- C34.  With the exact matcher and a name the answer is the same list, in the order of the
file. -/
theorem c34_exact_partial (e : Env) (p : List ObjectSet) (hf : Spec.Fresh p)
    (hist : List Spec.StoreOp) (type name : PyStr) (ht : Spec.Stable e type)
    (hn : Spec.Stable e name) (hne : name.isEmpty = false) :
    ((Spec.after e p hist).find e .exact type (some name)).2 =
      Spec.answer e .exact type (some name) p := by
  have hok := after_ok (e := e) hf hist
  generalize Spec.after e p hist = s at hok
  have ht' : e.dec type.toStd = type := ht
  unfold Store.find
  by_cases hc : s.caching = true
  · simp only [hc, Bool.not_true, Bool.false_eq_true, if_false]
    rw [(findExact_spec hf hok _ _).2, ht']
  · simp only [hc, Bool.not_false, if_true]
    rw [(findPool_spec hf hok .exact type (some name)).2 (by
      rintro n ⟨⟩; exact ⟨hne, hn⟩), ht']

/-- C34.  What `object` gives does not depend on what was done before. -/
theorem c34_object_partial (e : Env) (p : List ObjectSet) (hf : Spec.Fresh p)
    (h1 h2 : List Spec.StoreOp) (type name : PyStr) (ht : Spec.Stable e type)
    (hn : Spec.Stable e name) (hne : name.isEmpty = false) (origin copynr : Option Nat) :
    ((Spec.after e p h1).object e type name origin copynr).2 =
      ((Spec.after e p h2).object e type name origin copynr).2 := by
  have g1 := c34_exact_partial e p hf h1 type name ht hn hne
  have g2 := c34_exact_partial e p hf h2 type name ht hn hne
  unfold Store.object
  rcases hr1 : (Spec.after e p h1).find e .exact type (some name) with ⟨s1, r1⟩
  rcases hr2 : (Spec.after e p h2).find e .exact type (some name) with ⟨s2, r2⟩
  rw [hr1] at g1
  rw [hr2] at g2
  simp only at g1 g2
  rw [g1, g2]
  cases Spec.answer e .exact type (some name) p <;> rfl

end Dlisio.Dlis
