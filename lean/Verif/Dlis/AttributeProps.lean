/-
Access to attributes: C35, and the stash: C60.
-/
import Verif.Dlis.Attribute
import Verif.Dlis.StoreCase

namespace Dlisio.Dlis

open _root_.Dlisio.Dlis.Spec

/-! ## What an access should give -/

/-- The characters that Unicode counts as spaces (category Zs) or gives the bidirectional type
WS, B or S. -/
def Spec.spaces : List Nat :=
  [0x09, 0x0A, 0x0B, 0x0C, 0x0D, 0x1C, 0x1D, 0x1E, 0x1F, 0x20, 0x85, 0xA0, 0x1680, 0x2000, 0x2001,
   0x2002, 0x2003, 0x2004, 0x2005, 0x2006, 0x2007, 0x2008, 0x2009, 0x200A, 0x2028, 0x2029, 0x202F,
   0x205F, 0x3000]

/-- `u` is `t` without the white space at both ends. -/
def Spec.Stripped (t u : Text) : Prop :=
  ∃ pre post, t = pre ++ u ++ post ∧ (∀ c ∈ pre, c ∈ Spec.spaces) ∧
    (∀ c ∈ post, c ∈ Spec.spaces) ∧ (∀ c ∈ u.head?, c ∉ Spec.spaces) ∧
    (∀ c ∈ u.getLast?, c ∉ Spec.spaces)

/-- Plus and minus zero of IEEE 754. -/
def Spec.Zero32 (x : BitVec 32) : Prop := x = 0x00000000#32 ∨ x = 0x80000000#32
def Spec.Zero64 (x : BitVec 64) : Prop := x = 0x0000000000000000#64 ∨ x = 0x8000000000000000#64

/-- The values that count as false in Python: zero, real or complex, texts without characters,
and `None`. -/
inductive Spec.Falsy : PyVal → Prop
  | text : Spec.Falsy (.str (.str []))
  | bytes : Spec.Falsy (.str (.bytes []))
  | int (c : Reprc) (size : Nat) : Spec.Falsy (.raw c (.int size 0))
  | single (c : Reprc) (x : BitVec 32) (h : Spec.Zero32 x) : Spec.Falsy (.raw c (.f32s [x]))
  | double (c : Reprc) (x : BitVec 64) (h : Spec.Zero64 x) : Spec.Falsy (.raw c (.f64s [x]))
  | converted (c : Reprc) : Spec.Falsy (.raw c (.f32v (.num 0)))
  | complexSingle (x y : BitVec 32) (hx : Spec.Zero32 x) (hy : Spec.Zero32 y) :
      Spec.Falsy (.raw .csingl (.f32s [x, y]))
  | complexDouble (x y : BitVec 64) (hx : Spec.Zero64 x) (hy : Spec.Zero64 y) :
      Spec.Falsy (.raw .cdoubl (.f64s [x, y]))
  | none : Spec.Falsy (.obj none)

/-- The Python value of a value in the file. -/
def Spec.Shown (e : Env) (c : Reprc) : Val → PyVal → Prop
  | .str s, w =>
    match e.dec s with
    | .bytes b => w = .str (.bytes b)
    | .str t => ∃ u, w = .str (.str u) ∧ Spec.Stripped t u
  | v, w => w = .raw c v

/-- What a reference is resolved to: the object that has the type and the name, the origin and
the copy number, if there is exactly one, nothing if there is none, and in any case no other
object. -/
def Spec.Refers (e : Env) (p : List ObjectSet) (ref : RefType) (v : Val) (w : PyVal) : Prop :=
  ∃ x, w = .obj x ∧
    match Spec.target e ref v with
    | none => x = none
    | some (t, n) =>
      let found := (Spec.allObjects e p).filter fun o => decide (o.type = t ∧
        o.name = e.dec n.id ∧ o.origin = n.origin ∧ o.copynumber = n.copy)
      (found = [] → x = none) ∧ (∀ o, found = [o] → x = some o) ∧ ∀ o ∈ x, o ∈ found

/-- How values are presented. -/
def Spec.Presented (p : ParseAs) (ws : List PyVal) (r : PyResult) : Prop :=
  match p with
  | .scalar => ∃ w ∈ ws.head?, r = .elem w
  | .vector => r = .list ws
  | .reverse => ∃ us, r = .list us ∧ us.length = ws.length ∧
      ∀ i, i < ws.length → us[i]? = ws[ws.length - 1 - i]?
  | .boolean => ∃ w ∈ ws.head?, ∃ b, r = .bool b ∧ (b = false ↔ Spec.Falsy w)

/-- Nothing for a single value, the empty list for several. -/
def Spec.Missing (p : ParseAs) (r : PyResult) : Prop :=
  match p with
  | .scalar | .boolean => r = .none
  | .vector | .reverse => r = .list []

/-- How an attribute is to be read. -/
def Spec.parsing (rules : Rules) (key : PyStr) : ParseAs :=
  match rules.attributes key with
  | some p => p
  | none => .vector

/-- The error handler accepts what was logged, and if there is something, it can be said which object
it is about (see `tellObject_iff`). -/
def Spec.Quiet (e : Env) (o : BasicObject) (log : List Severity) : Prop :=
  ∀ s ∈ log, e.policy s = false ∧ tellObject e o = true

/-- The labels are the same after the way to Python and back, and no two are equal. -/
def Spec.LabelsOk (e : Env) (o : BasicObject) : Prop :=
  (o.attributes.map (·.label)).Nodup ∧ ∀ a ∈ o.attributes, (e.dec a.label).toStd = a.label

/-- Dates exist. -/
def Spec.DatesOk (vs : List Val) : Prop := ∀ t, .dtime t ∈ vs → dateOk t = true

/-! ## Lemmas -/

theorem dropSpace_split (f : Nat → Bool) (t : List Nat) :
    ∃ pre, t = pre ++ t.dropWhile f ∧ (∀ c ∈ pre, f c = true) ∧
      ∀ c ∈ (t.dropWhile f).head?, f c = false := by
  induction t with
  | nil => exact ⟨[], by simp⟩
  | cons c t ih =>
    by_cases h : f c = true
    · obtain ⟨pre, h1, h2, h3⟩ := ih
      rw [List.dropWhile_cons_of_pos h]
      refine ⟨c :: pre, by rw [List.cons_append, ← h1], ?_, h3⟩
      intro x hx
      rcases List.mem_cons.1 hx with rfl | hx
      · exact h
      · exact h2 x hx
    · rw [List.dropWhile_cons_of_neg h]
      refine ⟨[], rfl, by simp, ?_⟩
      intro x hx
      cases hx
      simpa using h

theorem isPySpace_iff (c : Nat) : isPySpace c = true ↔ c ∈ Spec.spaces := by
  simp only [isPySpace, Spec.spaces, List.mem_cons, List.not_mem_nil, or_false, Bool.or_eq_true,
    Bool.and_eq_true, decide_eq_true_eq, beq_iff_eq]
  omega

theorem zero32_iff (x : BitVec 32) : zero32 x = true ↔ Spec.Zero32 x := by
  unfold zero32 Spec.Zero32
  rw [decide_eq_true_eq]
  constructor
  · intro h
    have h' : x.toNat % 2 ^ 31 = 0 := by
      have := congrArg BitVec.toNat h
      rw [BitVec.toNat_and] at this
      rw [← Nat.and_two_pow_sub_one_eq_mod]
      simpa using this
    have := x.isLt
    rcases (by omega : x.toNat = 0 ∨ x.toNat = 2 ^ 31) with h | h
    · exact .inl (BitVec.eq_of_toNat_eq h)
    · exact .inr (BitVec.eq_of_toNat_eq h)
  · rintro (rfl | rfl) <;> decide

theorem zero64_iff (x : BitVec 64) : zero64 x = true ↔ Spec.Zero64 x := by
  unfold zero64 Spec.Zero64
  rw [decide_eq_true_eq]
  constructor
  · intro h
    have h' : x.toNat % 2 ^ 63 = 0 := by
      have := congrArg BitVec.toNat h
      rw [BitVec.toNat_and] at this
      rw [← Nat.and_two_pow_sub_one_eq_mod]
      simpa using this
    have := x.isLt
    rcases (by omega : x.toNat = 0 ∨ x.toNat = 2 ^ 63) with h | h
    · exact .inl (BitVec.eq_of_toNat_eq h)
    · exact .inr (BitVec.eq_of_toNat_eq h)
  · rintro (rfl | rfl) <;> decide

/-- **C35** (truth).  A value is taken for false exactly if it is zero, empty or `None`. -/
theorem c35_truth (w : PyVal) : truth w = false ↔ Spec.Falsy w := by
  constructor
  · intro h
    unfold truth at h
    split at h
    · rename_i s
      cases s with
      | str t => cases t with
        | nil => exact .text
        | cons => cases h
      | bytes t => cases t with
        | nil => exact .bytes
        | cons => cases h
    · simp only [decide_eq_false_iff_not, not_not] at h; rw [h]; exact .int _ _
    · simp only [Bool.not_eq_false', Bool.and_eq_true] at h
      exact .complexSingle _ _ ((zero32_iff _).1 h.1) ((zero32_iff _).1 h.2)
    · simp only [Bool.not_eq_false', Bool.and_eq_true] at h
      exact .complexDouble _ _ ((zero64_iff _).1 h.1) ((zero64_iff _).1 h.2)
    · simp only [Bool.not_eq_false'] at h
      exact .single _ _ ((zero32_iff _).1 h)
    · simp only [Bool.not_eq_false'] at h
      exact .double _ _ ((zero64_iff _).1 h)
    · simp only [decide_eq_false_iff_not, not_not] at h; rw [h]; exact .converted _
    · cases h
    · rename_i o
      cases o with
      | none => exact .none
      | some => cases h
  · intro h
    cases h with
    | text => rfl
    | bytes => rfl
    | int => rfl
    | single c x h => cases c <;> simp [truth, (zero32_iff x).2 h]
    | double c x h => cases c <;> simp [truth, (zero64_iff x).2 h]
    | converted => simp [truth]
    | complexSingle x y hx hy => simp [truth, (zero32_iff x).2 hx, (zero32_iff y).2 hy]
    | complexDouble x y hx hy => simp [truth, (zero64_iff x).2 hx, (zero64_iff y).2 hy]
    | none => rfl

example : truth (.raw .fsingl (.f32s [0x80000000#32])) = false ∧
    truth (.raw .csingl (.f32s [0#32, 1#32])) = true ∧
    truth (.raw .fsing1 (.f32s [0#32, 0#32])) = true ∧ truth (.raw .status (.int 1 0)) = false := by
  decide

theorem stripText_spec (t : Text) : Spec.Stripped t (stripText t) := by
  obtain ⟨pre, h1, h2, h3⟩ := dropSpace_split isPySpace t
  obtain ⟨post, g1, g2, g3⟩ := dropSpace_split isPySpace (t.dropWhile isPySpace).reverse
  unfold stripText
  generalize t.dropWhile isPySpace = u at *
  generalize u.reverse.dropWhile isPySpace = w at *
  have hu : u = w.reverse ++ post.reverse := by
    rw [← List.reverse_append, ← g1, List.reverse_reverse]
  have hno : ∀ c, isPySpace c = false → c ∉ Spec.spaces := by
    intro c hc; rw [← isPySpace_iff, hc]; simp
  refine ⟨pre, post.reverse, ?_, fun c hc => (isPySpace_iff c).1 (h2 c hc), ?_, ?_, ?_⟩
  · rw [List.append_assoc, ← hu]; exact h1
  · intro c hc; exact (isPySpace_iff c).1 (g2 c (List.mem_reverse.1 hc))
  · intro c hc
    apply hno
    apply h3
    rw [hu]
    cases hw : w.reverse with
    | nil => rw [hw] at hc; cases hc
    | cons a l => rw [hw] at hc; exact hc
  · intro c hc
    rw [List.getLast?_reverse] at hc
    exact hno c (g3 c hc)

theorem toPy_shown {e : Env} {c : Reprc} {v : Val} {w : PyVal} (h : toPy e.dec c v = some w) :
    Spec.Shown e c v (stripVal w) := by
  cases v with
  | str s =>
    simp only [toPy, Option.some.injEq] at h
    subst h
    show match e.dec s with
      | .bytes b => stripVal (.str (e.dec s)) = .str (.bytes b)
      | .str t => ∃ u, stripVal (.str (e.dec s)) = .str (.str u) ∧ Spec.Stripped t u
    cases e.dec s with
    | bytes b => rfl
    | str t => exact ⟨_, rfl, stripText_spec t⟩
  | dtime t =>
    simp only [toPy] at h
    split at h
    · cases h; rfl
    · cases h
  | _ => cases h; rfl

theorem toPyList_some {e : Env} {c : Reprc} (vs : List Val) (h : Spec.DatesOk vs) :
    ∃ ws, toPyList e.dec c vs = some ws ∧ List.Forall₂ (fun v w => toPy e.dec c v = some w) vs ws := by
  induction vs with
  | nil => exact ⟨[], rfl, .nil⟩
  | cons v vs ih =>
    obtain ⟨ws, h1, h2⟩ := ih fun t ht => h t (List.mem_cons_of_mem _ ht)
    have : ∃ w, toPy e.dec c v = some w := by
      cases v with
      | dtime t => exact ⟨_, by simp only [toPy]; rw [if_pos (h t (by simp))]⟩
      | _ => exact ⟨_, rfl⟩
    obtain ⟨w, hw⟩ := this
    exact ⟨w :: ws, by simp only [toPyList, hw, h1], .cons hw h2⟩

/-- It can be said which object an entry is about unless it has no type. -/
theorem tellObject_iff (e : Env) (o : BasicObject) (hc : o.name.copy ≤ 255) :
    tellObject e o = true ↔ (e.dec o.type).toStd ≠ [] := by
  unfold tellObject pyFingerprint fingerprint fingerprintSize fingerprintBytes
  rw [if_neg (by omega), if_neg (by omega), if_neg (by omega)]
  by_cases h : (e.dec o.type).toStd = []
  · simp [h]
  · have : ¬ (e.dec o.type).toStd.length = 0 := by simpa using h
    simp [this, h]

theorem quiet_any {e : Env} {o : BasicObject} {log : List Severity} (h : Spec.Quiet e o log) :
    (log.any fun sev => !tellObject e o || e.policy sev) = false := by
  rw [List.any_eq_false]
  intro s hs
  simp [h s hs]

theorem parseValue_spec (w : PyVal) (ws : List PyVal) (p : ParseAs) :
    Spec.Presented p (w :: ws) (parseValue w ws p) := by
  cases p with
  | scalar => exact ⟨w, rfl, rfl⟩
  | boolean => exact ⟨w, rfl, _, rfl, c35_truth w⟩
  | vector => rfl
  | reverse =>
    refine ⟨(w :: ws).reverse, rfl, List.length_reverse, ?_⟩
    intro i hi
    rw [List.getElem?_reverse hi]

theorem default_spec (p : ParseAs) : Spec.Missing p (defaultValue p) := by cases p <;> rfl

theorem parsing_eq (rules : Rules) (key : PyStr) :
    (rules.attributes key).getD .vector = Spec.parsing rules key := by
  unfold Spec.parsing
  cases rules.attributes key <;> rfl

theorem attrAt_of_mem {o : BasicObject} {a : ObjAttr}
    (hn : (o.attributes.map (·.label)).Nodup) (ha : a ∈ o.attributes) :
    attrAt a.label o.attributes = some a := by
  unfold attrAt
  generalize o.attributes = l at *
  induction l with
  | nil => cases ha
  | cons b l ih =>
    rw [List.map_cons, List.nodup_cons] at hn
    rcases List.mem_cons.1 ha with rfl | h
    · simp
    · have : b.label ≠ a.label := fun hb => hn.1 (hb ▸ List.mem_map.2 ⟨a, h, rfl⟩)
      rw [List.find?_cons_of_neg (by simpa using this)]
      exact ih hn.2 h

/-! ## C35 -/

/-- C35.  `KeyError` if and only if there is no rule for the label and the object has no
attribute of that label. -/
theorem c35_key_error (e : Env) (rules : Rules) (s : Store) (o : BasicObject) (key : PyStr) :
    (getItem e rules s o key).2 = .error .key ↔
      rules.attributes key = none ∧ ∀ a ∈ o.attributes, e.dec a.label ≠ key := by
  have hk : key ∉ pyKeys e o ↔ ∀ a ∈ o.attributes, e.dec a.label ≠ key := by
    simp [pyKeys]
  unfold getItem
  rw [← hk]
  split
  · rename_i h; simp [h]
  · rename_i h
    simp only [h, iff_false]
    split
    · simp
    split
    · simp
    split
    · simp
    split
    · simp
    split
    · simp
    unfold finishValue
    split
    · split <;> simp
    · simp

/-- C35.  An attribute that has a rule but is not in the object gives nothing or the empty
list. -/
theorem c35_absent (e : Env) (rules : Rules) (s : Store) (o : BasicObject) (key : PyStr)
    (p : ParseAs) (hp : rules.attributes key = some p)
    (ha : ∀ a ∈ o.attributes, a.label ≠ key.toStd) (hq : Spec.Quiet e o o.log) :
    ∃ r, getItem e rules s o key = (s, .ok r) ∧ Spec.Missing p r := by
  have hat : attrAt key.toStd o.attributes = none := by
    unfold attrAt
    rw [List.find?_eq_none]
    intro a h
    simpa using ha a h
  refine ⟨defaultValue p, ?_, default_spec p⟩
  unfold getItem
  rw [if_neg (by rw [hp]; simp)]
  simp only [quiet_any hq, hat, hp, Option.getD_some, Bool.false_eq_true, if_false]

/-- The run of `getItem` for an attribute that is there. -/
theorem getItem_present {e : Env} {rules : Rules} {s : Store} {o : BasicObject} {a : ObjAttr}
    (hl : Spec.LabelsOk e o) (ha : a ∈ o.attributes) (hq : Spec.Quiet e o o.log)
    (hqa : Spec.Quiet e o a.log) {ws : List PyVal} (hv : pyValues e.dec a = some ws) :
    getItem e rules s o (e.dec a.label) =
      match ws with
      | [] => (s, .ok (defaultValue (Spec.parsing rules (e.dec a.label))))
      | w :: ws => finishValue e rules s (e.dec a.label)
          (Spec.parsing rules (e.dec a.label)) w ws := by
  have hat : attrAt (e.dec a.label).toStd o.attributes = some a := by
    rw [hl.2 a ha]; exact attrAt_of_mem hl.1 ha
  unfold getItem
  rw [if_neg (by
    rintro ⟨_, h⟩
    exact h (List.mem_map.2 ⟨a, ha, rfl⟩))]
  simp only [quiet_any hq, quiet_any hqa, hat, hv, parsing_eq, Bool.false_eq_true, if_false]
  cases ws <;> rfl

/-- C35.  An attribute that is in the object but has no value gives nothing or the empty
list, too. -/
theorem c35_no_value_partial (e : Env) (rules : Rules) (s : Store) (o : BasicObject) (a : ObjAttr)
    (hl : Spec.LabelsOk e o) (ha : a ∈ o.attributes) (hq : Spec.Quiet e o o.log)
    (hqa : Spec.Quiet e o a.log) (hv : a.value = none ∨ ∃ c, a.value = some (c, [])) :
    ∃ r, getItem e rules s o (e.dec a.label) = (s, .ok r) ∧
      Spec.Missing (Spec.parsing rules (e.dec a.label)) r := by
  have : pyValues e.dec a = some [] := by
    rcases hv with h | ⟨c, h⟩ <;> simp [pyValues, h, toPyList]
  exact ⟨_, getItem_present hl ha hq hqa this, default_spec _⟩

/-- C35.  The values of an attribute that is not linked, or does not hold references, in
order, strings decoded and without white space at the ends. -/
theorem c35_value_partial (e : Env) (rules : Rules) (s : Store) (o : BasicObject) (a : ObjAttr)
    (hl : Spec.LabelsOk e o) (ha : a ∈ o.attributes) (hq : Spec.Quiet e o o.log)
    (hqa : Spec.Quiet e o a.log) (c : Reprc) (vs : List Val) (hv : a.value = some (c, vs))
    (hne : vs ≠ []) (hd : Spec.DatesOk vs)
    (hlink : rules.linkage (e.dec a.label) = none ∨
      ∀ v ∈ vs.head?, (∀ n, v ≠ .obname n) ∧ (∀ r, v ≠ .objref r) ∧ ∀ t, v ≠ .attref t) :
    ∃ ws r, getItem e rules s o (e.dec a.label) = (s, .ok r) ∧
      List.Forall₂ (Spec.Shown e c) vs ws ∧
      Spec.Presented (Spec.parsing rules (e.dec a.label)) ws r := by
  obtain ⟨us, h1, h2⟩ := toPyList_some (e := e) (c := c) vs hd
  have hp : pyValues e.dec a = some us := by simp [pyValues, hv, h1]
  rw [getItem_present hl ha hq hqa hp]
  cases h2 with
  | nil => exact absurd rfl hne
  | @cons v u vs us hu hus =>
    refine ⟨stripVal u :: us.map stripVal, parseValue (stripVal u) (us.map stripVal) _, ?_, ?_,
      parseValue_spec _ _ _⟩
    · unfold finishValue
      dsimp only
      have : rules.linkage (e.dec a.label) = none ∨ isReference u = false := by
        rcases hlink with h | h
        · exact Or.inl h
        · right
          have hh := h v rfl
          cases v with
          | obname n => exact absurd rfl (hh.1 n)
          | objref r => exact absurd rfl (hh.2.1 r)
          | attref t => exact absurd rfl (hh.2.2 t)
          | dtime t =>
            simp only [toPy] at hu
            split at hu
            · cases hu; rfl
            · cases hu
          | _ => cases hu; rfl
      rcases this with h | h
      · rw [h]
      · rw [h]; cases rules.linkage (e.dec a.label) <;> rfl
    · refine .cons (toPy_shown hu) ?_
      clear hp h1 hv hd hlink hne
      induction hus with
      | nil => exact .nil
      | cons hx _ ih => exact .cons (toPy_shown hx) ih

/-- The store after the references of a list are resolved. -/
theorem lookupAll_after {e : Env} {p : List ObjectSet} (ref : RefType) (ws : List PyVal)
    (hist : List Spec.StoreOp) :
    ∃ more, (lookupAll e ref ws (Spec.after e p hist)).1 = Spec.after e p (hist ++ more) ∧
      ∀ op ∈ more, ∃ ref v, op = .lookup ref v := by
  induction ws generalizing hist with
  | nil => exact ⟨[], by simp [lookupAll]⟩
  | cons w ws ih =>
    have : ∃ m1, (lookupVal e (Spec.after e p hist) ref w).1 = Spec.after e p (hist ++ m1) ∧
        ∀ op ∈ m1, ∃ ref v, op = .lookup ref v := by
      cases w with
      | raw c v => exact ⟨[.lookup ref v], by simp [lookupVal, Spec.after, Spec.StoreOp.run]⟩
      | str _ => exact ⟨[], by simp [lookupVal]⟩
      | obj _ => exact ⟨[], by simp [lookupVal]⟩
    obtain ⟨m1, h1, k1⟩ := this
    obtain ⟨m2, h2, k2⟩ := ih (hist ++ m1)
    unfold lookupAll
    rcases hr : lookupVal e (Spec.after e p hist) ref w with ⟨s1, r1⟩
    rw [hr] at h1
    simp only at h1
    subst h1
    cases r1 with
    | raised => exact ⟨m1, rfl, k1⟩
    | object o =>
      dsimp only
      rcases hr2 : lookupAll e ref ws (Spec.after e p (hist ++ m1)) with ⟨s2, r2⟩
      rw [hr2] at h2
      refine ⟨m1 ++ m2, ?_, fun op hop => (List.mem_append.1 hop).elim (k1 op) (k2 op)⟩
      rw [← List.append_assoc, ← h2]
      cases r2 <;> rfl
    | nothing =>
      dsimp only
      rcases hr2 : lookupAll e ref ws (Spec.after e p (hist ++ m1)) with ⟨s2, r2⟩
      rw [hr2] at h2
      refine ⟨m1 ++ m2, ?_, fun op hop => (List.mem_append.1 hop).elim (k1 op) (k2 op)⟩
      rw [← List.append_assoc, ← h2]
      cases r2 <;> rfl

/-- The references can be resolved: the types and names are the same after the way to C++ and
back, names are not empty, and the error handler does not raise.  Those of another kind can be
written down. -/
def Spec.RefsOk (e : Env) (p : List ObjectSet) (ref : RefType) (vs : List Val) : Prop :=
  ∀ v ∈ vs, (∀ t n, Spec.target e ref v = some (t, n) → Spec.Stable e t ∧
    Spec.Stable e (e.dec n.id) ∧ (e.dec n.id).isEmpty = false ∧
    Spec.raises e .exact t p = false) ∧ (Spec.target e ref v = none → Spec.Writable v)

theorem lookup_refers {e : Env} {p : List ObjectSet} (hf : Spec.Fresh p)
    (ref : RefType) (v : Val) (h : Spec.RefsOk e p ref [v]) :
    ∃ r, r ≠ .raised ∧ (∀ hist, ((Spec.after e p hist).lookup e ref v).2 = r) ∧
      (r = .nothing → Spec.Refers e p ref v (.obj none)) ∧
      ∀ o, r = .object o → Spec.Refers e p ref v (.obj (some o)) := by
  cases ht : Spec.target e ref v with
  | none =>
    refine ⟨.nothing, by simp, fun hist => by
      rw [c36_kind_partial e _ ref v ht ((h v (by simp)).2 ht)], ?_, by simp⟩
    intro _
    exact ⟨none, rfl, by rw [ht]⟩
  | some tn =>
    obtain ⟨t, n⟩ := tn
    obtain ⟨hst, hsn, hne, hr⟩ := (h v (by simp)).1 t n ht
    have hrun : ref.run e.dec v = some (n, t) := by
      cases ref <;> cases v <;> simp_all [Spec.target, RefType.run]
    have hcand : Spec.candidates e p t (e.dec n.id) (some n.origin) (some n.copy) =
        (Spec.allObjects e p).filter fun o => decide (o.type = t ∧ o.name = e.dec n.id ∧
          o.origin = n.origin ∧ o.copynumber = n.copy) := by
      unfold Spec.candidates
      apply List.filter_congr
      intro o _
      simp [Spec.Meets]
    refine ⟨(pickOne (Spec.candidates e p t (e.dec n.id) (some n.origin) (some n.copy))).resolved,
      ?_, ?_, ?_, ?_⟩
    · generalize Spec.candidates e p t (e.dec n.id) (some n.origin) (some n.copy) = l
      match l with
      | [] => simp [pickOne, Lookup.resolved]
      | [_] => simp [pickOne, Lookup.resolved]
      | _ :: _ :: _ => simp only [pickOne]; split <;> simp [Lookup.resolved]
    · intro hist
      have := object_spec e p hf hist t (e.dec n.id) hst hsn hne (some n.origin) (some n.copy)
      rw [hr] at this
      unfold Store.lookup
      simp only [hrun]
      rw [this]
      rfl
    · rw [hcand]
      intro h0
      refine ⟨none, rfl, ?_⟩
      rw [ht]
      refine ⟨fun _ => rfl, ?_, by simp⟩
      intro o ho
      rw [ho] at h0
      cases h0
    · rw [hcand]
      intro o h0
      refine ⟨some o, rfl, ?_⟩
      rw [ht]
      dsimp only
      generalize ((Spec.allObjects e p).filter fun o => decide (o.type = t ∧
          o.name = e.dec n.id ∧ o.origin = n.origin ∧ o.copynumber = n.copy)) = l at h0
      match l, h0 with
      | [x], h0 => cases h0; simp
      | x :: y :: l, h0 =>
        simp only [pickOne] at h0
        split at h0
        · cases h0; simp
        · cases h0

theorem lookupAll_refers {e : Env} {p : List ObjectSet} (hf : Spec.Fresh p) (ref : RefType)
    (c : Reprc) (vs : List Val) (h : Spec.RefsOk e p ref vs) :
    ∃ ws, List.Forall₂ (Spec.Refers e p ref) vs ws ∧ ∀ hist,
      (lookupAll e ref (vs.map (.raw c)) (Spec.after e p hist)).2 = some ws := by
  induction vs with
  | nil => exact ⟨[], .nil, fun _ => rfl⟩
  | cons v vs ih =>
    obtain ⟨ws, h1, h2⟩ := ih fun x hx => h x (List.mem_cons_of_mem _ hx)
    obtain ⟨r, hr, g1, g2, g3⟩ := lookup_refers hf ref v fun x hx =>
      h x (by rw [List.mem_singleton.1 hx]; simp)
    have key : ∀ w, (r = .nothing ∧ w = none ∨ ∃ o, r = .object o ∧ w = some o) →
        ∀ hist, (lookupAll e ref ((v :: vs).map (.raw c)) (Spec.after e p hist)).2 =
          some (.obj w :: ws) := by
      intro w hw hist
      rw [List.map_cons]
      unfold lookupAll lookupVal
      have hl : (Spec.after e p hist).lookup e ref v =
          (Spec.after e p (hist ++ [.lookup ref v]), r) := by
        rw [← g1 hist]
        simp [Spec.after, Spec.StoreOp.run]
      have h2' := h2 (hist ++ [.lookup ref v])
      rcases hq : lookupAll e ref (vs.map (.raw c)) (Spec.after e p (hist ++ [.lookup ref v]))
        with ⟨q1, q2⟩
      rw [hq] at h2'
      simp only at h2'
      subst h2'
      rcases hw with ⟨rfl, rfl⟩ | ⟨o, rfl, rfl⟩ <;> simp only [hl, hq]
    cases r with
    | raised => exact absurd rfl hr
    | nothing => exact ⟨_, .cons (g2 rfl) h1, key none (Or.inl ⟨rfl, rfl⟩)⟩
    | object o => exact ⟨_, .cons (g3 o rfl) h1, key (some o) (Or.inr ⟨o, rfl, rfl⟩)⟩

theorem toPyList_refs {dec : Bytes → PyStr} {c : Reprc} (vs : List Val)
    (h : ∀ v ∈ vs, (∃ n, v = .obname n) ∨ (∃ r, v = .objref r) ∨ ∃ t, v = .attref t) :
    toPyList dec c vs = some (vs.map (.raw c)) := by
  induction vs with
  | nil => rfl
  | cons v vs ih =>
    have h1 := ih fun x hx => h x (List.mem_cons_of_mem _ hx)
    rcases h v (by simp) with ⟨n, rfl⟩ | ⟨r, rfl⟩ | ⟨t, rfl⟩ <;> simp [toPyList, toPy, h1]

/-- C35.  The values of a linked attribute are the objects that they refer to, in order,
whatever was done before. -/
theorem c35_linked_partial (e : Env) (rules : Rules) (p : List ObjectSet) (hf : Spec.Fresh p)
    (o : BasicObject) (a : ObjAttr)
    (hl : Spec.LabelsOk e o) (ha : a ∈ o.attributes) (hq : Spec.Quiet e o o.log)
    (hqa : Spec.Quiet e o a.log) (c : Reprc) (vs : List Val) (hv : a.value = some (c, vs))
    (hne : vs ≠ []) (ref : RefType) (hlink : rules.linkage (e.dec a.label) = some ref)
    (hrefs : ∀ v ∈ vs, (∃ n, v = .obname n) ∨ (∃ r, v = .objref r) ∨ ∃ t, v = .attref t)
    (hok : Spec.RefsOk e p ref vs) :
    ∃ ws r, List.Forall₂ (Spec.Refers e p ref) vs ws ∧
      Spec.Presented (Spec.parsing rules (e.dec a.label)) ws r ∧
      ∀ hist, (getItem e rules (Spec.after e p hist) o (e.dec a.label)).2 = .ok r := by
  have hp : pyValues e.dec a = some (vs.map (.raw c)) := by
    simp [pyValues, hv, toPyList_refs vs hrefs]
  obtain ⟨ws, h1, h2⟩ := lookupAll_refers hf ref c vs hok
  cases h1 with
  | nil => exact absurd rfl hne
  | @cons v w vs ws hw hws =>
    refine ⟨w :: ws, parseValue w ws _, .cons hw hws, parseValue_spec _ _ _, ?_⟩
    intro hist
    rw [getItem_present hl ha hq hqa hp]
    have hi : isReference (.raw c v) = true := by
      rcases hrefs v (by simp) with ⟨n, rfl⟩ | ⟨r, rfl⟩ | ⟨t, rfl⟩ <;> rfl
    have h2' := h2 hist
    rw [List.map_cons] at h2'
    show (finishValue e rules (Spec.after e p hist) (e.dec a.label)
      (Spec.parsing rules (e.dec a.label)) (.raw c v) (vs.map (.raw c))).2 = _
    unfold finishValue
    simp only [hlink, hi]
    generalize lookupAll e ref (PyVal.raw c v :: vs.map (.raw c)) (Spec.after e p hist) = q
      at h2'
    obtain ⟨q1, q2⟩ := q
    simp only at h2'
    subst h2'
    rfl

/-- C35.  An access does nothing to the store except to look up objects: what is found
later does not depend on it (C34). -/
theorem c35_history (e : Env) (rules : Rules) (p : List ObjectSet) (o : BasicObject)
    (key : PyStr) (hist : List Spec.StoreOp) :
    ∃ more, (getItem e rules (Spec.after e p hist) o key).1 = Spec.after e p (hist ++ more) ∧
      ∀ op ∈ more, ∃ ref v, op = .lookup ref v := by
  have same : ∃ more, Spec.after e p hist = Spec.after e p (hist ++ more) ∧
      ∀ op ∈ more, ∃ ref v, op = .lookup ref v := ⟨[], by simp⟩
  unfold getItem
  split
  · exact same
  split
  · exact same
  split
  · exact same
  split
  · exact same
  split
  · exact same
  split
  · exact same
  rename_i v vs _
  unfold finishValue
  split
  · rename_i ref hlink _
    obtain ⟨more, h1, h2⟩ := lookupAll_after (e := e) (p := p) ref (v :: vs) hist
    refine ⟨more, ?_, h2⟩
    rw [← h1]
    rcases lookupAll e ref (v :: vs) (Spec.after e p hist) with ⟨s, r⟩
    match r with
    | none => rfl
    | some [] => rfl
    | some (_ :: _) => rfl
  · exact same

/-! ## C60 -/

theorem stashLoop_spec {e : Env} {o : BasicObject} {ks : List PyStr}
    (f : PyStr → List PyVal) (hk : ∀ k ∈ ks, stashEntry e o k = some (f k)) (hn : ks.Nodup)
    (d : List (PyStr × List PyVal)) (hd : ∀ k ∈ ks, k ∉ d.map Prod.fst) :
    stashLoop e o ks d = some (d ++ ks.map fun k => (k, f k)) := by
  induction ks generalizing d with
  | nil => simp [stashLoop]
  | cons k ks ih =>
    rw [List.nodup_cons] at hn
    have hset : dictSet k (f k) d = d ++ [(k, f k)] := by
      have := hd k (by simp)
      clear hd ih
      induction d with
      | nil => rfl
      | cons x d ihd =>
        simp only [List.map_cons, List.mem_cons, not_or] at this
        simp only [dictSet, if_neg (Ne.symm this.1), ihd this.2, List.cons_append]
    unfold stashLoop
    rw [hk k (by simp)]
    dsimp only
    rw [hset, ih (fun k' h => hk k' (List.mem_cons_of_mem _ h)) hn.2]
    · simp
    · intro k' hk'
      simp only [List.map_append, List.map_cons, List.map_nil, List.mem_append,
        List.mem_singleton, not_or]
      exact ⟨hd k' (List.mem_cons_of_mem _ hk'), fun h => hn.1 (h ▸ hk')⟩

/-- C60.  If all attributes without a rule have values, and the dates in them exist, the stash
has one entry for each of them, in the order of the file, under its label, with all its
values. -/
theorem c60_stash_partial (e : Env) (rules : Rules) (o : BasicObject) (hl : Spec.LabelsOk e o)
    (hv : ∀ a ∈ o.attributes, rules.attributes (e.dec a.label) = none →
      ∃ c vs, a.value = some (c, vs) ∧ Spec.DatesOk vs) :
    ∃ d, stash e rules o = some d ∧
      List.Forall₂ (fun a (kv : PyStr × List PyVal) => kv.1 = e.dec a.label ∧
          ∃ c vs, a.value = some (c, vs) ∧ List.Forall₂ (Spec.Shown e c) vs kv.2)
        (o.attributes.filter fun a => (rules.attributes (e.dec a.label)).isNone) d := by
  have hent : ∀ a ∈ o.attributes, rules.attributes (e.dec a.label) = none → ∃ c vs ws,
      a.value = some (c, vs) ∧ stashEntry e o (e.dec a.label) = some ws ∧
      List.Forall₂ (Spec.Shown e c) vs ws := by
    intro a ha hr
    obtain ⟨c, vs, h1, h2⟩ := hv a ha hr
    obtain ⟨us, g1, g2⟩ := toPyList_some (e := e) (c := c) vs h2
    refine ⟨c, vs, us.map stripVal, h1, ?_, ?_⟩
    · unfold stashEntry
      rw [hl.2 a ha, attrAt_of_mem hl.1 ha]
      simp only [h1, g1]
    · clear g1 h2 h1
      induction g2 with
      | nil => exact .nil
      | cons hx _ ih => exact .cons (toPy_shown hx) ih
  have hinj : (o.attributes.map fun a => e.dec a.label).Nodup := by
    have : ((o.attributes.map fun a => e.dec a.label).map PyStr.toStd).Nodup := by
      rw [List.map_map]
      have : o.attributes.map (PyStr.toStd ∘ fun a => e.dec a.label) =
          o.attributes.map (·.label) := List.map_congr_left fun a ha => hl.2 a ha
      rw [this]; exact hl.1
    exact this.of_map _
  have hkeys : ((pyKeys e o).filter fun k => (rules.attributes k).isNone) =
      (o.attributes.filter fun a => (rules.attributes (e.dec a.label)).isNone).map
        fun a => e.dec a.label := by
    unfold pyKeys
    rw [List.filter_map]
    rfl
  unfold pyKeys at hkeys
  refine ⟨_, stashLoop_spec (fun k => (stashEntry e o k).getD []) ?_
    (hinj.filter _) [] (by simp), ?_⟩
  · intro k hk
    rw [List.mem_filter] at hk
    obtain ⟨a, ha, rfl⟩ := List.mem_map.1 hk.1
    obtain ⟨_, _, ws, _, h, _⟩ := hent a ha (by simpa using hk.2)
    rw [h]; rfl
  · rw [hkeys, List.nil_append, List.map_map]
    rw [List.forall₂_map_right_iff, List.forall₂_same]
    intro a ha
    rw [List.mem_filter] at ha
    obtain ⟨c, vs, ws, h1, h2, h3⟩ := hent a ha.1 (by simpa using ha.2)
    refine ⟨rfl, c, vs, h1, ?_⟩
    simp only [Function.comp, h2, Option.getD_some]
    exact h3

/-- C60.  If one attribute without a rule has no value, the whole stash cannot be read. -/
theorem c60_no_value_defect (e : Env) (rules : Rules) (o : BasicObject) (hl : Spec.LabelsOk e o)
    (a : ObjAttr) (ha : a ∈ o.attributes) (hr : rules.attributes (e.dec a.label) = none)
    (hv : a.value = none) : stash e rules o = none := by
  have hent : stashEntry e o (e.dec a.label) = none := by
    unfold stashEntry
    rw [hl.2 a ha, attrAt_of_mem hl.1 ha]
    simp only [hv]
  have key : ∀ ks d, e.dec a.label ∈ ks → stashLoop e o ks d = none := by
    intro ks
    induction ks with
    | nil => intro d h; cases h
    | cons k ks ih =>
      intro d h
      unfold stashLoop
      rcases List.mem_cons.1 h with rfl | h
      · rw [hent]
      · split
        · rfl
        · exact ih _ h
  exact key _ _ (List.mem_filter.2 ⟨List.mem_map.2 ⟨a, ha, rfl⟩, by simp [hr]⟩)

/-! ## Cases -/

namespace AttributeCase

open StoreCase

def key (s : String) : PyStr := .str (text s)

/-- Rules: "NAME" is a single string, "LINK" refers to objects of type "T", "FLAG" is
true or false, "DIM" is to be reversed, "GONE" is a list. -/
def rules : Rules where
  attributes := fun k =>
    if k = key "NAME" then some .scalar else if k = key "LINK" then some .vector
    else if k = key "FLAG" then some .boolean else if k = key "DIM" then some .reverse
    else if k = key "GONE" then some .vector else none
  linkage := fun k => if k = key "LINK" then some (.obname T) else none

def bytesOf (s : String) : Bytes := (text s).map (BitVec.ofNat 8)

/-- An object with these attributes, and "MORE", for which there is no rule. -/
def thing : BasicObject where
  name := ⟨1, 0, bytesOf "X"⟩
  type := bytesOf "V"
  log := []
  attributes :=
    [{ label := bytesOf "NAME", value := some (.ascii, [.str (bytesOf " a b ")]) },
     { label := bytesOf "LINK", value := some (.obname, [.obname ⟨2, 3, bytesOf "P"⟩,
        .obname ⟨9, 9, bytesOf "P"⟩]) },
     { label := bytesOf "FLAG", value := some (.ushort, [.int 1 0]) },
     { label := bytesOf "DIM", value := some (.ushort, [.int 1 3, .int 1 4]) },
     { label := bytesOf "MORE", value := some (.ident, [.str (bytesOf "u "), .str (bytesOf "v")]) }]

/-- The hypotheses of C35 and C60 hold for the object. -/
example : Spec.LabelsOk env thing ∧ Spec.Quiet env thing thing.log ∧
    (∀ a ∈ thing.attributes, a.log = []) := by
  unfold Spec.LabelsOk Spec.Quiet; decide +kernel

/-- The names of the objects of a list. -/
def names : Except AccessErr PyResult → Option (List (Option (PyStr × Nat × Nat)))
  | .ok (.list ws) => some (ws.map fun
    | .obj (some o) => some (o.name, o.origin, o.copynumber)
    | _ => none)
  | _ => none

def value (r : Store × Except AccessErr PyResult) : Option PyResult := r.2.toOption

/-- C35: each kind of attribute. -/
example :
    let s := Spec.after env sets []
    value (getItem env rules s thing (key "NAME")) = some (.elem (.str (key "a b"))) ∧
    value (getItem env rules s thing (key "FLAG")) = some (.bool false) ∧
    value (getItem env rules s thing (key "DIM")) =
      some (.list [.raw .ushort (.int 1 4), .raw .ushort (.int 1 3)]) ∧
    value (getItem env rules s thing (key "GONE")) = some (.list []) ∧
    value (getItem env rules s thing (key "MORE")) =
      some (.list [.str (key "u"), .str (key "v")]) ∧
    value (getItem env rules s thing (key "NONE")) = none ∧
    names (getItem env rules s thing (key "LINK")).2 = some [some (P, 2, 3), none] := by
  decide +kernel

/-- C60: the stash of the object. -/
example : stash env rules thing =
    some [(key "MORE", [.str (key "u"), .str (key "v")])] := by
  decide +kernel

/-- C60: a set of type "T" with an object "O", the attribute "A" of which has count 0. -/
example :
    (file [[0xf0, 1, 0x54, 0x30, 1, 0x41, 0x70, 1, 0, 1, 0x4f, 0x28, 0]]).flatMap
        (fun x => x.parse.objs.map fun o =>
          ((stash env rules o).isNone, value (getItem env rules (Spec.after env [] []) o (key "A")))) =
      [(true, some (.list []))] := by
  decide +kernel

/-- C35 is violated for labels that are not UTF-8: the attribute "µ" in ISO 8859-1 is among
the labels of the object, but an access gives the empty list, as if it were absent. -/
theorem c35_encoded_label_defect :
    ∃ (e : Env) (o : BasicObject) (a : ObjAttr), a ∈ o.attributes ∧
      a.value = some (.ushort, [.int 1 7]) ∧ e.dec a.label ∈ pyKeys e o ∧
      ∀ rules s, rules.attributes (e.dec a.label) = none →
        getItem e rules s o (e.dec a.label) = (s, .ok (.list [])) := by
  let a : ObjAttr := { label := [0xB5], value := some (.ushort, [.int 1 7]) }
  refine ⟨envWith [latin1], ⟨⟨1, 0, [0x58]⟩, [0x56], [a], []⟩, a, by simp, rfl, by simp [pyKeys], ?_⟩
  intro rules s hr
  have h1 : attrAt ((envWith [latin1]).dec a.label).toStd [a] = none := by decide +kernel
  unfold getItem
  rw [if_neg (by simp [pyKeys])]
  simp only [h1, hr]
  rfl

/-- C35 is violated: the object "O" of a set whose type is empty, and whose descriptor says that
there is no name.  An error handler that ignores everything accepts that, but the attribute "A"
cannot be had, because there is no fingerprint to report it with. -/
theorem c35_untyped_defect : ∃ bs x o, ObjectSet.new bs = .ok x ∧ x.parse.objs = [o] ∧
    o.log = [.major] ∧ pyKeys env o = [key "A"] ∧
    ∀ rules s, (getItem { env with policy := fun _ => false } rules s o (key "A")).2 =
      .error .handler := by
  have h : ∃ x o, ObjectSet.new [0xf0, 0, 0x30, 1, 0x41, 0x60, 1, 0, 1, 0x4f] = .ok x ∧
      x.parse.objs = [o] ∧ o.log = [.major] ∧ pyKeys env o = [key "A"] ∧
      tellObject env o = false :=
    ⟨_, _, rfl, rfl, by decide +kernel, by decide +kernel, by decide +kernel⟩
  obtain ⟨x, o, h1, h2, h3, h4, h5⟩ := h
  refine ⟨_, x, o, h1, h2, h3, h4, fun rules s => ?_⟩
  have h5' : tellObject { env with policy := fun _ => false } o = false := h5
  have h4' : pyKeys { env with policy := fun _ => false } o = [key "A"] := h4
  unfold getItem
  rw [if_neg (by simp [h4'])]
  simp [h3, h5']

/-- An object with nothing in its log, the attribute "LINK" of which holds references of another kind
than the rule asks for. -/
def stray (c : Reprc) (v : Val) : BasicObject where
  name := ⟨1, 0, bytesOf "X"⟩
  type := bytesOf "V"
  log := []
  attributes := [{ label := bytesOf "LINK", value := some (c, [v]) }]

/-- C35 is violated: a reference of another kind gives nothing, but only if the warning about it can
be written.  For a reference to an attribute of an object whose name is not UTF-8 the access raises,
whatever the error handler does, and so it does for one to an object without a type. -/
theorem c35_unwritable_defect (policy : Policy) (s : Store) :
    (∀ v, (v = .attref ⟨bytesOf "T", ⟨1, 0, bytesOf "P"⟩, bytesOf "L"⟩ ∨
        v = .objref ⟨bytesOf "T", ⟨1, 0, bytesOf "P"⟩⟩) → ∀ c,
      (getItem { env with policy } rules s (stray c v) (key "LINK")).2 = .ok (.list [.obj none])) ∧
    ∀ v, (v = .attref ⟨bytesOf "T", ⟨1, 0, [0xe5]⟩, bytesOf "L"⟩ ∨
        v = .objref ⟨[], ⟨1, 0, bytesOf "P"⟩⟩) → ∀ c,
      (getItem { env with policy } rules s (stray c v) (key "LINK")).2 = .error .handler := by
  have hk : ∀ c v, key "LINK" ∈ pyKeys { env with policy } (stray c v) := fun c v =>
    List.mem_singleton.2 (show key "LINK" = env.dec (bytesOf "LINK") by decide +kernel)
  have ha : ∀ c v, attrAt (key "LINK").toStd (stray c v).attributes =
      some { label := bytesOf "LINK", value := some (c, [v]) } := by
    intro c v
    have : (key "LINK").toStd = bytesOf "LINK" := by decide +kernel
    simp [attrAt, stray, this]
  have run : ∀ c v, toPy env.dec c v = some (.raw c v) → isReference (.raw c v) = true →
      RefType.run env.dec (.obname T) v = none →
      (getItem { env with policy } rules s (stray c v) (key "LINK")).2 =
        if v.reprOk then .ok (.list [.obj none]) else .error .handler := by
    intro c v h1 h2 h3
    have hr : rules.linkage (key "LINK") = some (.obname T) := rfl
    have hp : rules.attributes (key "LINK") = some .vector := by decide +kernel
    unfold getItem
    rw [if_neg (fun h => h.2 (hk c v))]
    simp only [ha, show (stray c v).log = [] from rfl, List.any_nil, Bool.false_eq_true, if_false, hp,
      Option.getD_some, pyValues, toPyList, h1, finishValue, hr, h2, lookupAll, lookupVal,
      Store.lookup, h3]
    by_cases hw : v.reprOk = true
    · simp [hw, parseValue]
    · simp [hw]
  constructor
  · rintro v (rfl | rfl) c <;> rw [run c _ rfl rfl rfl, if_pos (by decide +kernel)]
  · rintro v (rfl | rfl) c <;> rw [run c _ rfl rfl rfl, if_neg (by decide +kernel)]

end AttributeCase

end Dlisio.Dlis
