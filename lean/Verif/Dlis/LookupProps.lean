/-
Lookup of single objects and resolution of references: C33, C36.
-/
import Verif.Dlis.StoreProps

namespace Dlisio.Dlis

open _root_.Dlisio.Dlis.Spec

/-! ## Specification -/

/-- All objects of a file. -/
def Spec.allObjects (e : Env) (p : List ObjectSet) : List PyObj :=
  p.flatMap fun x => x.parse.objs.map e.promote

/-- The object meets all the criteria that are given. -/
def Spec.Meets (type name : PyStr) (origin copynr : Option Nat) (o : PyObj) : Prop :=
  o.type = type ∧ o.name = name ∧ (∀ k, origin = some k → o.origin = k) ∧
    ∀ k, copynr = some k → o.copynumber = k

instance (type name : PyStr) (origin copynr : Option Nat) (o : PyObj) :
    Decidable (Spec.Meets type name origin copynr o) :=
  inferInstanceAs (Decidable (_ ∧ _ ∧ (∀ k, origin = some k → _) ∧ ∀ k, copynr = some k → _))

/-- The objects of a file that meet the criteria, in the order of the file. -/
def Spec.candidates (e : Env) (p : List ObjectSet) (type name : PyStr)
    (origin copynr : Option Nat) : List PyObj :=
  (Spec.allObjects e p).filter fun o => decide (Spec.Meets type name origin copynr o)

/-- Two single precision numbers are equal: the same bits or two zeros, and not NaN. -/
def Spec.SameF32 (a b : BitVec 32) : Prop :=
  a.toNat % 2 ^ 31 ≤ 0x7F800000 ∧ b.toNat % 2 ^ 31 ≤ 0x7F800000 ∧
    (a = b ∨ (a.toNat % 2 ^ 31 = 0 ∧ b.toNat % 2 ^ 31 = 0))

/-- Two double precision numbers are equal. -/
def Spec.SameF64 (a b : BitVec 64) : Prop :=
  a.toNat % 2 ^ 63 ≤ 0x7FF0000000000000 ∧ b.toNat % 2 ^ 63 ≤ 0x7FF0000000000000 ∧
    (a = b ∨ (a.toNat % 2 ^ 63 = 0 ∧ b.toNat % 2 ^ 63 = 0))

/-- Two values are equal: numbers as numbers, everything else if it is the same. -/
inductive Spec.SameVal : Val → Val → Prop where
  | f32s {a b : List (BitVec 32)} : List.Forall₂ Spec.SameF32 a b → SameVal (.f32s a) (.f32s b)
  | f64s {a b : List (BitVec 64)} : List.Forall₂ Spec.SameF64 a b → SameVal (.f64s a) (.f64s b)
  | f32v (q : ℚ) : SameVal (.f32v (.num q)) (.f32v (.num q))
  | other (v : Val) : (∀ a, v ≠ .f32s a) → (∀ a, v ≠ .f64s a) → (∀ a, v ≠ .f32v a) → SameVal v v

/-- Two attributes are equal: label, count, representation code, units and value. -/
def Spec.SameAttr (a b : ObjAttr) : Prop :=
  a.label = b.label ∧ a.count = b.count ∧ a.reprc = b.reprc ∧ a.units = b.units ∧
    ((a.value = none ∧ b.value = none) ∨
     ∃ c vs ws, a.value = some (c, vs) ∧ b.value = some (c, ws) ∧ List.Forall₂ Spec.SameVal vs ws)

/-- Two objects are equal: they have the same name and equal attributes. -/
def Spec.SameObject (a b : BasicObject) : Prop :=
  a.name = b.name ∧ List.Forall₂ Spec.SameAttr a.attributes b.attributes

/-- There is no NaN in the object. -/
def Spec.NoNaN (a : BasicObject) : Prop :=
  ∀ x ∈ a.attributes, ∀ c vs, x.value = some (c, vs) → ∀ v ∈ vs,
    (∀ fs, v = .f32s fs → ∀ f ∈ fs, f.toNat % 2 ^ 31 ≤ 0x7F800000) ∧
    (∀ fs, v = .f64s fs → ∀ f ∈ fs, f.toNat % 2 ^ 63 ≤ 0x7FF0000000000000) ∧
    v ≠ .f32v .nan

/-! ## Equality -/

theorem allEq_iff {α : Type} {eq : α → α → Bool} {R : α → α → Prop} (h : ∀ a b, eq a b = true ↔ R a b)
    (as bs : List α) : allEq eq as bs = true ↔ List.Forall₂ R as bs := by
  induction as generalizing bs with
  | nil => cases bs <;> simp [allEq]
  | cons a as ih => cases bs <;> simp [allEq, h, ih]

theorem f32Eq_iff (a b : BitVec 32) : f32Eq a b = true ↔ Spec.SameF32 a b := by
  have h : ∀ x : BitVec 32, (x &&& 0x7FFFFFFF#32).toNat = x.toNat % 2 ^ 31 := by
    intro x
    rw [BitVec.toNat_and]
    exact Nat.and_two_pow_sub_one_eq_mod x.toNat 31
  have h0 : ∀ x : BitVec 32, x &&& 0x7FFFFFFF#32 = 0#32 ↔ x.toNat % 2 ^ 31 = 0 := by
    intro x
    rw [← h x]
    exact ⟨fun h => by rw [h]; rfl, fun h => BitVec.eq_of_toNat_eq h⟩
  unfold f32Eq Spec.SameF32
  simp only [h, h0, Bool.and_eq_true, Bool.or_eq_true, Bool.not_eq_true', decide_eq_true_eq,
    decide_eq_false_iff_not, not_lt, gt_iff_lt, and_assoc]

theorem f64Eq_iff (a b : BitVec 64) : f64Eq a b = true ↔ Spec.SameF64 a b := by
  have h : ∀ x : BitVec 64, (x &&& 0x7FFFFFFFFFFFFFFF#64).toNat = x.toNat % 2 ^ 63 := by
    intro x
    rw [BitVec.toNat_and]
    exact Nat.and_two_pow_sub_one_eq_mod x.toNat 63
  have h0 : ∀ x : BitVec 64, x &&& 0x7FFFFFFFFFFFFFFF#64 = 0#64 ↔ x.toNat % 2 ^ 63 = 0 := by
    intro x
    rw [← h x]
    exact ⟨fun h => by rw [h]; rfl, fun h => BitVec.eq_of_toNat_eq h⟩
  unfold f64Eq Spec.SameF64
  simp only [h, h0, Bool.and_eq_true, Bool.or_eq_true, Bool.not_eq_true', decide_eq_true_eq,
    decide_eq_false_iff_not, not_lt, gt_iff_lt, and_assoc]

theorem valEq_iff (a b : Val) : a.eq b = true ↔ Spec.SameVal a b := by
  constructor
  · intro h
    cases a <;> cases b <;> simp only [Val.eq, decide_eq_true_eq, reduceCtorEq] at h
    case f32s.f32s => exact .f32s ((allEq_iff f32Eq_iff _ _).1 h)
    case f64s.f64s => exact .f64s ((allEq_iff f64Eq_iff _ _).1 h)
    case f32v.f32v x y =>
      cases x <;> cases y <;> simp [f32vEq] at h
      subst h
      exact .f32v _
    all_goals
      rw [h]
      exact .other _ (by simp) (by simp) (by simp)
  · rintro (h | h | q | ⟨v, h1, h2, h3⟩)
    · exact (allEq_iff f32Eq_iff _ _).2 h
    · exact (allEq_iff f64Eq_iff _ _).2 h
    · simp [Val.eq, f32vEq]
    · cases a <;> simp [Val.eq] at h1 h2 h3 ⊢

theorem attrEq_iff (a b : ObjAttr) : a.eq b = true ↔ Spec.SameAttr a b := by
  unfold ObjAttr.eq Spec.SameAttr
  simp only [Bool.and_eq_true, decide_eq_true_eq, and_assoc]
  have : valueEq a.value b.value = true ↔ ((a.value = none ∧ b.value = none) ∨
     ∃ c vs ws, a.value = some (c, vs) ∧ b.value = some (c, ws) ∧
       List.Forall₂ Spec.SameVal vs ws) := by
    rcases a.value with _ | ⟨c, vs⟩ <;> rcases b.value with _ | ⟨d, ws⟩ <;> simp [valueEq]
    rw [allEq_iff valEq_iff]
    rw [eq_comm]
  rw [this]

/-- The comparison of objects compares names and attributes, numbers as numbers. -/
theorem objectEq_iff (a b : BasicObject) : a.eq b = true ↔ Spec.SameObject a b := by
  unfold BasicObject.eq Spec.SameObject
  simp only [Bool.and_eq_true, decide_eq_true_eq, allEq_iff attrEq_iff]

theorem forall₂_symm {α : Type} {R : α → α → Prop} (hR : ∀ a b, R a b → R b a) {as bs : List α}
    (h : List.Forall₂ R as bs) : List.Forall₂ R bs as := by
  induction h with
  | nil => exact .nil
  | cons h _ ih => exact .cons (hR _ _ h) ih

theorem forall₂_trans {α : Type} {R : α → α → Prop} (hR : ∀ a b c, R a b → R b c → R a c)
    {as bs cs : List α} (h : List.Forall₂ R as bs) (h' : List.Forall₂ R bs cs) :
    List.Forall₂ R as cs := by
  induction h generalizing cs with
  | nil => exact h'
  | cons h _ ih =>
    cases h' with
    | cons h'' h3 => exact .cons (hR _ _ _ h h'') (ih h3)

theorem sameF32_symm (a b : BitVec 32) (h : Spec.SameF32 a b) : Spec.SameF32 b a :=
  ⟨h.2.1, h.1, h.2.2.imp Eq.symm And.symm⟩

theorem sameF64_symm (a b : BitVec 64) (h : Spec.SameF64 a b) : Spec.SameF64 b a :=
  ⟨h.2.1, h.1, h.2.2.imp Eq.symm And.symm⟩

theorem sameF32_trans (a b c : BitVec 32) (h : Spec.SameF32 a b) (h' : Spec.SameF32 b c) :
    Spec.SameF32 a c := by
  refine ⟨h.1, h'.2.1, ?_⟩
  rcases h.2.2 with rfl | h1
  · exact h'.2.2
  · rcases h'.2.2 with rfl | h2
    · exact Or.inr h1
    · exact Or.inr ⟨h1.1, h2.2⟩

theorem sameF64_trans (a b c : BitVec 64) (h : Spec.SameF64 a b) (h' : Spec.SameF64 b c) :
    Spec.SameF64 a c := by
  refine ⟨h.1, h'.2.1, ?_⟩
  rcases h.2.2 with rfl | h1
  · exact h'.2.2
  · rcases h'.2.2 with rfl | h2
    · exact Or.inr h1
    · exact Or.inr ⟨h1.1, h2.2⟩

theorem sameVal_symm (a b : Val) (h : Spec.SameVal a b) : Spec.SameVal b a := by
  rcases h with h | h | q | ⟨v, h1, h2, h3⟩
  · exact .f32s (forall₂_symm sameF32_symm h)
  · exact .f64s (forall₂_symm sameF64_symm h)
  · exact .f32v q
  · exact .other _ h1 h2 h3

theorem sameVal_trans (a b c : Val) (h : Spec.SameVal a b) (h' : Spec.SameVal b c) :
    Spec.SameVal a c := by
  rcases h with h | h | q | ⟨v, h1, h2, h3⟩
  · cases h' with
    | f32s h' => exact .f32s (forall₂_trans sameF32_trans h h')
    | other _ h1 => exact absurd rfl (h1 _)
  · cases h' with
    | f64s h' => exact .f64s (forall₂_trans sameF64_trans h h')
    | other _ _ h1 => exact absurd rfl (h1 _)
  · exact h'
  · exact h'

theorem sameAttr_symm (a b : ObjAttr) (h : Spec.SameAttr a b) : Spec.SameAttr b a := by
  obtain ⟨h1, h2, h3, h4, h5⟩ := h
  refine ⟨h1.symm, h2.symm, h3.symm, h4.symm, ?_⟩
  rcases h5 with h5 | ⟨c, vs, ws, h5, h6, h7⟩
  · exact Or.inl h5.symm
  · exact Or.inr ⟨c, ws, vs, h6, h5, forall₂_symm sameVal_symm h7⟩

theorem sameAttr_trans (a b c : ObjAttr) (h : Spec.SameAttr a b) (h' : Spec.SameAttr b c) :
    Spec.SameAttr a c := by
  obtain ⟨h1, h2, h3, h4, h5⟩ := h
  obtain ⟨g1, g2, g3, g4, g5⟩ := h'
  refine ⟨h1.trans g1, h2.trans g2, h3.trans g3, h4.trans g4, ?_⟩
  rcases h5 with h5 | ⟨c, vs, ws, h5, h6, h7⟩
  · rcases g5 with g5 | ⟨d, us, ts, g5, g6, g7⟩
    · exact Or.inl ⟨h5.1, g5.2⟩
    · rw [h5.2] at g5; cases g5
  · rcases g5 with g5 | ⟨d, us, ts, g5, g6, g7⟩
    · rw [h6] at g5; cases g5.1
    · rw [h6] at g5
      cases g5
      exact Or.inr ⟨_, _, _, h5, g6, forall₂_trans sameVal_trans h7 g7⟩

theorem sameObject_symm (a b : BasicObject) (h : Spec.SameObject a b) : Spec.SameObject b a :=
  ⟨h.1.symm, forall₂_symm sameAttr_symm h.2⟩

theorem sameObject_trans (a b c : BasicObject) (h : Spec.SameObject a b)
    (h' : Spec.SameObject b c) : Spec.SameObject a c :=
  ⟨h.1.trans h'.1, forall₂_trans sameAttr_trans h.2 h'.2⟩

theorem sameObject_refl (a : BasicObject) (h : Spec.NoNaN a) : Spec.SameObject a a := by
  refine ⟨rfl, List.forall₂_same.2 fun x hx => ⟨rfl, rfl, rfl, rfl, ?_⟩⟩
  rcases hv : x.value with _ | ⟨c, vs⟩
  · exact Or.inl ⟨rfl, rfl⟩
  · refine Or.inr ⟨c, vs, vs, rfl, rfl, List.forall₂_same.2 fun v hvs => ?_⟩
    obtain ⟨h1, h2, h3⟩ := h x hx c vs hv v hvs
    cases v with
    | f32s fs => exact .f32s (List.forall₂_same.2 fun f hf =>
        ⟨h1 _ rfl f hf, h1 _ rfl f hf, Or.inl rfl⟩)
    | f64s fs => exact .f64s (List.forall₂_same.2 fun f hf =>
        ⟨h2 _ rfl f hf, h2 _ rfl f hf, Or.inl rfl⟩)
    | f32v q =>
      cases q with
      | num q => exact .f32v q
      | nan => exact absurd rfl h3
    | _ => exact .other _ (by simp) (by simp) (by simp)

/-! ## C33 -/

theorem fresh_obj_type {s : ObjectSet} (h : ∃ bs, ObjectSet.new bs = .ok s) :
    ∀ o ∈ s.parse.objs, o.type = s.type := by
  obtain ⟨bs, h⟩ := h
  obtain ⟨log, xs, _, _, hst, _⟩ := parse_stages h
  rcases hst with ⟨e, _, ho, _⟩ | ⟨ys, _, ho, _⟩
  · rw [ho]; simp
  · rw [ho]
    refine objectsLoop_all ?_
    intro d xs o r hp
    unfold parseObject at hp
    split at hp
    · cases hp
    split at hp
    · cases hp
    split at hp
    · cases hp
    cases hp
    rfl

theorem candidates_eq (e : Env) (p : List ObjectSet) (hf : Spec.Fresh p) (type name : PyStr)
    (origin copynr : Option Nat) :
    filterBy (·.copynumber) copynr (filterBy (·.origin) origin
      (p.flatMap (Spec.wanted e .exact type (some name)))) =
      Spec.candidates e p type name origin copynr := by
  have h1 : p.flatMap (Spec.wanted e .exact type (some name)) =
      (Spec.allObjects e p).filter fun o => decide (o.type = type) && decide (o.name = name) := by
    unfold Spec.allObjects
    rw [List.filter_flatMap]
    apply List.flatMap_congr
    intro x hx
    have ht := fresh_obj_type (hf x hx)
    unfold Spec.wanted
    simp only [PyMatcher.run, decide_eq_true_eq]
    split
    · rename_i h
      apply List.filter_congr
      intro o ho
      obtain ⟨a, ha, rfl⟩ := List.mem_map.1 ho
      have : (e.promote a).type = type := by rw [h, ← ht a ha]; rfl
      simp [Spec.nameWanted, PyMatcher.run, this, eq_comm]
    · rename_i h
      symm
      rw [List.filter_eq_nil_iff]
      intro o ho hc
      obtain ⟨a, ha, rfl⟩ := List.mem_map.1 ho
      simp only [Bool.and_eq_true, decide_eq_true_eq] at hc
      have : (e.promote a).type = e.dec a.type := rfl
      rw [this, ht a ha] at hc
      exact h hc.1.symm
  rw [h1]
  unfold Spec.candidates Spec.Meets filterBy
  cases origin <;> cases copynr <;> simp only [List.filter_filter] <;> apply List.filter_congr <;>
    intro o _ <;> rw [Bool.eq_iff_iff] <;> simp <;> tauto

theorem object_spec (e : Env) (p : List ObjectSet) (hf : Spec.Fresh p)
    (hist : List Spec.StoreOp) (type name : PyStr) (ht : Spec.Stable e type)
    (hn : Spec.Stable e name) (hne : name.isEmpty = false) (origin copynr : Option Nat) :
    ((Spec.after e p hist).object e type name origin copynr).2 =
      if Spec.raises e .exact type p then .raised
      else pickOne (Spec.candidates e p type name origin copynr) := by
  have h := c34_exact_partial e p hf hist type name ht hn hne
  unfold Store.object
  rcases hr : (Spec.after e p hist).find e .exact type (some name) with ⟨s, r⟩
  rw [hr] at h
  simp only at h
  unfold Spec.answer at h
  split at h
  · rename_i hx
    rw [h, if_pos hx]
  · rename_i hx
    rw [h, if_neg hx]
    simp only [candidates_eq e p hf]

/-- C33.  After any history, `object` looks at the objects that meet all the criteria.  If
there is none it fails.  If there are several, it fails if and only if they are not all
equal.  Otherwise it gives the first.  The name must not be empty. -/
theorem c33_object_partial (e : Env) (p : List ObjectSet) (hf : Spec.Fresh p)
    (hist : List Spec.StoreOp) (type name : PyStr) (ht : Spec.Stable e type)
    (hn : Spec.Stable e name) (hne : name.isEmpty = false) (origin copynr : Option Nat)
    (hr : Spec.raises e .exact type p = false) :
    let res := ((Spec.after e p hist).object e type name origin copynr).2
    match Spec.candidates e p type name origin copynr with
    | [] => res = .notFound
    | [o] => res = .found o
    | o :: os =>
      ((∀ a ∈ o :: os, ∀ b ∈ o :: os, Spec.SameObject a.attic b.attic) → res = .found o) ∧
      ((∃ a ∈ o :: os, ∃ b ∈ o :: os, ¬ Spec.SameObject a.attic b.attic) → res = .ambiguous) := by
  intro res
  have hres : res = pickOne (Spec.candidates e p type name origin copynr) := by
    have := object_spec e p hf hist type name ht hn hne origin copynr
    rw [hr] at this
    exact this
  generalize Spec.candidates e p type name origin copynr = l at hres
  match l with
  | [] => exact hres
  | [o] => exact hres
  | o :: o' :: os =>
    simp only
    have hall : ((o :: o' :: os).all fun x => x.attic.eq o.attic) = true ↔
        ∀ a ∈ o :: o' :: os, ∀ b ∈ o :: o' :: os, Spec.SameObject a.attic b.attic := by
      rw [List.all_eq_true]
      simp only [objectEq_iff]
      constructor
      · intro h a ha b hb
        exact sameObject_trans _ _ _ (h a ha) (sameObject_symm _ _ (h b hb))
      · intro h a ha
        exact h a ha o (by simp)
    constructor
    · intro h
      rw [hres, pickOne, if_pos (hall.2 h)]
      simp
    · rintro ⟨a, ha, b, hb, h⟩
      rw [hres, pickOne, if_neg (fun hx => h (hall.1 hx a ha b hb))]
      simp

/-- C33.  An object that is found is in the file and meets all the criteria. -/
theorem c33_meets_partial (e : Env) (p : List ObjectSet) (hf : Spec.Fresh p)
    (hist : List Spec.StoreOp) (type name : PyStr) (ht : Spec.Stable e type)
    (hn : Spec.Stable e name) (hne : name.isEmpty = false) (origin copynr : Option Nat) (o : PyObj)
    (h : ((Spec.after e p hist).object e type name origin copynr).2 = .found o) :
    ∃ x ∈ p, ∃ a ∈ x.parse.objs, o.attic = a ∧ e.dec a.type = type ∧ e.dec a.name.id = name ∧
      (∀ k, origin = some k → a.name.origin = k) ∧ ∀ k, copynr = some k → a.name.copy = k := by
  rw [object_spec e p hf hist type name ht hn hne] at h
  split at h
  · cases h
  have hm : o ∈ Spec.candidates e p type name origin copynr := by
    generalize Spec.candidates e p type name origin copynr = l at h
    match l, h with
    | [x], h => cases h; simp
    | x :: y :: l, h =>
      simp only [pickOne] at h
      split at h
      · cases h; simp
      · cases h
  obtain ⟨h1, h2⟩ := List.mem_filter.1 hm
  obtain ⟨x, hx, h3⟩ := List.mem_flatMap.1 h1
  obtain ⟨a, ha, rfl⟩ := List.mem_map.1 h3
  exact ⟨x, hx, a, ha, rfl, of_decide_eq_true h2⟩

/-- C33.  Of duplicates without NaN the first is given. -/
theorem c33_duplicates_partial (e : Env) (p : List ObjectSet) (hf : Spec.Fresh p)
    (hist : List Spec.StoreOp) (type name : PyStr) (ht : Spec.Stable e type)
    (hn : Spec.Stable e name) (hne : name.isEmpty = false) (origin copynr : Option Nat)
    (hr : Spec.raises e .exact type p = false) (o : PyObj) (os : List PyObj)
    (hc : Spec.candidates e p type name origin copynr = o :: os)
    (hd : ∀ x ∈ os, x.attic.name = o.attic.name ∧ x.attic.attributes = o.attic.attributes)
    (hnan : Spec.NoNaN o.attic) :
    ((Spec.after e p hist).object e type name origin copynr).2 = .found o := by
  have h := c33_object_partial e p hf hist type name ht hn hne origin copynr hr
  simp only [hc] at h
  cases os with
  | nil => exact h
  | cons o' os =>
    refine h.1 ?_
    have key : ∀ a ∈ o :: o' :: os, a.attic.name = o.attic.name ∧
        a.attic.attributes = o.attic.attributes := by
      intro a ha
      rcases List.mem_cons.1 ha with rfl | ha
      · exact ⟨rfl, rfl⟩
      · exact hd a ha
    intro a ha b hb
    have hr := sameObject_refl o.attic hnan
    unfold Spec.SameObject at hr ⊢
    rw [(key a ha).1, (key a ha).2, (key b hb).1, (key b hb).2]
    exact hr

/-! ## C36 -/

/-- The reference that a value is, if it is of the kind that is expected. -/
def Spec.target (e : Env) : RefType → Val → Option (PyStr × _root_.Dlisio.Dlis.Obname)
  | .obname t, .obname n => some (t, n)
  | .objref, .objref r => some (e.dec r.type, r.name)
  | _, _ => none

/-- C36.  A reference is resolved to an object of the file that has exactly the type, the
origin, the copy number and the name of the reference, or to nothing.  The name must not
be empty. -/
theorem c36_resolves_partial (e : Env) (p : List ObjectSet) (hf : Spec.Fresh p)
    (hist : List Spec.StoreOp) (ref : RefType) (v : Val) (t : PyStr) (n : Obname)
    (hv : Spec.target e ref v = some (t, n)) (ht : Spec.Stable e t)
    (hn : Spec.Stable e (e.dec n.id)) (hne : (e.dec n.id).isEmpty = false) (o : PyObj)
    (h : ((Spec.after e p hist).lookup e ref v).2 = .object o) :
    ∃ x ∈ p, ∃ a ∈ x.parse.objs, o.attic = a ∧ e.dec a.type = t ∧
      a.name.origin = n.origin ∧ a.name.copy = n.copy ∧ e.dec a.name.id = e.dec n.id := by
  have hrun : ref.run e.dec v = some (n, t) := by
    cases ref <;> cases v <;> simp_all [Spec.target, RefType.run]
  unfold Store.lookup at h
  simp only [hrun] at h
  have h' : ((Spec.after e p hist).object e t (e.dec n.id) (some n.origin) (some n.copy)).2 =
      .found o := by
    generalize ((Spec.after e p hist).object e t (e.dec n.id) (some n.origin) (some n.copy)).2 = r at h
    cases r <;> simp_all [Lookup.resolved]
  obtain ⟨x, hx, a, ha, h1, h2, h3, h4, h5⟩ :=
    c33_meets_partial e p hf hist t _ ht hn hne _ _ o h'
  exact ⟨x, hx, a, ha, h1, h2, h4 _ rfl, h5 _ rfl, h3⟩

/-- C36.  If decoding loses nothing of the names, the object has the name of the reference,
byte by byte. -/
theorem c36_same_bytes_partial (e : Env) (p : List ObjectSet) (hf : Spec.Fresh p)
    (hist : List Spec.StoreOp) (ref : RefType) (v : Val) (t : PyStr) (n : Obname)
    (hv : Spec.target e ref v = some (t, n)) (ht : Spec.Stable e t) (hne : n.id ≠ [])
    (hfaith : ∀ b, (b = n.id ∨ ∃ x ∈ p, ∃ a ∈ x.parse.objs, b = a.name.id) →
      (e.dec b).toStd = b) (o : PyObj)
    (h : ((Spec.after e p hist).lookup e ref v).2 = .object o) : o.attic.name = n := by
  have hid := hfaith n.id (Or.inl rfl)
  have hn : Spec.Stable e (e.dec n.id) := by
    unfold Spec.Stable; rw [hid]
  have hemp : (e.dec n.id).isEmpty = false := by
    cases hd : e.dec n.id with
    | str t =>
      cases t with
      | nil => rw [hd] at hid; exact absurd hid.symm hne
      | cons _ _ => rfl
    | bytes b =>
      cases b with
      | nil => rw [hd] at hid; exact absurd hid.symm hne
      | cons _ _ => rfl
  obtain ⟨x, hx, a, ha, h1, h2, h3, h4, h5⟩ :=
    c36_resolves_partial e p hf hist ref v t n hv ht hn hemp o h
  have hb : a.name.id = n.id := by
    rw [← hfaith a.name.id (Or.inr ⟨x, hx, a, ha, rfl⟩), h5, hid]
  rw [h1]
  cases hna : a.name
  cases n
  rw [hna] at h3 h4 hb
  simp_all

/-- C36.  A reference to the only object that has the type, the origin, the copy number and
the name gives that object, and a reference to none gives nothing. -/
theorem c36_complete_partial (e : Env) (p : List ObjectSet) (hf : Spec.Fresh p)
    (hist : List Spec.StoreOp) (ref : RefType) (v : Val) (t : PyStr) (n : Obname)
    (hv : Spec.target e ref v = some (t, n)) (ht : Spec.Stable e t)
    (hn : Spec.Stable e (e.dec n.id)) (hne : (e.dec n.id).isEmpty = false)
    (hr : Spec.raises e .exact t p = false) :
    let found := (Spec.allObjects e p).filter fun o => decide (o.type = t ∧ o.name = e.dec n.id ∧
      o.origin = n.origin ∧ o.copynumber = n.copy)
    (∀ o, found = [o] → ((Spec.after e p hist).lookup e ref v).2 = .object o) ∧
    (found = [] → ((Spec.after e p hist).lookup e ref v).2 = .nothing) := by
  have hrun : ref.run e.dec v = some (n, t) := by
    cases ref <;> cases v <;> simp_all [Spec.target, RefType.run]
  have hobj := c33_object_partial e p hf hist t (e.dec n.id) ht hn hne (some n.origin)
    (some n.copy) hr
  intro found
  have hc : Spec.candidates e p t (e.dec n.id) (some n.origin) (some n.copy) = found := by
    unfold Spec.candidates
    apply List.filter_congr
    intro o _
    simp [Spec.Meets]
  rw [hc] at hobj
  unfold Store.lookup
  simp only [hrun]
  constructor
  · intro o ho
    rw [ho] at hobj
    simp only at hobj
    rw [hobj]
    rfl
  · intro ho
    rw [ho] at hobj
    simp only at hobj
    rw [hobj]
    rfl

/-- The names in a reference can be written down: the id of a name, and the type of the object that a
reference to an attribute is about, are UTF-8, and the type that is given with a name is not empty. -/
def Spec.Writable : Val → Prop
  | .obname n => ∃ t, utf8Decode n.id = some t
  | .objref r => r.type ≠ []
  | .attref r => (∃ t, utf8Decode r.name.id = some t) ∧ ∃ t, utf8Decode r.type = some t
  | _ => True

theorem reprOk_iff (v : Val) : v.reprOk = true ↔ Spec.Writable v := by
  cases v <;> simp only [Val.reprOk, Spec.Writable, Option.isSome_iff_exists, Bool.and_eq_true]
  rename_i r
  unfold fingerprint fingerprintSize fingerprintBytes
  rw [if_neg (by omega)]
  by_cases h : r.type = []
  · simp [h]
  · simp [h]

/-- C36.  A value that is not a reference of the expected kind is resolved to nothing if its names can
be written down. -/
theorem c36_kind_partial (e : Env) (s : Store) (ref : RefType) (v : Val)
    (hv : Spec.target e ref v = none) (hw : Spec.Writable v) : s.lookup e ref v = (s, .nothing) := by
  have hrun : ref.run e.dec v = none := by
    cases ref <;> cases v <;> simp_all [Spec.target, RefType.run]
  unfold Store.lookup
  simp only [hrun, (reprOk_iff v).2 hw, if_true]

end Dlisio.Dlis
