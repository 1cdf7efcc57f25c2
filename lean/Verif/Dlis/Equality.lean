/-
The comparison of objects with `==`: C72.

`BasicObject.__eq__` (python/dlisio/dlis/basicobject.py) compares the underlying C++ objects;
these comparisons are modelled in Store.lean, because looking up objects depends on them.  That
`==` of C++ on `float` and `double` follows IEEE 754 is an assumption on the compiler; what it
means for the numbers is stated here.
-/
import Verif.Dlis.AttributeProps
import Verif.Dlis.Accessors

namespace Dlisio.Dlis

open _root_.Dlisio.Dlis.Spec

/-! ## Model -/

/-- `BasicObject.__eq__`, basicobject.py:233-237: the right-hand side is `none` if it has no
`attic`, so that an `AttributeError` is caught.  `!=` is the negation, because the class does not
define it.  Left out: objects of other classes that have an `attic` of their own. -/
def PyObj.equals (o : PyObj) : Option PyObj → Bool
  | none => false
  | some p => o.attic.eq p.attic

/-! ## Specification -/

/-- What a floating point number may be, other than NaN: zero has no sign here. -/
inductive Spec.FloatNumber where
  | fin (q : ℚ)
  | inf (negative : Bool)

/-- IEEE 754: the number of a pattern with a sign, `w` bits of exponent and `k` bits of fraction;
`none` for NaN. -/
def Spec.ieee (k w n : ℕ) : Option Spec.FloatNumber :=
  let negative := n / 2 ^ (k + w) % 2 = 1
  let e := n / 2 ^ k % 2 ^ w
  let f := n % 2 ^ k
  let sign : ℚ := if negative then -1 else 1
  if e = 2 ^ w - 1 then
    if f = 0 then some (.inf (decide negative)) else none
  else if e = 0 then some (.fin (sign * f * 2 ^ (2 - 2 ^ (w - 1) - k : ℤ)))
  else some (.fin (sign * (2 ^ k + f) * 2 ^ (e + 1 - 2 ^ (w - 1) - k : ℤ)))

/-- Two values in Python that cannot be told apart with `==`, apart from NaN. -/
inductive Spec.SamePy : PyVal → PyVal → Prop where
  | str (s : PyStr) : SamePy (.str s) (.str s)
  | raw (c : Reprc) {v w : Val} : Spec.SameVal v w → SamePy (.raw c v) (.raw c w)
  | obj (o : Option PyObj) : SamePy (.obj o) (.obj o)

/-- The same for what an attribute gives. -/
inductive Spec.SameResult : PyResult → PyResult → Prop where
  | none : SameResult .none .none
  | list {vs ws : List PyVal} : List.Forall₂ Spec.SamePy vs ws → SameResult (.list vs) (.list ws)
  | elem {v w : PyVal} : Spec.SamePy v w → SameResult (.elem v) (.elem w)
  | bool (b : Bool) : SameResult (.bool b) (.bool b)

/-- The same for what an access gives: equal results or the same exception. -/
inductive Spec.SameOutcome : Except AccessErr PyResult → Except AccessErr PyResult → Prop where
  | ok {r r' : PyResult} : Spec.SameResult r r' → SameOutcome (.ok r) (.ok r')
  | error (x : AccessErr) : SameOutcome (.error x) (.error x)

/-- Nothing that was logged for the object or its attributes raises. -/
def Spec.AllQuiet (e : Env) (o : BasicObject) : Prop :=
  Spec.Quiet e o o.log ∧ ∀ a ∈ o.attributes, Spec.Quiet e o a.log

/-! ## Numbers -/

/-- The magnitude of a pattern without sign, in units of the smallest number. -/
def magnitude (k n : ℕ) : ℕ :=
  if n / 2 ^ k = 0 then n % 2 ^ k else (2 ^ k + n % 2 ^ k) * 2 ^ (n / 2 ^ k - 1)

theorem magnitude_strictMono (k : ℕ) : StrictMono (magnitude k) := by
  apply strictMono_nat_of_lt_succ
  intro n
  have hp : 0 < 2 ^ k := Nat.two_pow_pos k
  have hdm := Nat.div_add_mod n (2 ^ k)
  have hlt := Nat.mod_lt n hp
  set d := n / 2 ^ k with hd
  set r := n % 2 ^ k with hr
  by_cases hc : r + 1 < 2 ^ k
  · have h1 : (n + 1) / 2 ^ k = d := by
      rw [← hdm, add_assoc, Nat.mul_add_div hp, Nat.div_eq_of_lt hc, add_zero]
    have h2 : (n + 1) % 2 ^ k = r + 1 := by
      rw [← hdm, add_assoc, Nat.mul_add_mod, Nat.mod_eq_of_lt hc]
    unfold magnitude
    rw [h1, h2, ← hd, ← hr]
    split
    · omega
    · exact Nat.mul_lt_mul_of_pos_right (by omega) (Nat.two_pow_pos _)
  · have hr1 : r + 1 = 2 ^ k := by omega
    have hn : n + 1 = 2 ^ k * (d + 1) := by rw [← hdm, add_assoc, hr1]; ring
    have h1 : (n + 1) / 2 ^ k = d + 1 := by rw [hn, Nat.mul_div_cancel_left _ hp]
    have h2 : (n + 1) % 2 ^ k = 0 := by rw [hn, Nat.mul_mod_right]
    unfold magnitude
    rw [h1, h2, ← hd, ← hr, if_neg (Nat.succ_ne_zero d)]
    split
    · rename_i h0; rw [h0]; simp; omega
    · rename_i h0
      obtain ⟨m, hm⟩ := Nat.exists_eq_succ_of_ne_zero h0
      rw [hm]
      simp only [Nat.succ_eq_add_one, Nat.add_sub_cancel, add_zero, pow_succ]
      nlinarith [Nat.two_pow_pos m, Nat.two_pow_pos k]

/-- The number of a pattern that is neither infinite nor NaN. -/
theorem ieee_fin (k w n : ℕ) (hfin : n % 2 ^ (k + w) < (2 ^ w - 1) * 2 ^ k) :
    Spec.ieee k w n = some (.fin ((if n / 2 ^ (k + w) % 2 = 1 then -1 else 1) *
      (magnitude k (n % 2 ^ (k + w)) : ℚ) * 2 ^ (2 - 2 ^ (w - 1) - k : ℤ))) := by
  have hp : 0 < 2 ^ k := Nat.two_pow_pos k
  have hd : n % 2 ^ (k + w) / 2 ^ k = n / 2 ^ k % 2 ^ w := by
    rw [pow_add, Nat.mod_mul_right_div_self]
  have hm : n % 2 ^ (k + w) % 2 ^ k = n % 2 ^ k := by
    rw [pow_add, Nat.mod_mul_right_mod]
  have he : n / 2 ^ k % 2 ^ w < 2 ^ w - 1 := by
    rw [← hd]; exact Nat.div_lt_of_lt_mul (by rwa [mul_comm] at hfin)
  simp only [Spec.ieee, magnitude, hd, hm]
  rw [if_neg he.ne]
  split
  · rfl
  · rename_i h0
    obtain ⟨j, hj⟩ : ∃ j, n / 2 ^ k % 2 ^ w = j + 1 := ⟨n / 2 ^ k % 2 ^ w - 1, by omega⟩
    rw [hj]
    congr 2
    rw [show ((j + 1 : ℕ) + 1 - 2 ^ (w - 1) - k : ℤ) = j + (2 - 2 ^ (w - 1) - k) by push_cast; ring,
      zpow_add₀ (by norm_num)]
    push_cast
    simp only [zpow_natCast]
    ring

/-- Infinity and NaN. -/
theorem ieee_special (k w n : ℕ) (hinf : (2 ^ w - 1) * 2 ^ k ≤ n % 2 ^ (k + w)) :
    Spec.ieee k w n = if n % 2 ^ (k + w) = (2 ^ w - 1) * 2 ^ k then
      some (.inf (decide (n / 2 ^ (k + w) % 2 = 1))) else none := by
  have hp : 0 < 2 ^ k := Nat.two_pow_pos k
  have hw : 0 < 2 ^ w := Nat.two_pow_pos w
  have hd : n % 2 ^ (k + w) / 2 ^ k = n / 2 ^ k % 2 ^ w := by
    rw [pow_add, Nat.mod_mul_right_div_self]
  have hm : n % 2 ^ (k + w) % 2 ^ k = n % 2 ^ k := by
    rw [pow_add, Nat.mod_mul_right_mod]
  have hlt : n / 2 ^ k % 2 ^ w < 2 ^ w := Nat.mod_lt _ hw
  have he : n / 2 ^ k % 2 ^ w = 2 ^ w - 1 := by
    have : 2 ^ w - 1 ≤ n / 2 ^ k % 2 ^ w := by
      rw [← hd]; exact (Nat.le_div_iff_mul_le hp).2 hinf
    omega
  have hdm := Nat.div_add_mod (n % 2 ^ (k + w)) (2 ^ k)
  rw [hd, hm, he, mul_comm] at hdm
  simp only [Spec.ieee]
  rw [if_pos he]
  have : n % 2 ^ k = 0 ↔ n % 2 ^ (k + w) = (2 ^ w - 1) * 2 ^ k := by omega
  simp only [this]

/-- Two patterns denote the same number if and only if they are not NaN, and equal or both zero. -/
theorem ieee_same (k w n m : ℕ) (hw : 1 < w) (hn : n < 2 ^ (k + w + 1)) (hm : m < 2 ^ (k + w + 1)) :
    (∃ x, Spec.ieee k w n = some x ∧ Spec.ieee k w m = some x) ↔
      n % 2 ^ (k + w) ≤ (2 ^ w - 1) * 2 ^ k ∧ m % 2 ^ (k + w) ≤ (2 ^ w - 1) * 2 ^ k ∧
        (n = m ∨ (n % 2 ^ (k + w) = 0 ∧ m % 2 ^ (k + w) = 0)) := by
  have hP : 0 < 2 ^ (k + w) := Nat.two_pow_pos _
  have hbig : 0 < (2 ^ w - 1) * 2 ^ k := by
    apply Nat.mul_pos _ (Nat.two_pow_pos k)
    have : 2 ^ 1 ≤ 2 ^ w := Nat.pow_le_pow_right (by norm_num) (by omega)
    omega
  have hmag0 : magnitude k 0 = 0 := by simp [magnitude]
  have hsplit : ∀ a, a < 2 ^ (k + w + 1) → ∀ b, b < 2 ^ (k + w + 1) →
      (a = b ↔ a % 2 ^ (k + w) = b % 2 ^ (k + w) ∧
        (a / 2 ^ (k + w) % 2 = 1 ↔ b / 2 ^ (k + w) % 2 = 1)) := by
    intro a ha b hb
    have hda := Nat.div_add_mod a (2 ^ (k + w))
    have hdb := Nat.div_add_mod b (2 ^ (k + w))
    have h1 : a / 2 ^ (k + w) < 2 := Nat.div_lt_of_lt_mul (by rwa [← pow_succ])
    have h2 : b / 2 ^ (k + w) < 2 := Nat.div_lt_of_lt_mul (by rwa [← pow_succ])
    constructor
    · rintro rfl; exact ⟨rfl, Iff.rfl⟩
    · rintro ⟨h3, h4⟩
      have h5 : a / 2 ^ (k + w) = b / 2 ^ (k + w) := by
        generalize a / 2 ^ (k + w) = x at h1 h4
        generalize b / 2 ^ (k + w) = y at h2 h4
        clear * - h1 h2 h4
        interval_cases x <;> interval_cases y <;> simp_all
      rw [← hda, ← hdb, h3, h5]
  rcases lt_or_ge (n % 2 ^ (k + w)) ((2 ^ w - 1) * 2 ^ k) with h1 | h1 <;>
    rcases lt_or_ge (m % 2 ^ (k + w)) ((2 ^ w - 1) * 2 ^ k) with h2 | h2
  · rw [ieee_fin k w n h1, ieee_fin k w m h2]
    simp only [Option.some.injEq, exists_eq_left', Spec.FloatNumber.fin.injEq]
    have hz : (2 : ℚ) ^ (2 - 2 ^ (w - 1) - k : ℤ) ≠ 0 := by positivity
    rw [mul_left_inj' hz]
    simp only [h1.le, h2.le, true_and]
    rw [hsplit n hn m hm]
    have hinj := (magnitude_strictMono k).injective
    have hzero : ∀ a, magnitude k a = 0 ↔ a = 0 := fun a =>
      ⟨fun h => hinj (h.trans hmag0.symm), fun h => by rw [h, hmag0]⟩
    have key : ∀ x y : ℕ, -(x : ℚ) = y ↔ x = 0 ∧ y = 0 := by
      intro x y
      constructor
      · intro h
        have h' : (x : ℚ) + y = 0 := by linarith
        have : x + y = 0 := by exact_mod_cast h'
        omega
      · rintro ⟨rfl, rfl⟩; simp
    by_cases hs : n / 2 ^ (k + w) % 2 = 1 <;> by_cases ht : m / 2 ^ (k + w) % 2 = 1 <;>
      simp only [hs, ht, if_true, if_false, one_mul, neg_mul, neg_inj, Nat.cast_inj, hinj.eq_iff,
        iff_self, and_true, iff_false, iff_true, not_true, and_false, false_or]
    · constructor
      · intro h; left; omega
      · omega
    · first
        | rw [key, hzero, hzero]
        | rw [eq_comm, key, hzero, hzero]
    · rw [key, hzero, hzero, and_comm]
    · constructor
      · intro h; left; omega
      · omega
  · rw [ieee_fin k w n h1, ieee_special k w m h2]
    constructor
    · rintro ⟨x, hx, hy⟩
      cases hx
      split at hy <;> cases hy
    · rintro ⟨_, h3, h4 | h4⟩
      · rw [h4] at h1; omega
      · omega
  · rw [ieee_fin k w m h2, ieee_special k w n h1]
    constructor
    · rintro ⟨x, hx, hy⟩
      cases hy
      split at hx <;> cases hx
    · rintro ⟨_, h3, h4 | h4⟩
      · rw [h4] at h1; omega
      · omega
  · rw [ieee_special k w n h1, ieee_special k w m h2]
    rw [hsplit n hn m hm]
    constructor
    · rintro ⟨x, hx, hy⟩
      split at hx
      · rename_i h3
        split at hy
        · rename_i h4
          cases hx
          simp only [Option.some.injEq, Spec.FloatNumber.inf.injEq, decide_eq_decide] at hy
          exact ⟨h3.le, h4.le, Or.inl ⟨h3.trans h4.symm, hy.symm⟩⟩
        · cases hy
      · cases hx
    · rintro ⟨h3, h4, h5 | h5⟩
      · rw [if_pos (by omega), if_pos (by omega)]
        exact ⟨_, rfl, by simp [h5.2]⟩
      · omega

/-! ## Objects -/

theorem sameObject_self {a : BasicObject} (h : Spec.SameObject a a) : Spec.NoNaN a := by
  intro x hx c vs hv v hvs
  have hx' := List.forall₂_same.1 h.2 x hx
  obtain ⟨_, _, _, _, ⟨h1, _⟩ | ⟨d, us, ws, h1, h2, h3⟩⟩ := hx'
  · rw [hv] at h1; cases h1
  rw [hv] at h1 h2
  cases h1; cases h2
  have hvv := List.forall₂_same.1 h3 v hvs
  cases hvv with
  | f32s h =>
    refine ⟨fun fs he f hf => ?_, by simp, by simp⟩
    cases he
    exact (List.forall₂_same.1 h f hf).1
  | f64s h =>
    refine ⟨by simp, fun fs he f hf => ?_, by simp⟩
    cases he
    exact (List.forall₂_same.1 h f hf).1
  | f32v q => exact ⟨by simp, by simp, by simp⟩
  | other _ h1 h2 h3 =>
    exact ⟨fun fs he => absurd he (h1 fs), fun fs he => absurd he (h2 fs), h3 _⟩

theorem attrAt_same {k : Bytes} {as bs : List ObjAttr} (h : List.Forall₂ Spec.SameAttr as bs) :
    (attrAt k as = none ∧ attrAt k bs = none) ∨
      ∃ a b, attrAt k as = some a ∧ attrAt k bs = some b ∧ Spec.SameAttr a b ∧ a ∈ as ∧ b ∈ bs := by
  unfold attrAt
  induction h with
  | nil => exact Or.inl ⟨rfl, rfl⟩
  | @cons a b as bs hab _ ih =>
    by_cases hk : a.label = k
    · refine Or.inr ⟨a, b, ?_, ?_, hab, by simp, by simp⟩
      · rw [List.find?_cons_of_pos (by simpa using hk)]
      · rw [List.find?_cons_of_pos (by simpa [← hab.1] using hk)]
    · rw [List.find?_cons_of_neg (by simpa using hk),
        List.find?_cons_of_neg (by simpa [← hab.1] using hk)]
      rcases ih with h | ⟨x, y, h1, h2, h3, h4, h5⟩
      · exact Or.inl h
      · exact Or.inr ⟨x, y, h1, h2, h3, by simp [h4], by simp [h5]⟩

theorem toPy_same {dec : Bytes → PyStr} {c : Reprc} {v w : Val} (h : Spec.SameVal v w) :
    (toPy dec c v = none ∧ toPy dec c w = none) ∨
      ∃ x y, toPy dec c v = some x ∧ toPy dec c w = some y ∧ Spec.SamePy x y := by
  cases h with
  | f32s h => exact Or.inr ⟨_, _, rfl, rfl, .raw c (.f32s h)⟩
  | f64s h => exact Or.inr ⟨_, _, rfl, rfl, .raw c (.f64s h)⟩
  | f32v q => exact Or.inr ⟨_, _, rfl, rfl, .raw c (.f32v q)⟩
  | other _ h1 h2 h3 =>
    cases hv : toPy dec c v with
    | none => exact Or.inl ⟨rfl, rfl⟩
    | some x =>
      refine Or.inr ⟨x, x, rfl, rfl, ?_⟩
      cases v with
      | str s => cases hv; exact .str _
      | dtime t =>
        simp only [toPy] at hv
        split at hv <;> cases hv
        exact .raw _ (.other _ h1 h2 h3)
      | _ => cases hv; exact .raw _ (.other _ h1 h2 h3)

theorem toPyList_same {dec : Bytes → PyStr} {c : Reprc} {vs ws : List Val}
    (h : List.Forall₂ Spec.SameVal vs ws) :
    (toPyList dec c vs = none ∧ toPyList dec c ws = none) ∨
      ∃ xs ys, toPyList dec c vs = some xs ∧ toPyList dec c ws = some ys ∧
        List.Forall₂ Spec.SamePy xs ys := by
  induction h with
  | nil => exact Or.inr ⟨[], [], rfl, rfl, .nil⟩
  | cons h _ ih =>
    rcases toPy_same (dec := dec) (c := c) h with ⟨h1, h2⟩ | ⟨x, y, h1, h2, h3⟩
    · exact Or.inl ⟨by simp only [toPyList, h1], by simp only [toPyList, h2]⟩
    · rcases ih with ⟨h4, h5⟩ | ⟨xs, ys, h4, h5, h6⟩
      · exact Or.inl ⟨by simp only [toPyList, h1, h4], by simp only [toPyList, h2, h5]⟩
      · exact Or.inr ⟨x :: xs, y :: ys, by simp only [toPyList, h1, h4],
          by simp only [toPyList, h2, h5], .cons h3 h6⟩

theorem pyValues_same {dec : Bytes → PyStr} {a b : ObjAttr} (h : Spec.SameAttr a b) :
    (pyValues dec a = none ∧ pyValues dec b = none) ∨
      ∃ xs ys, pyValues dec a = some xs ∧ pyValues dec b = some ys ∧
        List.Forall₂ Spec.SamePy xs ys := by
  obtain ⟨_, _, _, _, ⟨h1, h2⟩ | ⟨d, us, ws, h1, h2, h3⟩⟩ := h
  · exact Or.inr ⟨[], [], by simp only [pyValues, h1], by simp only [pyValues, h2], .nil⟩
  · simp only [pyValues, h1, h2]
    exact toPyList_same h3

theorem zero32_same {x y : BitVec 32} (h : Spec.SameF32 x y) : zero32 x = zero32 y := by
  have hk : ∀ x : BitVec 32, zero32 x = true ↔ x.toNat % 2 ^ 31 = 0 := by
    intro x
    rw [zero32, decide_eq_true_eq]
    have : (x &&& 0x7FFFFFFF#32).toNat = x.toNat % 2 ^ 31 := by
      rw [BitVec.toNat_and]; exact Nat.and_two_pow_sub_one_eq_mod x.toNat 31
    rw [← this]
    exact ⟨fun h => by rw [h]; rfl, fun h => BitVec.eq_of_toNat_eq h⟩
  rw [Bool.eq_iff_iff, hk, hk]
  rcases h.2.2 with rfl | h
  · rfl
  · rw [h.1, h.2]

theorem zero64_same {x y : BitVec 64} (h : Spec.SameF64 x y) : zero64 x = zero64 y := by
  have hk : ∀ x : BitVec 64, zero64 x = true ↔ x.toNat % 2 ^ 63 = 0 := by
    intro x
    rw [zero64, decide_eq_true_eq]
    have : (x &&& 0x7FFFFFFFFFFFFFFF#64).toNat = x.toNat % 2 ^ 63 := by
      rw [BitVec.toNat_and]; exact Nat.and_two_pow_sub_one_eq_mod x.toNat 63
    rw [← this]
    exact ⟨fun h => by rw [h]; rfl, fun h => BitVec.eq_of_toNat_eq h⟩
  rw [Bool.eq_iff_iff, hk, hk]
  rcases h.2.2 with rfl | h
  · rfl
  · rw [h.1, h.2]

theorem truth_same {x y : PyVal} (h : Spec.SamePy x y) : truth x = truth y := by
  cases h with
  | str s => rfl
  | obj o => rfl
  | raw c h =>
    cases h with
    | f32v q => rfl
    | other _ _ _ _ => rfl
    | f32s h =>
      cases h with
      | nil => cases c <;> rfl
      | cons h1 h =>
        cases h with
        | nil => cases c <;> simp [truth, zero32_same h1]
        | cons h2 h =>
          cases h with
          | nil => cases c <;> simp [truth, zero32_same h1, zero32_same h2]
          | cons => cases c <;> rfl
    | f64s h =>
      cases h with
      | nil => cases c <;> rfl
      | cons h1 h =>
        cases h with
        | nil => cases c <;> simp [truth, zero64_same h1]
        | cons h2 h =>
          cases h with
          | nil => cases c <;> simp [truth, zero64_same h1, zero64_same h2]
          | cons => cases c <;> rfl

theorem stripVal_same {x y : PyVal} (h : Spec.SamePy x y) : Spec.SamePy (stripVal x) (stripVal y) := by
  cases h with
  | str s => cases s <;> exact .str _
  | obj o => exact .obj o
  | raw c h => exact .raw c h

theorem isReference_same {x y : PyVal} (h : Spec.SamePy x y) : isReference x = isReference y := by
  cases h with
  | str s => rfl
  | obj o => rfl
  | raw c h => cases h <;> rfl

theorem lookupVal_same {e : Env} {s : Store} {ref : RefType} {x y : PyVal} (h : Spec.SamePy x y) :
    lookupVal e s ref x = lookupVal e s ref y := by
  cases h with
  | str s => rfl
  | obj o => rfl
  | raw c h =>
    cases h <;> first | rfl | (cases ref <;> rfl)

theorem lookupAll_same {e : Env} {ref : RefType} {xs ys : List PyVal}
    (h : List.Forall₂ Spec.SamePy xs ys) (s : Store) :
    lookupAll e ref xs s = lookupAll e ref ys s := by
  induction h generalizing s with
  | nil => rfl
  | cons h _ ih =>
    simp only [lookupAll, lookupVal_same h, ih]

theorem parseValue_same {x y : PyVal} {xs ys : List PyVal} (h : Spec.SamePy x y)
    (hs : List.Forall₂ Spec.SamePy xs ys) (p : ParseAs) :
    Spec.SameResult (parseValue x xs p) (parseValue y ys p) := by
  cases p with
  | scalar => exact .elem h
  | vector => exact .list (.cons h hs)
  | reverse => exact .list (List.rel_reverse (.cons h hs))
  | boolean => rw [parseValue, parseValue, truth_same h]; exact .bool _

theorem samePy_obj (o : PyVal) (h : ∀ c v, o ≠ .raw c v) : Spec.SamePy o o := by
  cases o with
  | str s => exact .str s
  | obj o => exact .obj o
  | raw c v => exact absurd rfl (h c v)

theorem defaultValue_same (p : ParseAs) : Spec.SameResult (defaultValue p) (defaultValue p) := by
  cases p
  · exact .none
  · exact .none
  · exact .list .nil
  · exact .list .nil

theorem lookupAll_objs {e : Env} {ref : RefType} {xs : List PyVal} {s s' : Store} {ws : List PyVal}
    (h : lookupAll e ref xs s = (s', some ws)) : ∀ w ∈ ws, ∀ c v, w ≠ .raw c v := by
  induction xs generalizing s ws with
  | nil =>
    cases h; simp
  | cons x xs ih =>
    rw [lookupAll] at h
    rcases hl : lookupVal e s ref x with ⟨t, r⟩
    rw [hl] at h
    cases r with
    | raised => simp at h
    | object o =>
      rcases hr : lookupAll e ref xs t with ⟨u, _ | rest⟩
      · simp [hr] at h
      · simp only [hr, Prod.mk.injEq, Option.some.injEq] at h
        obtain ⟨rfl, rfl⟩ := h
        intro w hw
        rcases List.mem_cons.1 hw with rfl | hw
        · simp
        · exact ih hr w hw
    | nothing =>
      rcases hr : lookupAll e ref xs t with ⟨u, _ | rest⟩
      · simp [hr] at h
      · simp only [hr, Prod.mk.injEq, Option.some.injEq] at h
        obtain ⟨rfl, rfl⟩ := h
        intro w hw
        rcases List.mem_cons.1 hw with rfl | hw
        · simp
        · exact ih hr w hw

theorem finishValue_same {e : Env} {rules : Rules} {s : Store} {key : PyStr} {p : ParseAs}
    {x y : PyVal} {xs ys : List PyVal} (h : Spec.SamePy x y)
    (hs : List.Forall₂ Spec.SamePy xs ys) :
    (finishValue e rules s key p x xs).1 = (finishValue e rules s key p y ys).1 ∧
      Spec.SameOutcome (finishValue e rules s key p x xs).2 (finishValue e rules s key p y ys).2 := by
  have hplain : Spec.SameResult (parseValue (stripVal x) (xs.map stripVal) p)
      (parseValue (stripVal y) (ys.map stripVal) p) := by
    refine parseValue_same (stripVal_same h) ?_ p
    rw [List.forall₂_map_left_iff, List.forall₂_map_right_iff]
    exact hs.imp fun _ _ h => stripVal_same h
  unfold finishValue
  rw [← isReference_same h]
  cases hl : rules.linkage key with
  | none => exact ⟨rfl, .ok hplain⟩
  | some ref =>
    cases hr : isReference x with
    | false => exact ⟨rfl, .ok hplain⟩
    | true =>
      simp only
      rw [lookupAll_same (.cons h hs)]
      rcases hk : lookupAll e ref (y :: ys) s with ⟨s', _ | _ | ⟨w, ws⟩⟩
      · exact ⟨rfl, .error _⟩
      · exact ⟨rfl, .ok (defaultValue_same p)⟩
      · refine ⟨rfl, .ok ?_⟩
        have ho := lookupAll_objs hk
        exact parseValue_same (samePy_obj w (ho w (by simp)))
          (List.forall₂_same.2 fun v hv => samePy_obj v (ho v (by simp [hv]))) p

/-! ## C72 -/

/-- C72.  Single precision numbers are compared by what they denote: no NaN is equal to anything,
and the zeros are equal. -/
theorem c72_float32 (a b : BitVec 32) :
    f32Eq a b = true ↔ ∃ x, Spec.ieee 23 8 a.toNat = some x ∧ Spec.ieee 23 8 b.toNat = some x := by
  rw [f32Eq_iff, ieee_same 23 8 a.toNat b.toNat (by norm_num) a.isLt b.isLt]
  simp only [Spec.SameF32, BitVec.toNat_inj]
  norm_num

/-- C72.  Double precision numbers likewise. -/
theorem c72_float64 (a b : BitVec 64) :
    f64Eq a b = true ↔
      ∃ x, Spec.ieee 52 11 a.toNat = some x ∧ Spec.ieee 52 11 b.toNat = some x := by
  rw [f64Eq_iff, ieee_same 52 11 a.toNat b.toNat (by norm_num) a.isLt b.isLt]
  simp only [Spec.SameF64, BitVec.toNat_inj]
  norm_num

/-- C72.  Objects are equal if and only if they have the same name (origin and copy number
included) and the same attributes in the same order, each with label, count, representation code,
units and equal values.  Nothing that is no object is equal to one. -/
theorem c72_equal_partial (e : Env) (a b : BasicObject) :
    ((e.promote a).equals (some (e.promote b)) = true ↔ Spec.SameObject a b) ∧
      (e.promote a).equals none = false :=
  ⟨objectEq_iff a b, rfl⟩

/-- C72.  Equality is symmetric and transitive. -/
theorem c72_relation (o p q : PyObj) :
    o.equals (some p) = p.equals (some o) ∧
    (o.equals (some p) = true → p.equals (some q) = true → o.equals (some q) = true) := by
  constructor
  · rw [Bool.eq_iff_iff]
    simp only [PyObj.equals, objectEq_iff]
    exact ⟨sameObject_symm _ _, sameObject_symm _ _⟩
  · simp only [PyObj.equals, objectEq_iff]
    exact sameObject_trans _ _ _

/-- C72.  An object is equal to itself if and only if there is no NaN in it. -/
theorem c72_reflexive (o : PyObj) : o.equals (some o) = true ↔ Spec.NoNaN o.attic := by
  simp only [PyObj.equals, objectEq_iff]
  exact ⟨sameObject_self, sameObject_refl _⟩

/-- C72.  Equal objects cannot be told apart by their names, their number of attributes, or by
what their attributes give: for all classes, all labels, and all states of the file, the results
are equal or the same exception is raised, and references lead to the same objects.  Nothing that
was logged for them must be treated as an error. -/
theorem c72_interchangeable (e : Env) (a b : BasicObject)
    (h : (e.promote a).equals (some (e.promote b)) = true) :
    (e.promote a).name = (e.promote b).name ∧ (e.promote a).origin = (e.promote b).origin ∧
    (e.promote a).copynumber = (e.promote b).copynumber ∧
    a.attributes.length = b.attributes.length ∧ pyKeys e a = pyKeys e b ∧
    (Spec.AllQuiet e a → Spec.AllQuiet e b → ∀ (rules : Rules) (s : Store) (key : PyStr),
      (getItem e rules s a key).1 = (getItem e rules s b key).1 ∧
      Spec.SameOutcome (getItem e rules s a key).2 (getItem e rules s b key).2) := by
  obtain ⟨hn, hs⟩ := (objectEq_iff a b).1 h
  have hkeys : pyKeys e a = pyKeys e b := by
    unfold pyKeys
    generalize a.attributes = as at hs
    generalize b.attributes = bs at hs
    induction hs with
    | nil => rfl
    | cons h _ ih => rw [List.map_cons, List.map_cons, ih, h.1]
  refine ⟨by simp [Env.promote, hn], by simp [Env.promote, hn], by simp [Env.promote, hn],
    hs.length_eq, hkeys, ?_⟩
  rintro ⟨ha, has⟩ ⟨hb, hbs⟩ rules s key
  unfold getItem
  rw [hkeys]
  split
  · exact ⟨rfl, .error _⟩
  simp only [quiet_any ha, quiet_any hb, Bool.false_eq_true, if_false]
  rcases attrAt_same (k := key.toStd) hs with ⟨h1, h2⟩ | ⟨x, y, h1, h2, h3, h4, h5⟩
  · rw [h1, h2]
    exact ⟨rfl, .ok (defaultValue_same _)⟩
  · rw [h1, h2]
    dsimp only
    rcases pyValues_same (dec := e.dec) h3 with ⟨h6, h7⟩ | ⟨xs, ys, h6, h7, h8⟩
    · rw [h6, h7]
      exact ⟨rfl, .error _⟩
    · simp only [h6, h7, quiet_any (has x h4), quiet_any (hbs y h5), Bool.false_eq_true, if_false]
      cases h8 with
      | nil => exact ⟨rfl, .ok (defaultValue_same _)⟩
      | cons h9 h10 => exact finishValue_same h9 h10

/-! ## Defects and cases -/

namespace EqualityCase

open AccessorsCase

/-- A set with one object (1, 0, A) whose attributes have these labels, representation codes and
values, one value each. -/
def one (type : String) (attrs : List (String × Byte × Bytes)) : Bytes :=
  0xf0 :: BitVec.ofNat 8 type.length :: Spec.Fingerprint.ascii type ++
    attrs.flatMap (fun a => 0x34 :: BitVec.ofNat 8 a.1.length :: Spec.Fingerprint.ascii a.1 ++
      [a.2.1]) ++
    [0x70, 1, 0, 1, 0x41] ++ attrs.flatMap fun a => 0x21 :: a.2.2

/-- The objects of a set. -/
def objects (bs : Bytes) : List PyObj := Spec.allObjects env (StoreCase.file [bs])

/-- Are the objects of two sets equal, one by one?  The number of objects is given as well. -/
def comparison (a b : Bytes) : List Bool × Nat :=
  (List.zipWith (fun o p => o.equals (some p)) (objects a) (objects b), (objects a).length)

def number (bits : Bytes) : Bytes := one "ZONE" [("N", 2, bits)]

/-- Equal objects, with the zeros, and different ones: by value, label,
representation code, number of attributes and name. -/
example :
    comparison (number [0x3f, 0x80, 0, 0]) (number [0x3f, 0x80, 0, 0]) = ([true], 1) ∧
    comparison (number [0, 0, 0, 0]) (number [0x80, 0, 0, 0]) = ([true], 1) ∧
    comparison (number [0x3f, 0x80, 0, 0]) (number [0x3f, 0x80, 0, 1]) = ([false], 1) ∧
    comparison (one "ZONE" [("N", 15, [1])]) (one "ZONE" [("M", 15, [1])]) = ([false], 1) ∧
    comparison (one "ZONE" [("N", 15, [1])]) (one "ZONE" [("N", 26, [1])]) = ([false], 1) ∧
    comparison (one "ZONE" [("N", 15, [1])]) (one "ZONE" []) = ([false], 1) ∧
    comparison (set "ZONE" ["A", "B"]) (set "ZONE" ["B", "B"]) = ([false, true], 2) := by
  decide +kernel

/-- The hypotheses of `c72_interchangeable` hold for two objects that are not the same: one has
zero, one negative zero. -/
example : ∃ o ∈ objects (number [0, 0, 0, 0]), ∃ p ∈ objects (number [0x80, 0, 0, 0]),
    o.equals (some p) = true ∧ o ≠ p ∧ o = env.promote o.attic ∧ p = env.promote p.attic ∧
    Spec.AllQuiet env o.attic ∧ Spec.AllQuiet env p.attic := by
  unfold Spec.AllQuiet Spec.Quiet
  decide +kernel

end EqualityCase

open EqualityCase

/-- C72 is violated for objects of different types: with the same name and equal attributes they
are equal, although they are different objects with different fingerprints. -/
theorem c72_type_defect :
    comparison (one "ZONE" [("DESCRIPTION", 20, [1, 0x41])])
      (one "TOOL" [("DESCRIPTION", 20, [1, 0x41])]) = ([true], 1) ∧
    (objects (one "ZONE" [("DESCRIPTION", 20, [1, 0x41])])).map (·.fingerprint AccessorsCase.env) ≠
      (objects (one "TOOL" [("DESCRIPTION", 20, [1, 0x41])])).map (·.fingerprint AccessorsCase.env) := by
  decide +kernel

/-- C72 is violated for objects with NaN: they are not equal to themselves.  `LogicalFile.object`
therefore cannot find an object that is in the file twice. -/
theorem c72_nan_defect :
    comparison (number [0x7f, 0xc0, 0, 0]) (number [0x7f, 0xc0, 0, 0]) = ([false], 1) ∧
    (∀ o, pickOne [o, o] = .found o ↔ Spec.NoNaN o.attic) := by
  refine ⟨by decide +kernel, fun o => ?_⟩
  rw [← c72_reflexive]
  simp [pickOne, PyObj.equals]

/-- C72 is violated for attributes in different order: the objects have the same name, the same
type and the same attributes. -/
theorem c72_order_defect :
    let a := one "ZONE" [("DESCRIPTION", 20, [1, 0x41]), ("DOMAIN", 20, [1, 0x42])]
    let b := one "ZONE" [("DOMAIN", 20, [1, 0x42]), ("DESCRIPTION", 20, [1, 0x41])]
    comparison a b = ([false], 1) ∧
    (objects a).flatMap (·.attic.attributes) =
      ((objects b).flatMap (·.attic.attributes)).reverse := by
  decide +kernel

/-- C72.  The type is not compared, whatever the objects are. -/
theorem c72_any_type_defect (e : Env) (a : BasicObject) (h : Spec.NoNaN a) (t : Bytes) :
    (e.promote a).equals (some (e.promote { a with type := t })) = true :=
  (objectEq_iff _ _).2 (sameObject_refl a h)

end Dlisio.Dlis
