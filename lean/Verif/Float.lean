import Mathlib.Data.Int.Log
import Mathlib.Data.Rat.Floor
import Mathlib.Algebra.Order.Field.Power
import Mathlib.Tactic.NormNum
import Mathlib.Tactic.Ring
import Mathlib.Tactic.Positivity
import Mathlib.Tactic.FieldSimp
import Mathlib.Tactic.Linarith
/-
Floating point: IEEE 754 binary32 values as rationals and rounding.

Where the C++ code merely copies bits, a `float` is a bit pattern and `ieee32`
gives the number it denotes.  Where the C++ code computes with `float`, the model
computes in ℚ and applies `rnd32` (round to nearest, ties to even, gradual
underflow) after each operation.  Overflow to infinity is not modelled: no
computation in the modelled code reaches 2^128.
-/
namespace Dlisio

/-- A `float` obtained by arithmetic: a number, or NaN. -/
inductive F32 where
  | num (q : ℚ)
  | nan
deriving DecidableEq

/-- Round a rational to the nearest integer, ties to even. -/
def roundHalfEven (q : ℚ) : ℤ :=
  let f := ⌊q⌋
  let r := q - f
  if r < 1 / 2 then f
  else if 1 / 2 < r then f + 1
  else if f % 2 = 0 then f else f + 1

/-- Exponent of the last place of binary32 numbers of the size of `q`. -/
def ulpExp32 (q : ℚ) : ℤ := max (-149) (Int.log 2 |q| - 23)

/-- IEEE 754 binary32 rounding (to nearest even), without overflow. -/
def rnd32 (q : ℚ) : ℚ :=
  roundHalfEven (q / 2 ^ ulpExp32 q) * 2 ^ ulpExp32 q

/-- `q` is a finite binary32 number: 24-bit significand, exponent in range. -/
def Representable32 (q : ℚ) : Prop :=
  ∃ m e : ℤ, |m| < 2 ^ 24 ∧ -149 ≤ e ∧ e ≤ 104 ∧ q = m * 2 ^ e

/-- The number a binary32 bit pattern denotes; `none` for infinities and NaN. -/
def ieee32 (u : BitVec 32) : Option ℚ :=
  let s : ℕ := u.toNat / 2 ^ 31
  let e : ℕ := u.toNat / 2 ^ 23 % 2 ^ 8
  let f : ℕ := u.toNat % 2 ^ 23
  if e = 255 then none
  else if e = 0 then some ((-1 : ℚ) ^ s * f * 2 ^ (-149 : ℤ))
  else some ((-1 : ℚ) ^ s * (2 ^ 23 + f) * 2 ^ ((e : ℤ) - 150))

theorem roundHalfEven_int (n : ℤ) : roundHalfEven n = n := by
  unfold roundHalfEven
  simp

/-- Numbers with a 24-bit significand and no digits below 2^-149 are not rounded. -/
theorem rnd32_mul_zpow (m e : ℤ) (hm : |m| < 2 ^ 24) (he : -149 ≤ e) :
    rnd32 (m * 2 ^ e) = m * 2 ^ e := by
  by_cases hm0 : m = 0
  · subst hm0; simp [rnd32, roundHalfEven]
  set q : ℚ := m * 2 ^ e with hq
  have hqpos : 0 < |q| := by
    rw [abs_pos, hq]
    exact mul_ne_zero (by exact_mod_cast hm0) (by positivity)
  have hlog : Int.log 2 |q| < e + 24 := by
    rw [← Int.lt_zpow_iff_log_lt (by norm_num) hqpos, hq, abs_mul, abs_of_pos (by positivity : (0:ℚ) < 2 ^ e)]
    have h1 : |(m : ℚ)| < 2 ^ 24 := by exact_mod_cast hm
    have h2 : ((2 : ℕ) : ℚ) ^ (e + 24) = 2 ^ 24 * 2 ^ e := by
      rw [zpow_add₀ (by norm_num)]; push_cast; ring
    rw [h2]
    exact mul_lt_mul_of_pos_right h1 (by positivity)
  have hu : ulpExp32 q ≤ e := by unfold ulpExp32; omega
  obtain ⟨k, hk⟩ : ∃ k : ℕ, e = ulpExp32 q + k := ⟨(e - ulpExp32 q).toNat, by omega⟩
  have hdiv : q / 2 ^ ulpExp32 q = ((m * 2 ^ k : ℤ) : ℚ) := by
    rw [div_eq_iff (by positivity)]
    conv_lhs => rw [hq, hk, zpow_add₀ (by norm_num)]
    push_cast
    rw [zpow_natCast]; ring
  rw [rnd32, hdiv, roundHalfEven_int, ← hdiv]
  exact div_mul_cancel₀ _ (by positivity)

theorem rnd32_of_representable {q : ℚ} (h : Representable32 q) : rnd32 q = q := by
  obtain ⟨m, e, hm, he, -, rfl⟩ := h
  exact rnd32_mul_zpow m e hm he

/-- The bit fields of a pattern give its value (normal numbers). -/
theorem ieee32_fields {u : BitVec 32} {s e f : ℕ} (hu : u.toNat = s * 2 ^ 31 + e * 2 ^ 23 + f)
    (he : 0 < e) (he' : e < 255) (hf : f < 2 ^ 23) :
    ieee32 u = some ((-1 : ℚ) ^ s * (2 ^ 23 + f) * 2 ^ ((e : ℤ) - 150)) := by
  have h1 : u.toNat / 2 ^ 31 = s := by omega
  have h2 : u.toNat / 2 ^ 23 % 2 ^ 8 = e := by omega
  have h3 : u.toNat % 2 ^ 23 = f := by omega
  simp only [ieee32, h1, h2, h3]
  rw [if_neg (by omega), if_neg (by omega)]

end Dlisio

namespace Dlisio

/-- The bit fields of a pattern give its value (zero and subnormal numbers). -/
theorem ieee32_fields_sub {u : BitVec 32} {s f : ℕ} (hu : u.toNat = s * 2 ^ 31 + f)
    (hf : f < 2 ^ 23) :
    ieee32 u = some ((-1 : ℚ) ^ s * f * 2 ^ (-149 : ℤ)) := by
  have h1 : u.toNat / 2 ^ 31 = s := by omega
  have h2 : u.toNat / 2 ^ 23 % 2 ^ 8 = 0 := by omega
  have h3 : u.toNat % 2 ^ 23 = f := by omega
  simp only [ieee32, h1, h2, h3]
  rw [if_neg (by omega), if_pos trivial]

/-- Patterns with all exponent bits set are not numbers. -/
theorem ieee32_none {u : BitVec 32} (h : u.toNat / 2 ^ 23 % 2 ^ 8 = 255) : ieee32 u = none := by
  simp only [ieee32, h, if_true]

end Dlisio
