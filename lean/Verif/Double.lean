import Verif.Lis.Types
/-
IEEE 754 binary64 (`double`) rounding and arithmetic.

Values are those of `Lis.Flt` (a rational number, an infinity or NaN; zero has no sign).
Overflow to infinity is not modelled: the numbers computed with are sums of `float`s.
-/
namespace Dlisio

/-- Exponent of the last place of binary64 numbers of the size of `q`. -/
def ulpExp64 (q : ℚ) : ℤ := max (-1074) (Int.log 2 |q| - 52)

/-- IEEE 754 binary64 rounding (to nearest even), without overflow. -/
def rnd64 (q : ℚ) : ℚ :=
  roundHalfEven (q / 2 ^ ulpExp64 q) * 2 ^ ulpExp64 q

/-- `q` is a finite binary64 number: 53-bit significand, exponent in range. -/
def Representable64 (q : ℚ) : Prop :=
  ∃ m e : ℤ, |m| < 2 ^ 53 ∧ -1074 ≤ e ∧ e ≤ 971 ∧ q = m * 2 ^ e

/-- Numbers with a 53-bit significand and no digits below 2^-1074 are not rounded. -/
theorem rnd64_mul_zpow (m e : ℤ) (hm : |m| < 2 ^ 53) (he : -1074 ≤ e) :
    rnd64 (m * 2 ^ e) = m * 2 ^ e := by
  by_cases hm0 : m = 0
  · subst hm0; simp [rnd64, roundHalfEven]
  set q : ℚ := m * 2 ^ e with hq
  have hqpos : 0 < |q| := by
    rw [abs_pos, hq]
    exact mul_ne_zero (by exact_mod_cast hm0) (by positivity)
  have hlog : Int.log 2 |q| < e + 53 := by
    rw [← Int.lt_zpow_iff_log_lt (by norm_num) hqpos, hq, abs_mul, abs_of_pos (by positivity : (0:ℚ) < 2 ^ e)]
    have h1 : |(m : ℚ)| < 2 ^ 53 := by exact_mod_cast hm
    have h2 : ((2 : ℕ) : ℚ) ^ (e + 53) = 2 ^ 53 * 2 ^ e := by
      rw [zpow_add₀ (by norm_num)]; push_cast; ring
    rw [h2]
    exact mul_lt_mul_of_pos_right h1 (by positivity)
  have hu : ulpExp64 q ≤ e := by unfold ulpExp64; omega
  obtain ⟨k, hk⟩ : ∃ k : ℕ, e = ulpExp64 q + k := ⟨(e - ulpExp64 q).toNat, by omega⟩
  have hdiv : q / 2 ^ ulpExp64 q = ((m * 2 ^ k : ℤ) : ℚ) := by
    rw [div_eq_iff (by positivity)]
    conv_lhs => rw [hq, hk, zpow_add₀ (by norm_num)]
    push_cast
    rw [zpow_natCast]; ring
  rw [rnd64, hdiv, roundHalfEven_int, ← hdiv]
  exact div_mul_cancel₀ _ (by positivity)

theorem rnd64_of_representable {q : ℚ} (h : Representable64 q) : rnd64 q = q := by
  obtain ⟨m, e, hm, he, -, rfl⟩ := h
  exact rnd64_mul_zpow m e hm he

/-- Integers of up to 53 bits are not rounded. -/
theorem rnd64_int (n : ℤ) (h : |n| < 2 ^ 53) : rnd64 n = n := by
  have := rnd64_mul_zpow n 0 h (by norm_num)
  simpa using this

theorem roundHalfEven_error (q : ℚ) : |(roundHalfEven q : ℚ) - q| ≤ 1 / 2 := by
  have h1 : (⌊q⌋ : ℚ) ≤ q := Int.floor_le q
  have h2 : q < ⌊q⌋ + 1 := Int.lt_floor_add_one q
  unfold roundHalfEven
  simp only
  split
  · rw [abs_le]; constructor <;> linarith
  · rename_i h3
    split
    · rw [abs_le]; push_cast; constructor <;> linarith
    · rename_i h4
      split
      · rw [abs_le]; constructor <;> linarith
      · rw [abs_le]; push_cast; constructor <;> linarith

/-- The error of a rounding: relative 2^-53, and 2^-1075 for the smallest numbers. -/
theorem rnd64_error (q : ℚ) : |rnd64 q - q| ≤ |q| * 2 ^ (-53 : ℤ) + 2 ^ (-1075 : ℤ) := by
  have hp : (0 : ℚ) < 2 ^ ulpExp64 q := by positivity
  have he : |rnd64 q - q| ≤ 1 / 2 * 2 ^ ulpExp64 q := by
    have h := roundHalfEven_error (q / 2 ^ ulpExp64 q)
    have : rnd64 q - q = (roundHalfEven (q / 2 ^ ulpExp64 q) - q / 2 ^ ulpExp64 q) * 2 ^ ulpExp64 q := by
      rw [rnd64, sub_mul, div_mul_cancel₀ _ hp.ne']
    rw [this, abs_mul, abs_of_pos hp]
    exact mul_le_mul_of_nonneg_right h hp.le
  by_cases h0 : q = 0
  · subst h0
    have : rnd64 0 = 0 := by simpa using rnd64_int 0 (by norm_num)
    rw [this, sub_zero, abs_zero]
    positivity
  refine he.trans ?_
  have hq : 0 < |q| := abs_pos.2 h0
  rcases le_total (-1074) (Int.log 2 |q| - 52) with h | h
  · rw [ulpExp64, max_eq_right h]
    have h1 : ((2 : ℕ) : ℚ) ^ Int.log 2 |q| ≤ |q| := Int.zpow_log_le_self (by norm_num) hq
    push_cast at h1
    have h2 : (1 : ℚ) / 2 * 2 ^ (Int.log 2 |q| - 52) = 2 ^ Int.log 2 |q| * 2 ^ (-53 : ℤ) := by
      rw [sub_eq_add_neg, zpow_add₀ (by norm_num), show (-53 : ℤ) = -1 + -52 by norm_num,
        zpow_add₀ (by norm_num) (-1)]
      ring
    rw [h2]
    have h3 := mul_le_mul_of_nonneg_right h1 (by positivity : (0 : ℚ) ≤ 2 ^ (-53 : ℤ))
    have h4 : (0 : ℚ) ≤ 2 ^ (-1075 : ℤ) := by positivity
    linarith
  · rw [ulpExp64, max_eq_left h]
    have h2 : (1 : ℚ) / 2 * 2 ^ (-1074 : ℤ) = 2 ^ (-1075 : ℤ) := by
      rw [show (-1075 : ℤ) = -1 + -1074 by norm_num, zpow_add₀ (by norm_num) (-1)]
      ring
    rw [h2]
    have : (0 : ℚ) ≤ |q| * 2 ^ (-53 : ℤ) := by positivity
    linarith

example : rnd64 (1 / 3) = 6004799503160661 * 2 ^ (-54 : ℤ) := by
  have hl : Int.log 2 |(1 / 3 : ℚ)| = -2 := by
    rw [abs_of_pos (by norm_num), Int.log_of_right_le_one _ (by norm_num)]
    norm_num
    decide
  have hu : ulpExp64 (1 / 3) = -54 := by rw [ulpExp64, hl]; rfl
  rw [rnd64, hu]
  have hf : ⌊(1 / 3 : ℚ) / 2 ^ (-54 : ℤ)⌋ = 6004799503160661 := by
    rw [Int.floor_eq_iff]; norm_num
  rw [roundHalfEven]
  simp only [hf]
  norm_num

namespace Lis

/-- Sum of two `double`s (IEEE 754). -/
def Flt.add64 : Flt → Flt → Flt
  | .nan, _ => .nan
  | _, .nan => .nan
  | .num a, .num b => .num (rnd64 (a + b))
  | .inf s, .inf t => if s = t then .inf s else .nan
  | .num _, .inf s => .inf s
  | .inf s, .num _ => .inf s

/-- Negation of a `double`. -/
def Flt.neg : Flt → Flt
  | .nan => .nan
  | .num a => .num (-a)
  | .inf s => .inf (!s)

/-- Difference of two `double`s. -/
def Flt.sub64 (a b : Flt) : Flt := a.add64 b.neg

/-- A `double` divided by a positive `std::uint8_t`. -/
def Flt.div64 (a : Flt) (n : Nat) : Flt :=
  match a with
  | .nan => .nan
  | .num a => .num (rnd64 (a / n))
  | .inf s => .inf s

/-- A `double` multiplied by a `std::int8_t`. -/
def Flt.mul64 (a : Flt) (n : Int) : Flt :=
  match a with
  | .nan => .nan
  | .num a => .num (rnd64 (a * n))
  | .inf s => if n = 0 then .nan else .inf (s != decide (n < 0))

end Lis
end Dlisio
