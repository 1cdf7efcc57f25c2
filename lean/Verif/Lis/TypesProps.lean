import Verif.Lis.Types
import Verif.Dlis.TypesProps
/-
C41: LIS numbers decode to the values that LIS79 Appendix B gives them.
-/
namespace Dlisio.Lis

open _root_.Dlisio.Dlis (bswap16_load bswap32_load toNat16 toNat32)
open _root_.Dlisio.Dlis.Spec (ReadsFixed)

/-! ### Specification -/
namespace Spec

/-- Code 49 (B.1): 12-bit two's complement fraction with 11 places, times a power of
two given by the low four bits. -/
def f16 (v : ℕ) : ℚ := (twosComplement 12 (v / 2 ^ 4) : ℚ) / 2 ^ 11 * 2 ^ (v % 2 ^ 4)

/-- Exponent of code 68 (B.5): excess 128, complemented for negative numbers. -/
def f32Exp (v : ℕ) : ℤ :=
  if v < 2 ^ 31 then ((v / 2 ^ 23 % 2 ^ 8 : ℕ) : ℤ) - 128
  else 127 - ((v / 2 ^ 23 % 2 ^ 8 : ℕ) : ℤ)

/-- Fraction of code 68 in units of 2^-23: 24-bit two's complement number made of the
sign bit and the low 23 bits. -/
def f32Frac (v : ℕ) : ℤ := twosComplement 24 (v / 2 ^ 31 * 2 ^ 23 + v % 2 ^ 23)

/-- Code 68 (B.5). -/
def f32 (v : ℕ) : ℚ := (f32Frac v : ℚ) / 2 ^ 23 * 2 ^ f32Exp v

/-- Exponent of code 50 (B.2): the high half, two's complement. -/
def f32lowExp (v : ℕ) : ℤ := twosComplement 16 (v / 2 ^ 16)

/-- Fraction of code 50 in units of 2^-15: the low half, two's complement. -/
def f32lowFrac (v : ℕ) : ℤ := twosComplement 16 (v % 2 ^ 16)

/-- Code 50 (B.2). -/
def f32low (v : ℕ) : ℚ := (f32lowFrac v : ℚ) / 2 ^ 15 * 2 ^ f32lowExp v

/-- Code 70 (B.6): two's complement with the binary point in the middle. -/
def f32fix (v : ℕ) : ℚ := (twosComplement 32 v : ℚ) / 2 ^ 16

end Spec

/-! ### Rounding -/

theorem roundHalfEven_nearest (q : ℚ) (n : ℤ) : |q - roundHalfEven q| ≤ |q - n| := by
  have h1 := Int.floor_le q
  have h2 := Int.lt_floor_add_one q
  have key : |q - n| ≥ q - ⌊q⌋ ∨ |q - n| ≥ ⌊q⌋ + 1 - q := by
    rcases le_or_gt n ⌊q⌋ with h | h
    · left
      have : (n : ℚ) ≤ ⌊q⌋ := by exact_mod_cast h
      have := le_abs_self (q - n)
      linarith
    · right
      have : ((⌊q⌋ + 1 : ℤ) : ℚ) ≤ n := by exact_mod_cast h
      push_cast at this
      have := neg_abs_le (q - n)
      linarith
  have key2 : |q - roundHalfEven q| ≤ q - ⌊q⌋ ∧ |q - roundHalfEven q| ≤ ⌊q⌋ + 1 - q := by
    simp only [roundHalfEven]
    split_ifs with a b c
    · rw [abs_of_nonneg (by linarith)]; constructor <;> linarith
    · push_cast; rw [abs_of_nonpos (by linarith)]; constructor <;> linarith
    · rw [abs_of_nonneg (by linarith)]; constructor <;> linarith
    · push_cast; rw [abs_of_nonpos (by linarith)]; constructor <;> linarith
  rcases key with h | h <;> [exact key2.1.trans h; exact key2.2.trans h]

theorem rnd32_zero : rnd32 0 = 0 := by simp [rnd32, roundHalfEven]

theorem rnd32_multiple (q : ℚ) (m : ℤ) : |q - rnd32 q| ≤ |q - m * 2 ^ ulpExp32 q| := by
  have hp : (0 : ℚ) < 2 ^ ulpExp32 q := by positivity
  have h := roundHalfEven_nearest (q / 2 ^ ulpExp32 q) m
  have e : ∀ x : ℚ, |q - x * 2 ^ ulpExp32 q| = |q / 2 ^ ulpExp32 q - x| * 2 ^ ulpExp32 q := by
    intro x
    rw [← abs_of_pos hp, ← abs_mul, abs_of_pos hp, sub_mul, div_mul_cancel₀ _ hp.ne']
  rw [rnd32, e, e]
  exact mul_le_mul_of_nonneg_right h hp.le

/-- Rounding gives a nearest one among the numbers representable. -/
theorem rnd32_nearest (q r : ℚ) (hr : Representable32 r) : |q - rnd32 q| ≤ |q - r| := by
  obtain ⟨m, e, hm, he, -, rfl⟩ := hr
  by_cases hq0 : q = 0
  · rw [hq0, rnd32_zero, sub_zero, abs_zero]; exact abs_nonneg _
  rcases le_or_gt (ulpExp32 q) e with h | h
  · have := rnd32_multiple q (m * 2 ^ (e - ulpExp32 q).toNat)
    convert this using 3
    push_cast
    rw [← zpow_natCast (2 : ℚ), mul_assoc, ← zpow_add₀ (by norm_num)]
    congr 2; omega
  · have hu : ulpExp32 q = Int.log 2 |q| - 23 := by unfold ulpExp32 at h ⊢; omega
    have hlog : (2 : ℚ) ^ (ulpExp32 q + 23) ≤ |q| := by
      rw [hu]; simpa using Int.zpow_log_le_self (b := 2) (by norm_num) (abs_pos.2 hq0)
    have hrr : |(m : ℚ) * 2 ^ e| ≤ (2 : ℚ) ^ (ulpExp32 q + 23) := by
      rw [abs_mul, abs_of_pos (by positivity : (0 : ℚ) < 2 ^ e)]
      have h1 : |(m : ℚ)| ≤ 2 ^ 24 := by exact_mod_cast hm.le
      calc |(m : ℚ)| * 2 ^ e ≤ 2 ^ 24 * 2 ^ e := by gcongr
        _ = 2 ^ (e + 24) := by rw [zpow_add₀ (by norm_num)]; norm_num; ring
        _ ≤ 2 ^ (ulpExp32 q + 23) := zpow_le_zpow_right₀ (by norm_num) (by omega)
    have e2 : (2 : ℚ) ^ (ulpExp32 q + 23) = 8388608 * 2 ^ ulpExp32 q := by
      rw [zpow_add₀ (by norm_num)]; norm_num; ring
    rcases le_or_gt 0 q with hq | hq
    · rw [abs_of_nonneg hq] at hlog
      have h1 := rnd32_multiple q (2 ^ 23)
      push_cast at h1
      rw [← e2, abs_of_nonneg (by linarith : 0 ≤ q - 2 ^ (ulpExp32 q + 23))] at h1
      have := le_abs_self ((m : ℚ) * 2 ^ e)
      have := le_abs_self (q - (m : ℚ) * 2 ^ e)
      linarith
    · rw [abs_of_neg hq] at hlog
      have h1 := rnd32_multiple q (-2 ^ 23)
      push_cast at h1
      rw [neg_mul, ← e2, abs_of_nonpos (by linarith : q - -2 ^ (ulpExp32 q + 23) ≤ 0)] at h1
      have := neg_abs_le ((m : ℚ) * 2 ^ e)
      have := neg_abs_le (q - (m : ℚ) * 2 ^ e)
      linarith

theorem roundHalfEven_neg (q : ℚ) : roundHalfEven (-q) = -roundHalfEven q := by
  have h1 := Int.floor_le q
  have h2 := Int.lt_floor_add_one q
  rcases eq_or_lt_of_le h1 with h | h
  · rw [← h, ← Int.cast_neg, roundHalfEven_int, roundHalfEven_int]
  · have hf : ⌊-q⌋ = -⌊q⌋ - 1 := by
      rw [Int.floor_eq_iff]; push_cast; constructor <;> linarith
    simp only [roundHalfEven, hf]
    push_cast
    split_ifs <;> first | omega | (exfalso; linarith)

theorem rnd32_neg (q : ℚ) : rnd32 (-q) = -rnd32 q := by
  have : ulpExp32 (-q) = ulpExp32 q := by unfold ulpExp32; rw [abs_neg]
  simp only [rnd32, this]
  rw [neg_div, roundHalfEven_neg]
  push_cast; ring

theorem representable_lt {q : ℚ} (h : Representable32 q) : |q| < 2 ^ 128 := by
  obtain ⟨m, e, hm, -, he, rfl⟩ := h
  rw [abs_mul, abs_of_pos (by positivity : (0 : ℚ) < 2 ^ e)]
  have h1 : |(m : ℚ)| < 2 ^ 24 := by exact_mod_cast hm
  calc |(m : ℚ)| * 2 ^ e < 2 ^ 24 * 2 ^ e := mul_lt_mul_of_pos_right h1 (by positivity)
    _ ≤ 2 ^ 24 * 2 ^ (104 : ℤ) := by gcongr; norm_num
    _ = 2 ^ 128 := by norm_num

theorem repr_neg {q : ℚ} (h : Representable32 q) : Representable32 (-q) := by
  obtain ⟨m, e, hm, ha, hb, rfl⟩ := h
  exact ⟨-m, e, by rwa [abs_neg], ha, hb, by push_cast; ring⟩

theorem rnd32_abs_le {q B : ℚ} (hB : Representable32 B) (h : |q| ≤ B) : |rnd32 q| ≤ B := by
  rw [abs_le] at h ⊢
  have h1 := rnd32_nearest q B hB
  have h2 := rnd32_nearest q (-B) (repr_neg hB)
  rw [abs_of_nonpos (by linarith : q - B ≤ 0), abs_le] at h1
  rw [abs_of_nonneg (by linarith : 0 ≤ q - -B), abs_le] at h2
  constructor <;> linarith

theorem Flt.round_repr {q : ℚ} (h : Representable32 q) : Flt.round q = .num q := by
  rw [Flt.round, rnd32_of_representable h, if_neg (not_le.2 (representable_lt h))]

theorem repr_intro {q : ℚ} (m e : ℤ) (hq : q = m * 2 ^ e) (hm : |m| < 2 ^ 24) (h1 : -149 ≤ e)
    (h2 : e ≤ 104) : Representable32 q := ⟨m, e, hm, h1, h2, hq⟩

theorem powf2_exact {x : ℤ} (h1 : -149 ≤ x) (h2 : x ≤ 127) : powf2 x = .num (2 ^ x) := by
  rw [powf2, Flt.round_repr]
  rcases le_or_gt x 104 with h | h
  · exact repr_intro 1 x (by simp) (by norm_num) h1 h
  · refine repr_intro (2 ^ (x - 104).toNat) 104 ?_ ?_ (by norm_num) (by norm_num)
    · rw [Int.cast_pow, Int.cast_ofNat, ← zpow_natCast (2 : ℚ), ← zpow_add₀ (by norm_num)]
      congr 1; omega
    · rw [abs_of_pos (by positivity)]
      exact pow_lt_pow_right₀ (by norm_num) (by omega)

theorem signOf_cases (b : Bool) : signOf b = 1 ∨ signOf b = -1 := by cases b <;> simp [signOf]

/-- Sign, fraction and power of two: only the last multiplication rounds. -/
theorem scaled (b : Bool) (n k : ℕ) (E : ℤ) (hn : n < 2 ^ 24) (hk : k ≤ 149) (h1 : -149 ≤ E)
    (h2 : E ≤ 127) :
    ((Flt.num (signOf b)).mul (Flt.round (n * 2 ^ (-(k : ℤ))))).mul (powf2 E) =
      Flt.round (signOf b * n / 2 ^ k * 2 ^ E) := by
  have hr : Representable32 ((n : ℚ) * 2 ^ (-(k : ℤ))) :=
    repr_intro n (-k) (by simp) (by rw [abs_of_nonneg (by positivity)]; exact_mod_cast hn)
      (by omega) (by omega)
  have hr' : Representable32 (signOf b * ((n : ℚ) * 2 ^ (-(k : ℤ)))) := by
    rcases signOf_cases b with h | h
    · rw [h, one_mul]; exact hr
    · obtain ⟨m, e, hm, ha, hb, hq⟩ := hr
      exact ⟨-m, e, by rwa [abs_neg], ha, hb, by rw [h, hq]; push_cast; ring⟩
  rw [Flt.round_repr hr, Flt.mul, Flt.round_repr hr', powf2_exact h1 h2, Flt.mul]
  congr 1
  rw [zpow_neg, zpow_natCast]; ring

theorem twosCompl_toNat {w : ℕ} (f : BitVec w) (len : ℕ) (hl : len < w) (h : f.toNat < 2 ^ len) :
    (twosCompl true f len).toNat = 2 ^ len - f.toNat := by
  have hp : 2 ^ len < 2 ^ w := Nat.pow_lt_pow_right (by norm_num) hl
  have hw : 1 < 2 ^ w := Nat.one_lt_two_pow (by omega)
  have h1 : (BitVec.ofNat w (2 ^ len - 1)).toNat = (2 ^ len - 1) <<< 0 := by
    rw [BitVec.toNat_ofNat, Nat.mod_eq_of_lt (by omega)]; simp
  have hone : (1 : BitVec w).toNat = 1 := by
    rw [show (1 : BitVec w) = BitVec.ofNat w 1 from rfl, BitVec.toNat_ofNat, Nat.mod_eq_of_lt hw]
  rw [twosCompl, if_pos rfl, BitVec.toNat_add, toNat_and_mask _ _ 0 len h1, BitVec.toNat_not, hone]
  have hdvd : 2 ^ len ∣ 2 ^ w := pow_dvd_pow 2 hl.le
  obtain ⟨c, hc⟩ := hdvd
  have hc0 : 0 < c := by
    rcases Nat.eq_zero_or_pos c with h0 | h0
    · rw [h0] at hc; omega
    · exact h0
  have : (2 ^ w - 1 - f.toNat) % 2 ^ len = 2 ^ len - 1 - f.toNat := by
    obtain ⟨d, rfl⟩ : ∃ d, c = d + 1 := ⟨c - 1, by omega⟩
    have : 2 ^ w - 1 - f.toNat = (2 ^ len - 1 - f.toNat) + 2 ^ len * d := by
      rw [hc, Nat.mul_add, Nat.mul_one]; omega
    rw [this, Nat.add_mul_mod_self_left, Nat.mod_eq_of_lt (by omega)]
  simp only [pow_zero, Nat.div_one, Nat.mul_one, this]
  rw [Nat.mod_eq_of_lt (by omega)]; omega

/-- The sign bit as a boolean. -/
theorem top_bit {w : ℕ} (v c : BitVec w) (s : ℕ) (hc : c.toNat = (2 ^ 1 - 1) <<< s) :
    ((v &&& c) >>> s ≠ 0) ↔ v.toNat / 2 ^ s % 2 = 1 := by
  have : ((v &&& c) >>> s).toNat = v.toNat / 2 ^ s % 2 := by
    rw [BitVec.toNat_ushiftRight, toNat_and_mask v c s 1 hc, Nat.shiftRight_eq_div_pow]
    rw [Nat.mul_div_cancel _ (by positivity)]
  constructor
  · intro h
    have h0 : ((v &&& c) >>> s).toNat ≠ 0 := by
      intro h1; apply h; apply BitVec.eq_of_toNat_eq; rw [h1]; simp
    omega
  · intro h h0
    rw [h0] at this; simp at this; omega

/-- Sign and magnitude as produced by `twos_complement` are a two's complement number. -/
theorem signed_magnitude {w : ℕ} (f : BitVec w) (b : Bool) (len : ℕ) (hl : len < w)
    (h : f.toNat < 2 ^ len) :
    signOf b * ((twosCompl b f len).toNat : ℚ) =
      (twosComplement (len + 1) ((if b then 2 ^ len else 0) + f.toNat) : ℚ) := by
  cases b
  · simp [signOf, twosCompl, twosComplement, h]
  · rw [twosCompl_toNat f len hl h]
    simp only [signOf, twosComplement, if_true, Nat.add_sub_cancel]
    rw [if_neg (by omega)]
    rw [Nat.cast_sub h.le]
    push_cast
    rw [pow_succ]; ring

theorem twosCompl_le {w : ℕ} (f : BitVec w) (b : Bool) (len : ℕ) (hl : len < w)
    (h : f.toNat < 2 ^ len) : (twosCompl b f len).toNat ≤ 2 ^ len := by
  cases b
  · simp [twosCompl]; omega
  · rw [twosCompl_toNat f len hl h]; omega

/-! ## C41: integers and bytes -/

theorem toInt_twosComplement {w : ℕ} (x : BitVec w) (h : 0 < w) :
    x.toInt = twosComplement w x.toNat := by
  rw [BitVec.toInt_eq_toNat_cond, twosComplement]
  obtain ⟨n, rfl⟩ : ∃ n, w = n + 1 := ⟨w - 1, by omega⟩
  simp only [Nat.add_sub_cancel, pow_succ]
  have := x.isLt
  by_cases hx : x.toNat < 2 ^ n
  · rw [if_pos (by omega), if_pos hx]
  · rw [if_neg (by omega), if_neg hx]; push_cast; rfl

/-- C41: code 56 is one byte, two's complement. -/
theorem c41_i8 : ReadsFixed i8 1 (fun e => twosComplement 8 (beNat e)) := by
  intro bs v r
  constructor
  · intro h
    match bs, h with
    | a :: bs, h =>
      simp only [i8, Option.some.injEq, Prod.mk.injEq] at h
      obtain ⟨rfl, rfl⟩ := h
      exact ⟨[a], rfl, rfl, by rw [toInt_twosComplement _ (by norm_num)]; simp [beNat]⟩
  · rintro ⟨enc, hl, rfl, rfl⟩
    match enc, hl with
    | [a], _ => simp [i8, toInt_twosComplement, beNat]

/-- C41: code 79 is two bytes, big-endian, two's complement. -/
theorem c41_i16 : ReadsFixed i16 2 (fun e => twosComplement 16 (beNat e)) := by
  intro bs v r
  constructor
  · intro h
    match bs, h with
    | a :: b :: bs, h =>
      simp only [i16, Option.some.injEq, Prod.mk.injEq, bswap16_load] at h
      obtain ⟨rfl, rfl⟩ := h
      exact ⟨[a, b], rfl, rfl, by rw [toInt_twosComplement _ (by norm_num), toNat16]⟩
  · rintro ⟨enc, hl, rfl, rfl⟩
    match enc, hl with
    | [a, b], _ => simp [i16, bswap16_load, toInt_twosComplement, ← toNat16]

/-- C41: code 73 is four bytes, big-endian, two's complement. -/
theorem c41_i32 : ReadsFixed i32 4 (fun e => twosComplement 32 (beNat e)) := by
  intro bs v r
  constructor
  · intro h
    match bs, h with
    | a :: b :: c :: d :: bs, h =>
      simp only [i32, Option.some.injEq, Prod.mk.injEq, bswap32_load] at h
      obtain ⟨rfl, rfl⟩ := h
      exact ⟨[a, b, c, d], rfl, rfl, by rw [toInt_twosComplement _ (by norm_num), toNat32]⟩
  · rintro ⟨enc, hl, rfl, rfl⟩
    match enc, hl with
    | [a, b, c, d], _ => simp [i32, bswap32_load, toInt_twosComplement, ← toNat32]

/-- C41: code 66 is one byte, unsigned. -/
theorem c41_byte : ReadsFixed byte 1 beNat := by
  intro bs v r
  constructor
  · intro h
    match bs, h with
    | a :: bs, h =>
      simp only [byte, Option.some.injEq, Prod.mk.injEq] at h
      obtain ⟨rfl, rfl⟩ := h
      exact ⟨[a], rfl, rfl, by simp [beNat]⟩
  · rintro ⟨enc, hl, rfl, rfl⟩
    match enc, hl with
    | [a], _ => simp [byte, beNat]

/-- C41: codes 65 and 77 are the bytes themselves, as many as asked for. -/
theorem c41_string_mask (len : ℕ) :
    ReadsFixed (lisString len) len id ∧ ReadsFixed (mask len) len id := by
  have : ReadsFixed (takeN len) len id := by
    intro bs v r
    constructor
    · intro h
      obtain ⟨rfl, hl⟩ := takeN_eq_some h
      exact ⟨v, hl, rfl, rfl⟩
    · rintro ⟨enc, hl, rfl, rfl⟩
      exact takeN_append' _ _ hl
  exact ⟨this, this⟩

/-! ## C41: 16-bit floating point -/

/-- C41: code 49 decodes to exactly the number specified, for all patterns. -/
theorem c41_f16_value (v : BitVec 16) : f16Value v = .num (Spec.f16 v.toNat) := by
  have hv := v.isLt
  have hexp : (v &&& 0x000F#16).toNat = v.toNat % 16 := by
    rw [toNat_and_mask _ _ 0 4 (by decide)]; omega
  have hfrac : ((v &&& 0x7FF0#16) >>> 4).toNat = v.toNat / 16 % 2 ^ 11 := by
    rw [BitVec.toNat_ushiftRight, toNat_and_mask _ _ 4 11 (by decide), Nat.shiftRight_eq_div_pow]
    omega
  have hfl : ((v &&& 0x7FF0#16) >>> 4).toNat < 2 ^ 11 := by rw [hfrac]; omega
  simp only [f16Value]
  generalize hb : decide ((v &&& 0x8000#16) >>> 15 ≠ 0) = b
  have hbit := top_bit v 0x8000#16 15 (by decide)
  have hle := twosCompl_le ((v &&& 0x7FF0#16) >>> 4) b 11 (by norm_num) hfl
  have key := scaled b (twosCompl b ((v &&& 0x7FF0#16) >>> 4) 11).toNat 11
    ((v &&& 0x000F#16).toNat) (by omega) (by norm_num) (by omega) (by omega)
  rw [show (-(11 : ℕ) : ℤ) = -11 by norm_num] at key
  rw [key, signed_magnitude _ _ _ (by norm_num) hfl, hexp, hfrac]
  have harg : (if b then 2 ^ 11 else 0) + v.toNat / 16 % 2 ^ 11 = v.toNat / 2 ^ 4 := by
    cases b
    · have : ¬ v.toNat / 2 ^ 15 % 2 = 1 := by
        rw [← hbit]; simpa using hb
      simp; omega
    · have : v.toNat / 2 ^ 15 % 2 = 1 := by
        rw [← hbit]; simpa using hb
      simp; omega
  rw [harg, Spec.f16, zpow_natCast]
  apply Flt.round_repr
  have hb12 : |twosComplement 12 (v.toNat / 2 ^ 4)| ≤ 2 ^ 11 := by
    rw [twosComplement, abs_le]; split <;> omega
  refine repr_intro (twosComplement 12 (v.toNat / 2 ^ 4)) ((v.toNat % 2 ^ 4 : ℕ) - 11) ?_
    (by omega) (by omega) (by omega)
  rw [zpow_sub₀ (by norm_num), zpow_natCast]
  norm_num
  ring

/-- C41 on buffers: two bytes, big-endian. -/
theorem c41_f16 : ReadsFixed f16 2 (fun e => .num (Spec.f16 (beNat e))) := by
  intro bs v r
  constructor
  · intro h
    match bs, h with
    | a :: b :: bs, h =>
      simp only [f16, Option.some.injEq, Prod.mk.injEq, bswap16_load, c41_f16_value,
        toNat16] at h
      obtain ⟨rfl, rfl⟩ := h
      exact ⟨[a, b], rfl, rfl, rfl⟩
  · rintro ⟨enc, hl, rfl, rfl⟩
    match enc, hl with
    | [a, b], _ => simp [f16, bswap16_load, c41_f16_value, toNat16]

/-- The examples of LIS79 B.1: 153 and -153. -/
example : f16 [0x4C, 0x88, 0x01] = some (.num 153, [0x01]) ∧
    f16 [0xB3, 0x88] = some (.num (-153), []) :=
  ⟨(c41_f16 _ _ _).2 ⟨[0x4C, 0x88], rfl, rfl, by
     simp only [show beNat [0x4C, 0x88] = 0x4C88 from rfl]; norm_num [Spec.f16, twosComplement]⟩,
   (c41_f16 _ _ _).2 ⟨[0xB3, 0x88], rfl, rfl, by
     simp only [show beNat [0xB3, 0x88] = 0xB388 from rfl]; norm_num [Spec.f16, twosComplement]⟩⟩

/-! ## C41: 32-bit floating point -/

theorem f32Frac_le (v : ℕ) (hv : v < 2 ^ 32) : |Spec.f32Frac v| ≤ 2 ^ 23 := by
  rw [Spec.f32Frac, twosComplement, abs_le]; split <;> omega

theorem f32Exp_range (v : ℕ) : -128 ≤ Spec.f32Exp v ∧ Spec.f32Exp v ≤ 127 := by
  unfold Spec.f32Exp; split <;> omega

/-- C41: code 68 decodes to the number specified, rounded once to the nearest
`float`, for all patterns. -/
theorem c41_f32_value (v : BitVec 32) : f32Value v = .num (rnd32 (Spec.f32 v.toNat)) := by
  have hv := v.isLt
  have hexp : (((v &&& 0x7F800000#32) >>> 23).setWidth 8).toNat = v.toNat / 2 ^ 23 % 2 ^ 8 := by
    rw [BitVec.toNat_setWidth, BitVec.toNat_ushiftRight, toNat_and_mask _ _ 23 8 (by decide),
      Nat.shiftRight_eq_div_pow]
    omega
  have hfrac : (v &&& 0x007FFFFF#32).toNat = v.toNat % 2 ^ 23 := by
    rw [toNat_and_mask _ _ 0 23 (by decide)]; omega
  have hfl : (v &&& 0x007FFFFF#32).toNat < 2 ^ 23 := by rw [hfrac]; omega
  simp only [f32Value]
  have hbit := top_bit v 0x80000000#32 31 (by decide)
  generalize hb : decide ((v &&& 0x80000000#32) >>> 31 ≠ 0) = b
  have hb' : b = true ↔ v.toNat / 2 ^ 31 = 1 := by
    rw [← hb, decide_eq_true_iff, hbit]; omega
  have hE : ((if b then ~~~(((v &&& 0x7F800000#32) >>> 23).setWidth 8)
      else ((v &&& 0x7F800000#32) >>> 23).setWidth 8).toNat : ℤ) - 128 = Spec.f32Exp v.toNat := by
    unfold Spec.f32Exp
    cases b
    · have : ¬ v.toNat / 2 ^ 31 = 1 := by rw [← hb']; simp
      rw [if_neg (by simp), hexp, if_pos (by omega)]
    · have : v.toNat / 2 ^ 31 = 1 := hb'.1 rfl
      rw [if_pos rfl, BitVec.toNat_not, hexp, if_neg (by omega)]; omega
  rw [hE]
  have hr := f32Exp_range v.toNat
  have hle := twosCompl_le (v &&& 0x007FFFFF#32) b 23 (by norm_num) hfl
  have key := scaled b (twosCompl b (v &&& 0x007FFFFF#32) 23).toNat 23
    (Spec.f32Exp v.toNat) (by omega) (by norm_num) (by omega) (by omega)
  rw [show (-(23 : ℕ) : ℤ) = -23 by norm_num] at key
  rw [key, signed_magnitude _ _ _ (by norm_num) hfl, hfrac]
  have harg : (if b then 2 ^ 23 else 0) + v.toNat % 2 ^ 23 =
      v.toNat / 2 ^ 31 * 2 ^ 23 + v.toNat % 2 ^ 23 := by
    cases b
    · have : ¬ v.toNat / 2 ^ 31 = 1 := by rw [← hb']; simp
      simp; omega
    · have : v.toNat / 2 ^ 31 = 1 := hb'.1 rfl
      rw [this]; simp
  rw [harg, ← Spec.f32Frac, ← Spec.f32, Flt.round, if_neg]
  -- the result is below 2^128
  have hq : |Spec.f32 v.toNat| ≤ 2 ^ (127 : ℤ) := by
    rw [Spec.f32, abs_mul, abs_of_pos (by positivity : (0 : ℚ) < 2 ^ Spec.f32Exp v.toNat)]
    have h1 : |(Spec.f32Frac v.toNat : ℚ) / 2 ^ 23| ≤ 1 := by
      rw [abs_div, abs_of_pos (by positivity : (0 : ℚ) < 2 ^ 23), div_le_one (by positivity)]
      exact_mod_cast f32Frac_le _ hv
    calc |(Spec.f32Frac v.toNat : ℚ) / 2 ^ 23| * 2 ^ Spec.f32Exp v.toNat
        ≤ 1 * 2 ^ Spec.f32Exp v.toNat := by gcongr
      _ ≤ 2 ^ (127 : ℤ) := by rw [one_mul]; exact zpow_le_zpow_right₀ (by norm_num) hr.2
  have hn := rnd32_abs_le (repr_intro (2 ^ 23) 104 (by norm_num) (by norm_num) (by norm_num)
    (by norm_num)) hq
  rw [not_le]
  calc |rnd32 (Spec.f32 v.toNat)| ≤ 2 ^ (127 : ℤ) := hn
    _ < 2 ^ 128 := by norm_num

/-- C41 on buffers: four bytes, big-endian. -/
theorem c41_f32 : ReadsFixed f32 4 (fun e => .num (rnd32 (Spec.f32 (beNat e)))) := by
  intro bs v r
  constructor
  · intro h
    match bs, h with
    | a :: b :: c :: d :: bs, h =>
      simp only [f32, Option.some.injEq, Prod.mk.injEq, bswap32_load, c41_f32_value,
        toNat32] at h
      obtain ⟨rfl, rfl⟩ := h
      exact ⟨[a, b, c, d], rfl, rfl, rfl⟩
  · rintro ⟨enc, hl, rfl, rfl⟩
    match enc, hl with
    | [a, b, c, d], _ =>
      simp only [List.cons_append, List.nil_append, f32, bswap32_load, c41_f32_value, toNat32]

/-- C41: code 68 is decoded exactly unless the number has digits below 2^-149, which
needs an exponent of -127 or -128. -/
theorem c41_f32_exact (v : BitVec 32)
    (h : -126 ≤ Spec.f32Exp v.toNat ∨
      (Spec.f32Exp v.toNat = -127 ∧ Spec.f32Frac v.toNat % 2 = 0) ∨
      (Spec.f32Exp v.toNat = -128 ∧ Spec.f32Frac v.toNat % 4 = 0)) :
    f32Value v = .num (Spec.f32 v.toNat) := by
  have hv := v.isLt
  have hf := f32Frac_le v.toNat hv
  have hr := f32Exp_range v.toNat
  rw [c41_f32_value, rnd32_of_representable]
  rcases h with h | ⟨h, h2⟩ | ⟨h, h2⟩
  · refine repr_intro (Spec.f32Frac v.toNat) (Spec.f32Exp v.toNat - 23) ?_ (by omega) (by omega)
      (by omega)
    rw [Spec.f32, zpow_sub₀ (by norm_num)]; norm_num; ring
  · obtain ⟨k, hk⟩ : ∃ k, Spec.f32Frac v.toNat = 2 * k := ⟨Spec.f32Frac v.toNat / 2, by omega⟩
    refine repr_intro k (-149) ?_ ?_ (by omega) (by omega)
    · rw [Spec.f32, h, hk]; push_cast; norm_num; ring
    · rw [hk, abs_le] at hf; rw [abs_lt]; omega
  · obtain ⟨k, hk⟩ : ∃ k, Spec.f32Frac v.toNat = 4 * k := ⟨Spec.f32Frac v.toNat / 4, by omega⟩
    refine repr_intro k (-149) ?_ ?_ (by omega) (by omega)
    · rw [Spec.f32, h, hk]; push_cast; norm_num; ring
    · rw [hk, abs_le] at hf; rw [abs_lt]; omega

/-- The examples of LIS79 B.5: 153 and -153. -/
example : f32 [0x44, 0x4C, 0x80, 0x00, 0x07] = some (.num 153, [0x07]) ∧
    f32 [0xBB, 0xB3, 0x80, 0x00] = some (.num (-153), []) := by
  have h1 := (c41_f32 [0x44, 0x4C, 0x80, 0x00, 0x07] (.num (rnd32 153)) [0x07]).2
    ⟨[0x44, 0x4C, 0x80, 0x00], rfl, rfl, by
      simp only [show beNat [0x44, 0x4C, 0x80, 0x00] = 0x444C8000 from rfl]
      norm_num [Spec.f32, Spec.f32Exp, Spec.f32Frac, twosComplement]⟩
  have h2 := (c41_f32 [0xBB, 0xB3, 0x80, 0x00] (.num (rnd32 (-153))) []).2
    ⟨[0xBB, 0xB3, 0x80, 0x00], rfl, rfl, by
      simp only [show beNat [0xBB, 0xB3, 0x80, 0x00] = 0xBBB38000 from rfl]
      norm_num [Spec.f32, Spec.f32Exp, Spec.f32Frac, twosComplement]⟩
  rw [rnd32_of_representable (repr_intro 153 0 (by norm_num) (by norm_num) (by norm_num)
    (by norm_num))] at h1
  rw [rnd32_of_representable (repr_intro (-153) 0 (by norm_num) (by norm_num) (by norm_num)
    (by norm_num))] at h2
  exact ⟨h1, h2⟩

/-! ## C41: 32-bit low resolution floating point -/

theorem powf2_inf {x : ℤ} (h : 128 ≤ x) : powf2 x = .inf false := by
  have h1 : rnd32 (2 ^ x) = 2 ^ x := by
    have := rnd32_mul_zpow 1 x (by norm_num) (by omega)
    simpa using this
  have h2 : (2 : ℚ) ^ 128 ≤ 2 ^ x := by
    calc (2 : ℚ) ^ 128 = 2 ^ (128 : ℤ) := by norm_num
      _ ≤ 2 ^ x := zpow_le_zpow_right₀ (by norm_num) h
  have h3 : (0 : ℚ) < 2 ^ x := by positivity
  rw [powf2, Flt.round, h1, if_pos (by rwa [abs_of_pos h3])]
  simp [h3.le]

theorem powf2_zero {x : ℤ} (h : x ≤ -150) : powf2 x = .num 0 := by
  have h3 : (0 : ℚ) < 2 ^ x := by positivity
  have hu : ulpExp32 (2 ^ x) = -149 := by
    rw [ulpExp32, abs_of_pos h3]
    have : Int.log 2 ((2 : ℚ) ^ x) = x := by
      simpa using Int.log_zpow (R := ℚ) (b := 2) (by norm_num) x
    rw [this]; omega
  have h0 : rnd32 (2 ^ x) = 0 := by
    rw [rnd32, hu, ← zpow_sub₀ (by norm_num)]
    have hle : (2 : ℚ) ^ (x - -149) ≤ 1 / 2 := by
      calc (2 : ℚ) ^ (x - -149) ≤ 2 ^ (-1 : ℤ) := zpow_le_zpow_right₀ (by norm_num) (by omega)
        _ = 1 / 2 := by norm_num
    have hpos : (0 : ℚ) < 2 ^ (x - -149) := by positivity
    have hfl : ⌊(2 : ℚ) ^ (x - -149)⌋ = 0 := by
      rw [Int.floor_eq_iff]; constructor
      · simpa using hpos.le
      · simp only [Int.cast_zero]; linarith
    have : roundHalfEven ((2 : ℚ) ^ (x - -149)) = 0 := by
      simp only [roundHalfEven, hfl, Int.cast_zero, sub_zero]
      split_ifs <;> first | rfl | omega | (exfalso; linarith)
    rw [this]; simp
  rw [powf2, Flt.round, h0, if_neg (by norm_num)]

theorem f32lowFrac_le (v : ℕ) : |Spec.f32lowFrac v| ≤ 2 ^ 15 := by
  rw [Spec.f32lowFrac, twosComplement, abs_le]; split <;> omega

theorem f32low_eq (v : ℕ) :
    Spec.f32low v = (Spec.f32lowFrac v : ℚ) * 2 ^ (Spec.f32lowExp v - 15) := by
  rw [Spec.f32low, zpow_sub₀ (by norm_num)]; norm_num; ring

theorem f32low_product (v : BitVec 32) :
    f32lowValue v = (Flt.num (Spec.f32lowFrac v.toNat)).mul (powf2 (Spec.f32lowExp v.toNat - 15)) := by
  have hv := v.isLt
  have hexp : (((v &&& 0x7FFF0000#32) >>> 16).setWidth 16).toNat = v.toNat / 2 ^ 16 % 2 ^ 15 := by
    rw [BitVec.toNat_setWidth, BitVec.toNat_ushiftRight, toNat_and_mask _ _ 16 15 (by decide),
      Nat.shiftRight_eq_div_pow]
    omega
  have hfrac : ((v &&& 0x00007FFF#32).setWidth 16).toNat = v.toNat % 2 ^ 15 := by
    rw [BitVec.toNat_setWidth, toNat_and_mask _ _ 0 15 (by decide)]; omega
  have hel : (((v &&& 0x7FFF0000#32) >>> 16).setWidth 16).toNat < 2 ^ 15 := by rw [hexp]; omega
  have hfl : ((v &&& 0x00007FFF#32).setWidth 16).toNat < 2 ^ 15 := by rw [hfrac]; omega
  simp only [f32lowValue]
  have hbitF := top_bit v 0x00008000#32 15 (by decide)
  have hbitE := top_bit v 0x80000000#32 31 (by decide)
  generalize hb : decide ((v &&& 0x00008000#32) >>> 15 ≠ 0) = b
  generalize hc : decide ((v &&& 0x80000000#32) >>> 31 ≠ 0) = c
  have hb' : b = true ↔ v.toNat / 2 ^ 15 % 2 = 1 := by
    rw [← hb, decide_eq_true_iff, hbitF]
  have hc' : c = true ↔ v.toNat / 2 ^ 31 % 2 = 1 := by
    rw [← hc, decide_eq_true_iff, hbitE]
  -- the fraction
  have hF : (Flt.num (signOf b)).mul (.round (twosCompl b ((v &&& 0x00007FFF#32).setWidth 16) 15).toNat)
      = .num (Spec.f32lowFrac v.toNat) := by
    have hle := twosCompl_le ((v &&& 0x00007FFF#32).setWidth 16) b 15 (by norm_num) hfl
    have hm := signed_magnitude ((v &&& 0x00007FFF#32).setWidth 16) b 15 (by norm_num) hfl
    have harg : (if b then 2 ^ 15 else 0) + v.toNat % 2 ^ 15 = v.toNat % 2 ^ 16 := by
      cases b
      · have : ¬ v.toNat / 2 ^ 15 % 2 = 1 := by rw [← hb']; simp
        simp; omega
      · have : v.toNat / 2 ^ 15 % 2 = 1 := hb'.1 rfl
        simp; omega
    rw [hfrac, harg, ← Spec.f32lowFrac] at hm
    rw [Flt.round_repr (repr_intro ((twosCompl b ((v &&& 0x00007FFF#32).setWidth 16) 15).toNat : ℤ) 0
      (by simp) (by rw [abs_of_nonneg (by omega)]; omega) (by norm_num) (by norm_num)), Flt.mul, hm]
    have := f32lowFrac_le v.toNat
    exact Flt.round_repr (repr_intro (Spec.f32lowFrac v.toNat) 0 (by simp) (by omega)
      (by norm_num) (by norm_num))
  -- the exponent
  have hE : (if c then -1 else 1) *
      ((twosCompl c (((v &&& 0x7FFF0000#32) >>> 16).setWidth 16) 15).toNat : ℤ) =
      Spec.f32lowExp v.toNat := by
    have hm := signed_magnitude (((v &&& 0x7FFF0000#32) >>> 16).setWidth 16) c 15 (by norm_num) hel
    have harg : (if c then 2 ^ 15 else 0) + v.toNat / 2 ^ 16 % 2 ^ 15 = v.toNat / 2 ^ 16 := by
      cases c
      · have : ¬ v.toNat / 2 ^ 31 % 2 = 1 := by rw [← hc']; simp
        simp; omega
      · have : v.toNat / 2 ^ 31 % 2 = 1 := hc'.1 rfl
        simp; omega
    rw [hexp, harg, ← Spec.f32lowExp] at hm
    have : ((if c then -1 else 1 : ℤ) : ℚ) = signOf c := by cases c <;> simp [signOf]
    rw [← this] at hm
    exact_mod_cast hm
  rw [hF, hE]

/-- C41, the part that holds for code 50: from exponent -134 on the value is exact, or
the infinity of its sign if it is beyond the range of `float`.  Excluded are zero with
an exponent above 142 and all numbers with an exponent below -134, see
`c41_f32low_zero_defect` and `c41_f32low_small_defect`. -/
theorem c41_f32low_partial (v : BitVec 32) (h1 : -134 ≤ Spec.f32lowExp v.toNat)
    (h2 : Spec.f32lowFrac v.toNat = 0 → Spec.f32lowExp v.toNat ≤ 142) :
    f32lowValue v = if |Spec.f32low v.toNat| < 2 ^ 128 then .num (Spec.f32low v.toNat)
      else .inf (decide (Spec.f32low v.toNat < 0)) := by
  have hf := f32lowFrac_le v.toNat
  rw [f32low_product, f32low_eq]
  rcases le_or_gt (Spec.f32lowExp v.toNat) 142 with h | h
  · rw [powf2_exact (by omega) (by omega), Flt.mul, Flt.round,
      rnd32_mul_zpow _ _ (by omega) (by omega)]
    by_cases hlt : |(Spec.f32lowFrac v.toNat : ℚ) * 2 ^ (Spec.f32lowExp v.toNat - 15)| < 2 ^ 128
    · rw [if_neg (not_le.2 hlt), if_pos hlt]
    · rw [if_pos (not_lt.1 hlt), if_neg hlt]
  · have h0 : Spec.f32lowFrac v.toNat ≠ 0 := fun h0 => absurd (h2 h0) (by omega)
    have hp : (0 : ℚ) < 2 ^ (Spec.f32lowExp v.toNat - 15) := by positivity
    rw [powf2_inf (by omega), Flt.mul, if_neg (by exact_mod_cast h0), if_neg]
    · simp [mul_neg_iff, hp, hp.le]
    · rw [not_lt, abs_mul, abs_of_pos hp]
      have h1 : (1 : ℚ) ≤ |(Spec.f32lowFrac v.toNat : ℚ)| := by
        exact_mod_cast Int.one_le_abs h0
      calc (2 : ℚ) ^ 128 = 1 * 2 ^ (128 : ℤ) := by norm_num
        _ ≤ |(Spec.f32lowFrac v.toNat : ℚ)| * 2 ^ (Spec.f32lowExp v.toNat - 15) := by
          gcongr
          · norm_num
          · omega

/-- C41 fails for code 50: zero with an exponent above 142 is decoded as NaN. -/
theorem c41_f32low_zero_defect (v : BitVec 32) (h1 : 142 < Spec.f32lowExp v.toNat)
    (h2 : Spec.f32lowFrac v.toNat = 0) : Spec.f32low v.toNat = 0 ∧ f32lowValue v = .nan := by
  rw [f32low_product, powf2_inf (by omega), h2]
  simp [Spec.f32low, h2, Flt.mul]

/-- C41 fails for code 50: with an exponent below -134 everything is decoded as zero. -/
theorem c41_f32low_small_defect (v : BitVec 32) (h1 : Spec.f32lowExp v.toNat < -134) :
    f32lowValue v = .num 0 := by
  rw [f32low_product, powf2_zero (by omega), Flt.mul, mul_zero, Flt.round, rnd32_zero,
    if_neg (by norm_num)]

/-- ... also when the number can be represented: 0xFF794000 is 2^-136. -/
example : Representable32 (Spec.f32low 0xFF794000) ∧ Spec.f32low 0xFF794000 = 2 ^ (-136 : ℤ) ∧
    f32lowValue 0xFF794000 = .num 0 := by
  have h : Spec.f32low 0xFF794000 = 2 ^ (-136 : ℤ) := by
    norm_num [Spec.f32low, Spec.f32lowFrac, Spec.f32lowExp, twosComplement]
  refine ⟨repr_intro 1 (-136) ?_ ?_ ?_ ?_, h, c41_f32low_small_defect _ (by decide)⟩
  · rw [h]; norm_num
  all_goals norm_num

/-- C41 on buffers: four bytes, big-endian. -/
theorem c41_f32low_reads :
    ReadsFixed f32low 4 (fun e => f32lowValue (BitVec.ofNat 32 (beNat e))) := by
  intro bs v r
  constructor
  · intro h
    match bs, h with
    | a :: b :: c :: d :: bs, h =>
      simp only [f32low, Option.some.injEq, Prod.mk.injEq, bswap32_load] at h
      obtain ⟨rfl, rfl⟩ := h
      exact ⟨[a, b, c, d], rfl, rfl, by simp [← toNat32]⟩
  · rintro ⟨enc, hl, rfl, rfl⟩
    match enc, hl with
    | [a, b, c, d], _ => simp [f32low, bswap32_load, ← toNat32]

/-- The examples of LIS79 B.2, 153 and -153; and an overflow. -/
example : f32lowValue 0x00084C80 = .num 153 ∧ f32lowValue 0x0008B380 = .num (-153) ∧
    f32lowValue 0x00C8C000 = .inf true ∧ f32lowValue 0x40000000 = .nan := by
  refine ⟨?_, ?_, ?_, (c41_f32low_zero_defect _ (by decide) (by decide)).2⟩
  · rw [c41_f32low_partial _ (by decide) (by decide),
      show (0x00084C80 : BitVec 32).toNat = 0x00084C80 from rfl]
    norm_num [Spec.f32low, Spec.f32lowFrac, Spec.f32lowExp, twosComplement]
  · rw [c41_f32low_partial _ (by decide) (by decide),
      show (0x0008B380 : BitVec 32).toNat = 0x0008B380 from rfl]
    norm_num [Spec.f32low, Spec.f32lowFrac, Spec.f32lowExp, twosComplement]
  · rw [c41_f32low_partial _ (by decide) (by decide),
      show (0x00C8C000 : BitVec 32).toNat = 0x00C8C000 from rfl]
    norm_num [Spec.f32low, Spec.f32lowFrac, Spec.f32lowExp, twosComplement]

/-! ## C41: 32-bit fixed point -/

theorem rnd32_significand (q : ℚ) : |roundHalfEven (q / 2 ^ ulpExp32 q)| ≤ 2 ^ 24 := by
  by_cases hq : q = 0
  · subst hq; simp [roundHalfEven]
  have hp : (0 : ℚ) < 2 ^ ulpExp32 q := by positivity
  have hlog : |q| ≤ (2 : ℚ) ^ (ulpExp32 q + 24) := by
    have h := Int.lt_zpow_succ_log_self (R := ℚ) (b := 2) (by norm_num) |q|
    refine (h.le.trans ?_)
    push_cast
    exact zpow_le_zpow_right₀ (by norm_num) (by unfold ulpExp32; omega)
  have hx : |q / 2 ^ ulpExp32 q| ≤ 2 ^ 24 := by
    rw [abs_div, abs_of_pos hp, div_le_iff₀ hp]
    calc |q| ≤ (2 : ℚ) ^ (ulpExp32 q + 24) := hlog
      _ = 2 ^ 24 * 2 ^ ulpExp32 q := by rw [zpow_add₀ (by norm_num), mul_comm]; norm_cast
  generalize q / 2 ^ ulpExp32 q = x at hx
  rw [abs_le] at hx
  have h1 := roundHalfEven_nearest x (2 ^ 24)
  have h2 := roundHalfEven_nearest x (-2 ^ 24)
  push_cast at h1 h2
  rw [abs_of_nonpos (by linarith : x - 16777216 ≤ 0), abs_le] at h1
  rw [abs_of_nonneg (by linarith : 0 ≤ x - -16777216), abs_le] at h2
  rw [abs_le]
  constructor
  · have : ((-2 ^ 24 : ℤ) : ℚ) ≤ roundHalfEven x := by push_cast; linarith
    exact_mod_cast this
  · have : (roundHalfEven x : ℚ) ≤ ((2 ^ 24 : ℤ) : ℚ) := by push_cast; linarith
    exact_mod_cast this

theorem rnd32_rnd32 (q : ℚ) : rnd32 (rnd32 q) = rnd32 q := by
  have hs := rnd32_significand q
  have hu : -149 ≤ ulpExp32 q := by unfold ulpExp32; omega
  rcases lt_or_eq_of_le hs with h | h
  · conv_lhs => rw [show rnd32 q = roundHalfEven (q / 2 ^ ulpExp32 q) * 2 ^ ulpExp32 q from rfl]
    rw [rnd32_mul_zpow _ _ h hu]; rfl
  · have e24 : (2 : ℚ) ^ (ulpExp32 q + 24) = 2 ^ 24 * 2 ^ ulpExp32 q := by
      rw [zpow_add₀ (by norm_num), mul_comm]; norm_cast
    rcases (abs_eq (by norm_num)).1 h with h | h
    · have e : rnd32 q = ((1 : ℤ) : ℚ) * 2 ^ (ulpExp32 q + 24) := by
        rw [rnd32, h, e24]; push_cast; ring
      rw [e, rnd32_mul_zpow _ _ (by norm_num) (by omega)]
    · have e : rnd32 q = ((-1 : ℤ) : ℚ) * 2 ^ (ulpExp32 q + 24) := by
        rw [rnd32, h, e24]; push_cast; ring
      rw [e, rnd32_mul_zpow _ _ (by norm_num) (by omega)]

theorem Flt.round_small {q : ℚ} (h : |q| ≤ 2 ^ 127) : Flt.round q = .num (rnd32 q) := by
  have hn := rnd32_abs_le (repr_intro (2 ^ 23) 104 (by norm_num) (by norm_num) (by norm_num)
    (by norm_num)) h
  rw [Flt.round, if_neg]
  rw [not_le]
  calc |rnd32 q| ≤ 2 ^ 127 := hn
    _ < 2 ^ 128 := by norm_num

/-- C41: code 70 decodes to the number specified, rounded once to the nearest
`float`, for all patterns. -/
theorem c41_f32fix_value (v : BitVec 32) : f32fixValue v = .num (rnd32 (Spec.f32fix v.toNat)) := by
  have hv := v.isLt
  have hdata : (v &&& 0x7FFFFFFF#32).toNat = v.toNat % 2 ^ 31 := by
    rw [toNat_and_mask _ _ 0 31 (by decide)]; omega
  have hdl : (v &&& 0x7FFFFFFF#32).toNat < 2 ^ 31 := by rw [hdata]; omega
  simp only [f32fixValue]
  have hbit := top_bit v 0x80000000#32 31 (by decide)
  generalize hb : decide ((v &&& 0x80000000#32) >>> 31 ≠ 0) = b
  have hb' : b = true ↔ v.toNat / 2 ^ 31 = 1 := by
    rw [← hb, decide_eq_true_iff, hbit]; omega
  have hm := signed_magnitude (v &&& 0x7FFFFFFF#32) b 31 (by norm_num) hdl
  have hle := twosCompl_le (v &&& 0x7FFFFFFF#32) b 31 (by norm_num) hdl
  have harg : (if b then 2 ^ 31 else 0) + v.toNat % 2 ^ 31 = v.toNat := by
    cases b
    · have : ¬ v.toNat / 2 ^ 31 = 1 := by rw [← hb']; simp
      simp; omega
    · have : v.toNat / 2 ^ 31 = 1 := hb'.1 rfl
      simp; omega
  rw [hdata, harg] at hm
  generalize hd : twosCompl b (v &&& 0x7FFFFFFF#32) 31 = d at hm hle
  have hi : (((d &&& 0xFFFF0000#32) >>> 16).setWidth 16).toNat = d.toNat / 2 ^ 16 := by
    rw [BitVec.toNat_setWidth, BitVec.toNat_ushiftRight, toNat_and_mask _ _ 16 16 (by decide),
      Nat.shiftRight_eq_div_pow]
    omega
  have hr : ((d &&& 0x0000FFFF#32).setWidth 16).toNat = d.toNat % 2 ^ 16 := by
    rw [BitVec.toNat_setWidth, toNat_and_mask _ _ 0 16 (by decide)]; omega
  rw [hi, hr]
  have hsum : (((d.toNat / 2 ^ 16 : ℕ) : ℚ)) + ((d.toNat % 2 ^ 16 : ℕ) : ℚ) * 2 ^ (-16 : ℤ) =
      (d.toNat : ℚ) / 2 ^ 16 := by
    have h : (d.toNat : ℚ) = 2 ^ 16 * ((d.toNat / 2 ^ 16 : ℕ) : ℚ) + ((d.toNat % 2 ^ 16 : ℕ) : ℚ) := by
      exact_mod_cast (Nat.div_add_mod d.toNat (2 ^ 16)).symm
    conv_rhs => rw [h]
    norm_num; ring
  have hbound : |(d.toNat : ℚ) / 2 ^ 16| ≤ 2 ^ 127 := by
    rw [abs_of_nonneg (by positivity), div_le_iff₀ (by positivity)]
    calc (d.toNat : ℚ) ≤ 2 ^ 31 := by exact_mod_cast hle
      _ ≤ _ := by norm_num
  rw [Flt.round_repr (repr_intro ((d.toNat / 2 ^ 16 : ℕ) : ℤ) 0 (by rw [Int.cast_natCast]; simp)
      (by rw [abs_of_nonneg (by omega)]; omega) (by norm_num) (by norm_num)),
    Flt.round_repr (repr_intro ((d.toNat % 2 ^ 16 : ℕ) : ℤ) (-16) (by rw [Int.cast_natCast])
      (by rw [abs_of_nonneg (by omega)]; omega) (by norm_num) (by norm_num)),
    Flt.add, hsum, Flt.round_small hbound, Flt.mul]
  have hspec : Spec.f32fix v.toNat = signOf b * ((d.toNat : ℚ) / 2 ^ 16) := by
    rw [Spec.f32fix, ← hm]; ring
  have hrb : |rnd32 ((d.toNat : ℚ) / 2 ^ 16)| ≤ 2 ^ 127 :=
    rnd32_abs_le (repr_intro (2 ^ 23) 104 (by norm_num) (by norm_num) (by norm_num)
      (by norm_num)) hbound
  rw [hspec]
  rcases signOf_cases b with h | h
  · rw [h, one_mul, one_mul, Flt.round_small hrb, rnd32_rnd32]
  · rw [h, neg_one_mul, neg_one_mul, Flt.round_small (by rwa [abs_neg]), rnd32_neg, rnd32_neg,
      rnd32_rnd32]

/-- C41: code 70 is exact whenever the number is a `float`; in particular between -256
and 256. -/
theorem c41_f32fix_exact (v : BitVec 32) :
    (Representable32 (Spec.f32fix v.toNat) → f32fixValue v = .num (Spec.f32fix v.toNat)) ∧
    (|Spec.f32fix v.toNat| < 256 → f32fixValue v = .num (Spec.f32fix v.toNat)) := by
  have h1 : Representable32 (Spec.f32fix v.toNat) → f32fixValue v = .num (Spec.f32fix v.toNat) := by
    intro h; rw [c41_f32fix_value, rnd32_of_representable h]
  refine ⟨h1, fun h => h1 (repr_intro (twosComplement 32 v.toNat) (-16) ?_ ?_ (by norm_num)
    (by norm_num))⟩
  · rw [Spec.f32fix]; norm_num; ring
  · rw [Spec.f32fix, abs_div, abs_of_pos (by positivity : (0 : ℚ) < 2 ^ 16),
      div_lt_iff₀ (by positivity)] at h
    have : |(twosComplement 32 v.toNat : ℚ)| < 2 ^ 24 := by linarith
    exact_mod_cast this

/-- C41 on buffers: four bytes, big-endian. -/
theorem c41_f32fix : ReadsFixed f32fix 4 (fun e => .num (rnd32 (Spec.f32fix (beNat e)))) := by
  intro bs v r
  constructor
  · intro h
    match bs, h with
    | a :: b :: c :: d :: bs, h =>
      simp only [f32fix, Option.some.injEq, Prod.mk.injEq, bswap32_load, c41_f32fix_value,
        toNat32] at h
      obtain ⟨rfl, rfl⟩ := h
      exact ⟨[a, b, c, d], rfl, rfl, rfl⟩
  · rintro ⟨enc, hl, rfl, rfl⟩
    match enc, hl with
    | [a, b, c, d], _ =>
      simp only [List.cons_append, List.nil_append, f32fix, bswap32_load, c41_f32fix_value, toNat32]

/-- The examples of LIS79 B.6: 153.25 and -153.25. -/
example : f32fixValue 0x00994000 = .num (153 + 1 / 4) ∧
    f32fixValue 0xFF66C000 = .num (-(153 + 1 / 4)) := by
  constructor
  · rw [(c41_f32fix_exact _).2] <;>
      rw [show (0x00994000 : BitVec 32).toNat = 0x00994000 from rfl] <;> norm_num [Spec.f32fix, twosComplement]
  · rw [(c41_f32fix_exact _).2] <;>
      rw [show (0xFF66C000 : BitVec 32).toNat = 0xFF66C000 from rfl] <;> norm_num [Spec.f32fix, twosComplement]

/-- The mask of `twos_complement` is computed without overflow of `int` exactly for
less than 31 bits; the fixed point decoder asks for 31 when the number is negative. -/
theorem c41_f32fix_mask_defect (len : ℕ) : maskInt len = none ↔ 31 ≤ len := by
  unfold maskInt
  constructor
  · intro h
    by_contra hl
    rw [if_pos] at h
    · cases h
    · have : (2 : ℤ) ^ len ≤ 2 ^ 30 := pow_le_pow_right₀ (by norm_num) (by omega)
      omega
  · intro h
    rw [if_neg]
    have : (2 : ℤ) ^ 31 ≤ 2 ^ len := pow_le_pow_right₀ (by norm_num) h
    omega

/-- C41: where codes 68 and 70 are not exact, no `float` is closer to the number
specified than the one decoded. -/
theorem c41_nearest (v : BitVec 32) :
    (∃ x, f32Value v = .num x ∧
      ∀ r, Representable32 r → |Spec.f32 v.toNat - x| ≤ |Spec.f32 v.toNat - r|) ∧
    (∃ x, f32fixValue v = .num x ∧
      ∀ r, Representable32 r → |Spec.f32fix v.toNat - x| ≤ |Spec.f32fix v.toNat - r|) :=
  ⟨⟨_, c41_f32_value v, fun r hr => rnd32_nearest _ r hr⟩,
   ⟨_, c41_f32fix_value v, fun r hr => rnd32_nearest _ r hr⟩⟩

/-! ## C41: sizes -/

/-- C41: the size table gives what the decoders consume, 0 for codes without a size of
their own, and a negative number for unknown codes. -/
theorem c41_sizeof (n : ℤ) :
    (sizeofType n < 0 ↔ ∀ c : Reprc, n ≠ c.code) ∧
    ∀ c : Reprc, sizeofType c.code = c.size := by
  constructor
  · constructor
    · intro h c hc
      subst hc
      cases c <;> simp [sizeofType, Reprc.ofCode, Reprc.code, Reprc.size] at h
    · intro h
      have h' : Reprc.ofCode n = none := by
        have := h .i8; have := h .i16; have := h .i32; have := h .f16; have := h .f32
        have := h .f32low; have := h .f32fix; have := h .string; have := h .byte; have := h .mask
        simp only [Reprc.code] at *
        simp_all [Reprc.ofCode]
      simp [sizeofType, h']
  · intro c; cases c <;> rfl

end Dlisio.Lis
