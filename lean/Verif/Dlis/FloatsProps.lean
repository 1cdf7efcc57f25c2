import Verif.Dlis.Floats
import Verif.Dlis.TypesProps
/-
Property theorems C06 (FSHORT), C07 (IBM decode), C08 (VAX), C10 (IBM round trip).
-/
namespace Dlisio.Dlis

/-! ### Specification -/
namespace Spec

/-- FSHORT (RP66 V1 B.1): 12-bit two's complement fraction with 11 binary places,
times a power of two given by the low four bits. -/
def fshort (v : ℕ) : ℚ := (twosComplement 12 (v / 16) : ℚ) / 2 ^ 11 * 2 ^ (v % 16)

/-- IBM System/360 single: sign, base-16 exponent with bias 64, 24-bit fraction. -/
def ibm32 (u : BitVec 32) : ℚ :=
  (-1 : ℚ) ^ (u.toNat / 2 ^ 31 : ℕ) * ((u.toNat % 2 ^ 24 : ℕ) / 2 ^ 24) *
    16 ^ (((u.toNat / 2 ^ 24 % 2 ^ 7 : ℕ) : ℤ) - 64)

/-- VAX F-floating on the word with fields sign(1) exponent(8) fraction(23):
`0.1fff... * 2^(exp-128)`. -/
def vax32 (v : BitVec 32) : ℚ :=
  (-1 : ℚ) ^ (v.toNat / 2 ^ 31 : ℕ) * (1 / 2 + (v.toNat % 2 ^ 23 : ℕ) / 2 ^ 24) *
    2 ^ (((v.toNat / 2 ^ 23 % 2 ^ 8 : ℕ) : ℤ) - 128)

end Spec

/-! ## C06 FSHORT -/

theorem fshort_frac_neg (f : BitVec 16) (h : f.toNat < 4096) :
    ((~~~f &&& 0x0FFF#16) + 1).toNat = 4096 - f.toNat := by
  rw [BitVec.toNat_add, toNat_and_mask _ _ 0 12 (by decide), BitVec.toNat_not]
  have : (1 : BitVec 16).toNat = 1 := rfl
  omega

/-- C06: the decoded FSHORT is exactly the specified number. -/
theorem c06_fshort_value (v : BitVec 16) : fshortValue v = .num (Spec.fshort v.toNat) := by
  have hv := v.isLt
  have hsign : (v &&& 0x8000#16).toNat = v.toNat / 2 ^ 15 % 2 ^ 1 * 2 ^ 15 :=
    toNat_and_mask _ _ 15 1 (by decide)
  have hexp : (v &&& 0x000F#16).toNat = v.toNat % 16 := by
    rw [toNat_and_mask _ _ 0 4 (by decide)]; omega
  have hfrac : ((v &&& 0xFFF0#16) >>> 4).toNat = v.toNat / 16 := by
    rw [BitVec.toNat_ushiftRight, toNat_and_mask _ _ 4 12 (by decide), Nat.shiftRight_eq_div_pow]
    omega
  -- the signed fraction as an integer
  set k : ℕ := v.toNat % 16 with hk
  have hk16 : k < 16 := by omega
  set t : ℤ := twosComplement 12 (v.toNat / 16) with ht
  have ht' : |t| ≤ 2 ^ 11 := by
    rw [ht, twosComplement, abs_le]; split <;> omega
  have repr_pow : Representable32 (2 ^ k) :=
    ⟨1, k, by norm_num, by omega, by omega, by simp⟩
  have repr_t : ∀ m : ℤ, |m| ≤ 2 ^ 11 → Representable32 ((m : ℚ) / 2 ^ 11) := by
    intro m hm
    exact ⟨m, -11, by omega, by omega, by omega, by rw [zpow_neg]; rfl⟩
  have repr_prod : Representable32 ((t : ℚ) / 2 ^ 11 * 2 ^ k) := by
    refine ⟨t, k - 11, by omega, by omega, by omega, ?_⟩
    rw [zpow_sub₀ (by norm_num)]
    simp only [zpow_natCast]
    norm_num
    ring
  -- sign * (frac / 2048) = t / 2048
  have main : ∀ (sgn : ℚ) (n : ℕ), sgn * (n : ℚ) = t → n ≤ 2048 →
      rnd32 (rnd32 (sgn * rnd32 ((n : ℚ) / 0x0800)) * rnd32 (2 ^ k)) = t / 2 ^ 11 * 2 ^ k := by
    intro sgn n hn hle
    have h1 : rnd32 ((n : ℚ) / 0x0800) = n / 2 ^ 11 := by
      rw [show ((n : ℚ) / 0x0800) = ((n : ℤ) : ℚ) / 2 ^ 11 by norm_num]
      exact rnd32_of_representable (repr_t n (by rw [abs_of_nonneg (by omega)]; omega))
    have h2 : sgn * ((n : ℚ) / 2 ^ 11) = t / 2 ^ 11 := by rw [← hn]; ring
    rw [h1, h2, rnd32_of_representable (repr_t t ht'), rnd32_of_representable repr_pow,
      rnd32_of_representable repr_prod]
  by_cases hneg : v.toNat < 2 ^ 15
  · have hs : (v &&& 0x8000#16) = 0 := by
      apply BitVec.eq_of_toNat_eq; rw [hsign]; simp; omega
    simp only [fshortValue, Spec.fshort, hs, ne_eq, not_true_eq_false, if_false, hfrac, hexp]
    rw [main 1 (v.toNat / 16) (by
      rw [ht, twosComplement, if_pos (by omega), one_mul, Int.cast_natCast]) (by omega)]
  · have hs : (v &&& 0x8000#16) ≠ 0 := by
      intro h
      have := congrArg BitVec.toNat h
      rw [hsign] at this
      simp at this; omega
    simp only [fshortValue, Spec.fshort, hs, ne_eq, not_false_eq_true, if_true, hexp]
    rw [fshort_frac_neg _ (by rw [hfrac]; omega), hfrac,
      main (-1) (4096 - v.toNat / 16) (by
        rw [ht, twosComplement, if_neg (by omega)]
        rw [Nat.cast_sub (by omega), Int.cast_sub, Int.cast_natCast]; push_cast; ring) (by omega)]

/-- C06 on buffers: two bytes are consumed, big-endian. -/
theorem c06_fshort_reads : Spec.ReadsFixed fshort 2 (fun e => .num (Spec.fshort (beNat e))) := by
  intro bs v r
  constructor
  · intro h
    match bs, h with
    | a :: b :: bs, h =>
      simp only [fshort, Option.some.injEq, Prod.mk.injEq, bswap16_load, c06_fshort_value,
        toNat16] at h
      obtain ⟨rfl, rfl⟩ := h
      exact ⟨[a, b], rfl, rfl, rfl⟩
  · rintro ⟨enc, hl, rfl, rfl⟩
    match enc, hl with
    | [a, b], _ =>
      simp only [fshort, List.cons_append, List.nil_append, bswap16_load, c06_fshort_value, toNat16]

/-- 153 is the RP66 example value of FSHORT (0x4C88). -/
example : fshort [0x4C#8, 0x88#8, 0xFF#8] = some (.num 153, [0xFF#8]) := by
  rw [c06_fshort_reads]
  exact ⟨[0x4C#8, 0x88#8], rfl, rfl, by norm_num [Spec.fshort, beNat, twosComplement]⟩

/-! ## C07 IBM decode -/

/-- `dlis_isingl` with all bit operations turned into arithmetic on the fields
`m` (24-bit fraction) and `a` (all but the sign). -/
theorem isinglBits_toNat (u : BitVec 32) (a m : ℕ) (ha : a = u.toNat % 2 ^ 31)
    (hm : m = u.toNat % 2 ^ 24) (hlo : 0x21200000 ≤ a) (hhi : a ≤ 0x611FFFFF) :
    (isinglBits u).toNat =
      (m * (if m < 2 ^ 21 then 8 else if m < 2 ^ 22 then 4 else if m < 2 ^ 23 then 2 else 1) +
        (2 ^ 32 + a - m -
          (if m < 2 ^ 21 then 0x21800000 else if m < 2 ^ 22 then 0x21400000
            else if m < 2 ^ 23 then 0x21000000 else 0x20c00000)) * 2) % 2 ^ 32
      ||| u.toNat / 2 ^ 31 * 2 ^ 31 := by
  have hu := u.isLt
  have h1 : (u &&& 0x00FFFFFF#32).toNat = m := by
    rw [toNat_and_mask _ _ 0 24 (by decide)]; omega
  have h2 : ((u &&& 0x00FFFFFF#32) >>> 21).toNat = m / 2 ^ 21 := by
    rw [BitVec.toNat_ushiftRight, h1, Nat.shiftRight_eq_div_pow]
  have h3 : (u &&& 0x7f000000#32).toNat = a - m := by
    rw [toNat_and_mask _ _ 24 7 (by decide)]; omega
  have h4 : (u &&& 0x7FFFFFFF#32).toNat = a := by
    rw [toNat_and_mask _ _ 0 31 (by decide)]; omega
  have h5 : (u &&& 0x80000000#32).toNat = u.toNat / 2 ^ 31 * 2 ^ 31 := by
    rw [toNat_and_mask _ _ 31 1 (by decide)]; omega
  have hm24 : m < 2 ^ 24 := by omega
  have hma : m ≤ a := by omega
  have hit : (isinglIt ((u &&& 0x00FFFFFF#32) >>> 21)).toNat =
      (if m < 2 ^ 21 then 0x21800000 else if m < 2 ^ 22 then 0x21400000
            else if m < 2 ^ 23 then 0x21000000 else 0x20c00000) := by
    simp only [isinglIt, ← BitVec.toNat_inj, h2, BitVec.ofNat_eq_ofNat, BitVec.toNat_ofNat]
    split_ifs <;> first | rfl | omega
  have hmt : (isinglMt ((u &&& 0x00FFFFFF#32) >>> 21)).toNat =
      (if m < 2 ^ 21 then 8 else if m < 2 ^ 22 then 4 else if m < 2 ^ 23 then 2 else 1) := by
    simp only [isinglMt, ← BitVec.toNat_inj, h2, BitVec.ofNat_eq_ofNat, BitVec.toNat_ofNat]
    split_ifs <;> first | rfl | omega
  unfold isinglBits
  simp only [BitVec.lt_def, h4]
  rw [if_neg (by simp; omega), if_neg (by simp; omega), BitVec.toNat_or, h5, BitVec.toNat_add,
    BitVec.toNat_mul, h1, hmt, BitVec.toNat_shiftLeft, BitVec.toNat_sub, h3, hit,
    Nat.shiftLeft_eq]
  congr 1
  split_ifs <;> omega

/-- C07, partial: a normalised IBM number (leading hexadecimal digit of the fraction
not zero) of magnitude in the normal range of binary32 is decoded exactly.
The full claim "every ISINGL decodes to the number it denotes, when binary32 can
represent it" is false, see `c07_unnormalised_defect` and `c07_subnormal_defect`. -/
theorem c07_isingl_value_partial (u : BitVec 32)
    (hnorm : 2 ^ 20 ≤ u.toNat % 2 ^ 24)
    (hlo : 0x21400000 ≤ u.toNat % 2 ^ 31) (hhi : u.toNat % 2 ^ 31 < 0x61100000) :
    ieee32 (isinglBits u) = some (Spec.ibm32 u) := by
  have hu := u.isLt
  obtain ⟨a, ha⟩ : ∃ a, a = u.toNat % 2 ^ 31 := ⟨_, rfl⟩
  obtain ⟨m, hm⟩ : ∃ m, m = u.toNat % 2 ^ 24 := ⟨_, rfl⟩
  obtain ⟨s, hs⟩ : ∃ s, s = u.toNat / 2 ^ 31 := ⟨_, rfl⟩
  obtain ⟨e, he⟩ : ∃ e, e = u.toNat / 2 ^ 24 % 2 ^ 7 := ⟨_, rfl⟩
  have hbits := isinglBits_toNat u a m ha hm (by omega) (by omega)
  have hs2 : s < 2 := by omega
  have hae : a = e * 2 ^ 24 + m := by omega
  -- the pattern in terms of its fields
  have key : ∀ k c : ℕ, 2 ^ 23 ≤ m * 2 ^ k → m * 2 ^ k < 2 ^ 24 → 1 ≤ 4 * e - c → c < 4 * e →
      4 * e - c < 255 → c = 130 + k →
      (isinglBits u).toNat = s * 2 ^ 31 + (4 * e - c) * 2 ^ 23 + (m * 2 ^ k - 2 ^ 23) →
      ieee32 (isinglBits u) = some (Spec.ibm32 u) := by
    intro k c h1 h2 h3 h4 h5 h6 h7
    rw [ieee32_fields h7 (by omega) h5 (by omega), Spec.ibm32, ← hs, ← hm, ← he]
    congr 1
    have e1 : ((m * 2 ^ k - 2 ^ 23 : ℕ) : ℚ) = m * 2 ^ k - 2 ^ 23 := by
      rw [Nat.cast_sub h1]; push_cast; ring
    have e2 : (((4 * e - c : ℕ) : ℤ) - 150) = 4 * ((e : ℤ) - 64) - 24 - k := by omega
    have e3 : (16 : ℚ) ^ ((e : ℤ) - 64) = 2 ^ (4 * ((e : ℤ) - 64)) := by
      rw [zpow_mul]; norm_num
    rw [e1, e2, e3, zpow_sub₀ (by norm_num), zpow_sub₀ (by norm_num), zpow_natCast]
    have : (2 : ℚ) ^ k ≠ 0 := by positivity
    field_simp
    ring
  have hor : ∀ x : ℕ, x < 2 ^ 31 → x ||| s * 2 ^ 31 = s * 2 ^ 31 + x := by
    intro x hx
    rw [Nat.or_comm]; exact or_eq_add s x 31 hx
  rw [← hs] at hbits
  by_cases c1 : m < 2 ^ 21
  · refine key 3 133 (by omega) (by omega) (by omega) (by omega) (by omega) (by omega) ?_
    simp only [c1, if_true] at hbits
    have hb : m * 8 + (2 ^ 32 + a - m - 0x21800000) * 2 =
        (4 * e - 133) * 2 ^ 23 + (m * 2 ^ 3 - 2 ^ 23) + 2 ^ 32 * 2 := by omega
    rw [hbits, hb, Nat.add_mul_mod_self_left, Nat.mod_eq_of_lt (by omega), hor _ (by omega)]
    omega
  · by_cases c2 : m < 2 ^ 22
    · refine key 2 132 (by omega) (by omega) (by omega) (by omega) (by omega) (by omega) ?_
      simp only [c1, c2, if_true, if_false] at hbits
      rw [hbits, hor _ (by omega)]; omega
    · by_cases c3 : m < 2 ^ 23
      · refine key 1 131 (by omega) (by omega) (by omega) (by omega) (by omega) (by omega) ?_
        simp only [c1, c2, c3, if_true, if_false] at hbits
        rw [hbits, hor _ (by omega)]; omega
      · refine key 0 130 (by omega) (by omega) (by omega) (by omega) (by omega) (by omega) ?_
        simp only [c1, c2, c3, if_false] at hbits
        rw [hbits, hor _ (by omega)]; omega

/-- A negative number: IBM 0xC276A000 is -118.625. -/
example : ieee32 (isinglBits 0xC276A000#32) = some (Spec.ibm32 0xC276A000#32) ∧
    Spec.ibm32 0xC276A000#32 = -118.625 := by
  refine ⟨c07_isingl_value_partial _ (by decide) (by decide) (by decide), ?_⟩
  norm_num [Spec.ibm32, zpow_ofNat]

theorem ibm32_abs (u : BitVec 32) : |Spec.ibm32 u| =
    (u.toNat % 2 ^ 24 : ℕ) * 2 ^ (4 * ((u.toNat / 2 ^ 24 % 2 ^ 7 : ℕ) : ℤ) - 280) := by
  have e3 : (16 : ℚ) ^ (((u.toNat / 2 ^ 24 % 2 ^ 7 : ℕ) : ℤ) - 64) =
      2 ^ (4 * ((u.toNat / 2 ^ 24 % 2 ^ 7 : ℕ) : ℤ) - 280) * 2 ^ 24 := by
    rw [show (16 : ℚ) = 2 ^ (4 : ℤ) by norm_num, ← zpow_mul, ← zpow_natCast, ← zpow_add₀ (by norm_num)]
    congr 1; push_cast; ring
  rw [Spec.ibm32, e3, abs_mul, abs_mul, abs_pow, abs_neg, abs_one, one_pow, one_mul,
    abs_of_nonneg (by positivity), abs_of_nonneg (by positivity)]
  field_simp

/-- C07: only numbers below 2^-127 (less than the smallest normal binary32) are
turned into zero by the underflow branch. -/
theorem c07_isingl_underflow (u : BitVec 32) (h : u.toNat % 2 ^ 31 < 0x21200000) :
    ieee32 (isinglBits u) = some 0 ∧ |Spec.ibm32 u| < 2 ^ (-127 : ℤ) := by
  have hu := u.isLt
  have h4 : (u &&& 0x7FFFFFFF#32).toNat = u.toNat % 2 ^ 31 := by
    rw [toNat_and_mask _ _ 0 31 (by decide)]; omega
  constructor
  · have : isinglBits u = 0#32 := by
      unfold isinglBits
      simp only [BitVec.lt_def, h4]
      rw [if_pos (by simpa using h)]
    rw [this, ieee32_fields_sub (s := 0) (f := 0) (by decide) (by decide)]
    norm_num
  · rw [ibm32_abs]
    obtain ⟨m, hm⟩ : ∃ m, m = u.toNat % 2 ^ 24 := ⟨_, rfl⟩
    obtain ⟨e, he⟩ : ∃ e, e = u.toNat / 2 ^ 24 % 2 ^ 7 := ⟨_, rfl⟩
    rw [← hm, ← he]
    by_cases h33 : e = 33
    · have : m < 2 ^ 21 := by omega
      subst h33
      have h2 : (2 : ℚ) ^ (-127 : ℤ) = 2 ^ 21 * 2 ^ (-148 : ℤ) := by
        rw [← zpow_natCast, ← zpow_add₀ (by norm_num)]; rfl
      rw [h2]
      exact mul_lt_mul_of_pos_right (by exact_mod_cast this) (by positivity)
    · have hle : e ≤ 32 := by omega
      have hm24 : m < 2 ^ 24 := by omega
      calc (m : ℚ) * 2 ^ (4 * (e : ℤ) - 280) < 2 ^ 24 * 2 ^ (4 * (e : ℤ) - 280) :=
            mul_lt_mul_of_pos_right (by exact_mod_cast hm24) (by positivity)
        _ = 2 ^ (4 * (e : ℤ) - 256) := by
            rw [← zpow_natCast, ← zpow_add₀ (by norm_num)]; congr 1; push_cast; ring
        _ ≤ 2 ^ (-127 : ℤ) := zpow_le_zpow_right₀ (by norm_num) (by omega)

example : ieee32 (isinglBits 0x20FFFFFF#32) = some 0 := (c07_isingl_underflow _ (by decide)).1

/-- C07: a normalised number that is too large for binary32 never becomes a number. -/
theorem c07_isingl_overflow (u : BitVec 32) (hnorm : 2 ^ 20 ≤ u.toNat % 2 ^ 24)
    (h : 0x61100000 ≤ u.toNat % 2 ^ 31) :
    ieee32 (isinglBits u) = none ∧ 2 ^ 128 ≤ |Spec.ibm32 u| := by
  have hu := u.isLt
  constructor
  · by_cases h' : u.toNat % 2 ^ 31 ≤ 0x611FFFFF
    · have hb := isinglBits_toNat u _ _ rfl rfl (by omega) h'
      obtain ⟨m, hm⟩ : ∃ m, m = u.toNat % 2 ^ 24 := ⟨_, rfl⟩
      obtain ⟨s, hs⟩ : ∃ s, s = u.toNat / 2 ^ 31 := ⟨_, rfl⟩
      have ha : u.toNat % 2 ^ 31 = 0x61000000 + m := by omega
      rw [← hm, ← hs, ha] at hb
      have c1 : m < 2 ^ 21 := by omega
      simp only [c1, if_true] at hb
      have e1 : m * 8 + (2 ^ 32 + (0x61000000 + m) - m - 0x21800000) * 2 =
          (m * 8 + 0x7F000000) + 2 ^ 32 * 2 := by omega
      rw [e1, Nat.add_mul_mod_self_left, Nat.mod_eq_of_lt (by omega), Nat.or_comm,
        or_eq_add s _ 31 (by omega)] at hb
      apply ieee32_none
      omega
    · have h4 : (u &&& 0x7FFFFFFF#32).toNat = u.toNat % 2 ^ 31 := by
        rw [toNat_and_mask _ _ 0 31 (by decide)]; omega
      have h5 : (u &&& 0x80000000#32).toNat = u.toNat / 2 ^ 31 * 2 ^ 31 := by
        rw [toNat_and_mask _ _ 31 1 (by decide)]; omega
      have : (isinglBits u).toNat = u.toNat / 2 ^ 31 * 2 ^ 31 + 0x7FFFFFFF := by
        unfold isinglBits
        simp only [BitVec.lt_def, h4]
        rw [if_neg (by simp; omega), if_pos (by simp; omega), BitVec.toNat_or, h5, Nat.or_comm]
        exact or_eq_add _ _ 31 (by decide)
      apply ieee32_none
      omega
  · rw [ibm32_abs]
    obtain ⟨m, hm⟩ : ∃ m, m = u.toNat % 2 ^ 24 := ⟨_, rfl⟩
    obtain ⟨e, he⟩ : ∃ e, e = u.toNat / 2 ^ 24 % 2 ^ 7 := ⟨_, rfl⟩
    rw [← hm, ← he]
    have he97 : 97 ≤ e := by omega
    calc (2 : ℚ) ^ 128 = (2 : ℚ) ^ 20 * (2 : ℚ) ^ (108 : ℤ) := by norm_num
      _ ≤ (m : ℚ) * 2 ^ (4 * (e : ℤ) - 280) := by
        apply mul_le_mul
        · have : 2 ^ 20 ≤ m := by omega
          exact_mod_cast this
        · exact zpow_le_zpow_right₀ (by norm_num) (by omega)
        · positivity
        · positivity

example : ieee32 (isinglBits 0x61100000#32) = none :=
  (c07_isingl_overflow _ (by decide) (by decide)).1

/-- C07 is false for un-normalised numbers: whenever the leading hexadecimal digit
of the fraction is zero (this includes a zero fraction) and the exponent is in
range, the decoded number is not the number that is stored. -/
theorem c07_unnormalised_defect (u : BitVec 32) (hun : u.toNat % 2 ^ 24 < 2 ^ 20)
    (hlo : 0x22 ≤ u.toNat / 2 ^ 24 % 2 ^ 7) (hhi : u.toNat / 2 ^ 24 % 2 ^ 7 ≤ 0x60) :
    ∃ w, ieee32 (isinglBits u) = some w ∧ w ≠ Spec.ibm32 u := by
  have hu := u.isLt
  have hb := isinglBits_toNat u _ _ rfl rfl (by omega) (by omega)
  obtain ⟨m, hm⟩ : ∃ m, m = u.toNat % 2 ^ 24 := ⟨_, rfl⟩
  obtain ⟨e, he⟩ : ∃ e, e = u.toNat / 2 ^ 24 % 2 ^ 7 := ⟨_, rfl⟩
  obtain ⟨s, hs⟩ : ∃ s, s = u.toNat / 2 ^ 31 := ⟨_, rfl⟩
  have ha : u.toNat % 2 ^ 31 = e * 2 ^ 24 + m := by omega
  have c1 : m < 2 ^ 21 := by omega
  rw [← hm, ← hs, ha] at hb
  simp only [c1, if_true] at hb
  have e1 : m * 8 + (2 ^ 32 + (e * 2 ^ 24 + m) - m - 0x21800000) * 2 =
      ((4 * e - 134) * 2 ^ 23 + m * 8) + 2 ^ 32 * 2 := by omega
  rw [e1, Nat.add_mul_mod_self_left, Nat.mod_eq_of_lt (by omega), Nat.or_comm,
    or_eq_add s _ 31 (by omega), ← Nat.add_assoc] at hb
  refine ⟨_, ieee32_fields hb (by omega) (by omega) (by omega), ?_⟩
  rw [Spec.ibm32, ← hm, ← he, ← hs]
  have e2 : (((4 * e - 134 : ℕ) : ℤ) - 150) = 4 * ((e : ℤ) - 64) - 28 := by omega
  have e3 : (16 : ℚ) ^ ((e : ℤ) - 64) = 2 ^ (4 * ((e : ℤ) - 64)) := by
    rw [zpow_mul]; norm_num
  rw [e2, e3, zpow_sub₀ (by norm_num), mul_assoc, mul_assoc]
  intro h
  have hs1 : ((-1 : ℚ) ^ s) ≠ 0 := by positivity
  have h' := mul_left_cancel₀ hs1 h
  have hp : (2 : ℚ) ^ (4 * ((e : ℤ) - 64)) ≠ 0 := by positivity
  have h2 : ((2 : ℚ) ^ 23 + ((m * 8 : ℕ) : ℚ)) / 2 ^ (28 : ℤ) = (m : ℚ) / 2 ^ 24 := by
    apply mul_right_cancel₀ hp
    rw [← h']; ring
  have h3 : (m : ℚ) = 2 ^ 20 := by
    push_cast at h2
    norm_num at h2
    linarith
  have h4 : m = 2 ^ 20 := by exact_mod_cast h3
  omega

/-- The stored number zero with exponent 0x41 is decoded as one half. -/
example : ieee32 (isinglBits 0x41000000#32) = some (1 / 2) ∧ Spec.ibm32 0x41000000#32 = 0 := by
  have e : isinglBits 0x41000000#32 = 0x3F000000#32 := by decide
  constructor
  · rw [e, ieee32_fields (s := 0) (e := 126) (f := 0) (by decide) (by decide) (by decide) (by decide)]
    norm_num
  · norm_num [Spec.ibm32]

/-- C07 is false in the band between 2^-127 and 2^-126, which binary32 can represent
(as subnormal numbers): the decoded number is never the stored one. -/
theorem c07_subnormal_defect (u : BitVec 32) (hlo : 0x21200000 ≤ u.toNat % 2 ^ 31)
    (hhi : u.toNat % 2 ^ 31 < 0x21400000) :
    Representable32 (Spec.ibm32 u) ∧
    ∃ w, ieee32 (isinglBits u) = some w ∧ w ≠ Spec.ibm32 u := by
  have hu := u.isLt
  have hb := isinglBits_toNat u _ _ rfl rfl (by omega) (by omega)
  obtain ⟨m, hm⟩ : ∃ m, m = u.toNat % 2 ^ 24 := ⟨_, rfl⟩
  obtain ⟨s, hs⟩ : ∃ s, s = u.toNat / 2 ^ 31 := ⟨_, rfl⟩
  have he : u.toNat / 2 ^ 24 % 2 ^ 7 = 33 := by omega
  have ha : u.toNat % 2 ^ 31 = 33 * 2 ^ 24 + m := by omega
  have hval : Spec.ibm32 u = (-1 : ℚ) ^ s * (2 * m) * 2 ^ (-149 : ℤ) := by
    rw [Spec.ibm32, he, ← hm, ← hs]
    have e3 : (16 : ℚ) ^ (((33 : ℕ) : ℤ) - 64) = 2 ^ (-149 : ℤ) * 2 ^ 25 := by
      rw [show (16 : ℚ) = 2 ^ (4 : ℤ) by norm_num, ← zpow_mul, ← zpow_natCast,
        ← zpow_add₀ (by norm_num)]
      congr 1
    rw [e3]; field_simp
  constructor
  · rw [hval]
    refine ⟨(-1) ^ s * (2 * m), -149, ?_, by omega, by omega, by push_cast; ring⟩
    rw [abs_mul, abs_pow, abs_neg, abs_one, one_pow, one_mul, abs_of_nonneg (by omega)]
    omega
  · have c1 : ¬ m < 2 ^ 21 := by omega
    have c2 : m < 2 ^ 22 := by omega
    rw [← hm, ← hs, ha] at hb
    simp only [c1, c2, if_true, if_false] at hb
    have e1 : m * 4 + (2 ^ 32 + (33 * 2 ^ 24 + m) - m - 0x21400000) * 2 =
        (m * 4 - 2 ^ 23) + 2 ^ 32 * 2 := by omega
    rw [e1, Nat.add_mul_mod_self_left, Nat.mod_eq_of_lt (by omega), Nat.or_comm,
      or_eq_add s _ 31 (by omega)] at hb
    refine ⟨_, ieee32_fields_sub hb (by omega), ?_⟩
    rw [hval]
    intro h
    have hp : (2 : ℚ) ^ (-149 : ℤ) ≠ 0 := by positivity
    have hs1 : ((-1 : ℚ) ^ s) ≠ 0 := by positivity
    have h' := mul_left_cancel₀ hs1 (mul_right_cancel₀ hp h)
    have h2 : m * 4 - 2 ^ 23 = 2 * m := by exact_mod_cast h'
    omega

example : isinglBits 0x21200001#32 = 0x00000004#32 := by decide

/-- C07 on buffers: four bytes, big-endian. -/
theorem c07_isingl_reads :
    Spec.ReadsFixed isingl 4 (fun e => isinglBits (BitVec.ofNat 32 (beNat e))) := by
  intro bs v r
  constructor
  · intro h
    match bs, h with
    | a :: b :: c :: d :: bs, h =>
      simp only [isingl, Option.some.injEq, Prod.mk.injEq, bswap32_load] at h
      obtain ⟨rfl, rfl⟩ := h
      exact ⟨[a, b, c, d], rfl, rfl, by simp [← toNat32]⟩
  · rintro ⟨enc, hl, rfl, rfl⟩
    match enc, hl with
    | [a, b, c, d], _ => simp [isingl, bswap32_load, ← toNat32]

/-! ## C08 VAX -/

theorem vax_fields (v : BitVec 32) :
    (v &&& 0x80000000#32).toNat = v.toNat / 2 ^ 31 * 2 ^ 31 ∧
    ((v &&& 0x7F800000#32) >>> 23).toNat = v.toNat / 2 ^ 23 % 2 ^ 8 ∧
    (v &&& 0x007FFFFF#32).toNat = v.toNat % 2 ^ 23 ∧
    ((v &&& 0x007FFFFF#32) ||| 0x00800000#32).toNat = 2 ^ 23 + v.toNat % 2 ^ 23 := by
  have hv := v.isLt
  have h3 : (v &&& 0x007FFFFF#32).toNat = v.toNat % 2 ^ 23 := by
    rw [toNat_and_mask _ _ 0 23 (by decide)]; omega
  refine ⟨?_, ?_, h3, ?_⟩
  · rw [toNat_and_mask _ _ 31 1 (by decide)]; omega
  · rw [BitVec.toNat_ushiftRight, toNat_and_mask _ _ 23 8 (by decide), Nat.shiftRight_eq_div_pow]
    omega
  · rw [BitVec.toNat_or, h3, Nat.or_comm]
    exact or_eq_add 1 _ 23 (by omega)

/-- C08: a VAX number with non-zero exponent decodes to the nearest binary32; for
exponents of at least 3 this is the VAX number itself. -/
theorem c08_vsingl_value (v : BitVec 32) (he : v.toNat / 2 ^ 23 % 2 ^ 8 ≠ 0) :
    vsinglValue v = .num (rnd32 (Spec.vax32 v)) ∧
    (3 ≤ v.toNat / 2 ^ 23 % 2 ^ 8 → vsinglValue v = .num (Spec.vax32 v)) := by
  have hv := v.isLt
  obtain ⟨h1, h2, h3, h4⟩ := vax_fields v
  obtain ⟨s, hs⟩ : ∃ s, s = v.toNat / 2 ^ 31 := ⟨_, rfl⟩
  obtain ⟨e, hee⟩ : ∃ e, e = v.toNat / 2 ^ 23 % 2 ^ 8 := ⟨_, rfl⟩
  obtain ⟨f, hf⟩ : ∃ f, f = v.toNat % 2 ^ 23 := ⟨_, rfl⟩
  have hsc : s = 0 ∨ s = 1 := by omega
  rw [← hs] at h1
  rw [← hee] at h2 he ⊢
  rw [← hf] at h4
  -- exact value as an integer times a power of two
  have hval : Spec.vax32 v = (((-1) ^ s * (2 ^ 23 + f) : ℤ) : ℚ) * 2 ^ ((e : ℤ) - 152) := by
    rw [Spec.vax32, ← hs, ← hee, ← hf]
    have : (2 : ℚ) ^ ((e : ℤ) - 128) = 2 ^ 24 * 2 ^ ((e : ℤ) - 152) := by
      rw [← zpow_natCast, ← zpow_add₀ (by norm_num)]; congr 1; push_cast; ring
    rw [this]; push_cast; field_simp; ring
  have hsgnabs : |((-1 : ℤ) ^ s * (2 ^ 23 + f))| < 2 ^ 24 := by
    rw [abs_mul, abs_pow, abs_neg, abs_one, one_pow, one_mul, abs_of_nonneg (by omega)]; omega
  have r1 : rnd32 (((2 ^ 23 + f : ℕ) : ℚ)) = ((2 ^ 23 + f : ℕ) : ℚ) :=
    rnd32_of_representable ⟨(2 ^ 23 + f : ℕ), 0, by
      rw [abs_of_nonneg (by omega)]; omega, by omega, by omega, by simp⟩
  have r2 : rnd32 (((2 ^ 23 + f : ℕ) : ℚ) / 2 ^ 24) = ((2 ^ 23 + f : ℕ) : ℚ) / 2 ^ 24 :=
    rnd32_of_representable ⟨(2 ^ 23 + f : ℕ), -24, by
      rw [abs_of_nonneg (by omega)]; omega, by omega, by omega, by
        rw [zpow_neg, Int.cast_natCast]; rfl⟩
  have r3 : rnd32 ((2 : ℚ) ^ ((e : ℤ) - 128)) = 2 ^ ((e : ℤ) - 128) := by
    apply rnd32_of_representable
    by_cases h : (e : ℤ) - 128 ≤ 104
    · exact ⟨1, (e : ℤ) - 128, by norm_num, by omega, h, by simp⟩
    · refine ⟨2 ^ ((e : ℤ) - 128 - 104).toNat, 104, ?_, by omega, by omega, ?_⟩
      · rw [abs_of_nonneg (by positivity)]
        exact pow_lt_pow_right₀ (by norm_num) (by omega)
      · rw [Int.cast_pow, Int.cast_ofNat, ← zpow_natCast, ← zpow_add₀ (by norm_num)]
        congr 1; omega
  have main : vsinglValue v = .num (rnd32 (Spec.vax32 v)) := by
    have hne : ((v &&& 0x7F800000#32) >>> 23) ≠ 0 := by
      intro h; rw [h] at h2; exact he h2.symm
    have sgn : (if (v &&& 0x80000000#32) ≠ 0 then (-1 : ℚ) else 1) = (-1) ^ s := by
      rcases hsc with h | h
      · rw [h] at h1 ⊢
        rw [if_neg]; · simp
        simp only [ne_eq, not_not]
        exact BitVec.eq_of_toNat_eq h1
      · rw [h] at h1 ⊢
        rw [if_pos]; · simp
        intro h0; rw [h0] at h1; simp at h1
    simp only [vsinglValue, h2, h4, sgn, hne, ne_eq, not_false_eq_true, if_true]
    have r4 : rnd32 ((-1) ^ s * (((2 ^ 23 + f : ℕ) : ℚ) / 2 ^ 24)) =
        (-1) ^ s * (((2 ^ 23 + f : ℕ) : ℚ) / 2 ^ 24) := by
      apply rnd32_of_representable
      refine ⟨(-1) ^ s * (2 ^ 23 + f), -24, hsgnabs, by omega, by omega, ?_⟩
      rw [zpow_neg]; push_cast; norm_num; ring
    rw [r1, r2, r4, r3]
    congr 2
    rw [Spec.vax32, ← hs, ← hee, ← hf]; push_cast; ring
  refine ⟨main, fun h3e => ?_⟩
  rw [main, rnd32_of_representable]
  rw [hval]
  exact ⟨_, _, hsgnabs, by omega, by omega, rfl⟩

/-- C08: exponent zero is zero, or NaN when the sign is set. -/
theorem c08_vsingl_zero_nan (v : BitVec 32) (he : v.toNat / 2 ^ 23 % 2 ^ 8 = 0) :
    (v.toNat < 2 ^ 31 → vsinglValue v = .num 0) ∧ (2 ^ 31 ≤ v.toNat → vsinglValue v = .nan) := by
  have hv := v.isLt
  obtain ⟨h1, h2, h3, h4⟩ := vax_fields v
  have hz : ((v &&& 0x7F800000#32) >>> 23) = 0 := by
    apply BitVec.eq_of_toNat_eq; rw [h2, he]; rfl
  constructor
  · intro h
    have : (v &&& 0x80000000#32) = 0 := by
      apply BitVec.eq_of_toNat_eq; rw [h1]; simp; omega
    simp [vsinglValue, hz, this]
  · intro h
    have : (v &&& 0x80000000#32) ≠ 0 := by
      intro h0; rw [h0] at h1; simp at h1; omega
    simp only [vsinglValue, hz, this, ne_eq, not_true_eq_false, if_false]

/-- The word assembled from the four bytes in VAX (PDP-11) order. -/
theorem vsingl_word (a b c d : Byte) :
    ((a.setWidth 32 <<< 24) ||| (b.setWidth 32 <<< 16) ||| (c.setWidth 32 <<< 8) |||
      (d.setWidth 32 <<< 0)) = a ++ (b ++ (c ++ d)) := by
  apply BitVec.eq_of_getLsbD_eq; intro i hi
  simp only [BitVec.getLsbD_or, BitVec.getLsbD_append, BitVec.getLsbD_shiftLeft,
    BitVec.getLsbD_setWidth]
  interval_cases i <;> simp

/-- C08 on buffers: four bytes; the first 16-bit half is the most significant, and
each half has its low byte first. -/
theorem c08_vsingl_reads : Spec.ReadsFixed vsingl 4 (fun e =>
    vsinglValue (BitVec.ofNat 32 (beNat [e.getD 1 0, e.getD 0 0, e.getD 3 0, e.getD 2 0]))) := by
  intro bs v r
  constructor
  · intro h
    match bs, h with
    | a :: b :: c :: d :: bs, h =>
      simp only [vsingl, Option.some.injEq, Prod.mk.injEq] at h
      obtain ⟨rfl, rfl⟩ := h
      exact ⟨[a, b, c, d], rfl, rfl, by rw [vsingl_word]; simp [← toNat32]⟩
  · rintro ⟨enc, hl, rfl, rfl⟩
    match enc, hl with
    | [a, b, c, d], _ =>
      simp only [vsingl, List.cons_append, List.nil_append]
      rw [vsingl_word]; simp [← toNat32]

theorem vsinglo_swap (a b c d : Byte) :
    (((a ++ (b ++ (c ++ d)) : BitVec 32) &&& 0x00FF0000#32) <<< 8 |||
     ((a ++ (b ++ (c ++ d)) : BitVec 32) &&& 0xFF000000#32) >>> 8 |||
     ((a ++ (b ++ (c ++ d)) : BitVec 32) &&& 0x000000FF#32) <<< 8 |||
     ((a ++ (b ++ (c ++ d)) : BitVec 32) &&& 0x0000FF00#32) >>> 8) = b ++ (a ++ (d ++ c)) := by
  apply BitVec.eq_of_getLsbD_eq; intro i hi
  simp only [BitVec.getLsbD_or, BitVec.getLsbD_and, BitVec.getLsbD_append,
    BitVec.getLsbD_shiftLeft, BitVec.getLsbD_ushiftRight]
  interval_cases i <;> simp

/-- Writing then reading VAX: the word read is sign | (exp+2) << 23 | fraction. -/
theorem vsingl_vsinglo (u : BitVec 32) (r : Bytes) (he : u.toNat / 2 ^ 23 % 2 ^ 8 ≠ 0) :
    vsingl (vsinglo u ++ r) = some (vsinglValue
      ((u &&& 0x80000000#32) ||| ((((u &&& 0x7F800000#32) >>> 23) + 2#32) <<< 23) |||
        (u &&& 0x007FFFFF#32)), r) := by
  obtain ⟨h1, h2, h3, h4⟩ := vax_fields u
  have hne : ((u &&& 0x7F800000#32) >>> 23) ≠ 0 := by
    intro h; rw [h] at h2; exact he h2.symm
  obtain ⟨a, b, c, d, hw⟩ := bytes32 ((u &&& 0x80000000#32) |||
    ((((u &&& 0x7F800000#32) >>> 23) + 2#32) <<< 23) ||| (u &&& 0x007FFFFF#32))
  have hne' : ¬ ((u &&& 0x7F800000#32) >>> 23) = 0 := hne
  simp only [vsinglo, hne', if_false, hw]
  rw [vsinglo_swap, store32_bswap]
  simp only [vsingl, List.cons_append, List.nil_append, vsingl_word]

/-- C08 round trip: every normal binary32 number with exponent field up to 253 is
written as a VAX number that reads back as the same number. -/
theorem c08_vax_roundtrip_partial (u : BitVec 32) (r : Bytes)
    (he : u.toNat / 2 ^ 23 % 2 ^ 8 ≠ 0) (he' : u.toNat / 2 ^ 23 % 2 ^ 8 ≤ 253) :
    ∃ w, ieee32 u = some w ∧ vsingl (vsinglo u ++ r) = some (.num w, r) := by
  have hu := u.isLt
  obtain ⟨h1, h2, h3, h4⟩ := vax_fields u
  obtain ⟨s, hs⟩ : ∃ s, s = u.toNat / 2 ^ 31 := ⟨_, rfl⟩
  obtain ⟨e, hee⟩ : ∃ e, e = u.toNat / 2 ^ 23 % 2 ^ 8 := ⟨_, rfl⟩
  obtain ⟨f, hf⟩ : ∃ f, f = u.toNat % 2 ^ 23 := ⟨_, rfl⟩
  refine ⟨_, ieee32_fields (u := u) (s := s) (e := e) (f := f) (by omega) (by omega) (by omega)
    (by omega), ?_⟩
  rw [vsingl_vsinglo u r he]
  set v : BitVec 32 := (u &&& 0x80000000#32) |||
    ((((u &&& 0x7F800000#32) >>> 23) + 2#32) <<< 23) ||| (u &&& 0x007FFFFF#32) with hv
  have hvn : v.toNat = s * 2 ^ 31 + (e + 2) * 2 ^ 23 + f := by
    rw [hv, BitVec.toNat_or, BitVec.toNat_or, h1, h3, BitVec.toNat_shiftLeft, BitVec.toNat_add, h2,
      ← hs, ← hee, ← hf, Nat.shiftLeft_eq]
    have : (e + (2#32).toNat) % 2 ^ 32 * 2 ^ 23 % 2 ^ 32 = (e + 2) * 2 ^ 23 := by
      have : (2#32).toNat = 2 := rfl
      omega
    rw [this, or_eq_add s ((e + 2) * 2 ^ 23) 31 (by omega),
      or_eq_add_of_dvd (s * 2 ^ 31 + (e + 2) * 2 ^ 23) f 23 (by
        rw [show s * 2 ^ 31 + (e + 2) * 2 ^ 23 = (s * 2 ^ 8 + (e + 2)) * 2 ^ 23 by ring]
        exact Nat.mul_mod_left _ _) (by omega)]
  rw [(c08_vsingl_value v (by omega)).2 (by omega)]
  congr 3
  have e1 : v.toNat / 2 ^ 31 = s := by omega
  have e2 : v.toNat / 2 ^ 23 % 2 ^ 8 = e + 2 := by omega
  have e3 : v.toNat % 2 ^ 23 = f := by omega
  rw [Spec.vax32, e1, e2, e3]
  have : (2 : ℚ) ^ (((e + 2 : ℕ) : ℤ) - 128) = 2 ^ 24 * 2 ^ ((e : ℤ) - 150) := by
    rw [← zpow_natCast, ← zpow_add₀ (by norm_num)]; congr 1; push_cast; ring
  rw [this]; field_simp

example : ∃ w, ieee32 0xC2ED4000#32 = some w ∧
    vsingl (vsinglo 0xC2ED4000#32 ++ [1#8]) = some (.num w, [1#8]) :=
  c08_vax_roundtrip_partial _ _ (by decide) (by decide)

/-- C08 is false at the top of the range: every binary32 number with exponent field
254 (2^127 up to the largest) is written so that it reads back as NaN. -/
theorem c08_vax_overflow_defect (u : BitVec 32) (r : Bytes)
    (he : u.toNat / 2 ^ 23 % 2 ^ 8 = 254) : vsingl (vsinglo u ++ r) = some (.nan, r) := by
  have hu := u.isLt
  obtain ⟨h1, h2, h3, h4⟩ := vax_fields u
  rw [vsingl_vsinglo u r (by omega)]
  set v : BitVec 32 := (u &&& 0x80000000#32) |||
    ((((u &&& 0x7F800000#32) >>> 23) + 2#32) <<< 23) ||| (u &&& 0x007FFFFF#32) with hv
  have hvn : v.toNat = 2 ^ 31 + u.toNat % 2 ^ 23 := by
    rw [hv, BitVec.toNat_or, BitVec.toNat_or, h1, h3, BitVec.toNat_shiftLeft, BitVec.toNat_add, h2,
      he, Nat.shiftLeft_eq]
    have e1 : (254 + (2#32).toNat) % 2 ^ 32 * 2 ^ 23 % 2 ^ 32 = 1 * 2 ^ 31 := by decide
    have e2 : u.toNat / 2 ^ 31 * 2 ^ 31 ||| 1 * 2 ^ 31 = 1 * 2 ^ 31 := by
      have : u.toNat / 2 ^ 31 = 0 ∨ u.toNat / 2 ^ 31 = 1 := by omega
      rcases this with h | h <;> rw [h] <;> decide
    rw [e1, e2, or_eq_add 1 _ 31 (by omega)]
    omega
  rw [(c08_vsingl_zero_nan v (by omega)).2 (by omega)]

example : (0x7F7FFFFF#32).toNat / 2 ^ 23 % 2 ^ 8 = 254 := by decide

/-- C08: zero and subnormal numbers are written as zero. -/
theorem c08_vax_subnormal (u : BitVec 32) (r : Bytes) (he : u.toNat / 2 ^ 23 % 2 ^ 8 = 0) :
    vsingl (vsinglo u ++ r) = some (.num 0, r) := by
  obtain ⟨h1, h2, h3, h4⟩ := vax_fields u
  have hz : ((u &&& 0x7F800000#32) >>> 23) = 0#32 := by
    apply BitVec.eq_of_toNat_eq; rw [h2, he]; rfl
  have : vsinglo u = [0#8, 0#8, 0#8, 0#8] := by
    simp only [vsinglo, hz, if_true]; rfl
  rw [this]
  simp only [vsingl, List.cons_append, List.nil_append, vsingl_word]
  rw [(c08_vsingl_zero_nan _ (by decide)).1 (by decide)]

/-! ## C10 IBM round trip -/

/-- `dlis_isinglo` as arithmetic on the fields of a binary32 number. -/
theorem isingloBits_toNat (u : BitVec 32) (s e f : ℕ)
    (hu : u.toNat = s * 2 ^ 31 + e * 2 ^ 23 + f) (he : 0 < e + f) (he' : e < 255)
    (hf : f < 2 ^ 23) :
    (isingloBits u).toNat = s * 2 ^ 31 + e / 4 * 2 ^ 24 +
      (if e % 4 = 0 then 0x21200000 + f / 4
       else if e % 4 = 1 then 0x21400000 + f / 2
       else if e % 4 = 2 then 0x21800000 + f
       else 0x22100000 + f / 8) := by
  have h0 : (u &&& 0x7fffffff#32).toNat = e * 2 ^ 23 + f := by
    rw [toNat_and_mask _ _ 0 31 (by decide)]; omega
  have h1 : ((u &&& 0x01800000#32) >>> 23).toNat = e % 4 := by
    rw [BitVec.toNat_ushiftRight, toNat_and_mask _ _ 23 2 (by decide), Nat.shiftRight_eq_div_pow]
    omega
  have h2 : ((u &&& 0x7e000000#32) >>> 1).toNat = e / 4 * 2 ^ 24 := by
    rw [BitVec.toNat_ushiftRight, toNat_and_mask _ _ 25 6 (by decide), Nat.shiftRight_eq_div_pow]
    omega
  have h3 : (u &&& 0x007fffff#32).toNat = f := by
    rw [toNat_and_mask _ _ 0 23 (by decide)]; omega
  have h5 : (u &&& 0x80000000#32).toNat = s * 2 ^ 31 := by
    rw [toNat_and_mask _ _ 31 1 (by decide)]; omega
  have hit : (isingloIt ((u &&& 0x01800000#32) >>> 23)).toNat =
      (if e % 4 = 0 then 0x21200000 else if e % 4 = 1 then 0x21400000
        else if e % 4 = 2 then 0x21800000 else 0x22100000) := by
    simp only [isingloIt, ← BitVec.toNat_inj, h1, BitVec.ofNat_eq_ofNat, BitVec.toNat_ofNat]
    split_ifs <;> rfl
  have hmt : (isingloMt ((u &&& 0x01800000#32) >>> 23)).toNat =
      (if e % 4 = 0 then 2 else if e % 4 = 1 then 4 else if e % 4 = 2 then 8 else 1) := by
    simp only [isingloMt, ← BitVec.toNat_inj, h1, BitVec.ofNat_eq_ofNat, BitVec.toNat_ofNat]
    split_ifs <;> rfl
  have hne : (u &&& 0x7fffffff#32) ≠ 0 := by
    intro h; rw [h] at h0; simp at h0; omega
  unfold isingloBits
  simp only [hne, ne_eq, not_false_eq_true, if_true]
  rw [BitVec.toNat_or, h5, BitVec.toNat_add, BitVec.toNat_ushiftRight, BitVec.toNat_mul, hmt, h3,
    BitVec.toNat_add, h2, hit, Nat.shiftRight_eq_div_pow, Nat.or_comm]
  have key : ∀ x y : ℕ, x % 2 ^ 32 = y → y < 2 ^ 31 → s * 2 ^ 31 ||| x % 2 ^ 32 = s * 2 ^ 31 + y := by
    intro x y h h'
    rw [h]; exact or_eq_add s y 31 h'
  rw [Nat.add_assoc]
  apply key <;> split_ifs <;> omega

/-- Number of low fraction bits that the base-16 exponent forces the IBM format to
drop, as a function of the binary exponent. -/
def Spec.ibmDrop (e : ℕ) : ℕ := if e % 4 = 0 then 4 else if e % 4 = 1 then 2 else if e % 4 = 2 then 1 else 8

/-- C10: for every finite non-zero binary32 number, writing it as IBM single and reading it
back gives the number with its fraction truncated to a multiple of 1, 2, 4 or 8
units in the last place; nothing else changes. -/
theorem c10_ibm_roundtrip (s e f : ℕ) (u : BitVec 32) (r : Bytes)
    (hu : u.toNat = s * 2 ^ 31 + e * 2 ^ 23 + f) (hs : s < 2) (he : 0 < e + f) (he' : e < 255)
    (hf : f < 2 ^ 23) :
    ∃ v, isingl (isinglo u ++ r) = some (v, r) ∧
      v.toNat = s * 2 ^ 31 + e * 2 ^ 23 + (f - f % Spec.ibmDrop e) := by
  have henc := isingloBits_toNat u s e f hu he he' hf
  refine ⟨isinglBits (isingloBits u), ?_, ?_⟩
  · obtain ⟨a, b, c, d, hw⟩ := bytes32 (isingloBits u)
    rw [isinglo, hw, store32_bswap]
    simp [isingl, bswap32_load]
  · set w := isingloBits u with hwdef
    have hor : ∀ x : ℕ, x < 2 ^ 31 → x ||| s * 2 ^ 31 = s * 2 ^ 31 + x := by
      intro x hx
      rw [Nat.or_comm]; exact or_eq_add s x 31 hx
    have h4 : e % 4 = 0 ∨ e % 4 = 1 ∨ e % 4 = 2 ∨ e % 4 = 3 := by omega
    obtain ⟨q, hq⟩ : ∃ q, q = e / 4 := ⟨_, rfl⟩
    rcases h4 with h | h | h | h
    · simp only [h, if_true] at henc
      have hb := isinglBits_toNat w (q * 2 ^ 24 + (0x21200000 + f / 4)) (0x200000 + f / 4)
        (by omega) (by omega) (by omega) (by omega)
      have c1 : ¬ (0x200000 + f / 4) < 2 ^ 21 := by omega
      have c2 : (0x200000 + f / 4) < 2 ^ 22 := by omega
      simp only [c1, c2, if_true, if_false] at hb
      have hs' : w.toNat / 2 ^ 31 = s := by omega
      have e1 : (0x200000 + f / 4) * 4 + (2 ^ 32 + (q * 2 ^ 24 + (0x21200000 + f / 4)) -
          (0x200000 + f / 4) - 0x21400000) * 2 =
          (e * 2 ^ 23 + (f - f % 4)) + 2 ^ 32 * 2 := by omega
      rw [hs', e1, Nat.add_mul_mod_self_left, Nat.mod_eq_of_lt (by omega), hor _ (by omega)] at hb
      simp only [Spec.ibmDrop, h, if_true]
      rw [hb, Nat.add_assoc]
    · simp only [h, if_true, if_false, show ¬ (1 = 0) by omega] at henc
      have hb := isinglBits_toNat w (q * 2 ^ 24 + (0x21400000 + f / 2)) (0x400000 + f / 2)
        (by omega) (by omega) (by omega) (by omega)
      have c1 : ¬ (0x400000 + f / 2) < 2 ^ 21 := by omega
      have c2 : ¬ (0x400000 + f / 2) < 2 ^ 22 := by omega
      have c3 : (0x400000 + f / 2) < 2 ^ 23 := by omega
      simp only [c1, c2, c3, if_true, if_false] at hb
      have hs' : w.toNat / 2 ^ 31 = s := by omega
      have e1 : (0x400000 + f / 2) * 2 + (2 ^ 32 + (q * 2 ^ 24 + (0x21400000 + f / 2)) -
          (0x400000 + f / 2) - 0x21000000) * 2 =
          (e * 2 ^ 23 + (f - f % 2)) + 2 ^ 32 * 2 := by omega
      rw [hs', e1, Nat.add_mul_mod_self_left, Nat.mod_eq_of_lt (by omega), hor _ (by omega)] at hb
      simp only [Spec.ibmDrop, h, if_true, if_false, show ¬ (1 = 0) by omega]
      rw [hb, Nat.add_assoc]
    · simp only [h, if_true, if_false, show ¬ (2 = 0) by omega, show ¬ (2 = 1) by omega] at henc
      have hb := isinglBits_toNat w (q * 2 ^ 24 + (0x21800000 + f)) (0x800000 + f)
        (by omega) (by omega) (by omega) (by omega)
      have c1 : ¬ (0x800000 + f) < 2 ^ 21 := by omega
      have c2 : ¬ (0x800000 + f) < 2 ^ 22 := by omega
      have c3 : ¬ (0x800000 + f) < 2 ^ 23 := by omega
      simp only [c1, c2, c3, if_false] at hb
      have hs' : w.toNat / 2 ^ 31 = s := by omega
      have e1 : (0x800000 + f) * 1 + (2 ^ 32 + (q * 2 ^ 24 + (0x21800000 + f)) -
          (0x800000 + f) - 0x20c00000) * 2 =
          (e * 2 ^ 23 + f) + 2 ^ 32 * 2 := by omega
      rw [hs', e1, Nat.add_mul_mod_self_left, Nat.mod_eq_of_lt (by omega), hor _ (by omega)] at hb
      simp only [Spec.ibmDrop, h, if_true, if_false, show ¬ (2 = 0) by omega,
        show ¬ (2 = 1) by omega, Nat.mod_one, Nat.sub_zero]
      rw [hb, Nat.add_assoc]
    · simp only [h, if_false, show ¬ (3 = 0) by omega, show ¬ (3 = 1) by omega,
        show ¬ (3 = 2) by omega] at henc
      have hb := isinglBits_toNat w (q * 2 ^ 24 + (0x22100000 + f / 8)) (0x100000 + f / 8)
        (by omega) (by omega) (by omega) (by omega)
      have c1 : (0x100000 + f / 8) < 2 ^ 21 := by omega
      simp only [c1, if_true] at hb
      have hs' : w.toNat / 2 ^ 31 = s := by omega
      have e1 : (0x100000 + f / 8) * 8 + (2 ^ 32 + (q * 2 ^ 24 + (0x22100000 + f / 8)) -
          (0x100000 + f / 8) - 0x21800000) * 2 =
          (e * 2 ^ 23 + (f - f % 8)) + 2 ^ 32 * 2 := by omega
      rw [hs', e1, Nat.add_mul_mod_self_left, Nat.mod_eq_of_lt (by omega), hor _ (by omega)] at hb
      simp only [Spec.ibmDrop, h, if_false, show ¬ (3 = 0) by omega, show ¬ (3 = 1) by omega,
        show ¬ (3 = 2) by omega]
      rw [hb, Nat.add_assoc]

example : ∃ v, isingl (isinglo 0xC2ED4000#32 ++ [5#8]) = some (v, [5#8]) ∧
    v.toNat = 1 * 2 ^ 31 + 133 * 2 ^ 23 + (0x6D4000 - 0x6D4000 % Spec.ibmDrop 133) :=
  c10_ibm_roundtrip 1 133 0x6D4000 _ _ (by decide) (by decide) (by decide) (by decide) (by decide)

/-- C10: the word written for a normal number denotes, as an IBM number, the number
with its fraction truncated. -/
theorem c10_isinglo_value (s e f : ℕ) (u : BitVec 32)
    (hu : u.toNat = s * 2 ^ 31 + e * 2 ^ 23 + f) (hs : s < 2) (he : 0 < e) (he' : e < 255)
    (hf : f < 2 ^ 23) :
    Spec.ibm32 (isingloBits u) =
      (-1 : ℚ) ^ s * (2 ^ 23 + (f - f % Spec.ibmDrop e : ℕ)) * 2 ^ ((e : ℤ) - 150) := by
  have henc := isingloBits_toNat u s e f hu (by omega) he' hf
  obtain ⟨v, hv, hvn⟩ := c10_ibm_roundtrip s e f u [] hu hs (by omega) he' hf
  have hv' : v = isinglBits (isingloBits u) := by
    obtain ⟨a, b, c, d, hw⟩ := bytes32 (isingloBits u)
    rw [isinglo, hw, store32_bswap] at hv
    rw [hw]
    simpa [isingl, bswap32_load] using hv.symm
  obtain ⟨x, hx, hx1, hx2, hx3⟩ : ∃ x, (isingloBits u).toNat = s * 2 ^ 31 + x ∧
      0x21400000 ≤ x ∧ x < 0x61100000 ∧ 2 ^ 20 ≤ x % 2 ^ 24 := by
    refine ⟨_, by rw [henc, Nat.add_assoc], ?_, ?_, ?_⟩ <;> clear henc hvn hu <;>
      split_ifs <;> omega
  have hval := c07_isingl_value_partial (isingloBits u) (by omega) (by omega) (by omega)
  rw [← hv', ieee32_fields hvn he he' (by omega)] at hval
  exact (Option.some.inj hval).symm

example : Spec.ibm32 (isingloBits 0x42ED4003#32) =
    (-1 : ℚ) ^ 0 * (2 ^ 23 + (0x6D4003 - 0x6D4003 % Spec.ibmDrop 133 : ℕ)) * 2 ^ ((133 : ℤ) - 150) :=
  c10_isinglo_value 0 133 0x6D4003 _ (by decide) (by decide) (by decide) (by decide) (by decide)

/-- C10: zero is written as zero. -/
theorem c10_ibm_zero (r : Bytes) :
    isingl (isinglo 0#32 ++ r) = some (0#32, r) ∧
    isingl (isinglo 0x80000000#32 ++ r) = some (0#32, r) := by
  constructor
  · have : isinglo 0#32 = [0, 0, 0, 0] := by decide
    rw [this]
    have : isinglBits (bswap32 (load32 0 0 0 0)) = 0#32 := by decide
    rw [List.cons_append, List.cons_append, List.cons_append, List.cons_append, isingl, this,
      List.nil_append]
  · have : isinglo 0x80000000#32 = [0, 0, 0, 0] := by decide
    rw [this]
    have : isinglBits (bswap32 (load32 0 0 0 0)) = 0#32 := by decide
    rw [List.cons_append, List.cons_append, List.cons_append, List.cons_append, isingl, this,
      List.nil_append]

end Dlisio.Dlis
