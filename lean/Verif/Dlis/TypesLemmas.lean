import Verif.Dlis.Types
import Mathlib.Tactic.IntervalCases
/-
Helper lemmas about the type decoders: byte swapping, numeric value, appending.
-/
namespace Dlisio.Dlis

theorem bswap16_load (a b : Byte) : bswap16 (load16 a b) = a ++ b := by
  apply BitVec.eq_of_getLsbD_eq; intro i hi
  simp only [bswap16, load16, BitVec.getLsbD_or, BitVec.getLsbD_and, BitVec.getLsbD_append,
    BitVec.getLsbD_shiftLeft, BitVec.getLsbD_ushiftRight]
  interval_cases i <;> simp

theorem bswap32_load (a b c d : Byte) : bswap32 (load32 a b c d) = a ++ (b ++ (c ++ d)) := by
  apply BitVec.eq_of_getLsbD_eq; intro i hi
  simp only [bswap32, load32, BitVec.getLsbD_or, BitVec.getLsbD_and, BitVec.getLsbD_append,
    BitVec.getLsbD_shiftLeft, BitVec.getLsbD_ushiftRight]
  interval_cases i <;> simp

theorem bswap64_load (a b c d e f g h : Byte) :
    bswap64 (load64 a b c d e f g h) =
      a ++ (b ++ (c ++ (d ++ (e ++ (f ++ (g ++ h)))))) := by
  apply BitVec.eq_of_getLsbD_eq; intro i hi
  simp only [bswap64, load64, BitVec.getLsbD_or, BitVec.getLsbD_and, BitVec.getLsbD_append,
    BitVec.getLsbD_shiftLeft, BitVec.getLsbD_ushiftRight]
  interval_cases i <;> simp

/-- Split of a number into its bytes. -/
theorem bytes16 (x : BitVec 16) : ∃ a b : Byte, x = a ++ b := by
  refine ⟨x.extractLsb' 8 8, x.extractLsb' 0 8, ?_⟩
  apply BitVec.eq_of_getLsbD_eq; intro i hi
  simp only [BitVec.getLsbD_append, BitVec.getLsbD_extractLsb']
  interval_cases i <;> simp

theorem bytes32 (x : BitVec 32) : ∃ a b c d : Byte, x = a ++ (b ++ (c ++ d)) := by
  refine ⟨x.extractLsb' 24 8, x.extractLsb' 16 8, x.extractLsb' 8 8, x.extractLsb' 0 8, ?_⟩
  apply BitVec.eq_of_getLsbD_eq; intro i hi
  simp only [BitVec.getLsbD_append, BitVec.getLsbD_extractLsb']
  interval_cases i <;> simp

theorem bytes64 (x : BitVec 64) : ∃ a b c d e f g h : Byte,
    x = a ++ (b ++ (c ++ (d ++ (e ++ (f ++ (g ++ h)))))) := by
  refine ⟨x.extractLsb' 56 8, x.extractLsb' 48 8, x.extractLsb' 40 8, x.extractLsb' 32 8,
    x.extractLsb' 24 8, x.extractLsb' 16 8, x.extractLsb' 8 8, x.extractLsb' 0 8, ?_⟩
  apply BitVec.eq_of_getLsbD_eq; intro i hi
  simp only [BitVec.getLsbD_append, BitVec.getLsbD_extractLsb']
  interval_cases i <;> simp

theorem store16_bswap (a b : Byte) : store16 (bswap16 (a ++ b)) = [a, b] := by
  have h := bswap16_load b a
  rw [load16] at h
  rw [h, store16]
  simp only [List.cons.injEq, and_true]
  refine ⟨?_, ?_⟩ <;> apply BitVec.eq_of_getLsbD_eq <;> intro i hi <;>
    simp only [BitVec.getLsbD_append, BitVec.getLsbD_extractLsb'] <;>
    interval_cases i <;> simp

theorem store32_bswap (a b c d : Byte) :
    store32 (bswap32 (a ++ (b ++ (c ++ d)))) = [a, b, c, d] := by
  have h := bswap32_load d c b a
  rw [load32] at h
  rw [h, store32]
  simp only [List.cons.injEq, and_true]
  refine ⟨?_, ?_, ?_, ?_⟩ <;> apply BitVec.eq_of_getLsbD_eq <;> intro i hi <;>
    simp only [BitVec.getLsbD_append, BitVec.getLsbD_extractLsb'] <;>
    interval_cases i <;> simp

theorem store64_bswap (a b c d e f g h : Byte) :
    store64 (bswap64 (a ++ (b ++ (c ++ (d ++ (e ++ (f ++ (g ++ h)))))))) =
      [a, b, c, d, e, f, g, h] := by
  have h := bswap64_load h g f e d c b a
  rw [load64] at h
  rw [h, store64]
  simp only [List.cons.injEq, and_true]
  refine ⟨?_, ?_, ?_, ?_, ?_, ?_, ?_, ?_⟩ <;> apply BitVec.eq_of_getLsbD_eq <;> intro i hi <;>
    simp only [BitVec.getLsbD_append, BitVec.getLsbD_extractLsb'] <;>
    interval_cases i <;> simp

theorem toNat16 (a b : Byte) : (a ++ b : BitVec 16).toNat = beNat [a, b] := by
  rw [BitVec.toNat_append_add]; simp [beNat]

theorem toNat32 (a b c d : Byte) :
    (a ++ (b ++ (c ++ d)) : BitVec 32).toNat = beNat [a, b, c, d] := by
  simp only [BitVec.toNat_append_add, beNat, List.length_cons, List.length_nil]
  omega

theorem toNat64 (a b c d e f g h : Byte) :
    (a ++ (b ++ (c ++ (d ++ (e ++ (f ++ (g ++ h)))))) : BitVec 64).toNat =
      beNat [a, b, c, d, e, f, g, h] := by
  simp only [BitVec.toNat_append_add, beNat, List.length_cons, List.length_nil]
  omega

theorem toInt_eq_twosComplement {n : Nat} (x : BitVec (n + 1)) :
    x.toInt = twosComplement (n + 1) x.toNat := by
  have hx := x.isLt
  rw [BitVec.toInt_eq_toNat_cond, twosComplement]
  have : 2 ^ (n + 1) = 2 * 2 ^ n := by rw [Nat.pow_succ]; omega
  simp only [Nat.add_sub_cancel]
  split <;> split <;> first | rfl | omega

/-! ### UVARI -/

theorem uvariLen_eq (b : Byte) :
    uvariLen b = if 192 ≤ b.toNat then 4 else if 128 ≤ b.toNat then 2 else 1 := by
  revert b; decide +kernel

theorem mask30 (x : BitVec 32) : (x &&& 0x3FFFFFFF#32).toNat = x.toNat % 2 ^ 30 := by
  rw [BitVec.toNat_and]
  have := and_shifted_mask x.toNat 0 30
  simpa using this

theorem mask14 (x : BitVec 16) : (x &&& 0x3FFF#16).toNat = x.toNat % 2 ^ 14 := by
  rw [BitVec.toNat_and]
  have := and_shifted_mask x.toNat 0 14
  simpa using this

theorem uvari_one (b : Byte) (r : Bytes) (h : b.toNat < 128) :
    uvari (b :: r) = some (b.toNat, r) := by
  have hl : uvariLen b = 1 := by rw [uvariLen_eq, if_neg (by omega), if_neg (by omega)]
  simp [uvari, hl]

theorem uvari_two (a b : Byte) (r : Bytes) (h : 128 ≤ a.toNat) (h' : a.toNat < 192) :
    uvari (a :: b :: r) = some (beNat [a, b] - 2 * 2 ^ 14, r) := by
  have hl : uvariLen a = 2 := by rw [uvariLen_eq, if_neg (by omega), if_pos h]
  simp only [uvari, hl, mask14, bswap16_load, toNat16]
  have := b.isLt
  simp only [beNat, List.length_cons, List.length_nil, Option.some.injEq, Prod.mk.injEq, and_true]
  omega

theorem uvari_four (a b c d : Byte) (r : Bytes) (h : 192 ≤ a.toNat) :
    uvari (a :: b :: c :: d :: r) = some (beNat [a, b, c, d] - 3 * 2 ^ 30, r) := by
  have hl : uvariLen a = 4 := by rw [uvariLen_eq, if_pos h]
  simp only [uvari, hl, mask30, bswap32_load, toNat32]
  have := a.isLt
  have := b.isLt
  have := c.isLt
  have := d.isLt
  simp only [beNat, List.length_cons, List.length_nil, Option.some.injEq, Prod.mk.injEq, and_true]
  omega

end Dlisio.Dlis
