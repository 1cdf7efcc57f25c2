/-
Bytes, cursors and the arithmetic facts about bit operations used throughout.

A C `const char*` cursor is modelled by the list of bytes from the cursor to the
end of the buffer.  A decoder returns the decoded value and the rest of the
buffer; `none` stands for "the C code would read past the end of the buffer"
(the C decoders themselves do no bounds checks).
-/
namespace Dlisio

/-- One byte of a file or buffer (`char`, `std::uint8_t`). -/
abbrev Byte := BitVec 8

/-- A buffer, or what is left of it after a cursor. -/
abbrev Bytes := List Byte

/-- `const char* dlis_xxx( const char* xs, T* out )`: the value written to `out`
and the returned cursor; `none` when the read would run past the buffer. -/
abbrev Decoder (α : Type) := Bytes → Option (α × Bytes)

/-- `std::memcpy( out, xs, n ); xs + n`: the next `n` bytes and the rest. -/
def takeN (n : Nat) : Decoder Bytes := fun bs =>
  if n ≤ bs.length then some (bs.take n, bs.drop n) else none

/-! ### Specification of big-endian numbers (independent of bit operations) -/

/-- The number that a big-endian byte string denotes: each byte is a base-256
digit, most significant first. -/
def beNat : Bytes → Nat
  | [] => 0
  | b :: bs => b.toNat * 256 ^ bs.length + beNat bs

/-- Two's complement reading of an `n`-bit number. -/
def twosComplement (bits : Nat) (x : Nat) : Int :=
  if x < 2 ^ (bits - 1) then (x : Int) else (x : Int) - 2 ^ bits

theorem takeN_append (xs rest : Bytes) :
    takeN xs.length (xs ++ rest) = some (xs, rest) := by
  simp [takeN]

theorem takeN_append' {n : Nat} (xs rest : Bytes) (h : xs.length = n) :
    takeN n (xs ++ rest) = some (xs, rest) := by
  subst h; exact takeN_append xs rest

theorem takeN_eq_some {n : Nat} {bs a r : Bytes} (h : takeN n bs = some (a, r)) :
    bs = a ++ r ∧ a.length = n := by
  unfold takeN at h
  split at h
  · simp only [Option.some.injEq, Prod.mk.injEq] at h
    obtain ⟨rfl, rfl⟩ := h
    simp; omega
  · cases h

theorem takeN_eq_none {n : Nat} {bs : Bytes} : takeN n bs = none ↔ bs.length < n := by
  unfold takeN; split <;> simp <;> omega

/-! ### Masks as arithmetic -/

/-- `x & ((2^k-1) << s)` keeps digits `s..s+k-1` of `x`. -/
theorem and_shifted_mask (x s k : Nat) :
    x &&& ((2 ^ k - 1) <<< s) = x / 2 ^ s % 2 ^ k * 2 ^ s := by
  apply Nat.eq_of_testBit_eq
  intro i
  rw [← Nat.shiftLeft_eq, ← Nat.shiftRight_eq_div_pow, Nat.testBit_and, Nat.testBit_shiftLeft,
    Nat.testBit_shiftLeft, Nat.testBit_mod_two_pow, Nat.testBit_shiftRight,
    Nat.testBit_two_pow_sub_one]
  by_cases h : s ≤ i
  · have e : s + (i - s) = i := by omega
    simp only [ge_iff_le, h, decide_true, Bool.true_and, e]
    cases x.testBit i <;> simp
  · simp [h]

/-- `a | b` is `a + b` when `b` is below the lowest digit of `a`. -/
theorem or_eq_add (a b n : Nat) (h : b < 2 ^ n) : (a * 2 ^ n) ||| b = a * 2 ^ n + b := by
  rw [← Nat.shiftLeft_eq, Nat.shiftLeft_add_eq_or_of_lt h]

theorem BitVec.toNat_append_add {n m : Nat} (x : BitVec n) (y : BitVec m) :
    (x ++ y).toNat = x.toNat * 2 ^ m + y.toNat := by
  rw [BitVec.toNat_append, Nat.shiftLeft_eq, or_eq_add _ _ _ y.isLt]

end Dlisio

namespace Dlisio

/-- `u & c` where `c` is a run of `k` ones starting at bit `s`. -/
theorem toNat_and_mask {w : Nat} (u c : BitVec w) (s k : Nat)
    (hc : c.toNat = (2 ^ k - 1) <<< s) :
    (u &&& c).toNat = u.toNat / 2 ^ s % 2 ^ k * 2 ^ s := by
  rw [BitVec.toNat_and, hc, and_shifted_mask]

/-- `a | b` where `a` has no digits below `n` and `b` only has digits below `n`. -/
theorem or_eq_add_of_dvd (a b n : Nat) (ha : a % 2 ^ n = 0) (hb : b < 2 ^ n) :
    a ||| b = a + b := by
  have h : a = a / 2 ^ n * 2 ^ n := by
    have := Nat.div_add_mod a (2 ^ n)
    rw [Nat.mul_comm] at this; omega
  rw [h]; exact or_eq_add _ _ _ hb

end Dlisio
