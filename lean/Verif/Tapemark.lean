/-
Tape marks: lib/src/tapemark.cpp and lib/include/dlisio/tapemark.hpp.
-/
import Verif.Stream

namespace Dlisio

/-- `tapemark`, tapemark.hpp:18-24: three `uint32_t`. -/
structure Tapemark where
  type : BitVec 32
  prev : BitVec 32
  next : BitVec 32
deriving DecidableEq, Repr

/-- `std::memcpy` of four bytes to a `uint32_t` on a little-endian host. -/
def loadLe32 (b0 b1 b2 b3 : Byte) : BitVec 32 := b3 ++ b2 ++ b1 ++ b0

/-- `parse_tapemark`, tapemark.cpp:18-35 (on a little-endian host); `none` if there are fewer
than 12 bytes, which never happens. -/
def parseTapemark : Bytes → Option Tapemark
  | a0 :: a1 :: a2 :: a3 :: b0 :: b1 :: b2 :: b3 :: c0 :: c1 :: c2 :: c3 :: _ =>
    some ⟨loadLe32 a0 a1 a2 a3, loadLe32 b0 b1 b2 b3, loadLe32 c0 c1 c2 c3⟩
  | _ => none

/-- `valid_tapemark`, tapemark.cpp:11-16. -/
def validTapemark (tm : Tapemark) : Bool :=
  if tm.type ≠ 0 ∧ tm.type ≠ 1 then false
  else if tm.prev ≥ tm.next then false
  else true

/-- How `read_tapemark` ends: a tape mark, or one of its two exceptions, or the exception of
`stream::read`. -/
inductive TapemarkResult where
  | ok (tm : Tapemark)
  | eofError
  | ioError
deriving DecidableEq, Repr

/-- `read_tapemark`, tapemark.cpp:37-54, at a position of a stream. -/
def readTapemark (src : Source) (pos : Nat) : TapemarkResult :=
  match readAt src pos 12 with
  | .ok bs => match parseTapemark bs with
    | some tm => .ok tm
    | none => .ioError
  | .eof _ => .eofError
  | .error => .ioError

/-! ### C55 -/

/-- The number that bytes denote, least significant first. -/
def Spec.leNat : Bytes → Nat
  | [] => 0
  | b :: bs => b.toNat + 256 * Spec.leNat bs

theorem loadLe32_toNat (b0 b1 b2 b3 : Byte) :
    (loadLe32 b0 b1 b2 b3).toNat = Spec.leNat [b0, b1, b2, b3] := by
  unfold loadLe32
  have h0 := b0.isLt; have h1 := b1.isLt; have h2 := b2.isLt; have h3 := b3.isLt
  simp only [BitVec.toNat_append, Spec.leNat]
  rw [← Nat.shiftLeft_add_eq_or_of_lt h0, ← Nat.shiftLeft_add_eq_or_of_lt h1,
    ← Nat.shiftLeft_add_eq_or_of_lt h2]
  simp only [Nat.shiftLeft_eq]
  omega

theorem split12 (bs : Bytes) (h : bs.length = 12) : ∃ a0 a1 a2 a3 b0 b1 b2 b3 c0 c1 c2 c3,
    bs = [a0, a1, a2, a3, b0, b1, b2, b3, c0, c1, c2, c3] := by
  match bs, h with
  | [a0, a1, a2, a3, b0, b1, b2, b3, c0, c1, c2, c3], _ =>
    exact ⟨a0, a1, a2, a3, b0, b1, b2, b3, c0, c1, c2, c3, rfl⟩

/-- C55: 12 bytes are recognised as a tape mark iff the type is 0 or 1 and the position of the
previous mark is smaller than that of the next one, all three little endian. -/
theorem c55_tapemark (bs : Bytes) (h : bs.length = 12) :
    ∃ tm, parseTapemark bs = some tm ∧
      tm.type.toNat = Spec.leNat (bs.take 4) ∧ tm.prev.toNat = Spec.leNat ((bs.drop 4).take 4) ∧
      tm.next.toNat = Spec.leNat (bs.drop 8) ∧
      (validTapemark tm = true ↔
        (Spec.leNat (bs.take 4) = 0 ∨ Spec.leNat (bs.take 4) = 1) ∧
        Spec.leNat ((bs.drop 4).take 4) < Spec.leNat (bs.drop 8)) := by
  obtain ⟨a0, a1, a2, a3, b0, b1, b2, b3, c0, c1, c2, c3, rfl⟩ := split12 bs h
  refine ⟨_, rfl, loadLe32_toNat .., loadLe32_toNat .., loadLe32_toNat .., ?_⟩
  simp only [List.take_succ_cons, List.take_zero, List.drop_succ_cons, List.drop_zero]
  rw [← loadLe32_toNat a0, ← loadLe32_toNat b0, ← loadLe32_toNat c0]
  generalize loadLe32 a0 a1 a2 a3 = t
  generalize loadLe32 b0 b1 b2 b3 = p
  generalize loadLe32 c0 c1 c2 c3 = n
  unfold validTapemark
  have ht0 : t = 0 ↔ t.toNat = 0 := by
    constructor
    · rintro rfl; rfl
    · intro h; exact BitVec.eq_of_toNat_eq h
  have ht1 : t = 1 ↔ t.toNat = 1 := by
    constructor
    · rintro rfl; rfl
    · intro h; exact BitVec.eq_of_toNat_eq h
  have hpn : p ≥ n ↔ n.toNat ≤ p.toNat := Iff.rfl
  simp only [ne_eq, ht0, ht1, hpn]
  split
  · simp; omega
  · split
    · simp; omega
    · simp; omega

/-- C55: reading succeeds iff 12 bytes are left. -/
theorem c55_read (src : Source) (pos : Nat) :
    (∃ tm, readTapemark src pos = .ok tm) ↔ pos + 12 ≤ src.data.length := by
  unfold readTapemark
  constructor
  · rintro ⟨tm, h⟩
    match hr : readAt src pos 12 with
    | .ok bs => exact (readAt_ok hr (by omega)).1
    | .eof _ => simp [hr] at h
    | .error => simp [hr] at h
  · intro h
    have hr : readAt src pos 12 = .ok ((src.data.drop pos).take 12) := by
      unfold readAt
      rw [if_neg (by omega), if_pos h]
    obtain ⟨tm, h1, -⟩ := c55_tapemark ((src.data.drop pos).take 12) (by simp; omega)
    exact ⟨tm, by rw [hr]; simp only [h1]⟩

/-- Case: the first mark of a tape image, whose next mark is at 80. -/
example : readTapemark ⟨[0, 0, 0, 0, 0, 0, 0, 0, 80, 0, 0, 0, 7], .eof⟩ 0 = .ok ⟨0, 0, 80⟩ ∧
    validTapemark ⟨0, 0, 80⟩ = true := by decide

/-- Case: a storage unit label is not a tape mark. -/
example : readTapemark ⟨[0x20, 0x20, 0x20, 0x31, 0x56, 0x31, 0x2e, 0x30, 0x30, 0x52, 0x45, 0x43],
    .eof⟩ 0 = .ok ⟨0x31202020, 0x302e3156, 0x43455230⟩ ∧
    validTapemark ⟨0x31202020, 0x302e3156, 0x43455230⟩ = false := by decide

end Dlisio
