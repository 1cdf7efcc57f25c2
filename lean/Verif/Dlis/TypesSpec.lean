import Verif.Basic
/-
Independent specification of RP66 V1 Appendix B encodings, in terms of base-256
numbers only.
-/
namespace Dlisio.Dlis.Spec

/-- `f` reads exactly `n` bytes, whatever they are and whatever follows, and its
value is `val` of these bytes; with fewer than `n` bytes there is no value. -/
def ReadsFixed {α : Type} (f : Decoder α) (n : Nat) (val : Bytes → α) : Prop :=
  ∀ bs v r, f bs = some (v, r) ↔ ∃ enc, enc.length = n ∧ bs = enc ++ r ∧ v = val enc

/-- `enc` is a UVARI encoding of `v` (RP66 V1, B.18): one byte below 128; or two
bytes whose top bits are `10` followed by a 14-bit number; or four bytes whose top
bits are `11` followed by a 30-bit number. -/
def Uvari (v : Nat) (enc : Bytes) : Prop :=
  (enc.length = 1 ∧ beNat enc = v ∧ v < 2 ^ 7) ∨
  (enc.length = 2 ∧ beNat enc = 2 * 2 ^ 14 + v ∧ v < 2 ^ 14) ∨
  (enc.length = 4 ∧ beNat enc = 3 * 2 ^ 30 + v ∧ v < 2 ^ 30)

/-- An IDENT or UNITS encoding (B.19, B.27): length byte, then the characters. -/
def Ident (s : Bytes) (enc : Bytes) : Prop :=
  ∃ b : Byte, b.toNat = s.length ∧ enc = b :: s

/-- An ASCII encoding (B.20): UVARI length, then the characters. -/
def Ascii (s : Bytes) (enc : Bytes) : Prop :=
  ∃ l, Uvari s.length l ∧ enc = l ++ s

/-- An OBNAME encoding (B.23): origin (UVARI), copy number (USHORT), identifier. -/
def Obname (origin copy : Nat) (id : Bytes) (enc : Bytes) : Prop :=
  ∃ o i, ∃ c : Byte, Uvari origin o ∧ c.toNat = copy ∧ Ident id i ∧ enc = o ++ c :: i

/-- An OBJREF encoding (B.24): object type (IDENT), object name (OBNAME). -/
def Objref (type : Bytes) (origin copy : Nat) (id : Bytes) (enc : Bytes) : Prop :=
  ∃ t n, Ident type t ∧ Obname origin copy id n ∧ enc = t ++ n

/-- An ATTREF encoding (B.25): object type, object name, attribute label. -/
def Attref (type : Bytes) (origin copy : Nat) (id label : Bytes) (enc : Bytes) : Prop :=
  ∃ t n l, Ident type t ∧ Obname origin copy id n ∧ Ident label l ∧ enc = t ++ n ++ l

end Dlisio.Dlis.Spec
