/-
The little of Python that several models share: texts and formatting of numbers.
-/
import Verif.Dlis.Fingerprint

namespace Dlisio

/-- A Python `str`: its code points. -/
abbrev Text := List Nat

/-- The code points of a literal. -/
def text (s : String) : Text := s.toList.map Char.toNat

/-- `str(n)` and `'{}'.format(n)` for a natural number. -/
def Text.ofNat (n : Nat) : Text := (Dlis.toDecimal n).map BitVec.toNat

end Dlisio
