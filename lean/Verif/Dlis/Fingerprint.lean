/-
Object fingerprints: `dlis_object_fingerprint[_size]` and `obname::fingerprint`.
-/
import Verif.Dlis.Types
import Verif.Dlis.Pack

namespace Dlisio.Dlis

/-- `std::to_string` for a non-negative number (dlisio.cpp:883-884, 914, 919). -/
def toDecimal (n : Nat) : Bytes :=
  if h : n < 10 then [BitVec.ofNat 8 (48 + n)]
  else toDecimal (n / 10) ++ [BitVec.ofNat 8 (48 + n % 10)]
termination_by n

/-- `std::to_string` for an `int32_t`. -/
def toDecimalInt (n : Int) : Bytes :=
  if n < 0 then 0x2d :: toDecimal n.natAbs else toDecimal n.toNat

/-- `dlis_object_fingerprint_size`, dlisio.cpp:871-892: `none` for
`DLIS_INVALID_ARGS`, else the size written to `*size`. -/
def fingerprintSize (type id : Bytes) (origin : Int) (copy : Nat) : Option Nat :=
  if origin < 0 then none
  else if type.length = 0 then none
  else some (11 + type.length + id.length + (toDecimalInt origin).length + (toDecimal copy).length)

/-- `dlis_object_fingerprint`, dlisio.cpp:894-924: the bytes written from
`fingerprint` on; `none` for `DLIS_INVALID_ARGS`. -/
def fingerprintBytes (type id : Bytes) (origin : Int) (copy : Nat) : Option Bytes :=
  if type.length = 0 then none
  else some (
    [0x54, 0x2e] ++ type ++ [0x2d] ++
    [0x49, 0x2e] ++ id ++ [0x2d] ++
    [0x4f, 0x2e] ++ toDecimalInt origin ++ [0x2d] ++
    [0x43, 0x2e] ++ toDecimal copy)

/-- `obname::fingerprint`, lib/include/dlisio/dlis/types.hpp:176-207: `none` when it
throws.  The buffer of the announced size holds what is written: bytes that do not
fit would be written past it, missing ones stay zero. -/
def fingerprint (type id : Bytes) (origin : Int) (copy : Nat) : Option Bytes :=
  match fingerprintSize type id origin copy with
  | none => none
  | some size =>
    match fingerprintBytes type id origin copy with
    | none => none
    | some bs => some ((bs ++ List.replicate (size - bs.length) 0).take size)

/-- `fingerprint` of the Python extension, python/dlisio/ext/dlis.cpp:247-267: the
copy number must fit a byte. -/
def pyFingerprint (type id : Bytes) (origin copy : Int) : Option Bytes :=
  if copy > 255 then none
  else if copy < 0 then none
  else fingerprint type id origin copy.toNat

end Dlisio.Dlis
