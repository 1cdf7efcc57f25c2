import Verif.Float
import Verif.Dlis.Types
/-
Model of the RP66 floating point decoders/encoders that do more than copy bits:
FSHORT, ISINGL (IBM) and VSINGL (VAX), `lib/src/dlis/types.cpp`.
-/
namespace Dlisio.Dlis

/-- `dlis_fshort` on the 16-bit word, types.cpp:267-277.  Bit manipulation is done
on `uint16_t`; the float operations at 275 and 277 are exact division/products
followed by `rnd32`. -/
def fshortValue (v : BitVec 16) : F32 :=
  let sign_bit := v &&& 0x8000#16
  let exp_bits := v &&& 0x000F#16
  let frac_bits := (v &&& 0xFFF0#16) >>> 4
  let frac_bits := if sign_bit ≠ 0 then (~~~frac_bits &&& 0x0FFF#16) + 1 else frac_bits
  let sign : ℚ := if sign_bit ≠ 0 then -1 else 1
  let fractional : ℚ := rnd32 (frac_bits.toNat / 0x0800)
  .num (rnd32 (rnd32 (sign * fractional) * rnd32 (2 ^ exp_bits.toNat)))

/-- `dlis_fshort`, types.cpp:263-279. -/
def fshort : Decoder F32
  | b0 :: b1 :: bs => some (fshortValue (bswap16 (load16 b0 b1)), bs)
  | _ => none

/-- The table `it` of `dlis_isingl`, types.cpp:306-308. -/
def isinglIt (ix : BitVec 32) : BitVec 32 :=
  if ix = 0 then 0x21800000#32
  else if ix = 1 then 0x21400000#32
  else if ix = 2 ∨ ix = 3 then 0x21000000#32
  else 0x20c00000#32

/-- The table `mt` of `dlis_isingl`, types.cpp:309. -/
def isinglMt (ix : BitVec 32) : BitVec 32 :=
  if ix = 0 then 8#32
  else if ix = 1 then 4#32
  else if ix = 2 ∨ ix = 3 then 2#32
  else 1#32

/-- `dlis_isingl` on the 32-bit word, types.cpp:317-324: the IEEE pattern. -/
def isinglBits (u : BitVec 32) : BitVec 32 :=
  let manthi := u &&& 0x00FFFFFF#32
  let ix := manthi >>> 21
  let iexp := ((u &&& 0x7f000000#32) - isinglIt ix) <<< 1
  let manthi := manthi * isinglMt ix + iexp
  let inabs := u &&& 0x7FFFFFFF#32
  let manthi := if 0x611FFFFF#32 < inabs then 0x7FFFFFFF#32 else manthi
  let manthi := manthi ||| (u &&& 0x80000000#32)
  if inabs < 0x21200000#32 then 0#32 else manthi

/-- `dlis_isingl`, types.cpp:301-328. -/
def isingl : Decoder (BitVec 32)
  | b0 :: b1 :: b2 :: b3 :: bs => some (isinglBits (bswap32 (load32 b0 b1 b2 b3)), bs)
  | _ => none

/-- `dlis_vsingl` on the assembled word `v`, types.cpp:340-371. -/
def vsinglValue (v : BitVec 32) : F32 :=
  let sign_bit := v &&& 0x80000000#32
  let frac_bits := v &&& 0x007FFFFF#32
  let exp_bits := (v &&& 0x7F800000#32) >>> 23
  let sign : ℚ := if sign_bit ≠ 0 then -1 else 1
  let exponent : ℤ := exp_bits.toNat - 128
  let significand : ℚ := rnd32 (rnd32 ((frac_bits ||| 0x00800000#32).toNat) / 2 ^ 24)
  if exp_bits ≠ 0 then
    .num (rnd32 (rnd32 (sign * significand) * rnd32 (2 ^ exponent)))
  else if sign_bit = 0 then .num 0
  else .nan

/-- `dlis_vsingl`, types.cpp:330-374: PDP-11 byte order (334-338). -/
def vsingl : Decoder F32
  | x0 :: x1 :: x2 :: x3 :: bs =>
    let v := (x1.setWidth 32 <<< 24) ||| (x0.setWidth 32 <<< 16) |||
             (x3.setWidth 32 <<< 8) ||| (x2.setWidth 32 <<< 0)
    some (vsinglValue v, bs)
  | _ => none

/-- The table `it` of `dlis_isinglo`, types.cpp:473. -/
def isingloIt (ix : BitVec 32) : BitVec 32 :=
  if ix = 0 then 0x21200000#32
  else if ix = 1 then 0x21400000#32
  else if ix = 2 then 0x21800000#32
  else 0x22100000#32

/-- The table `mt` of `dlis_isinglo`, types.cpp:474. -/
def isingloMt (ix : BitVec 32) : BitVec 32 :=
  if ix = 0 then 2#32
  else if ix = 1 then 4#32
  else if ix = 2 then 8#32
  else 1#32

/-- `dlis_isinglo` on the IEEE pattern, types.cpp:480-484. -/
def isingloBits (u : BitVec 32) : BitVec 32 :=
  let ix := (u &&& 0x01800000#32) >>> 23
  let iexp := ((u &&& 0x7e000000#32) >>> 1) + isingloIt ix
  let manthi := (isingloMt ix * (u &&& 0x007fffff#32)) >>> 3
  let manthi := (manthi + iexp) ||| (u &&& 0x80000000#32)
  if u &&& 0x7fffffff#32 ≠ 0 then manthi else 0#32

/-- `dlis_isinglo`, types.cpp:472-489. -/
def isinglo (u : BitVec 32) : Bytes := store32 (bswap32 (isingloBits u))

/-- `dlis_vsinglo`, types.cpp:491-519. -/
def vsinglo (u : BitVec 32) : Bytes :=
  let sign_bit := u &&& 0x80000000#32
  let exp_bits := (u &&& 0x7F800000#32) >>> 23
  let frac_bits := u &&& 0x007FFFFF#32
  if exp_bits = 0 then store32 0#32
  else
    let exp_bits := exp_bits + 2#32
    let exp_bits := exp_bits <<< 23
    let v := sign_bit ||| exp_bits ||| frac_bits
    let w0 := (v &&& 0x00FF0000#32) <<< 8
    let w1 := (v &&& 0xFF000000#32) >>> 8
    let w2 := (v &&& 0x000000FF#32) <<< 8
    let w3 := (v &&& 0x0000FF00#32) >>> 8
    let z := w0 ||| w1 ||| w2 ||| w3
    store32 (bswap32 z)

end Dlisio.Dlis
