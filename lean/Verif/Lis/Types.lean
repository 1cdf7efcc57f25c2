import Verif.Float
import Verif.Dlis.Types
/-
Model of lib/src/lis/types.cpp: decoding of the LIS79 representation codes.

`float` arithmetic is done in ℚ and rounded after each operation (`Flt.round`);
products with `std::pow( 2, -n )` are `double` products of at most 32-bit integers
with a power of two, hence exact.  `std::pow( 2.0f, x )` is taken to be correctly
rounded.  Zero has no sign in the model.
-/
namespace Dlisio.Lis

open _root_.Dlisio.Dlis (load16 load32 bswap16 bswap32)

/-- A `float`: a finite number, an infinity or NaN. -/
inductive Flt where
  | num (q : ℚ)
  | inf (neg : Bool)
  | nan
deriving DecidableEq

/-- Result of a `float` operation whose exact result is `q`: rounded to nearest,
ties to even; infinite from 2^128 on (IEEE 754, 7.4). -/
def Flt.round (q : ℚ) : Flt :=
  if 2 ^ 128 ≤ |rnd32 q| then .inf (decide (q < 0)) else .num (rnd32 q)

/-- Product of two `float`s (IEEE 754): zero times infinity is NaN. -/
def Flt.mul : Flt → Flt → Flt
  | .nan, _ => .nan
  | _, .nan => .nan
  | .num a, .num b => .round (a * b)
  | .inf s, .inf t => .inf (s != t)
  | .num a, .inf s => if a = 0 then .nan else .inf (s != decide (a < 0))
  | .inf s, .num a => if a = 0 then .nan else .inf (s != decide (a < 0))

/-- Sum of two `float`s (IEEE 754): infinities of opposite signs give NaN. -/
def Flt.add : Flt → Flt → Flt
  | .nan, _ => .nan
  | _, .nan => .nan
  | .num a, .num b => .round (a + b)
  | .inf s, .inf t => if s = t then .inf s else .nan
  | .num _, .inf s => .inf s
  | .inf s, .num _ => .inf s

/-- `std::pow( 2.0f, x )` for an integral `x`. -/
def powf2 (x : ℤ) : Flt := .round (2 ^ x)

/-- `sign ? -1.0 : 1.0`, types.cpp:168, 204, 250-251, 293. -/
def signOf (bit : Bool) : ℚ := if bit then -1 else 1

/-- `twos_complement`, types.cpp:78-115.  The mask `(1 << len) - 1` is taken to have
the value intended; see `maskInt` for where its `int` arithmetic overflows. -/
def twosCompl {w : Nat} (sign : Bool) (number : BitVec w) (len : Nat) : BitVec w :=
  if sign then (~~~number &&& BitVec.ofNat w (2 ^ len - 1)) + 1 else number

/-- The `int` expression `(1 << len) - 1`, types.cpp:105, evaluated with 32-bit `int`:
`none` when the shifted value is not representable (undefined behaviour, C++11
[expr.shift]). -/
def maskInt (len : Nat) : Option Int :=
  if (2 : Int) ^ len ≤ 2 ^ 31 - 1 then some (2 ^ len - 1) else none

/-- `lis_i8`, types.cpp:119-124. -/
def i8 : Decoder Int
  | b :: bs => some (b.toInt, bs)
  | _ => none

/-- `lis_i16`, types.cpp:126-134. -/
def i16 : Decoder Int
  | b0 :: b1 :: bs => some ((bswap16 (load16 b0 b1)).toInt, bs)
  | _ => none

/-- `lis_i32`, types.cpp:136-144. -/
def i32 : Decoder Int
  | b0 :: b1 :: b2 :: b3 :: bs => some ((bswap32 (load32 b0 b1 b2 b3)).toInt, bs)
  | _ => none

/-- The arithmetic of `lis_f16`, types.cpp:161-176. -/
def f16Value (v : BitVec 16) : Flt :=
  let sign_bit : Bool := (v &&& 0x8000#16) >>> 15 ≠ 0
  let exp_bits := v &&& 0x000F#16
  let frac_bits := (v &&& 0x7FF0#16) >>> 4
  let frac_2_complement := twosCompl sign_bit frac_bits 11
  let fraction := Flt.round (frac_2_complement.toNat * 2 ^ (-11 : ℤ))
  ((Flt.num (signOf sign_bit)).mul fraction).mul (powf2 exp_bits.toNat)

/-- `lis_f16`, types.cpp:146-178. -/
def f16 : Decoder Flt
  | b0 :: b1 :: bs => some (f16Value (bswap16 (load16 b0 b1)), bs)
  | _ => none

/-- The arithmetic of `lis_f32`, types.cpp:198-221. -/
def f32Value (v : BitVec 32) : Flt :=
  let sign_bit : Bool := (v &&& 0x80000000#32) >>> 31 ≠ 0
  let exp_bits : BitVec 8 := ((v &&& 0x7F800000#32) >>> 23).setWidth 8
  let frac_bits := v &&& 0x007FFFFF#32
  let exponent_1_complement := if sign_bit then ~~~exp_bits else exp_bits
  let exponent : ℤ := (exponent_1_complement.toNat : ℤ) - 128
  let frac_2_complement := twosCompl sign_bit frac_bits 23
  let fraction := Flt.round (frac_2_complement.toNat * 2 ^ (-23 : ℤ))
  ((Flt.num (signOf sign_bit)).mul fraction).mul (powf2 exponent)

/-- `lis_f32`, types.cpp:180-223. -/
def f32 : Decoder Flt
  | b0 :: b1 :: b2 :: b3 :: bs => some (f32Value (bswap32 (load32 b0 b1 b2 b3)), bs)
  | _ => none

/-- The arithmetic of `lis_f32low`, types.cpp:242-270. -/
def f32lowValue (v : BitVec 32) : Flt :=
  let fraction_sign_bit : Bool := (v &&& 0x00008000#32) >>> 15 ≠ 0
  let exponent_sign_bit : Bool := (v &&& 0x80000000#32) >>> 31 ≠ 0
  let exp_bits : BitVec 16 := ((v &&& 0x7FFF0000#32) >>> 16).setWidth 16
  let frac_bits : BitVec 16 := (v &&& 0x00007FFF#32).setWidth 16
  let exp_2_complement := twosCompl exponent_sign_bit exp_bits 15
  let exponent : ℤ := (if exponent_sign_bit then -1 else 1) * (exp_2_complement.toNat : ℤ)
  let frac_2_complement := twosCompl fraction_sign_bit frac_bits 15
  ((Flt.num (signOf fraction_sign_bit)).mul (.round frac_2_complement.toNat)).mul
    (powf2 (exponent - 15))

/-- `lis_f32low`, types.cpp:225-273. -/
def f32low : Decoder Flt
  | b0 :: b1 :: b2 :: b3 :: bs => some (f32lowValue (bswap32 (load32 b0 b1 b2 b3)), bs)
  | _ => none

/-- The arithmetic of `lis_f32fix`, types.cpp:290-305. -/
def f32fixValue (v : BitVec 32) : Flt :=
  let sign_bit : Bool := (v &&& 0x80000000#32) >>> 31 ≠ 0
  let data_bits := v &&& 0x7FFFFFFF#32
  let data_2_complement := twosCompl sign_bit data_bits 31
  let integer_bits : BitVec 16 := ((data_2_complement &&& 0xFFFF0000#32) >>> 16).setWidth 16
  let integer_part := Flt.round integer_bits.toNat
  let real_bits : BitVec 16 := (data_2_complement &&& 0x0000FFFF#32).setWidth 16
  let real_part := Flt.round (real_bits.toNat * 2 ^ (-16 : ℤ))
  (Flt.num (signOf sign_bit)).mul (integer_part.add real_part)

/-- `lis_f32fix`, types.cpp:275-307. -/
def f32fix : Decoder Flt
  | b0 :: b1 :: b2 :: b3 :: bs => some (f32fixValue (bswap32 (load32 b0 b1 b2 b3)), bs)
  | _ => none

/-- `lis_string`, types.cpp:309-313; the length is not encoded but a parameter. -/
def lisString (len : Nat) : Decoder Bytes := takeN len

/-- `lis_byte`, types.cpp:315-319: an unsigned number. -/
def byte : Decoder Nat
  | b :: bs => some (b.toNat, bs)
  | _ => none

/-- `lis_mask`, types.cpp:321-325. -/
def mask (len : Nat) : Decoder Bytes := takeN len

/-- The representation codes, lis/types.h:112-121. -/
inductive Reprc where
  | i8 | i16 | i32 | f16 | f32 | f32low | f32fix | string | byte | mask
deriving DecidableEq, Repr

/-- Numeric code, lis/types.h:112-121. -/
def Reprc.code : Reprc → Nat
  | .i8 => 56 | .i16 => 79 | .i32 => 73 | .f16 => 49 | .f32 => 68
  | .f32low => 50 | .f32fix => 70 | .string => 65 | .byte => 66 | .mask => 77

/-- The cases of the switch over representation codes, types.cpp:328-340. -/
def Reprc.ofCode (n : Int) : Option Reprc :=
  if n = 56 then some .i8 else if n = 79 then some .i16 else if n = 73 then some .i32
  else if n = 49 then some .f16 else if n = 68 then some .f32 else if n = 50 then some .f32low
  else if n = 70 then some .f32fix else if n = 65 then some .string
  else if n = 66 then some .byte else if n = 77 then some .mask else none

/-- `LIS_SIZEOF_*`, lis/types.h:126-135. -/
def Reprc.size : Reprc → Nat
  | .i8 => 1 | .i16 => 2 | .i32 => 4 | .f16 => 2 | .f32 => 4
  | .f32low => 4 | .f32fix => 4 | .string => 0 | .byte => 1 | .mask => 0

/-- `lis_sizeof_type`, types.cpp:327-341. -/
def sizeofType (reprc : Int) : Int :=
  match Reprc.ofCode reprc with
  | some c => c.size
  | none => -1

end Dlisio.Lis
