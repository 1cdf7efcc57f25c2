import Verif.Basic
/-
Model of the RP66 data type decoders and encoders, `lib/src/dlis/types.cpp`, for
all types that do not involve floating point arithmetic (those are in
`Verif/Dlis/Floats.lean`).

Conventions.  Only little-endian hosts are modelled (the `#else` branch at
types.cpp:24-67).  Signed results are `Int`, unsigned results `Nat`; an encoder's
argument is converted to its C parameter type by `BitVec.ofInt`/`BitVec.ofNat`,
which wrap exactly as the implicit C conversion.  IEEE floats that are merely
copied are kept as bit patterns.
-/
namespace Dlisio.Dlis

/-! ### Host memory and byte swapping -/

/-- `std::memcpy( &v, xs, 2 )` into a `uint16_t` on a little-endian host
(types.cpp:80, 100, 136, 221). -/
def load16 (b0 b1 : Byte) : BitVec 16 := b1 ++ b0

/-- `std::memcpy( &v, xs, 4 )` into a `uint32_t` on a little-endian host
(types.cpp:88, 106, 129, 286, 314). -/
def load32 (b0 b1 b2 b3 : Byte) : BitVec 32 := b3 ++ (b2 ++ (b1 ++ b0))

/-- `std::memcpy( &v, xs, 8 )` into a `uint64_t`/`double` on a little-endian host
(types.cpp:296). -/
def load64 (b0 b1 b2 b3 b4 b5 b6 b7 : Byte) : BitVec 64 :=
  b7 ++ (b6 ++ (b5 ++ (b4 ++ (b3 ++ (b2 ++ (b1 ++ b0))))))

/-- `std::memcpy( xs, &v, 2 )` of a `uint16_t` on a little-endian host
(types.cpp:450, 570, 633). -/
def store16 (v : BitVec 16) : Bytes := [v.extractLsb' 0 8, v.extractLsb' 8 8]

/-- `std::memcpy( xs, &v, 4 )` of a `uint32_t`/`float` on a little-endian host
(types.cpp:456, 462, 487, 501, 517, 577). -/
def store32 (v : BitVec 32) : Bytes :=
  [v.extractLsb' 0 8, v.extractLsb' 8 8, v.extractLsb' 16 8, v.extractLsb' 24 8]

/-- `std::memcpy( xs, &v, 8 )` of a `double` on a little-endian host (types.cpp:468). -/
def store64 (v : BitVec 64) : Bytes :=
  [v.extractLsb' 0 8, v.extractLsb' 8 8, v.extractLsb' 16 8, v.extractLsb' 24 8,
   v.extractLsb' 32 8, v.extractLsb' 40 8, v.extractLsb' 48 8, v.extractLsb' 56 8]

/-- `bswap16`, external/endianness/include/endianness/endianness.h:73-75 (the
portable definition; the compiler built-ins at 63-70 are assumed to agree).
Used by `hton`/`ntoh` of 2-byte values, types.cpp:31-38, 62-65. -/
def bswap16 (x : BitVec 16) : BitVec 16 :=
  ((x >>> 8) &&& 0xff#16) ||| ((x &&& 0xff#16) <<< 8)

/-- `bswap32`, endianness.h:76-81.  Used by `hton`/`ntoh` of 4-byte values,
types.cpp:41-49, 62-65. -/
def bswap32 (x : BitVec 32) : BitVec 32 :=
  ((x &&& 0xff000000#32) >>> 24) ||| ((x &&& 0x00ff0000#32) >>> 8) |||
  ((x &&& 0x0000ff00#32) <<< 8) ||| ((x &&& 0x000000ff#32) <<< 24)

/-- `bswap64`, endianness.h:82-91.  Used by `hton`/`ntoh` of 8-byte values,
types.cpp:51-59, 62-65. -/
def bswap64 (x : BitVec 64) : BitVec 64 :=
  ((x &&& 0xff00000000000000#64) >>> 56) |||
  ((x &&& 0x00ff000000000000#64) >>> 40) |||
  ((x &&& 0x0000ff0000000000#64) >>> 24) |||
  ((x &&& 0x000000ff00000000#64) >>> 8) |||
  ((x &&& 0x00000000ff000000#64) <<< 8) |||
  ((x &&& 0x0000000000ff0000#64) <<< 24) |||
  ((x &&& 0x000000000000ff00#64) <<< 40) |||
  ((x &&& 0x00000000000000ff#64) <<< 56)

/-! ### Decoders -/

/-- `dlis_ushort`, types.cpp:94-97. -/
def ushort : Decoder Nat
  | b :: bs => some (b.toNat, bs)
  | [] => none

/-- `dlis_sshort`, types.cpp:72-76. -/
def sshort : Decoder Int
  | b :: bs => some (b.toInt, bs)
  | [] => none

/-- `dlis_unorm`, types.cpp:99-103. -/
def unorm : Decoder Nat
  | b0 :: b1 :: bs => some ((bswap16 (load16 b0 b1)).toNat, bs)
  | _ => none

/-- `dlis_snorm`, types.cpp:78-84. -/
def snorm : Decoder Int
  | b0 :: b1 :: bs => some ((bswap16 (load16 b0 b1)).toInt, bs)
  | _ => none

/-- `dlis_ulong`, types.cpp:105-109. -/
def ulong : Decoder Nat
  | b0 :: b1 :: b2 :: b3 :: bs => some ((bswap32 (load32 b0 b1 b2 b3)).toNat, bs)
  | _ => none

/-- `dlis_slong`, types.cpp:86-92. -/
def slong : Decoder Int
  | b0 :: b1 :: b2 :: b3 :: bs => some ((bswap32 (load32 b0 b1 b2 b3)).toInt, bs)
  | _ => none

/-- Length class of a UVARI, types.cpp:118-125: the two high bits of the first
byte select 4, 2 or 1 bytes. -/
def uvariLen (b0 : Byte) : Nat :=
  if b0 &&& 0xC0#8 = 0xC0#8 then 4
  else if b0 &&& 0xC0#8 = 0x80#8 then 2
  else 1

/-- `dlis_uvari`, types.cpp:111-167. -/
def uvari : Decoder Nat
  | [] => none
  | b0 :: bs =>
    match uvariLen b0 with
    | 4 => match bs with
      | b1 :: b2 :: b3 :: r => some ((bswap32 (load32 b0 b1 b2 b3) &&& 0x3FFFFFFF#32).toNat, r)
      | _ => none
    | 2 => match bs with
      | b1 :: r => some ((bswap16 (load16 b0 b1) &&& 0x3FFF#16).toNat, r)
      | _ => none
    | _ => some (b0.toNat, bs)

/-- `dlis_ident`, types.cpp:169-176 (with non-null `len` and `out`; the decoded
string carries its length). -/
def ident : Decoder Bytes := fun xs => do
  let (ln, xs) ← ushort xs
  takeN ln xs

/-- `dlis_units`, types.cpp:418-425. -/
def units : Decoder Bytes := fun xs => do
  let (ln, xs) ← ushort xs
  takeN ln xs

/-- `dlis_ascii`, types.cpp:178-185. -/
def ascii : Decoder Bytes := fun xs => do
  let (ln, xs) ← uvari xs
  takeN ln xs

/-- The eight `int` outputs of `dlis_dtime`; as `DLIS` field order of
lib/include/dlisio/dlis/types.hpp `dtime`. -/
structure DTime where
  Y : Nat
  TZ : Nat
  M : Nat
  D : Nat
  H : Nat
  MN : Nat
  S : Nat
  MS : Nat
deriving DecidableEq, Repr

/-- `dlis_year`, types.cpp:187-189 with `DLIS_YEAR_ZERO` = 1900 (types.h:56). -/
def year (y : Int) : Int := y + 1900

/-- `dlis_yearo`, types.cpp:603-605. -/
def yearo (y : Int) : Int := y - 1900

/-- `dlis_dtime`, types.cpp:191-225. -/
def dtime : Decoder DTime
  | x0 :: x1 :: x2 :: x3 :: x4 :: x5 :: m0 :: m1 :: bs =>
    some ({ Y := x0.toNat
            TZ := ((x1 &&& 0xF0#8) >>> 4).toNat
            M := (x1 &&& 0x0F#8).toNat
            D := x2.toNat
            H := x3.toNat
            MN := x4.toNat
            S := x5.toNat
            MS := (bswap16 (load16 m0 m1)).toNat }, bs)
  | _ => none

/-- `dlis_origin`, types.cpp:227-229. -/
def origin : Decoder Nat := uvari

/-- The outputs of `dlis_obname` (`dl::obname`, types.hpp). -/
structure Obname where
  origin : Nat
  copy : Nat
  id : Bytes
deriving DecidableEq, Repr

/-- The outputs of `dlis_objref` (`dl::objref`, types.hpp). -/
structure Objref where
  type : Bytes
  name : Obname
deriving DecidableEq, Repr

/-- The outputs of `dlis_attref` (`dl::attref`, types.hpp). -/
structure Attref where
  type : Bytes
  name : Obname
  label : Bytes
deriving DecidableEq, Repr

/-- `dlis_obname`, types.cpp:231-238. -/
def obname : Decoder Obname := fun xs => do
  let (o, xs) ← origin xs
  let (c, xs) ← ushort xs
  let (i, xs) ← ident xs
  some (⟨o, c, i⟩, xs)

/-- `dlis_objref`, types.cpp:240-248. -/
def objref : Decoder Objref := fun xs => do
  let (t, xs) ← ident xs
  let (n, xs) ← obname xs
  some (⟨t, n⟩, xs)

/-- `dlis_attref`, types.cpp:250-261. -/
def attref : Decoder Attref := fun xs => do
  let (t, xs) ← ident xs
  let (n, xs) ← obname xs
  let (l, xs) ← ident xs
  some (⟨t, n, l⟩, xs)

/-- `dlis_status`, types.cpp:414-416. -/
def status : Decoder Nat := ushort

/-- `dlis_fsingl`, types.cpp:281-289: the IEEE binary32 bit pattern. -/
def fsingl : Decoder (BitVec 32)
  | b0 :: b1 :: b2 :: b3 :: bs => some (bswap32 (load32 b0 b1 b2 b3), bs)
  | _ => none

/-- `dlis_fdoubl`, types.cpp:291-299: the IEEE binary64 bit pattern. -/
def fdoubl : Decoder (BitVec 64)
  | b0 :: b1 :: b2 :: b3 :: b4 :: b5 :: b6 :: b7 :: bs =>
    some (bswap64 (load64 b0 b1 b2 b3 b4 b5 b6 b7), bs)
  | _ => none

/-- Two consecutive values of the same type. -/
def pair {α : Type} (f : Decoder α) : Decoder (α × α) := fun xs => do
  let (a, ys) ← f xs
  let (b, zs) ← f ys
  some ((a, b), zs)

/-- Three consecutive values of the same type. -/
def triple {α : Type} (f : Decoder α) : Decoder (α × α × α) := fun xs => do
  let (a, ys) ← f xs
  let (b, zs) ← f ys
  let (c, ws) ← f zs
  some ((a, b, c), ws)

/-- `dlis_fsing1`, types.cpp:376-380. -/
def fsing1 : Decoder (BitVec 32 × BitVec 32) := pair fsingl
/-- `dlis_fsing2`, types.cpp:382-387. -/
def fsing2 : Decoder (BitVec 32 × BitVec 32 × BitVec 32) := triple fsingl
/-- `dlis_csingl`, types.cpp:389-393. -/
def csingl : Decoder (BitVec 32 × BitVec 32) := pair fsingl
/-- `dlis_fdoub1`, types.cpp:395-399. -/
def fdoub1 : Decoder (BitVec 64 × BitVec 64) := pair fdoubl
/-- `dlis_fdoub2`, types.cpp:401-406. -/
def fdoub2 : Decoder (BitVec 64 × BitVec 64 × BitVec 64) := triple fdoubl
/-- `dlis_cdoubl`, types.cpp:408-412. -/
def cdoubl : Decoder (BitVec 64 × BitVec 64) := pair fdoubl

/-! ### Encoders: the bytes written to `xs` -/

/-- `dlis_ushorto`, types.cpp:443-446. -/
def ushorto (x : Nat) : Bytes := [BitVec.ofNat 8 x]
/-- `dlis_sshorto`, types.cpp:431-433. -/
def sshorto (x : Int) : Bytes := [BitVec.ofInt 8 x]
/-- `dlis_unormo`, types.cpp:448-452. -/
def unormo (x : Nat) : Bytes := store16 (bswap16 (BitVec.ofNat 16 x))
/-- `dlis_snormo`, types.cpp:435-437. -/
def snormo (x : Int) : Bytes := store16 (bswap16 (BitVec.ofInt 16 x))
/-- `dlis_ulongo`, types.cpp:454-458. -/
def ulongo (x : Nat) : Bytes := store32 (bswap32 (BitVec.ofNat 32 x))
/-- `dlis_slongo`, types.cpp:439-441. -/
def slongo (x : Int) : Bytes := store32 (bswap32 (BitVec.ofInt 32 x))
/-- `dlis_fsinglo`, types.cpp:460-464. -/
def fsinglo (x : BitVec 32) : Bytes := store32 (bswap32 x)
/-- `dlis_fdoublo`, types.cpp:466-470. -/
def fdoublo (x : BitVec 64) : Bytes := store64 (bswap64 x)

/-- `dlis_fsing1o`, types.cpp:521-525. -/
def fsing1o (x : BitVec 32 × BitVec 32) : Bytes := fsinglo x.1 ++ fsinglo x.2
/-- `dlis_fsing2o`, types.cpp:527-532. -/
def fsing2o (x : BitVec 32 × BitVec 32 × BitVec 32) : Bytes :=
  fsinglo x.1 ++ fsinglo x.2.1 ++ fsinglo x.2.2
/-- `dlis_csinglo`, types.cpp:534-538. -/
def csinglo (x : BitVec 32 × BitVec 32) : Bytes := fsinglo x.1 ++ fsinglo x.2
/-- `dlis_fdoub1o`, types.cpp:540-544. -/
def fdoub1o (x : BitVec 64 × BitVec 64) : Bytes := fdoublo x.1 ++ fdoublo x.2
/-- `dlis_fdoub2o`, types.cpp:546-551. -/
def fdoub2o (x : BitVec 64 × BitVec 64 × BitVec 64) : Bytes :=
  fdoublo x.1 ++ fdoublo x.2.1 ++ fdoublo x.2.2
/-- `dlis_cdoublo`, types.cpp:553-557. -/
def cdoublo (x : BitVec 64 × BitVec 64) : Bytes := fdoublo x.1 ++ fdoublo x.2

/-- `dlis_uvario`, types.cpp:559-579. -/
def uvario (x : Int) (width : Int) : Bytes :=
  if x ≤ 0x7F ∧ width ≤ 1 then [BitVec.ofInt 8 x]
  else if x ≤ 0xBFFF ∧ width ≤ 2 then store16 (bswap16 (BitVec.ofInt 16 x ||| 0x8000#16))
  else store32 (bswap32 (BitVec.ofInt 32 x ||| 0xC0000000#32))

/-- `dlis_idento`, types.cpp:581-585: `len` is a `uint8_t`, `len` bytes of `in` are
copied (`in` is assumed to have them, as in C). -/
def idento (s : Bytes) : Bytes :=
  ushorto s.length ++ s.take (BitVec.ofNat 8 s.length).toNat

/-- `dlis_unitso`, types.cpp:681-685. -/
def unitso (s : Bytes) : Bytes :=
  ushorto s.length ++ s.take (BitVec.ofNat 8 s.length).toNat

/-- `dlis_asciio`, types.cpp:587-593; `width` is the `uint8_t l`. -/
def asciio (s : Bytes) (width : Nat) : Bytes :=
  uvario s.length width ++ s

/-- `dlis_origino`, types.cpp:595-597. -/
def origino (x : Int) : Bytes := uvario x 4

/-- `dlis_statuso`, types.cpp:599-601. -/
def statuso (x : Nat) : Bytes := ushorto x

/-- `dlis_dtimeo`, types.cpp:607-635. -/
def dtimeo (t : DTime) : Bytes :=
  [ BitVec.ofNat 8 t.Y,
    -- `tz << 4 | m` is computed in `int` and truncated to `uint8_t`
    (BitVec.ofNat 8 t.TZ <<< 4) ||| BitVec.ofNat 8 t.M,
    BitVec.ofNat 8 t.D,
    BitVec.ofNat 8 t.H,
    BitVec.ofNat 8 t.MN,
    BitVec.ofNat 8 t.S ] ++ store16 (bswap16 (BitVec.ofNat 16 t.MS))

/-- `dlis_obnameo`, types.cpp:637-645. -/
def obnameo (n : Obname) : Bytes := origino n.origin ++ ushorto n.copy ++ idento n.id

/-- `dlis_objrefo`, types.cpp:647-660. -/
def objrefo (r : Objref) : Bytes := idento r.type ++ obnameo r.name

/-- `dlis_attrefo`, types.cpp:662-679. -/
def attrefo (r : Attref) : Bytes := idento r.type ++ obnameo r.name ++ idento r.label

/-! ### Declared sizes -/

/-- `dlis_sizeof_type`, types.cpp:687-721 with the sizes of types.h:224-253
(`DLIS_VARIABLE_LENGTH` is 0). -/
def sizeofType (x : Int) : Int :=
  if x < 1 ∨ x > 27 then -1
  else
    ([2, 4, 8, 12, 4, 4, 8, 16, 24, 8, 16, 1, 2, 4, 1, 2, 4, 0, 0, 0, 8, 0, 0, 0, 0, 1, 0] :
      List Int).getD (x - 1).toNat 0

end Dlisio.Dlis
