import Verif.Dlis.Floats
/-
Representation codes and the value that each of them decodes to.
-/
namespace Dlisio.Dlis

/-- The 27 representation codes, types.h:195-221 (`dl::representation_code`,
lib/include/dlisio/dlis/types.hpp). -/
inductive Reprc where
  | fshort
  | fsingl
  | fsing1
  | fsing2
  | isingl
  | vsingl
  | fdoubl
  | fdoub1
  | fdoub2
  | csingl
  | cdoubl
  | sshort
  | snorm
  | slong
  | ushort
  | unorm
  | ulong
  | uvari
  | ident
  | ascii
  | dtime
  | origin
  | obname
  | objref
  | attref
  | status
  | units
deriving DecidableEq, Repr

namespace Reprc

/-- Numeric code, types.h:195-221. -/
def code : Reprc → Nat
  | .fshort => 1
  | .fsingl => 2
  | .fsing1 => 3
  | .fsing2 => 4
  | .isingl => 5
  | .vsingl => 6
  | .fdoubl => 7
  | .fdoub1 => 8
  | .fdoub2 => 9
  | .csingl => 10
  | .cdoubl => 11
  | .sshort => 12
  | .snorm => 13
  | .slong => 14
  | .ushort => 15
  | .unorm => 16
  | .ulong => 17
  | .uvari => 18
  | .ident => 19
  | .ascii => 20
  | .dtime => 21
  | .origin => 22
  | .obname => 23
  | .objref => 24
  | .attref => 25
  | .status => 26
  | .units => 27

/-- The code with a given number, if any, types.h:195-221. -/
def ofCode : Nat → Option Reprc
  | 1 => some .fshort
  | 2 => some .fsingl
  | 3 => some .fsing1
  | 4 => some .fsing2
  | 5 => some .isingl
  | 6 => some .vsingl
  | 7 => some .fdoubl
  | 8 => some .fdoub1
  | 9 => some .fdoub2
  | 10 => some .csingl
  | 11 => some .cdoubl
  | 12 => some .sshort
  | 13 => some .snorm
  | 14 => some .slong
  | 15 => some .ushort
  | 16 => some .unorm
  | 17 => some .ulong
  | 18 => some .uvari
  | 19 => some .ident
  | 20 => some .ascii
  | 21 => some .dtime
  | 22 => some .origin
  | 23 => some .obname
  | 24 => some .objref
  | 25 => some .attref
  | 26 => some .status
  | 27 => some .units
  | _ => none

/-- The format character of a code, dlisio.h:232-258. -/
def fmtChar : Reprc → Char
  | .fshort => 'r'
  | .fsingl => 'f'
  | .fsing1 => 'b'
  | .fsing2 => 'B'
  | .isingl => 'x'
  | .vsingl => 'V'
  | .fdoubl => 'F'
  | .fdoub1 => 'z'
  | .fdoub2 => 'Z'
  | .csingl => 'c'
  | .cdoubl => 'C'
  | .sshort => 'd'
  | .snorm => 'D'
  | .slong => 'l'
  | .ushort => 'u'
  | .unorm => 'U'
  | .ulong => 'L'
  | .uvari => 'i'
  | .ident => 's'
  | .ascii => 'S'
  | .dtime => 'j'
  | .origin => 'J'
  | .obname => 'o'
  | .objref => 'O'
  | .attref => 'A'
  | .status => 'q'
  | .units => 'Q'

/-- The cases of the switch on a format character in `packf`, `dlis_pack_varsize`
and `dlis_pack_size` (dlisio.cpp:681-728, 763-807, 816-867). -/
def ofFmtChar : Char → Option Reprc
  | 'r' => some .fshort
  | 'f' => some .fsingl
  | 'b' => some .fsing1
  | 'B' => some .fsing2
  | 'x' => some .isingl
  | 'V' => some .vsingl
  | 'F' => some .fdoubl
  | 'z' => some .fdoub1
  | 'Z' => some .fdoub2
  | 'c' => some .csingl
  | 'C' => some .cdoubl
  | 'd' => some .sshort
  | 'D' => some .snorm
  | 'l' => some .slong
  | 'u' => some .ushort
  | 'U' => some .unorm
  | 'L' => some .ulong
  | 'i' => some .uvari
  | 's' => some .ident
  | 'S' => some .ascii
  | 'j' => some .dtime
  | 'J' => some .origin
  | 'o' => some .obname
  | 'O' => some .objref
  | 'A' => some .attref
  | 'q' => some .status
  | 'Q' => some .units
  | _ => none

/-- All codes, in numeric order. -/
def all : List Reprc :=
  [.fshort, .fsingl, .fsing1, .fsing2, .isingl, .vsingl, .fdoubl, .fdoub1, .fdoub2, .csingl, .cdoubl, .sshort, .snorm, .slong, .ushort, .unorm, .ulong, .uvari, .ident, .ascii, .dtime, .origin, .obname, .objref, .attref, .status, .units]

end Reprc

/-- A decoded value of any type: what the C function stores through its output
pointers (types.h:22-102), or the C++ value class built from them (types.hpp).
`int` carries the size in bytes of the C integer type. -/
inductive Val where
  | int (size : Nat) (v : Int)
  | f32s (vs : List (BitVec 32))
  | f32v (v : F32)
  | f64s (vs : List (BitVec 64))
  | dtime (t : DTime)
  | str (s : Bytes)
  | obname (n : Obname)
  | objref (r : Objref)
  | attref (r : Attref)
deriving DecidableEq

/-- Dispatch on the representation code to the decoder of that type
(dlisio.cpp:681-728, records.cpp:509-544). -/
def decodeVal (c : Reprc) : Decoder Val := fun bs =>
  match c with
  | .fshort => (fshort bs).map fun (v, r) => (.f32v v, r)
  | .fsingl => (fsingl bs).map fun (v, r) => (.f32s [v], r)
  | .fsing1 => (fsing1 bs).map fun (v, r) => (.f32s [v.1, v.2], r)
  | .fsing2 => (fsing2 bs).map fun (v, r) => (.f32s [v.1, v.2.1, v.2.2], r)
  | .isingl => (isingl bs).map fun (v, r) => (.f32s [v], r)
  | .vsingl => (vsingl bs).map fun (v, r) => (.f32v v, r)
  | .fdoubl => (fdoubl bs).map fun (v, r) => (.f64s [v], r)
  | .fdoub1 => (fdoub1 bs).map fun (v, r) => (.f64s [v.1, v.2], r)
  | .fdoub2 => (fdoub2 bs).map fun (v, r) => (.f64s [v.1, v.2.1, v.2.2], r)
  | .csingl => (csingl bs).map fun (v, r) => (.f32s [v.1, v.2], r)
  | .cdoubl => (cdoubl bs).map fun (v, r) => (.f64s [v.1, v.2], r)
  | .sshort => (sshort bs).map fun (v, r) => (.int 1 v, r)
  | .snorm => (snorm bs).map fun (v, r) => (.int 2 v, r)
  | .slong => (slong bs).map fun (v, r) => (.int 4 v, r)
  | .ushort => (ushort bs).map fun (v, r) => (.int 1 v, r)
  | .unorm => (unorm bs).map fun (v, r) => (.int 2 v, r)
  | .ulong => (ulong bs).map fun (v, r) => (.int 4 v, r)
  | .uvari => (uvari bs).map fun (v, r) => (.int 4 v, r)
  | .ident => (ident bs).map fun (v, r) => (.str v, r)
  | .ascii => (ascii bs).map fun (v, r) => (.str v, r)
  | .dtime => (dtime bs).map fun (v, r) => (.dtime v, r)
  | .origin => (origin bs).map fun (v, r) => (.int 4 v, r)
  | .obname => (obname bs).map fun (v, r) => (.obname v, r)
  | .objref => (objref bs).map fun (v, r) => (.objref v, r)
  | .attref => (attref bs).map fun (v, r) => (.attref v, r)
  | .status => (status bs).map fun (v, r) => (.int 1 v, r)
  | .units => (units bs).map fun (v, r) => (.str v, r)

/-- One host variable copied to the destination of `packf` by `pack`
(dlisio.cpp:589-612): an integer of `size` bytes, a float, a double, or the
characters of a string. -/
inductive Cell where
  | int (size : Nat) (v : Int)
  | f32 (bits : BitVec 32)
  | f32v (v : F32)
  | f64 (bits : BitVec 64)
  | chars (s : Bytes)
deriving DecidableEq

/-- Number of bytes that the cell takes in the destination, dlisio.cpp:591, 605. -/
def Cell.size : Cell → Nat
  | .int n _ => n
  | .f32 _ => 4
  | .f32v _ => 4
  | .f64 _ => 8
  | .chars s => s.length

/-- A string argument is packed as an `int32_t` length followed by its characters,
dlisio.cpp:599-612. -/
def strCells (s : Bytes) : List Cell := [.int 4 s.length, .chars s]

/-- The arguments `origin, copy, idlen, id` of `dlis_obname` in order (types.h:74-77). -/
def obnameCells (n : Obname) : List Cell :=
  [.int 4 n.origin, .int 1 n.copy] ++ strCells n.id

/-- The output arguments of the decoder, in the order in which `pack` writes them
(dlisio.cpp:589-612 with the signatures of types.h:22-102). -/
def Val.cells : Val → List Cell
  | .int n v => [.int n v]
  | .f32s vs => vs.map .f32
  | .f32v v => [.f32v v]
  | .f64s vs => vs.map .f64
  | .dtime t => [.int 4 t.Y, .int 4 t.TZ, .int 4 t.M, .int 4 t.D,
                 .int 4 t.H, .int 4 t.MN, .int 4 t.S, .int 4 t.MS]
  | .str s => strCells s
  | .obname n => obnameCells n
  | .objref r => strCells r.type ++ obnameCells r.name
  | .attref r => strCells r.type ++ obnameCells r.name ++ strCells r.label

end Dlisio.Dlis
