import Verif.Dlis.Value
/-
Model of `dlis_packf` and the size queries, lib/src/dlis/dlisio.cpp:555-869.

A format is the list of characters before the terminating zero.  The destination
is the list of host variables written to it (see `Cell`).  The counters, `int` in
C, are unbounded here: formats or records so large that they overflow `int` are
out of scope.
-/
namespace Dlisio.Dlis

/-- Error codes, lib/include/dlisio/dlis/dlisio.h:454-462. -/
inductive Err where
  | ok | inconsistent | unexpectedValue | invalidArgs | truncated | badSize | notFound
deriving DecidableEq, Repr

/-- `struct cursor`, dlisio.cpp:555-573.  `src = none` is the null pointer;
`dst = none` is a null destination (size query). -/
structure Cursor where
  src : Option Bytes
  dst : Option (List Cell)
  written : Nat

/-- `pack`, dlisio.cpp:585-612: copies the variables unless `dst` is null, and
returns the number of bytes in either case. -/
def pack (dst : Option (List Cell)) : List Cell → Option (List Cell) × Nat
  | [] => (dst, 0)
  | c :: cs =>
    let (d, n) := pack (dst.map (· ++ [c])) cs
    (d, c.size + n)

/-- `interpret`, dlisio.cpp:645-666 (and the ASCII case 712-724): decode, pack,
advance.  `none`: the decoder would read past the source. -/
def interpret (cur : Cursor) (src : Bytes) (c : Reprc) : Option Cursor := do
  let (v, src) ← decodeVal c src
  let (dst, written) := pack cur.dst v.cells
  some { src := some src, dst := dst, written := cur.written + written }

/-- The loop of the worker `packf`, dlisio.cpp:668-730. -/
def packfLoop : List Char → Cursor → Bytes → Option Cursor
  | [], cur, _ => some cur
  | ch :: fmt, cur, src =>
    match Reprc.ofFmtChar ch with
    | none => some { cur with src := none }
    | some c => do
      let cur ← interpret cur src c
      match cur.src with
      | some src => packfLoop fmt cur src
      | none => none

/-- The worker `packf`, dlisio.cpp:668-730. -/
def packfWorker (fmt : List Char) (src : Bytes) (dst : Option (List Cell)) : Option Cursor :=
  packfLoop fmt ⟨some src, dst, 0⟩ src

/-- `dlis_packf`, dlisio.cpp:734-746: the error code and what is in the destination
afterwards. -/
def packf (fmt : List Char) (src : Bytes) : Option (Err × List Cell) := do
  let cur ← packfWorker fmt src (some [])
  match cur.src with
  | none => some (.unexpectedValue, cur.dst.getD [])
  | some _ => some (.ok, cur.dst.getD [])

/-- `dlis_packflen`, dlisio.cpp:748-758: the error code, `nread` and `nwrite`
(0 when not set). -/
def packflen (fmt : List Char) (src : Bytes) : Option (Err × Nat × Nat) := do
  let cur ← packfWorker fmt src none
  match cur.src with
  | none => some (.unexpectedValue, 0, 0)
  | some r => some (.ok, src.length - r.length, cur.written)

/-- The loop of `dlis_pack_varsize`, dlisio.cpp:760-809: error code, `src`, `dst`. -/
def packVarsizeLoop : List Char → Bool → Err × Bool × Bool
  | [], srcvar => (.ok, srcvar, false)
  | ch :: fmt, srcvar =>
    match Reprc.ofFmtChar ch with
    | none => (.invalidArgs, false, false)
    | some .origin | some .uvari => packVarsizeLoop fmt true
    | some .ident | some .ascii | some .obname | some .objref | some .attref | some .units =>
      (.ok, true, true)
    | some _ => packVarsizeLoop fmt srcvar

/-- `dlis_pack_varsize`, dlisio.cpp:760-809. -/
def packVarsize (fmt : List Char) : Err × Bool × Bool := packVarsizeLoop fmt false

/-- The loop of `dlis_pack_size`, dlisio.cpp:811-869: error code, `src`, `dst`
(0 when not set). -/
def packSizeLoop : List Char → (varsrc : Bool) → (correction size : Int) → Err × Int × Int
  | [], varsrc, correction, size =>
    let correction := if varsrc then size else correction
    (.ok, size - correction, size)
  | ch :: fmt, varsrc, correction, size =>
    match Reprc.ofFmtChar ch with
    | none => (.invalidArgs, 0, 0)
    | some .fshort => packSizeLoop fmt varsrc (correction + (4 - 2)) (size + 4)
    | some .dtime => packSizeLoop fmt varsrc (correction + (8 * 4 - 8)) (size + 8 * 4)
    | some .fsingl => packSizeLoop fmt varsrc correction (size + 4)
    | some .fsing1 => packSizeLoop fmt varsrc correction (size + 8)
    | some .fsing2 => packSizeLoop fmt varsrc correction (size + 12)
    | some .isingl => packSizeLoop fmt varsrc correction (size + 4)
    | some .vsingl => packSizeLoop fmt varsrc correction (size + 4)
    | some .fdoubl => packSizeLoop fmt varsrc correction (size + 8)
    | some .fdoub1 => packSizeLoop fmt varsrc correction (size + 16)
    | some .fdoub2 => packSizeLoop fmt varsrc correction (size + 24)
    | some .csingl => packSizeLoop fmt varsrc correction (size + 8)
    | some .cdoubl => packSizeLoop fmt varsrc correction (size + 16)
    | some .sshort => packSizeLoop fmt varsrc correction (size + 1)
    | some .snorm => packSizeLoop fmt varsrc correction (size + 2)
    | some .slong => packSizeLoop fmt varsrc correction (size + 4)
    | some .ushort => packSizeLoop fmt varsrc correction (size + 1)
    | some .unorm => packSizeLoop fmt varsrc correction (size + 2)
    | some .ulong => packSizeLoop fmt varsrc correction (size + 4)
    | some .status => packSizeLoop fmt varsrc correction (size + 1)
    | some .origin | some .uvari => packSizeLoop fmt true correction (size + 4)
    | some .ident | some .ascii | some .obname | some .objref | some .attref | some .units =>
      (.inconsistent, 0, 0)

/-- `dlis_pack_size`, dlisio.cpp:811-869. -/
def packSize (fmt : List Char) : Err × Int × Int := packSizeLoop fmt false 0 0

end Dlisio.Dlis
