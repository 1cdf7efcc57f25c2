/-
Data types, column labels and format strings of channels and frames:
python/dlisio/dlis/{channel,frame}.py and utils/reprc.py.

An exception is `none`.  Values of attributes that are not of the kind the standard
prescribes (a dimension that is a text, say) are left out.
-/
import Verif.Py
import Verif.Dlis.Value
import Mathlib.Data.List.Dedup

namespace Dlisio.Dlis

/-- The NumPy types that are used. -/
inductive NpBase where
  | f4 | f8 | c8 | c16 | i1 | i2 | i4 | u1 | u2 | u4 | bool | object | u255
deriving DecidableEq, Repr

/-- `np.dtype(...).itemsize`; a code unit of 'U' has 4 bytes. -/
def NpBase.size : NpBase → Nat
  | .f4 => 4 | .f8 => 8 | .c8 => 8 | .c16 => 16 | .i1 => 1 | .i2 => 2 | .i4 => 4
  | .u1 => 1 | .u2 => 2 | .u4 => 4 | .bool => 1 | .object => 8 | .u255 => 255 * 4

/-- `utils.dtype`, dlis/utils/reprc.py:36-72. -/
def npBase : Nat → Option NpBase
  | 1 => some .f4 | 2 => some .f4 | 3 => some .object | 4 => some .object | 5 => some .f4
  | 6 => some .f4 | 7 => some .f8 | 8 => some .object | 9 => some .object | 10 => some .c8
  | 11 => some .c16 | 12 => some .i1 | 13 => some .i2 | 14 => some .i4 | 15 => some .u1
  | 16 => some .u2 | 17 => some .u4 | 18 => some .u4 | 19 => some .u255 | 20 => some .object
  | 21 => some .object | 22 => some .u4 | 23 => some .object | 24 => some .object
  | 25 => some .object | 26 => some .bool | 27 => some .u255
  | _ => none

/-- `utils.fmt`, dlis/utils/reprc.py:5-34 (without the key "eof"). -/
def pyFmt : Nat → Option Char
  | 1 => some 'r' | 2 => some 'f' | 3 => some 'b' | 4 => some 'B' | 5 => some 'x'
  | 6 => some 'V' | 7 => some 'F' | 8 => some 'z' | 9 => some 'Z' | 10 => some 'c'
  | 11 => some 'C' | 12 => some 'd' | 13 => some 'D' | 14 => some 'l' | 15 => some 'u'
  | 16 => some 'U' | 17 => some 'L' | 18 => some 'i' | 19 => some 's' | 20 => some 'S'
  | 21 => some 'j' | 22 => some 'J' | 23 => some 'o' | 24 => some 'O' | 25 => some 'A'
  | 26 => some 'q' | 27 => some 'Q'
  | _ => none

/-- What is used of a channel: `ch.name`, `ch.origin`, `ch.copynumber`, `ch.fingerprint`,
`ch.reprc` (`none` for a missing attribute) and `ch.dimension`. -/
structure Chan where
  name : Text
  origin : Nat
  copy : Nat
  fingerprint : Text
  reprc : Option Nat
  dimension : List Nat
deriving DecidableEq

/-- A NumPy type with a shape. -/
structure NpType where
  base : NpBase
  shape : List Nat
deriving DecidableEq

/-- The itemsize of a type with a shape. -/
def NpType.size (t : NpType) : Nat := t.base.size * t.shape.prod

/-- `Channel.dtype`, dlis/channel.py:170-185: a missing or unknown code is a `KeyError`,
and NumPy refuses a type whose size does not fit a C int. -/
def Chan.dtype (ch : Chan) : Option NpType :=
  match ch.reprc.bind npBase with
  | none => none
  | some b =>
    if ch.dimension = [1] then some ⟨b, []⟩
    else if b.size * ch.dimension.prod < 2 ^ 31 then some ⟨b, ch.dimension⟩
    else none

/-- `Channel.fmtstr`, dlis/channel.py:187-204.  (`np.prod` computes with 64 bits; the
dimensions for which that matters do not get past `dtype`, which is called before.) -/
def Chan.fmtstr (ch : Chan) : Option (List Char) :=
  if ch.dimension = [] then none
  else match ch.reprc.bind pyFmt with
    | none => none
    | some c => some (List.replicate ch.dimension.prod c)

/-! ### Columns -/

/-- An element of the list given to `np.dtype`: `(name, type)` or
`((title, name), type)`. -/
structure Field where
  title : Option Text
  name : Text
  type : NpType
deriving DecidableEq

/-- `('FRAMENO', 'i4')`, dlis/frame.py:221. -/
def framenoField : Field := ⟨none, text "FRAMENO", ⟨.i4, []⟩⟩

/-- The dictionary `seen`: for a name the index and channel seen first, or `None` once it has
been relabelled. -/
abbrev Seen := Text → Option (Option (Nat × Chan))

/-- The loop of `Frame.dtype`, dlis/frame.py:228-265: `fmt` is `self.dtype_fmt.format`
(`none` if it raises), channels that are not found are `none`. -/
def dtypeLoop (fmt : Text → Nat → Nat → Option Text) :
    List (Option Chan) → Nat → Seen → List Field → Option (List Field)
  | [], _, _, types => some types
  | none :: _, _, _, _ => none
  | some ch :: chs, i, seen, types =>
    match ch.dtype with
    | none => none
    | some t =>
      match seen ch.name with
      | none =>
        dtypeLoop fmt chs (i + 1) (fun n => if n = ch.name then some (some (i, ch)) else seen n)
          (types ++ [⟨some ch.fingerprint, ch.name, t⟩])
      | some none =>
        match fmt ch.name ch.origin ch.copy with
        | none => none
        | some label =>
          dtypeLoop fmt chs (i + 1) seen (types ++ [⟨some ch.fingerprint, label, t⟩])
      | some (some (prevIndex, prev)) =>
        match fmt ch.name ch.origin ch.copy, fmt prev.name prev.origin prev.copy, prev.dtype with
        | some label, some plabel, some pt =>
          dtypeLoop fmt chs (i + 1) (fun n => if n = ch.name then some none else seen n)
            ((types ++ [(⟨some ch.fingerprint, label, t⟩ : Field)]).set prevIndex
              ⟨some prev.fingerprint, plabel, pt⟩)
        | _, _, _ => none

/-- `np.dtype(types)`, as far as names are concerned (NumPy's `_convert_from_array_descr`):
an empty name is replaced by the title (or `f<i>`); a name or title that is already a name
or title is a `ValueError`. -/
def npDtypeLoop : List Field → Nat → List Text → Option (List Field)
  | [], _, _ => some []
  | f :: fs, i, used =>
    let name := if f.name = [] then f.title.getD (text "f" ++ Text.ofNat i) else f.name
    if name ∈ used ∨ f.title.any (· ∈ used) then none
    else (npDtypeLoop fs (i + 1) (name :: f.title.toList ++ used)).map
      ({ f with name := name } :: ·)

/-- `np.dtype(types)`. -/
def npDtype (types : List Field) : Option (List Field) := npDtypeLoop types 0 []

/-! ### mkunique -/

/-- The label of an element of `types`, a text or a pair of texts. -/
def Field.key (f : Field) : Option Text × Text := (f.title, f.name)

/-- `'({})'.format(k)`, dlis/frame.py:551. -/
def tail (k : Nat) : Text := text "(" ++ Text.ofNat k ++ text ")"

/-- The inner loop of `mkunique`, dlis/frame.py:557-568.  Only pairs occur more than once. -/
def mkuniquePass (d : Option Text × Text) : List Field → Nat → List Field
  | [], _ => []
  | f :: fs, k =>
    if f.key = d then
      { f with title := f.title.map (· ++ tail k), name := f.name ++ tail k } ::
        mkuniquePass d fs (k + 1)
    else f :: mkuniquePass d fs k

/-- `[x for x, count in Counter(labels).items() if count > 1]`, dlis/frame.py:552-553: in the
order of first occurrences. -/
def duplicates (labels : List (Option Text × Text)) : List (Option Text × Text) :=
  (labels.reverse.dedup.reverse).filter (fun x => decide (1 < labels.count x))

/-- `mkunique`, dlis/frame.py:528-570. -/
def mkunique (types : List Field) : List Field :=
  (duplicates (types.map Field.key)).foldl (fun ts d => mkuniquePass d ts 0) types

/-- `Frame.dtype`, dlis/frame.py:170-276. -/
def frameDtype (fmt : Text → Nat → Nat → Option Text) (channels : List (Option Chan))
    (strict : Bool) : Option (List Field) :=
  match dtypeLoop fmt channels 1 (fun _ => none) [framenoField] with
  | none => none
  | some types =>
    match npDtype types with
    | some dt => some dt
    | none => if strict then none else npDtype (mkunique types)

/-- `dtype_fmt = '{:s}.{:d}.{:d}'`, dlis/frame.py:109. -/
def defaultFmt (name : Text) (origin copy : Nat) : Option Text :=
  some (name ++ text "." ++ Text.ofNat origin ++ text "." ++ Text.ofNat copy)

/-- `''.join([x.fmtstr() for x in self.channels])`, dlis/frame.py:293. -/
def channelsFmtstr : List (Option Chan) → Option (List Char)
  | [] => some []
  | none :: _ => none
  | some ch :: chs =>
    match ch.fmtstr, channelsFmtstr chs with
    | some a, some b => some (a ++ b)
    | _, _ => none

/-- `Frame.fmtstr`, dlis/frame.py:278-293. -/
def frameFmtstr (channels : List (Option Chan)) : Option (List Char) :=
  (channelsFmtstr channels).map ('i' :: ·)

/-- `dtype.itemsize` of a structured type without alignment. -/
def itemsize (dt : List Field) : Nat := (dt.map (fun f => f.type.size)).sum

/-- The offset of column `j`. -/
def fieldOffset (dt : List Field) (j : Nat) : Nat := itemsize (dt.take j)

end Dlisio.Dlis
