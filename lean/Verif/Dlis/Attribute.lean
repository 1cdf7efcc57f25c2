/-
Access to the attributes of an object from Python: `BasicObject.__getitem__` and `stash`
(python/dlisio/dlis/basicobject.py), and utils/valuetypes.py.

The rules of the class of the object (`attributes` and `linkage`) are parameters, because
they can be changed by the user.  Warnings are left out.
-/
import Verif.Dlis.Store
import Verif.Dlis.Curves

namespace Dlisio.Dlis

/-- How a value is to be read, utils/valuetypes.py:7-20. -/
inductive ParseAs where
  | boolean | scalar | vector | reverse
deriving DecidableEq

/-- The rules of a class, basicobject.py:48, 125. -/
structure Rules where
  attributes : PyStr → Option ParseAs
  linkage : PyStr → Option RefType

/-- An element of a list of values in Python: a string, another value as it was decoded (with
its representation code), or what a reference was resolved to (`none` is `None`). -/
inductive PyVal where
  | str (s : PyStr)
  | raw (c : Reprc) (v : Val)
  | obj (o : Option PyObj)
deriving DecidableEq

/-- What is returned. -/
inductive PyResult where
  | none
  | list (vs : List PyVal)
  | elem (v : PyVal)
  | bool (b : Bool)
deriving DecidableEq

/-- The exceptions: `KeyError`, that of the error handler (or of the text of a warning about a
reference), and that of the conversion of a date that does not exist. -/
inductive AccessErr where
  | key | handler | date
deriving DecidableEq

/-- The conversion of one value, ext/dlis.cpp:65-176: strings are decoded, dates are made
from their parts. -/
def toPy (dec : Bytes → PyStr) (c : Reprc) : Val → Option PyVal
  | .str s => some (.str (dec s))
  | .dtime t => if dateOk t then some (.raw c (.dtime t)) else none
  | v => some (.raw c v)

/-- The conversion of all values, pybind11's conversion of `std::vector` to a list. -/
def toPyList (dec : Bytes → PyStr) (c : Reprc) : List Val → Option (List PyVal)
  | [] => some []
  | v :: vs =>
    match toPy dec c v, toPyList dec c vs with
    | some v, some vs => some (v :: vs)
    | _, _ => none

/-- `attribute.value`, ext/dlis.cpp:885: `None` and the empty list are both `[]` here, because
`__getitem__` treats them alike. -/
def pyValues (dec : Bytes → PyStr) (a : ObjAttr) : Option (List PyVal) :=
  match a.value with
  | none => some []
  | some (c, vs) => toPyList dec c vs

/-- Is the character white space for `str.strip`?  (`str.isspace` of CPython.) -/
def isPySpace (c : Nat) : Bool :=
  (9 ≤ c && c ≤ 13) || (28 ≤ c && c ≤ 32) || c == 0x85 || c == 0xA0 || c == 0x1680 ||
  (0x2000 ≤ c && c ≤ 0x200A) || c == 0x2028 || c == 0x2029 || c == 0x202F || c == 0x205F ||
  c == 0x3000

/-- `str.strip`. -/
def stripText (t : Text) : Text := ((t.dropWhile isPySpace).reverse.dropWhile isPySpace).reverse

/-- `v.strip() if isinstance(v, str) else v`, basicobject.py:229. -/
def stripVal : PyVal → PyVal
  | .str (.str t) => .str (.str (stripText t))
  | v => v

/-- `isreference`, utils/linkage.py:33-38. -/
def isReference : PyVal → Bool
  | .raw _ (.obname _) => true
  | .raw _ (.objref _) => true
  | .raw _ (.attref _) => true
  | _ => false

/-- Is the number of these bits zero? -/
def zero32 (x : BitVec 32) : Bool := decide (x &&& 0x7FFFFFFF#32 = 0#32)
def zero64 (x : BitVec 64) : Bool := decide (x &&& 0x7FFFFFFFFFFFFFFF#64 = 0#64)

/-- `bool(value)`, utils/valuetypes.py:50: numbers, also complex ones, are true if they are not
zero, strings if they are not empty.  Every other object counts as true, except `None`. -/
def truth : PyVal → Bool
  | .str s => !s.isEmpty
  | .raw _ (.int _ v) => decide (v ≠ 0)
  | .raw .csingl (.f32s [x, y]) => !(zero32 x && zero32 y)
  | .raw .cdoubl (.f64s [x, y]) => !(zero64 x && zero64 y)
  | .raw _ (.f32s [x]) => !zero32 x
  | .raw _ (.f64s [x]) => !zero64 x
  | .raw _ (.f32v v) => decide (v ≠ .num 0)
  | .raw _ _ => true
  | .obj o => o.isSome

/-- `defaultvalue`, utils/valuetypes.py:22-27. -/
def defaultValue : ParseAs → PyResult
  | .scalar => .none
  | .vector => .list []
  | .reverse => .list []
  | .boolean => .none

/-- `parsevalue`, utils/valuetypes.py:29-50, of a list that is not empty. -/
def parseValue (v : PyVal) (vs : List PyVal) : ParseAs → PyResult
  | .scalar => .elem v
  | .vector => .list (v :: vs)
  | .reverse => .list (v :: vs).reverse
  | .boolean => .bool (truth v)

/-- `utils.lookup` for one element: `TypeError` (and so `None`) if it is not a reference. -/
def lookupVal (e : Env) (s : Store) (ref : RefType) : PyVal → Store × Resolved
  | .raw _ v => s.lookup e ref v
  | _ => (s, .nothing)

/-- `[utils.lookup(lf, reftype, v) for v in rp66value]`, basicobject.py:227; `none` if the
error handler raises, or the text of a warning. -/
def lookupAll (e : Env) (ref : RefType) : List PyVal → Store → Store × Option (List PyVal)
  | [], s => (s, some [])
  | v :: vs, s =>
    match lookupVal e s ref v with
    | (s, .raised) => (s, none)
    | (s, .object o) =>
      match lookupAll e ref vs s with
      | (s, none) => (s, none)
      | (s, some rest) => (s, some (.obj (some o) :: rest))
    | (s, .nothing) =>
      match lookupAll e ref vs s with
      | (s, none) => (s, none)
      | (s, some rest) => (s, some (.obj none :: rest))

/-- The last part of `__getitem__`, basicobject.py:225-231, for values that are not empty. -/
def finishValue (e : Env) (rules : Rules) (s : Store) (key : PyStr) (parse : ParseAs)
    (v : PyVal) (vs : List PyVal) : Store × Except AccessErr PyResult :=
  match rules.linkage key, isReference v with
  | some ref, true =>
    match lookupAll e ref (v :: vs) s with
    | (s, none) => (s, .error .handler)
    | (s, some []) => (s, .ok (defaultValue parse))
    | (s, some (w :: ws)) => (s, .ok (parseValue w ws parse))
  | _, _ => (s, .ok (parseValue (stripVal v) (vs.map stripVal) parse))

/-- The labels of an object in Python, ext/dlis.cpp:907-913. -/
def pyKeys (e : Env) (o : BasicObject) : List PyStr := o.attributes.map fun a => e.dec a.label

/-- Can it be said which object an entry is about?  The entries are reported with the fingerprint of
the object (basicobject.py:201, 216 and 252-255), for which `core.fingerprint` may throw. -/
def tellObject (e : Env) (o : BasicObject) : Bool :=
  (pyFingerprint (e.dec o.type).toStd (e.dec o.name.id).toStd o.name.origin o.name.copy).isSome

/-- `BasicObject.__getitem__`, basicobject.py:171-231. -/
def getItem (e : Env) (rules : Rules) (s : Store) (o : BasicObject) (key : PyStr) :
    Store × Except AccessErr PyResult :=
  if rules.attributes key = none ∧ key ∉ pyKeys e o then (s, .error .key)
  else
    let parse := (rules.attributes key).getD .vector
    if o.log.any fun sev => !tellObject e o || e.policy sev then (s, .error .handler)
    else
      match attrAt key.toStd o.attributes with
      | none => (s, .ok (defaultValue parse))
      | some a =>
        match pyValues e.dec a with
        | none => (s, .error .date)
        | some vs =>
          if a.log.any fun sev => !tellObject e o || e.policy sev then (s, .error .handler)
          else
            match vs with
            | [] => (s, .ok (defaultValue parse))
            | v :: vs => finishValue e rules s key parse v vs

/-- One entry of the dict that `stash` makes, basicobject.py:270-279: `none` is an exception,
`KeyError` of `self.attic[key]`, that of a conversion, or `TypeError` because the value is
`None`. -/
def stashEntry (e : Env) (o : BasicObject) (key : PyStr) : Option (List PyVal) :=
  match attrAt key.toStd o.attributes with
  | none => none
  | some a =>
    match a.value with
    | none => none
    | some (c, vs) =>
      match toPyList e.dec c vs with
      | none => none
      | some vs => some (vs.map stripVal)

/-- The loop of `stash`. -/
def stashLoop (e : Env) (o : BasicObject) : List PyStr → List (PyStr × List PyVal) →
    Option (List (PyStr × List PyVal))
  | [], d => some d
  | k :: ks, d =>
    match stashEntry e o k with
    | none => none
    | some vs => stashLoop e o ks (dictSet k vs d)

/-- `BasicObject.stash`, basicobject.py:257-281: `none` is an exception. -/
def stash (e : Env) (rules : Rules) (o : BasicObject) : Option (List (PyStr × List PyVal)) :=
  stashLoop e o ((pyKeys e o).filter fun k => (rules.attributes k).isNone) []

end Dlisio.Dlis
