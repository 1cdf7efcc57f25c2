/-
The metadata of a logical file as Python sees it: `ObjectStore` and the parts of
`LogicalFile` that query it (python/dlisio/dlis/file.py), the equality of objects
(lib/src/dlis/records.cpp), and the resolution of references
(python/dlisio/dlis/utils/linkage.py).

Simplifications: strings are decoded without raising (`decode_str` with warnings that are
not errors), a matcher does not raise, objects are compared by what they contain and not
by identity, and the text of messages is left out.  Nothing else refers to the cache:
the caller does not change the lists that it is given.
-/
import Verif.Dlis.Eflr
import Verif.Dlis.Fingerprint
import Verif.Decode

namespace Dlisio.Dlis

/-! ### Equality of objects -/

/-- `==` of two `float`s: NaN is different from everything, the two zeros are equal. -/
def f32Eq (a b : BitVec 32) : Bool :=
  let nan (x : BitVec 32) : Bool := decide ((x &&& 0x7FFFFFFF#32).toNat > 0x7F800000)
  let zero (x : BitVec 32) : Bool := decide (x &&& 0x7FFFFFFF#32 = 0#32)
  !nan a && !nan b && (decide (a = b) || (zero a && zero b))

/-- `==` of two `double`s. -/
def f64Eq (a b : BitVec 64) : Bool :=
  let nan (x : BitVec 64) : Bool :=
    decide ((x &&& 0x7FFFFFFFFFFFFFFF#64).toNat > 0x7FF0000000000000)
  let zero (x : BitVec 64) : Bool := decide (x &&& 0x7FFFFFFFFFFFFFFF#64 = 0#64)
  !nan a && !nan b && (decide (a = b) || (zero a && zero b))

/-- `==` of two `float`s that are given as numbers. -/
def f32vEq : F32 → F32 → Bool
  | .num a, .num b => decide (a = b)
  | _, _ => false

/-- `std::equal` of two sequences of the same length. -/
def allEq {α : Type} (eq : α → α → Bool) : List α → List α → Bool
  | [], [] => true
  | a :: as, b :: bs => eq a b && allEq eq as bs
  | _, _ => false

/-- `==` of two values of the same type, types.hpp:99-120 (`validated`), 144-154 (`dtime`),
166-170 (`obname`), 213-216 (`objref`), 232-236 (`attref`). -/
def Val.eq : Val → Val → Bool
  | .f32s a, .f32s b => allEq f32Eq a b
  | .f64s a, .f64s b => allEq f64Eq a b
  | .f32v a, .f32v b => f32vEq a b
  | a, b => decide (a = b)

/-- `value_variant_eq`, records.cpp:549-574: the same alternative and equal contents. -/
def valueEq : Option (Reprc × List Val) → Option (Reprc × List Val) → Bool
  | none, none => true
  | some (c, vs), some (d, ws) => decide (c = d) && allEq Val.eq vs ws
  | _, _ => false

/-- `object_attribute::operator==`, records.cpp:580-589. -/
def ObjAttr.eq (a b : ObjAttr) : Bool :=
  decide (a.label = b.label) && decide (a.count = b.count) && decide (a.reprc = b.reprc) &&
    decide (a.units = b.units) && valueEq a.value b.value

/-- `basic_object::operator==`, records.cpp:646-652. -/
def BasicObject.eq (a b : BasicObject) : Bool :=
  decide (a.name = b.name) && allEq ObjAttr.eq a.attributes b.attributes

/-! ### Python objects -/

/-- An instance of `BasicObject` or of a class derived from it, basicobject.py:158-165;
`known` says that the class was found in the table of types, file.py:263-267. -/
structure PyObj where
  type : PyStr
  name : PyStr
  origin : Nat
  copynumber : Nat
  known : Bool
  attic : BasicObject
deriving DecidableEq

/-- `not s` in Python. -/
def _root_.Dlisio.PyStr.isEmpty : PyStr → Bool
  | .str t => t.isEmpty
  | .bytes b => b.isEmpty

/-- A matcher in Python, utils/matcher.py: `exact_matcher` (37-49), or another class that
is not derived from it. -/
inductive PyMatcher where
  | exact
  | other (f : PyStr → PyStr → Bool)

/-- The method `match` of a matcher, utils/matcher.py:27-35 and 47-49. -/
def PyMatcher.run : PyMatcher → PyStr → PyStr → Bool
  | .exact, a, b => decide (a = b)
  | .other f, a, b => f a b

/-- What the store does not change: how strings are decoded, the table
`LogicalFile.types`, the error handler, and the order in which Python iterates over a
set that was made of a list. -/
structure Env where
  dec : Bytes → PyStr
  known : PyStr → Bool
  policy : Policy
  order : List PyStr → List PyStr

/-- The matcher that the C++ code calls, ext/dlis.cpp:747-763: both strings are decoded. -/
def Env.matcher (e : Env) (m : PyMatcher) : Matcher := fun a b => m.run (e.dec a) (e.dec b)

/-- The constructor of the Python object, basicobject.py:158-165, and the choice of the
class, file.py:263-267. -/
def Env.promote (e : Env) (a : BasicObject) : PyObj :=
  { type := e.dec a.type, name := e.dec a.name.id, origin := a.name.origin,
    copynumber := a.name.copy, known := e.known (e.dec a.type), attic := a }

/-! ### The store -/

/-- `defaultdict(list)` from names to objects, in the order of insertion. -/
abbrev NameDict := List (PyStr × List PyObj)

/-- `ObjectStore`, file.py:152-160. -/
structure Store where
  pool : List ObjectSet
  caching : Bool
  cache : List (PyStr × NameDict)

/-- `d[key] = value` for a Python dict. -/
def dictSet {β : Type} (k : PyStr) (v : β) : List (PyStr × β) → List (PyStr × β)
  | [] => [(k, v)]
  | (k', v') :: d => if k' = k then (k, v) :: d else (k', v') :: dictSet k v d

/-- `d[key]` for a Python dict. -/
def dictGet {β : Type} (k : PyStr) : List (PyStr × β) → Option β
  | [] => none
  | (k', v') :: d => if k' = k then some v' else dictGet k d

/-- The loop that makes the dict of one type, file.py:203-205. -/
def groupByName : List PyObj → NameDict → NameDict
  | [], d => d
  | o :: os, d => groupByName os (dictSet o.name ((dictGet o.name d).getD [] ++ [o]) d)

/-- `ObjectStore.types`, file.py:162-163. -/
def Store.types (e : Env) (s : Store) : List PyStr :=
  e.order ((poolTypes s.pool).map e.dec)

/-- `ObjectStore.__getitem__`, file.py:165-210: `none` if the error handler raised. -/
def Store.index (e : Env) (s : Store) (type : PyStr) : Store × Option NameDict :=
  match dictGet type s.cache with
  | some d => (s, some d)
  | none =>
    match poolGet (e.matcher .exact) e.policy type.toStd none s.pool with
    | (p, none) => ({ s with pool := p }, none)
    | (p, some attics) =>
      let d := groupByName (attics.map e.promote) []
      ({ s with pool := p, cache := if s.caching then dictSet type d s.cache else s.cache },
        some d)

/-- `ObjectStore.clear_cache`, file.py:212-214. -/
def Store.clear (s : Store) : Store := { s with cache := [] }

/-- The selection by name in the loop of `find`, file.py:251-253. -/
def pickNames (m : PyMatcher) (name : Option PyStr) (d : NameDict) : List PyObj :=
  d.flatMap fun (n, objs) =>
    match name with
    | none => objs
    | some q => if m.run q n then objs else []

/-- The loop of `find` over the types, file.py:249-254. -/
def findLoop (e : Env) (m : PyMatcher) (name : Option PyStr) :
    List PyStr → Store → Store × Option (List PyObj)
  | [], s => (s, some [])
  | t :: ts, s =>
    match s.index e t with
    | (s, none) => (s, none)
    | (s, some d) =>
      match findLoop e m name ts s with
      | (s, none) => (s, none)
      | (s, some rest) => (s, some (pickNames m name d ++ rest))

/-- The query of `find` when caching is off, file.py:226-241: a name that is `None` or
empty is not passed on. -/
def Store.findPool (e : Env) (s : Store) (m : PyMatcher) (type : PyStr) (name : Option PyStr) :
    Store × Option (List PyObj) :=
  let name := match name with
    | some n => if n.isEmpty then none else some n.toStd
    | none => none
  let (p, res) := poolGet (e.matcher m) e.policy type.toStd name s.pool
  ({ s with pool := p }, res.map (·.map e.promote))

/-- `self[object_type][object_name]`, file.py:244-245: looking up a name that is not there
in a `defaultdict` inserts it. -/
def Store.findExact (e : Env) (s : Store) (type name : PyStr) : Store × Option (List PyObj) :=
  match s.index e type with
  | (s, none) => (s, none)
  | (s, some d) =>
    match dictGet name d with
    | some objs => (s, some objs)
    | none => ({ s with cache := dictSet type (dictSet name [] d) s.cache }, some [])

/-- `ObjectStore.find`, file.py:216-254. -/
def Store.find (e : Env) (s : Store) (m : PyMatcher) (type : PyStr) (name : Option PyStr) :
    Store × Option (List PyObj) :=
  if !s.caching then s.findPool e m type name
  else
    match m, name with
    | .exact, some n => s.findExact e type n
    | m, name => findLoop e m name ((s.types e).filter (m.run type)) s

/-! ### Logical file -/

/-- What a lookup of one object gives: the object, `ValueError` because there is none,
`ValueError` because there are several, or the exception of the error handler. -/
inductive Lookup where
  | found (o : PyObj)
  | notFound
  | ambiguous
  | raised
deriving DecidableEq

/-- The filter by origin and by copy number, file.py:586-590. -/
def filterBy (f : PyObj → Nat) (want : Option Nat) (os : List PyObj) : List PyObj :=
  match want with
  | none => os
  | some n => os.filter fun o => decide (f o = n)

/-- The choice among the matches in `LogicalFile.object`, file.py:592-611. -/
def pickOne : List PyObj → Lookup
  | [] => .notFound
  | [o] => .found o
  | o :: os => if (o :: os).all fun x => x.attic.eq o.attic then .found o else .ambiguous

/-- `LogicalFile.object`, file.py:552-611. -/
def Store.object (e : Env) (s : Store) (type name : PyStr) (origin copynr : Option Nat) :
    Store × Lookup :=
  match s.find e .exact type (some name) with
  | (s, none) => (s, .raised)
  | (s, some ms) =>
    (s, pickOne (filterBy (·.copynumber) copynr (filterBy (·.origin) origin ms)))

/-! ### References -/

/-- How a reference is read, utils/linkage.py:6-14: `obname(objtype)` or `objref`. -/
inductive RefType where
  | obname (objtype : PyStr)
  | objref

/-- The call of `reftype`, utils/linkage.py:6-14; `none` is `TypeError`. -/
def RefType.run (dec : Bytes → PyStr) : RefType → Val → Option (Obname × PyStr)
  | .obname t, .obname n => some (n, t)
  | .objref, .objref r => some (r.name, dec r.type)
  | _, _ => none

/-- Does `str(value)` of a reference return, which the warning of `lookup` is made with,
utils/linkage.py:22-23?  The texts are made in ext/dlis.cpp:801-807, 826-829 and 855-862: the id of a
name, and the type in a reference to an attribute, are given as `std::string`, which has to be UTF-8;
the fingerprint of an object may throw.  Other values do not come here. -/
def Val.reprOk : Val → Bool
  | .obname n => (utf8Decode n.id).isSome
  | .objref r => (fingerprint r.type r.name.id r.name.origin r.name.copy).isSome
  | .attref r => (utf8Decode r.name.id).isSome && (utf8Decode r.type).isSome
  | _ => true

/-- The answer of `lookup`: an object, `None` with a warning, or an exception. -/
inductive Resolved where
  | object (o : PyObj)
  | nothing
  | raised
deriving DecidableEq

/-- The exceptions of `LogicalFile.object` that `lookup` catches,
utils/linkage.py:26-31. -/
def Lookup.resolved : Lookup → Resolved
  | .found o => .object o
  | .notFound => .nothing
  | .ambiguous => .nothing
  | .raised => .raised

/-- `lookup`, utils/linkage.py:16-31.  The text of the first warning may raise. -/
def Store.lookup (e : Env) (s : Store) (ref : RefType) (v : Val) : Store × Resolved :=
  match ref.run e.dec v with
  | none => (s, if v.reprOk then .nothing else .raised)
  | some (n, t) =>
    let (s, r) := s.object e t (e.dec n.id) (some n.origin) (some n.copy)
    (s, r.resolved)

end Dlisio.Dlis
