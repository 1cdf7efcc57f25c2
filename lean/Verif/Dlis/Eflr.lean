/-
Explicitly formatted logical records: lib/src/dlis/records.cpp and
lib/include/dlisio/dlis/records.hpp.

The cursor `cur` of the C++ code is the list of bytes that are left in the record.
The C++ code does not check that a value ends inside the record (see the TODO at
records.cpp:1080); in the model such a read gives `ParseErr.outOfBounds` (undefined
behaviour), which is kept apart from the exceptions that the code throws
(`ParseErr.threw`).  The text of exceptions and of log entries is left out, a log is
the list of the severities of its entries; `EflrLog.lean` has the texts.
-/
import Verif.Dlis.Value
import Verif.Dlis.Io
import Verif.Utf8

namespace Dlisio.Dlis

/-- Why parsing stopped: an exception, or a read past the end of the record. -/
inductive ParseErr where
  | threw | outOfBounds
deriving DecidableEq, Repr

/-- A decoder that needs more bytes than there are reads past the end of the record. -/
def need {α : Type} : Option α → Except ParseErr α
  | some a => .ok a
  | none => .error .outOfBounds

/-! ### Descriptors -/

/-- `parse_set_descriptor`, records.cpp:24-53: role, type flag and name flag. -/
def parseSetDescriptor (d : Byte) : Except ParseErr (Role × Bool × Bool) :=
  match componentSet d (component d) with
  | some (type, name) => .ok (component d, type, name)
  | none => .error .threw

/-- `attribute_descriptor`, records.cpp:55-66: the flags are only meaningful when the
component is neither an object nor an absent attribute. -/
inductive AttrDesc where
  | object
  | absent
  | attr (invariant : Bool) (flags : AttribFlags)
deriving DecidableEq, Repr

/-- `parse_attribute_descriptor`, records.cpp:68-125. -/
def parseAttributeDescriptor (d : Byte) : Except ParseErr AttrDesc :=
  let role := component d
  if role = .object then .ok .object
  else if role = .absatr then .ok .absent
  else match componentAttrib d role with
    | some f => .ok (.attr (decide (role = .invatr)) f)
    | none => .error .threw

/-- `parse_object_descriptor`, records.cpp:127-161. -/
def parseObjectDescriptor (d : Byte) : Except ParseErr Bool :=
  match componentObject d (component d) with
  | some name => .ok name
  | none => .error .threw

/-! ### Attributes -/

/-- `dl::object_attribute`, records.hpp:131-143.  A representation code of `none` is
`representation_code::undef`.  `value` is the variant `value_vector`
(records.hpp:36-65): `none` is `monostate`, `some (c, vs)` is the vector of the type
of code `c`; the 27 types are pairwise different. -/
structure ObjAttr where
  label : Bytes := []
  count : Nat := 1
  reprc : Option Reprc := some .ident
  units : Bytes := []
  value : Option (Reprc × List Val) := none
  invariant : Bool := false
  log : List Severity := []
deriving DecidableEq

/-- `cast` to a representation code, records.cpp:440-452; `DLIS_FSHORT` is 1 and
`DLIS_UNITS` is 27. -/
def reprcOfByte (x : Nat) : Option Reprc :=
  if x < 1 ∨ x > 27 then none else Reprc.ofCode x

/-- `repcode`, records.cpp:454-476. -/
def repcode (xs : Bytes) (a : ObjAttr) : Except ParseErr (ObjAttr × Bytes) :=
  match need (ushort xs) with
  | .error e => .error e
  | .ok (x, xs) =>
    match reprcOfByte x with
    | none => .ok ({ a with reprc := none, log := a.log ++ [.minor] }, xs)
    | some c => .ok ({ a with reprc := some c }, xs)

/-- `extract`, records.cpp:478-492: `n` values of code `c`. -/
def extractVals (c : Reprc) : Nat → Decoder (List Val)
  | 0, xs => some ([], xs)
  | n + 1, xs =>
    match decodeVal c xs with
    | none => none
    | some (v, xs) =>
      match extractVals c n xs with
      | none => none
      | some (vs, xs) => some (v :: vs, xs)

/-- `elements`, records.cpp:499-547. -/
def elements (xs : Bytes) (a : ObjAttr) : Except ParseErr (ObjAttr × Bytes) :=
  if a.count = 0 then .ok ({ a with value := none }, xs)
  else match a.reprc with
    | none => .error .threw
    | some c =>
      match need (extractVals c a.count xs) with
      | .error e => .error e
      | .ok (vs, xs) => .ok ({ a with value := some (c, vs) }, xs)

/-- `if (flags.count) cur = cast( cur, attr.count )`, records.cpp:702 and 969. -/
def readCount (f : Bool) (a : ObjAttr) (xs : Bytes) : Except ParseErr (ObjAttr × Bytes) :=
  if f then match need (uvari xs) with
    | .error e => .error e
    | .ok (n, xs) => .ok ({ a with count := n }, xs)
  else .ok (a, xs)

/-- `if (flags.reprc) cur = repcode( cur, attr )`, records.cpp:703 and 970. -/
def readReprc (f : Bool) (a : ObjAttr) (xs : Bytes) : Except ParseErr (ObjAttr × Bytes) :=
  if f then repcode xs a else .ok (a, xs)

/-- `if (flags.units) cur = cast( cur, attr.units )`, records.cpp:704 and 971. -/
def readUnits (f : Bool) (a : ObjAttr) (xs : Bytes) : Except ParseErr (ObjAttr × Bytes) :=
  if f then match need (units xs) with
    | .error e => .error e
    | .ok (u, xs) => .ok ({ a with units := u }, xs)
  else .ok (a, xs)

/-- `if (flags.value) cur = elements( cur, attr )`, records.cpp:705 and 972. -/
def readValue (f : Bool) (a : ObjAttr) (xs : Bytes) : Except ParseErr (ObjAttr × Bytes) :=
  if f then elements xs a else .ok (a, xs)

/-- The reads of count, representation code, units and value that follow the
descriptor (and the label) of an attribute, records.cpp:702-705 and 969-972. -/
def characteristics (f : AttribFlags) (a : ObjAttr) (xs : Bytes) :
    Except ParseErr (ObjAttr × Bytes) := do
  let (a, xs) ← readCount f.count a xs
  let (a, xs) ← readReprc f.reprc a xs
  let (a, xs) ← readUnits f.units a xs
  readValue f.value a xs

/-! ### Objects as containers of attributes -/

/-- `dl::basic_object::set` on the attribute list, records.cpp:591-607. -/
def setAttr (attr : ObjAttr) : List ObjAttr → List ObjAttr
  | [] => [attr]
  | x :: xs => if attr.label = x.label then attr :: xs else x :: setAttr attr xs

/-- `dl::basic_object::remove`, records.cpp:609-622. -/
def removeAttr (attr : ObjAttr) (xs : List ObjAttr) : List ObjAttr :=
  xs.filter fun x => ! decide (attr.label = x.label)

/-- `dl::basic_object::at`, records.cpp:628-644; `none` is `std::out_of_range`. -/
def attrAt (key : Bytes) (xs : List ObjAttr) : Option ObjAttr :=
  xs.find? fun x => decide (x.label = key)

/-- `dl::basic_object`, records.hpp:187-202. -/
structure BasicObject where
  name : Obname
  type : Bytes
  attributes : List ObjAttr
  log : List Severity
deriving DecidableEq

/-! ### Template -/

/-- One attribute of the template, records.cpp:687-706 (the entry for a missing label
flag is made in `templateLoop`). -/
def templateAttr (invariant : Bool) (f : AttribFlags) (xs : Bytes) :
    Except ParseErr (ObjAttr × Bytes) :=
  match need (ident xs) with
  | .error e => .error e
  | .ok (l, xs) =>
    match characteristics f { label := l } xs with
    | .error e => .error e
    | .ok (a, xs) => .ok ({ a with invariant := invariant }, xs)

/-- What `parse_template` leaves behind: template, entries added to the log of the
set, and the rest of the record or the reason why it stopped. -/
structure TemplateResult where
  tmpl : List ObjAttr
  log : List Severity
  res : Except ParseErr Bytes

/-- `object_set::parse_template`, records.cpp:659-721.  Each round takes at least one
byte, so the number of bytes bounds the number of rounds (`templateLoop_fuel`). -/
def templateLoop : Nat → Bytes → List ObjAttr → List Severity → TemplateResult
  | 0, _, tmpl, log => ⟨tmpl, log, .error .threw⟩
  | _ + 1, [], tmpl, log => ⟨tmpl, log, .error .threw⟩
  | n + 1, d :: xs, tmpl, log =>
    match parseAttributeDescriptor d with
    | .error e => ⟨tmpl, log, .error e⟩
    | .ok .object => ⟨tmpl, log, .ok (d :: xs)⟩
    | .ok .absent => templateLoop n xs tmpl (log ++ [.major])
    | .ok (.attr inv f) =>
      let log := if f.label then log else log ++ [.major]
      match templateAttr inv f xs with
      | .error e => ⟨tmpl, log, .error e⟩
      | .ok (a, xs) =>
        if xs = [] then ⟨tmpl ++ [a], log ++ [.info], .ok []⟩
        else templateLoop n xs (tmpl ++ [a]) log

/-- `object_set::parse_template`, records.cpp:659-721. -/
def parseTemplate (xs : Bytes) (log : List Severity) : TemplateResult :=
  templateLoop (xs.length + 1) xs [] log

/-! ### Objects -/

/-- `defaulted_object`, records.cpp:725-732. -/
def defaultedObject (tmpl : List ObjAttr) : List ObjAttr :=
  tmpl.foldl (fun o a => setAttr a o) []

/-- The value-initialised element of the type of a code (`std::vector::resize` in
records.cpp:825-851). -/
def defaultVal : Reprc → Val
  | .fshort | .vsingl => .f32v (.num 0)
  | .fsingl | .isingl => .f32s [0]
  | .fsing1 | .csingl => .f32s [0, 0]
  | .fsing2 => .f32s [0, 0, 0]
  | .fdoubl => .f64s [0]
  | .fdoub1 | .cdoubl => .f64s [0, 0]
  | .fdoub2 => .f64s [0, 0, 0]
  | .sshort | .ushort | .status => .int 1 0
  | .snorm | .unorm => .int 2 0
  | .slong | .ulong | .uvari | .origin => .int 4 0
  | .ident | .ascii | .units => .str []
  | .dtime => .dtime { Y := 0, TZ := 0, M := 0, D := 0, H := 0, MN := 0, S := 0, MS := 0 }
  | .obname => .obname { origin := 0, copy := 0, id := [] }
  | .objref => .objref { type := [], name := { origin := 0, copy := 0, id := [] } }
  | .attref => .attref { type := [], name := { origin := 0, copy := 0, id := [] }, label := [] }

/-- The second half of `patch_missing_value`, records.cpp:825-871. -/
def resetValue (a : ObjAttr) : ObjAttr :=
  match a.reprc with
  | some c => { a with value := some (c, List.replicate a.count (defaultVal c)) }
  | none => { a with log := a.log ++ [.critical] }

/-- `patch_missing_value`, records.cpp:759-872. -/
def patchMissingValue (a : ObjAttr) : ObjAttr :=
  match a.value with
  | none => resetValue a
  | some (c, vs) =>
    if vs.length = a.count then a
    else if vs.length > a.count then
      { a with value := some (c, vs.take a.count), log := a.log ++ [.major] }
    else resetValue { a with log := a.log ++ [.critical] }

/-- `is_log_clear`, records.cpp:874-879. -/
def isLogClear (log : List Severity) : Bool :=
  ! log.any fun s => ! decide (s = .info)

/-- What `parse_objects` does with an attribute of an object that is not absent,
records.cpp:940-1014: `t` is the attribute of the template. -/
def objectAttr (t : ObjAttr) (invariant : Bool) (f : AttribFlags) (xs : Bytes) :
    Except ParseErr (ObjAttr × Bytes) :=
  let a := if invariant then { t with log := t.log ++ [.major] } else t
  let a := if f.label then { a with log := a.log ++ [.major] } else a
  match characteristics f a xs with
  | .error e => .error e
  | .ok (a, xs) =>
    if a.count = 0 then .ok ({ a with value := none }, xs)
    else if f.value then .ok (a, xs)
    else
      let a := if f.reprc && decide (a.reprc ≠ t.reprc) then
          { a with value := none, log := a.log ++ [.major] }
        else a
      .ok (patchMissingValue a, xs)

/-- The loop over the template in `parse_objects`, records.cpp:926-1019. Returns the
attributes, whether all logs are clear, and the rest. -/
def attrLoop : List ObjAttr → Bytes → List ObjAttr → Bool →
    Except ParseErr (List ObjAttr × Bool × Bytes)
  | [], xs, cur, clear => .ok (cur, clear, xs)
  | t :: ts, xs, cur, clear =>
    if t.invariant then attrLoop ts xs cur clear
    else match xs with
      | [] => .ok (cur, clear, [])
      | d :: rest =>
        match parseAttributeDescriptor d with
        | .error e => .error e
        | .ok .object => .ok (cur, clear, d :: rest)
        | .ok .absent => attrLoop ts rest (removeAttr t cur) clear
        | .ok (.attr inv f) =>
          match objectAttr t inv f rest with
          | .error e => .error e
          | .ok (a, rest) => attrLoop ts rest (setAttr a cur) (clear && isLogClear a.log)

/-- One round of the outer loop of `parse_objects`, records.cpp:901-1031. -/
def parseObject (type : Bytes) (tmpl : List ObjAttr) (d : Byte) (xs : Bytes) :
    Except ParseErr (BasicObject × Bytes) :=
  match parseObjectDescriptor d with
  | .error e => .error e
  | .ok hasName =>
    match need (obname xs) with
    | .error e => .error e
    | .ok (name, xs) =>
      match attrLoop tmpl xs (defaultedObject tmpl) true with
      | .error e => .error e
      | .ok (attrs, clear, xs) =>
        .ok ({ name := name, type := type, attributes := attrs,
               log := (if hasName then [] else [.major]) ++ (if clear then [] else [.minor]) }, xs)

/-- `object_set::parse_objects`, records.cpp:896-1034: the objects that were stored
before it ended, and how it ended.  Each round takes at least one byte
(`objectsLoop_fuel`). -/
def objectsLoop (type : Bytes) (tmpl : List ObjAttr) :
    Nat → Bytes → List BasicObject × Except ParseErr Unit
  | _, [] => ([], .ok ())
  | 0, _ :: _ => ([], .error .threw)
  | n + 1, d :: xs =>
    match parseObject type tmpl d xs with
    | .error e => ([], .error e)
    | .ok (o, xs) =>
      let (os, res) := objectsLoop type tmpl n xs
      (o :: os, res)

/-- `object_set::parse_objects`, records.cpp:896-1034. -/
def parseObjects (type : Bytes) (tmpl : List ObjAttr) (xs : Bytes) :
    List BasicObject × Except ParseErr Unit :=
  objectsLoop type tmpl xs.length xs

/-! ### Object sets -/

/-- `dl::object_set`, records.hpp:241-263.  `undefined` is not part of the code: it is
set when parsing has read past the end of the record, after which nothing can be said
about the C++ object. -/
structure ObjectSet where
  role : Role
  type : Bytes
  name : Bytes
  log : List Severity
  data : Bytes
  objs : List BasicObject
  tmpl : List ObjAttr
  parsed : Bool
  undefined : Bool
deriving DecidableEq

/-- The entry that `parse_set_component` makes because of the role,
records.cpp:1050-1078. -/
def roleLog : Role → List Severity
  | .rdset => [.minor]
  | .rset => [.major]
  | _ => []

/-- `object_set::parse_set_component`, records.cpp:1036-1107: entries added to the log,
and role, type, name and the rest of the record. -/
def parseSetComponent (xs : Bytes) :
    List Severity × Except ParseErr (Role × Bytes × Bytes × Bytes) :=
  match xs with
  | [] => ([], .error .threw)
  | d :: xs =>
    match parseSetDescriptor d with
    | .error e => ([], .error e)
    | .ok (role, hasType, hasName) =>
      if xs = [] then ([], .error .threw)
      else
        (roleLog role ++ (if hasType then [] else [.major]),
          match need (ident xs) with
          | .error e => .error e
          | .ok (type, xs) =>
            match (if hasName then need (ident xs) else .ok ([], xs)) with
            | .error e => .error e
            | .ok (name, xs) => .ok (role, type, name, xs))

/-- The constructor of `object_set`, records.cpp:1109-1112. -/
def ObjectSet.new (data : Bytes) : Except ParseErr ObjectSet :=
  match parseSetComponent data with
  | (_, .error e) => .error e
  | (log, .ok (role, type, name, _)) =>
    .ok { role := role, type := type, name := name, log := log, data := data,
          objs := [], tmpl := [], parsed := false, undefined := false }

/-- The `catch` of `object_set::parse`, records.cpp:1127-1135, and the assignment of
`parsed`. -/
def ObjectSet.finish (s : ObjectSet) : Except ParseErr Unit → ObjectSet
  | .ok () => { s with parsed := true }
  | .error .threw => { s with log := s.log ++ [.critical], parsed := true }
  | .error .outOfBounds => { s with parsed := true, undefined := true }

/-- `object_set::parse`, records.cpp:1114-1143. -/
def ObjectSet.parse (s : ObjectSet) : ObjectSet :=
  if s.parsed then s
  else
    match parseSetComponent s.data with
    | (log, .error e) => { s with log := log }.finish (.error e)
    | (log, .ok (role, type, name, xs)) =>
      let s := { s with role := role, type := type, name := name }
      let t := parseTemplate xs log
      let s := { s with tmpl := s.tmpl ++ t.tmpl, log := t.log }
      match t.res with
      | .error e => s.finish (.error e)
      | .ok xs =>
        let (objs, res) := parseObjects type s.tmpl xs
        { s with objs := s.objs ++ objs }.finish res

/-- `object_set::objects`, records.cpp:1145-1148: the set afterwards and the answer. -/
def ObjectSet.objects (s : ObjectSet) : ObjectSet × List BasicObject :=
  (s.parse, s.parse.objs)

/-! ### Pool -/

/-- `dl::matcher::match`, records.hpp:265-270: pattern, candidate. -/
abbrev Matcher := Bytes → Bytes → Bool

/-- The text that says which set an entry is about, records.cpp:884-886: "object set of type '",
the type, "' named '", the name, "'". -/
def ObjectSet.context (s : ObjectSet) : Bytes :=
  [0x6f, 0x62, 0x6a, 0x65, 0x63, 0x74, 0x20, 0x73, 0x65, 0x74, 0x20, 0x6f, 0x66, 0x20, 0x74, 0x79,
    0x70, 0x65, 0x20] ++ 0x27 :: (s.type ++ 0x27 :: ([0x20, 0x6e, 0x61, 0x6d, 0x65, 0x64, 0x20] ++
    0x27 :: (s.name ++ [0x27])))

/-- Can the text be handed to Python?  `PyErrorHandler::log`, ext/core.cpp:127-142, gives it to
pybind11, which decodes a `std::string` as UTF-8 and raises if it is not. -/
def ObjectSet.tellable (s : ObjectSet) : Bool := (utf8Decode s.context).isSome

/-- `report_set_errors`, records.cpp:881-892: `true` if reporting an entry raises, either because
the text cannot be handed over or because the error handler does, in which case the entries after
it are not reported. -/
def reportSetErrors (policy : Policy) (s : ObjectSet) : Bool :=
  s.log.any fun sev => !s.tellable || policy sev

/-- `pool::types`, records.cpp:1150-1156. -/
def poolTypes (p : List ObjectSet) : List Bytes := p.map (·.type)

/-- Is the object wanted?  The comparison with the name, records.cpp:1169; without a
name every object is (records.cpp:1188-1189). -/
def nameMatches (m : Matcher) (name : Option Bytes) (o : BasicObject) : Bool :=
  match name with
  | some n => m n o.name.id
  | none => true

/-- `pool::get`, records.cpp:1158-1177 (with `name`) and 1179-1194 (without: every
object is taken).  Returns the pool afterwards, and the objects or `none` if the
error handler raised. -/
def poolGet (m : Matcher) (policy : Policy) (type : Bytes) (name : Option Bytes) :
    List ObjectSet → List ObjectSet × Option (List BasicObject)
  | [] => ([], some [])
  | s :: p =>
    if m type s.type then
      let (s, objs) := s.objects
      let objs := objs.filter (nameMatches m name)
      if reportSetErrors policy s then (s :: p, none)
      else
        let (p, rest) := poolGet m policy type name p
        (s :: p, rest.map (objs ++ ·))
    else
      let (p, rest) := poolGet m policy type name p
      (s :: p, rest)

/-- Type and name of a set are texts in UTF-8. -/
def Spec.Tellable (s : ObjectSet) : Prop :=
  (∃ t, Dlisio.Spec.Utf8 t s.type) ∧ ∃ n, Dlisio.Spec.Utf8 n s.name

/-- The text about a set, in characters. -/
theorem context_decode (s : ObjectSet) :
    utf8Decode s.context = (utf8Decode s.type).bind fun t => (utf8Decode s.name).map fun n =>
      ("object set of type '".toList.map Char.toNat) ++ t ++ ("' named '".toList.map Char.toNat) ++
        n ++ ("'".toList.map Char.toNat) := by
  have h1 : utf8Decode [0x6f, 0x62, 0x6a, 0x65, 0x63, 0x74, 0x20, 0x73, 0x65, 0x74, 0x20, 0x6f,
      0x66, 0x20, 0x74, 0x79, 0x70, 0x65, 0x20] =
      some ("object set of type ".toList.map Char.toNat) := by
    rw [utf8Decode_iff]
    exact ⟨by simp [Dlisio.Spec.Scalar], by decide⟩
  have h2 : utf8Decode [0x20, 0x6e, 0x61, 0x6d, 0x65, 0x64, 0x20] =
      some (" named ".toList.map Char.toNat) := by
    rw [utf8Decode_iff]
    exact ⟨by simp [Dlisio.Spec.Scalar], by decide⟩
  have h3 : utf8Decode [] = some [] := by rw [utf8Decode, if_pos rfl]
  unfold ObjectSet.context
  rw [utf8Decode_split _ (by decide), utf8Decode_split _ (by decide), utf8Decode_split _ (by decide),
    utf8Decode_split _ (by decide), h1, h2, h3]
  cases utf8Decode s.type <;> cases utf8Decode s.name <;> simp

theorem tellable_iff (s : ObjectSet) : s.tellable = true ↔ Spec.Tellable s := by
  unfold ObjectSet.tellable Spec.Tellable
  rw [context_decode]
  simp only [← utf8Decode_iff, ← Option.isSome_iff_exists]
  cases utf8Decode s.type <;> cases utf8Decode s.name <;> simp

end Dlisio.Dlis
