/-
What the logs of sets, objects and attributes say: the parser of `Eflr.lean` with the texts of the
entries (problem, specification, action) and of the exceptions, lib/src/dlis/records.cpp.

`Eflr.lean` keeps of an entry only its severity.  Here the entries are kept next to the same
attributes, objects and sets (`ToldAttr.attr` and so on), and it is proved that leaving them out
gives the parser of `Eflr.lean`.
-/
import Verif.Messages

namespace Dlisio.Dlis

/-! ### Exceptions -/

/-- Why parsing stopped: an exception with the text of `what()`, or a read past the end of the
record. -/
inductive ToldErr where
  | threw (what : Text)
  | outOfBounds
deriving DecidableEq

/-- Without the text. -/
def ToldErr.plain : ToldErr → ParseErr
  | .threw _ => .threw
  | .outOfBounds => .outOfBounds

/-- `dlis_component_str`, dlisio.cpp:496-508; a role is one of the eight. -/
def Role.str : Role → Text
  | .absatr => text "absent attribute"
  | .attrib => text "attribute"
  | .invatr => text "invariant attribute"
  | .object => text "object"
  | .reserv => text "reserved"
  | .rdset => text "redundant set"
  | .rset => text "replacement set"
  | .set => text "set"

/-- The number of a role, dlisio.h:435-444. -/
def Role.bits : Role → Byte
  | .absatr => 0x00
  | .attrib => 0x20
  | .invatr => 0x40
  | .object => 0x60
  | .reserv => 0x80
  | .rdset => 0xA0
  | .rset => 0xC0
  | .set => 0xE0

/-- `std::bitset< 8 >{ b }.to_string()`, records.cpp:38, 106 and 145: the highest bit comes first. -/
def bitText (b : Byte) : Text :=
  [7, 6, 5, 4, 3, 2, 1, 0].map fun i => if b.getLsbD i then 49 else 48

/-- What is said about a descriptor that was not expected, records.cpp:40-43, 108-111 and
147-150. -/
def unexpected (kind expected : String) (role : Role) (bits : Byte) : ToldErr :=
  .threw (text "error parsing " ++ text kind ++ text " descriptor: expected " ++ text expected ++
    text ", was " ++ role.str ++ text " (" ++ bitText bits ++ text ")")

/-- `parse_set_descriptor`, records.cpp:24-53. -/
def toldSetDescriptor (d : Byte) : Except ToldErr (Role × Bool × Bool) :=
  match componentSet d (component d) with
  | some (type, name) => .ok (component d, type, name)
  | none => .error (unexpected "object set" "SET, RSET or RDSET" (component d) d)

/-- `parse_attribute_descriptor`, records.cpp:68-125. -/
def toldAttributeDescriptor (d : Byte) : Except ToldErr AttrDesc :=
  let role := component d
  if role = .object then .ok .object
  else if role = .absatr then .ok .absent
  else match componentAttrib d role with
    | some f => .ok (.attr (decide (role = .invatr)) f)
    | none => .error (unexpected "attribute" "ATTRIB, INVATR, ABSATR or OBJECT" role role.bits)

/-- `parse_object_descriptor`, records.cpp:131-161. -/
def toldObjectDescriptor (d : Byte) : Except ToldErr Bool :=
  match componentObject d (component d) with
  | some name => .ok name
  | none => .error (unexpected "object" "OBJECT" (component d) d)

/-- A read past the end of the record (see `need`). -/
def toldNeed {α : Type} : Option α → Except ToldErr α
  | some a => .ok a
  | none => .error .outOfBounds

/-! ### Attributes -/

/-- An attribute, and the entries of its log. -/
structure ToldAttr where
  attr : ObjAttr
  told : List LogEntry
deriving DecidableEq

/-- `attr.log.push_back(err)`, records.cpp:472 and elsewhere. -/
def ToldAttr.say (a : ToldAttr) (x : LogEntry) : ToldAttr :=
  { attr := { a.attr with log := a.attr.log ++ [x.severity] }, told := a.told ++ [x] }

/-- The number of a representation code in messages: `static_cast< int >(reprc)`, records.cpp:541,
861 and 1001; `DLIS_UNDEF` is 66, types.h:222. -/
def codeNumber : Option Reprc → Nat
  | some c => c.code
  | none => 66

/-- records.cpp:464-471. -/
def saysBadCode (x : Nat) : LogEntry :=
  { severity := .minor
    problem := text "Invalid representation code " ++ Text.ofNat x
    spec := text "Appendix B: Representation Codes"
    action := text "Continue. Postpone dealing with this until later" }

/-- `repcode`, records.cpp:454-476. -/
def toldRepcode (xs : Bytes) (a : ToldAttr) : Except ToldErr (ToldAttr × Bytes) :=
  match toldNeed (ushort xs) with
  | .error e => .error e
  | .ok (x, xs) =>
    match reprcOfByte x with
    | none => .ok ({ a with attr := { a.attr with reprc := none } }.say (saysBadCode x), xs)
    | some c => .ok ({ a with attr := { a.attr with reprc := some c } }, xs)

/-- `elements`, records.cpp:499-547. -/
def toldElements (xs : Bytes) (a : ToldAttr) : Except ToldErr (ToldAttr × Bytes) :=
  if a.attr.count = 0 then .ok ({ a with attr := { a.attr with value := none } }, xs)
  else match a.attr.reprc with
    | none => .error (.threw (text "unable to interpret attribute: unknown representation code " ++
        Text.ofNat (codeNumber none)))
    | some c =>
      match toldNeed (extractVals c a.attr.count xs) with
      | .error e => .error e
      | .ok (vs, xs) => .ok ({ a with attr := { a.attr with value := some (c, vs) } }, xs)

/-- records.cpp:702 and 969. -/
def toldCount (f : Bool) (a : ToldAttr) (xs : Bytes) : Except ToldErr (ToldAttr × Bytes) :=
  if f then match toldNeed (uvari xs) with
    | .error e => .error e
    | .ok (n, xs) => .ok ({ a with attr := { a.attr with count := n } }, xs)
  else .ok (a, xs)

/-- records.cpp:703 and 970. -/
def toldReprc (f : Bool) (a : ToldAttr) (xs : Bytes) : Except ToldErr (ToldAttr × Bytes) :=
  if f then toldRepcode xs a else .ok (a, xs)

/-- records.cpp:704 and 971. -/
def toldUnits (f : Bool) (a : ToldAttr) (xs : Bytes) : Except ToldErr (ToldAttr × Bytes) :=
  if f then match toldNeed (units xs) with
    | .error e => .error e
    | .ok (u, xs) => .ok ({ a with attr := { a.attr with units := u } }, xs)
  else .ok (a, xs)

/-- records.cpp:705 and 972. -/
def toldValue (f : Bool) (a : ToldAttr) (xs : Bytes) : Except ToldErr (ToldAttr × Bytes) :=
  if f then toldElements xs a else .ok (a, xs)

/-- records.cpp:702-705 and 969-972. -/
def toldCharacteristics (f : AttribFlags) (a : ToldAttr) (xs : Bytes) :
    Except ToldErr (ToldAttr × Bytes) := do
  let (a, xs) ← toldCount f.count a xs
  let (a, xs) ← toldReprc f.reprc a xs
  let (a, xs) ← toldUnits f.units a xs
  toldValue f.value a xs

/-- `dl::basic_object::set`, records.cpp:591-607. -/
def setTold (a : ToldAttr) : List ToldAttr → List ToldAttr
  | [] => [a]
  | x :: xs => if a.attr.label = x.attr.label then a :: xs else x :: setTold a xs

/-- `dl::basic_object::remove`, records.cpp:609-622. -/
def removeTold (a : ToldAttr) (xs : List ToldAttr) : List ToldAttr :=
  xs.filter fun x => ! decide (a.attr.label = x.attr.label)

/-- An object, the entries of its log, and its attributes with theirs. -/
structure ToldObject where
  obj : BasicObject
  told : List LogEntry
  attrs : List ToldAttr
deriving DecidableEq

/-! ### Template -/

/-- One attribute of the template, records.cpp:687-706. -/
def toldTemplateAttr (invariant : Bool) (f : AttribFlags) (xs : Bytes) :
    Except ToldErr (ToldAttr × Bytes) :=
  match toldNeed (ident xs) with
  | .error e => .error e
  | .ok (l, xs) =>
    match toldCharacteristics f { attr := { label := l }, told := [] } xs with
    | .error e => .error e
    | .ok (a, xs) => .ok ({ a with attr := { a.attr with invariant := invariant } }, xs)

/-- records.cpp:675-682. -/
def saysAbsent : LogEntry :=
  { severity := .major
    problem := text "Absent Attribute in object set template"
    spec := text "3.2.2.2 Component Usage: A Template consists of a collection of Attribute Components and/or Invariant Attribute Components, mixed in any fashion."
    action := text "Attribute not included in template" }

/-- records.cpp:690-697. -/
def saysUnlabelled : LogEntry :=
  { severity := .major
    problem := text "Label not set in template"
    spec := text "3.2.2.2 Component Usage: All Components in the Template must have distinct, non-null Labels."
    action := text "Assumed attribute descriptor corrupted, attempt to read label anyway" }

/-- records.cpp:711-716. -/
def saysEmpty : LogEntry :=
  { severity := .info
    problem := text "Set contains no objects"
    spec := text "3.2.2.2 Component Usage: A Set consists of one or more Objects"
    action := text "Leave the set empty and return" }

/-- What `parse_template` leaves behind, with the entries. -/
structure ToldTemplate where
  tmpl : List ToldAttr
  told : List LogEntry
  res : Except ToldErr Bytes

/-- `object_set::parse_template`, records.cpp:659-721. -/
def toldTemplateLoop : Nat → Bytes → List ToldAttr → List LogEntry → ToldTemplate
  | 0, _, tmpl, told => ⟨tmpl, told, .error (.threw (text "unexpected end-of-record in template"))⟩
  | _ + 1, [], tmpl, told =>
    ⟨tmpl, told, .error (.threw (text "unexpected end-of-record in template"))⟩
  | n + 1, d :: xs, tmpl, told =>
    match toldAttributeDescriptor d with
    | .error e => ⟨tmpl, told, .error e⟩
    | .ok .object => ⟨tmpl, told, .ok (d :: xs)⟩
    | .ok .absent => toldTemplateLoop n xs tmpl (told ++ [saysAbsent])
    | .ok (.attr inv f) =>
      let told := if f.label then told else told ++ [saysUnlabelled]
      match toldTemplateAttr inv f xs with
      | .error e => ⟨tmpl, told, .error e⟩
      | .ok (a, xs) =>
        if xs = [] then ⟨tmpl ++ [a], told ++ [saysEmpty], .ok []⟩
        else toldTemplateLoop n xs (tmpl ++ [a]) told

/-! ### Objects -/

/-- `defaulted_object`, records.cpp:725-732. -/
def toldDefaults (tmpl : List ToldAttr) : List ToldAttr :=
  tmpl.foldl (fun o a => setTold a o) []

/-- records.cpp:855-867. -/
def saysNoDefault (code : Option Reprc) : LogEntry :=
  { severity := .critical
    problem := text "invalid representation code " ++ Text.ofNat (codeNumber code)
    spec := text "Appendix B: Representation Codes"
    action := text "attribute value is left as template default. Continue" }

/-- The second half of `patch_missing_value`, records.cpp:825-871. -/
def toldReset (a : ToldAttr) : ToldAttr :=
  match a.attr.reprc with
  | some c =>
    { a with attr := { a.attr with value := some (c, List.replicate a.attr.count (defaultVal c)) } }
  | none => a.say (saysNoDefault a.attr.reprc)

/-- The problem of a count that is not that of the template, records.cpp:778-780 and 799-801. -/
def countProblem (count : Nat) (than : String) (size : Nat) : Text :=
  text "template value is not overridden by object attribute, but count is. count (" ++
    Text.ofNat count ++ text ") " ++ text than ++ text " template count (" ++ Text.ofNat size ++ text ")"

/-- records.cpp:783-790. -/
def saysShrank (count size : Nat) : LogEntry :=
  { severity := .major
    problem := countProblem count "<" size
    spec := text "3.2.2.1 Component Descriptor: The number of Elements that make up the Value is specified by the Count Characteristic."
    action := text "shrank template value to new attribute count" }

/-- records.cpp:803-810. -/
def saysGrown (count size : Nat) : LogEntry :=
  { severity := .critical
    problem := countProblem count ">" size
    spec := text "3.2.2.1 Component Descriptor: The number of Elements that make up the Value is specified by the Count Characteristic."
    action := text "value is left as in template" }

/-- `patch_missing_value`, records.cpp:759-872. -/
def toldPatch (a : ToldAttr) : ToldAttr :=
  match a.attr.value with
  | none => toldReset a
  | some (c, vs) =>
    if vs.length = a.attr.count then a
    else if vs.length > a.attr.count then
      { a with attr := { a.attr with value := some (c, vs.take a.attr.count) } }.say
        (saysShrank a.attr.count vs.length)
    else toldReset (a.say (saysGrown a.attr.count vs.length))

/-- records.cpp:948-954. -/
def saysInvariant : LogEntry :=
  { severity := .major
    problem := text "Invariant attribute in object attributes"
    spec := text "3.2.2.2 Component Usage: Invariant Attribute Components, which may only appear in the Template [...]"
    action := text "ignored invariant bit, assumed that attribute followed" }

/-- records.cpp:959-965. -/
def saysLabelled : LogEntry :=
  { severity := .major
    problem := text "Label bit set in object attribute"
    spec := text "3.2.2.2 Component Usage: Attribute Components that follow Object Components must not have Attribute Labels"
    action := text "ignored label bit, assumed that label never followed" }

/-- records.cpp:999-1008. -/
def saysRecoded (count : Nat) (code : Option Reprc) : LogEntry :=
  { severity := .major
    problem := text "count (" ++ Text.ofNat count ++ text ") isn't 0 and representation code (" ++
      Text.ofNat (codeNumber code) ++ text ") changed, but value is not explicitly set"
    spec := []
    action := text "value defaulted based on representation code from attribute" }

/-- What `parse_objects` does with an attribute that is not absent, records.cpp:940-1014. -/
def toldObjectAttr (t : ToldAttr) (invariant : Bool) (f : AttribFlags) (xs : Bytes) :
    Except ToldErr (ToldAttr × Bytes) :=
  let a := if invariant then t.say saysInvariant else t
  let a := if f.label then a.say saysLabelled else a
  match toldCharacteristics f a xs with
  | .error e => .error e
  | .ok (a, xs) =>
    if a.attr.count = 0 then .ok ({ a with attr := { a.attr with value := none } }, xs)
    else if f.value then .ok (a, xs)
    else
      let a := if f.reprc && decide (a.attr.reprc ≠ t.attr.reprc) then
          { a.say (saysRecoded a.attr.count a.attr.reprc) with
            attr := { (a.say (saysRecoded a.attr.count a.attr.reprc)).attr with value := none } }
        else a
      .ok (toldPatch a, xs)

/-- The loop over the template in `parse_objects`, records.cpp:926-1019. -/
def toldAttrLoop : List ToldAttr → Bytes → List ToldAttr → Bool →
    Except ToldErr (List ToldAttr × Bool × Bytes)
  | [], xs, cur, clear => .ok (cur, clear, xs)
  | t :: ts, xs, cur, clear =>
    if t.attr.invariant then toldAttrLoop ts xs cur clear
    else match xs with
      | [] => .ok (cur, clear, [])
      | d :: rest =>
        match toldAttributeDescriptor d with
        | .error e => .error e
        | .ok .object => .ok (cur, clear, d :: rest)
        | .ok .absent => toldAttrLoop ts rest (removeTold t cur) clear
        | .ok (.attr inv f) =>
          match toldObjectAttr t inv f rest with
          | .error e => .error e
          | .ok (a, rest) => toldAttrLoop ts rest (setTold a cur) (clear && isLogClear a.attr.log)

/-- records.cpp:913-920. -/
def saysUnnamed : LogEntry :=
  { severity := .major
    problem := text "OBJECT:name was not set"
    spec := text "3.2.2.1 Component Descriptor: That is, every Object has a non-null Name"
    action := text "Assumed object descriptor corrupted, attempt to read name anyway" }

/-- records.cpp:1022-1026. -/
def saysAttributes : LogEntry :=
  { severity := .minor
    problem := text "One or more attributes of this object violate specification. This can potentially corrupt the entire object"
    spec := []
    action := [] }

/-- One round of the outer loop of `parse_objects`, records.cpp:901-1031. -/
def toldObject (type : Bytes) (tmpl : List ToldAttr) (d : Byte) (xs : Bytes) :
    Except ToldErr (ToldObject × Bytes) :=
  match toldObjectDescriptor d with
  | .error e => .error e
  | .ok hasName =>
    match toldNeed (obname xs) with
    | .error e => .error e
    | .ok (name, xs) =>
      match toldAttrLoop tmpl xs (toldDefaults tmpl) true with
      | .error e => .error e
      | .ok (attrs, clear, xs) =>
        let told := (if hasName then [] else [saysUnnamed]) ++ (if clear then [] else [saysAttributes])
        .ok ({ obj := { name := name, type := type, attributes := attrs.map (·.attr),
                        log := told.map (·.severity) }, told := told, attrs := attrs }, xs)

/-- `object_set::parse_objects`, records.cpp:896-1034.  The exception of line 903 cannot be thrown:
the cursor is behind the end only after a read that is out of bounds. -/
def toldObjectsLoop (type : Bytes) (tmpl : List ToldAttr) :
    Nat → Bytes → List ToldObject × Except ToldErr Unit
  | _, [] => ([], .ok ())
  | 0, _ :: _ => ([], .error (.threw (text "unexpected end-of-record")))
  | n + 1, d :: xs =>
    match toldObject type tmpl d xs with
    | .error e => ([], .error e)
    | .ok (o, xs) =>
      let (os, res) := toldObjectsLoop type tmpl n xs
      (o :: os, res)

/-! ### Sets -/

/-- records.cpp:1052-1059. -/
def saysRedundant : LogEntry :=
  { severity := .minor
    problem := text "Redundant sets are not supported by dlisio"
    spec := text "3.2.2.2 Component Usage: A Redundant Set is an identical copy of some Set written previously in the same Logical File"
    action := text "Redundant set is treated as a normal set, which might lead to issues with duplicated objects" }

/-- records.cpp:1064-1072. -/
def saysReplacement : LogEntry :=
  { severity := .major
    problem := text "Replacement sets are not supported by dlisio"
    spec := text "3.2.2.2 Component Usage: Attributes of the Replacement Set reflect all updates that may have been applied since the original Set was written"
    action := text "Replacement set is treated as a normal set, which might lead to issues with duplicated objects and invalid information" }

/-- records.cpp:1089-1096. -/
def saysUntyped : LogEntry :=
  { severity := .major
    problem := text "SET:type not set"
    spec := text "3.2.2.1 Component Descriptor: A Set’s Type Characteristic must be non-null and must always be explicitly present in the Set Component"
    action := text "Assumed set descriptor corrupted, attempt to read type anyway" }

/-- records.cpp:1128-1133. -/
def saysInterrupted (what : Text) : LogEntry :=
  { severity := .critical
    problem := what
    spec := []
    action := text "object set parse has been interrupted" }

/-- The entry because of the role, records.cpp:1050-1078. -/
def toldRole : Role → List LogEntry
  | .rdset => [saysRedundant]
  | .rset => [saysReplacement]
  | _ => []

/-- `object_set::parse_set_component`, records.cpp:1036-1107. -/
def toldSetComponent (xs : Bytes) :
    List LogEntry × Except ToldErr (Role × Bytes × Bytes × Bytes) :=
  match xs with
  | [] => ([], .error (.threw (text "eflr must be non-empty")))
  | d :: xs =>
    match toldSetDescriptor d with
    | .error e => ([], .error e)
    | .ok (role, hasType, hasName) =>
      if xs = [] then
        ([], .error (.threw (text "unexpected end-of-record after SET descriptor")))
      else
        (toldRole role ++ (if hasType then [] else [saysUntyped]),
          match toldNeed (ident xs) with
          | .error e => .error e
          | .ok (type, xs) =>
            match (if hasName then toldNeed (ident xs) else .ok ([], xs)) with
            | .error e => .error e
            | .ok (name, xs) => .ok (role, type, name, xs))

/-- A set that is parsed, the entries of its log, its objects and its template. -/
structure ToldSet where
  told : List LogEntry := []
  objs : List ToldObject := []
  tmpl : List ToldAttr := []
  undefined : Bool := false
deriving DecidableEq

/-- The `catch` of `object_set::parse`, records.cpp:1127-1135. -/
def ToldSet.finish (s : ToldSet) : Except ToldErr Unit → ToldSet
  | .ok () => s
  | .error (.threw what) => { s with told := s.told ++ [saysInterrupted what] }
  | .error .outOfBounds => { s with undefined := true }

/-- `object_set::parse`, records.cpp:1114-1143, of a set that was just made. -/
def toldParse (data : Bytes) : ToldSet :=
  match toldSetComponent data with
  | (told, .error e) => { told := told : ToldSet }.finish (.error e)
  | (told, .ok (_, type, _, xs)) =>
    let t := toldTemplateLoop (xs.length + 1) xs [] told
    match t.res with
    | .error e => { told := t.told, tmpl := t.tmpl : ToldSet }.finish (.error e)
    | .ok xs =>
      let (objs, res) := toldObjectsLoop type t.tmpl xs.length xs
      { told := t.told, tmpl := t.tmpl, objs := objs : ToldSet }.finish res

/-! ### The same parser -/

/-- Without the texts. -/
def plainRes {α β : Type} (g : α → β) : Except ToldErr α → Except ParseErr β
  | .error e => .error e.plain
  | .ok a => .ok (g a)

/-- Without the texts. -/
abbrev plainAttr (r : Except ToldErr (ToldAttr × Bytes)) : Except ParseErr (ObjAttr × Bytes) :=
  plainRes (fun p => (p.1.attr, p.2)) r

theorem plain_need {α : Type} (x : Option α) : plainRes id (toldNeed x) = need x := by
  cases x <;> rfl

theorem plain_setDescriptor (d : Byte) : plainRes id (toldSetDescriptor d) = parseSetDescriptor d := by
  unfold toldSetDescriptor parseSetDescriptor
  cases componentSet d (component d) <;> rfl

theorem plain_attributeDescriptor (d : Byte) :
    plainRes id (toldAttributeDescriptor d) = parseAttributeDescriptor d := by
  unfold toldAttributeDescriptor parseAttributeDescriptor
  dsimp only
  split
  · rfl
  · split
    · rfl
    · cases componentAttrib d (component d) <;> rfl

theorem plain_objectDescriptor (d : Byte) :
    plainRes id (toldObjectDescriptor d) = parseObjectDescriptor d := by
  unfold toldObjectDescriptor parseObjectDescriptor
  cases componentObject d (component d) <;> rfl

theorem plain_repcode (xs : Bytes) (a : ToldAttr) :
    plainAttr (toldRepcode xs a) = repcode xs a.attr := by
  unfold toldRepcode repcode
  cases ushort xs with
  | none => rfl
  | some p =>
    obtain ⟨x, xs⟩ := p
    simp only [toldNeed, need]
    cases reprcOfByte x <;> rfl

theorem plain_elements (xs : Bytes) (a : ToldAttr) :
    plainAttr (toldElements xs a) = elements xs a.attr := by
  obtain ⟨⟨l, n, c, u, v, i, g⟩, told⟩ := a
  unfold toldElements elements
  dsimp only
  split
  · rfl
  · cases c with
    | none => rfl
    | some c =>
      dsimp only
      cases extractVals c n xs <;> rfl

theorem plain_characteristics (f : AttribFlags) (a : ToldAttr) (xs : Bytes) :
    plainAttr (toldCharacteristics f a xs) = characteristics f a.attr xs := by
  have h1 : ∀ b a xs, plainAttr (toldCount b a xs) = readCount b a.attr xs := by
    intro b a xs
    unfold toldCount readCount
    cases b
    · rfl
    · cases uvari xs <;> rfl
  have h2 : ∀ b a xs, plainAttr (toldReprc b a xs) = readReprc b a.attr xs := by
    intro b a xs
    unfold toldReprc readReprc
    cases b
    · rfl
    · exact plain_repcode _ _
  have h3 : ∀ b a xs, plainAttr (toldUnits b a xs) = readUnits b a.attr xs := by
    intro b a xs
    unfold toldUnits readUnits
    cases b
    · rfl
    · cases units xs <;> rfl
  have h4 : ∀ b a xs, plainAttr (toldValue b a xs) = readValue b a.attr xs := by
    intro b a xs
    unfold toldValue readValue
    cases b
    · rfl
    · exact plain_elements _ _
  unfold toldCharacteristics characteristics
  rw [← h1]
  cases toldCount f.count a xs with
  | error e => rfl
  | ok p =>
    obtain ⟨a, xs⟩ := p
    show plainAttr (toldReprc f.reprc a xs >>= _) = (readReprc f.reprc a.attr xs >>= _)
    rw [← h2]
    cases toldReprc f.reprc a xs with
    | error e => rfl
    | ok p =>
      obtain ⟨a, xs⟩ := p
      show plainAttr (toldUnits f.units a xs >>= _) = (readUnits f.units a.attr xs >>= _)
      rw [← h3]
      cases toldUnits f.units a xs with
      | error e => rfl
      | ok p =>
        obtain ⟨a, xs⟩ := p
        exact h4 _ _ _

theorem plain_setTold (a : ToldAttr) : ∀ xs : List ToldAttr,
    (setTold a xs).map (·.attr) = setAttr a.attr (xs.map (·.attr))
  | [] => rfl
  | x :: xs => by
    unfold setTold
    simp only [List.map_cons, setAttr]
    split
    · rfl
    · rw [List.map_cons, plain_setTold a xs]

theorem plain_removeTold (a : ToldAttr) (xs : List ToldAttr) :
    (removeTold a xs).map (·.attr) = removeAttr a.attr (xs.map (·.attr)) := by
  unfold removeTold removeAttr
  rw [List.filter_map]
  rfl

theorem plain_templateAttr (inv : Bool) (f : AttribFlags) (xs : Bytes) :
    plainAttr (toldTemplateAttr inv f xs) = templateAttr inv f xs := by
  unfold toldTemplateAttr templateAttr
  cases ident xs with
  | none => rfl
  | some p =>
    obtain ⟨l, xs⟩ := p
    simp only [toldNeed, need]
    have := plain_characteristics f { attr := { label := l }, told := [] } xs
    rw [← this]
    cases toldCharacteristics f { attr := { label := l }, told := [] } xs <;> rfl

/-- Without the texts. -/
def ToldTemplate.plain (t : ToldTemplate) : TemplateResult :=
  ⟨t.tmpl.map (·.attr), t.told.map (·.severity), plainRes id t.res⟩

theorem plain_templateLoop : ∀ (n : Nat) (xs : Bytes) (tmpl : List ToldAttr) (told : List LogEntry),
    (toldTemplateLoop n xs tmpl told).plain =
      templateLoop n xs (tmpl.map (·.attr)) (told.map (·.severity))
  | 0, _, _, _ => rfl
  | _ + 1, [], _, _ => rfl
  | n + 1, d :: xs, tmpl, told => by
    unfold toldTemplateLoop templateLoop
    rw [← plain_attributeDescriptor]
    cases toldAttributeDescriptor d with
    | error e => rfl
    | ok x =>
      cases x with
      | object => rfl
      | absent =>
        simp only [plainRes, id]
        rw [plain_templateLoop n, List.map_append]
        rfl
      | attr inv f =>
        simp only [plainRes, id]
        have hl : (if f.label = true then told.map (·.severity) else told.map (·.severity) ++ [Severity.major]) =
            (if f.label = true then told else told ++ [saysUnlabelled]).map (·.severity) := by
          split <;> simp [saysUnlabelled]
        rw [hl, ← plain_templateAttr]
        cases toldTemplateAttr inv f xs with
        | error e => rfl
        | ok p =>
          obtain ⟨a, xs⟩ := p
          simp only [plainAttr, plainRes]
          split
          · simp [ToldTemplate.plain, plainRes, saysEmpty]
          · rw [plain_templateLoop n, List.map_append]
            rfl

theorem plain_reset (a : ToldAttr) : (toldReset a).attr = resetValue a.attr := by
  obtain ⟨⟨l, n, c, u, v, i, g⟩, told⟩ := a
  cases c <;> rfl

theorem plain_patch (a : ToldAttr) : (toldPatch a).attr = patchMissingValue a.attr := by
  obtain ⟨⟨l, n, c, u, v, i, g⟩, told⟩ := a
  cases v with
  | none => exact plain_reset _
  | some p =>
    obtain ⟨c, vs⟩ := p
    unfold toldPatch patchMissingValue
    dsimp only
    split
    · rfl
    · split
      · rfl
      · rw [plain_reset]; rfl

theorem plain_objectAttr (t : ToldAttr) (inv : Bool) (f : AttribFlags) (xs : Bytes) :
    plainAttr (toldObjectAttr t inv f xs) = objectAttr t.attr inv f xs := by
  unfold toldObjectAttr objectAttr
  have h1 : (if inv = true then { t.attr with log := t.attr.log ++ [Severity.major] } else t.attr) =
      (if inv = true then t.say saysInvariant else t).attr := by split <;> rfl
  dsimp only
  rw [h1]
  generalize (if inv = true then t.say saysInvariant else t) = a
  have h2 : (if f.label = true then { a.attr with log := a.attr.log ++ [Severity.major] } else a.attr) =
      (if f.label = true then a.say saysLabelled else a).attr := by split <;> rfl
  rw [h2]
  generalize (if f.label = true then a.say saysLabelled else a) = a
  rw [← plain_characteristics]
  cases toldCharacteristics f a xs with
  | error e => rfl
  | ok p =>
    obtain ⟨a, xs⟩ := p
    simp only [plainAttr, plainRes]
    by_cases h0 : a.attr.count = 0
    · rw [if_pos h0, if_pos h0]
    · rw [if_neg h0, if_neg h0]
      cases f.value
      · simp only [Bool.false_eq_true, if_false]
        split
        · rw [plain_patch]; rfl
        · rw [plain_patch]
      · rfl

theorem plain_attrLoop : ∀ (ts : List ToldAttr) (xs : Bytes) (cur : List ToldAttr) (clear : Bool),
    plainRes (fun p => (p.1.map (·.attr), p.2)) (toldAttrLoop ts xs cur clear) =
      attrLoop (ts.map (·.attr)) xs (cur.map (·.attr)) clear
  | [], _, _, _ => rfl
  | t :: ts, xs, cur, clear => by
    unfold toldAttrLoop
    simp only [List.map_cons]
    unfold attrLoop
    split
    · exact plain_attrLoop ts xs cur clear
    · cases xs with
      | nil => rfl
      | cons d rest =>
        dsimp only
        rw [← plain_attributeDescriptor]
        cases toldAttributeDescriptor d with
        | error e => rfl
        | ok x =>
          cases x with
          | object => rfl
          | absent =>
            simp only [plainRes, id]
            rw [← plain_removeTold]
            exact plain_attrLoop ts rest _ clear
          | attr inv f =>
            simp only [plainRes, id]
            rw [← plain_objectAttr]
            cases toldObjectAttr t inv f rest with
            | error e => rfl
            | ok p =>
              obtain ⟨a, rest⟩ := p
              simp only [plainAttr, plainRes]
              rw [← plain_setTold]
              exact plain_attrLoop ts rest _ _

theorem plain_defaults (tmpl : List ToldAttr) :
    (toldDefaults tmpl).map (·.attr) = defaultedObject (tmpl.map (·.attr)) := by
  unfold toldDefaults defaultedObject
  have : ∀ (tmpl o : List ToldAttr), (tmpl.foldl (fun o a => setTold a o) o).map (·.attr) =
      (tmpl.map (·.attr)).foldl (fun o a => setAttr a o) (o.map (·.attr)) := by
    intro tmpl
    induction tmpl with
    | nil => intro o; rfl
    | cons a tmpl ih =>
      intro o
      simp only [List.foldl_cons, List.map_cons]
      rw [ih, plain_setTold]
  exact this tmpl []

theorem plain_object (type : Bytes) (tmpl : List ToldAttr) (d : Byte) (xs : Bytes) :
    plainRes (fun p => (p.1.obj, p.2)) (toldObject type tmpl d xs) =
      parseObject type (tmpl.map (·.attr)) d xs := by
  unfold toldObject parseObject
  rw [← plain_objectDescriptor]
  cases toldObjectDescriptor d with
  | error e => rfl
  | ok hasName =>
    simp only [plainRes, id]
    cases obname xs with
    | none => rfl
    | some p =>
      obtain ⟨name, xs⟩ := p
      simp only [toldNeed, need]
      rw [← plain_defaults, ← plain_attrLoop]
      cases toldAttrLoop tmpl xs (toldDefaults tmpl) true with
      | error e => rfl
      | ok p =>
        obtain ⟨attrs, clear, xs⟩ := p
        simp only [plainRes]
        congr 2
        cases hasName <;> cases clear <;> rfl

theorem plain_objectsLoop (type : Bytes) (tmpl : List ToldAttr) : ∀ (n : Nat) (xs : Bytes),
    ((toldObjectsLoop type tmpl n xs).1.map (·.obj),
      plainRes id (toldObjectsLoop type tmpl n xs).2) =
      objectsLoop type (tmpl.map (·.attr)) n xs
  | 0, [] => rfl
  | _ + 1, [] => rfl
  | 0, _ :: _ => rfl
  | n + 1, d :: xs => by
    unfold toldObjectsLoop objectsLoop
    rw [← plain_object]
    cases toldObject type tmpl d xs with
    | error e => rfl
    | ok p =>
      obtain ⟨o, xs⟩ := p
      simp only [plainRes]
      rw [← plain_objectsLoop type tmpl n xs]
      rfl

theorem plain_setComponent (xs : Bytes) :
    ((toldSetComponent xs).1.map (·.severity), plainRes id (toldSetComponent xs).2) =
      parseSetComponent xs := by
  unfold toldSetComponent parseSetComponent
  cases xs with
  | nil => rfl
  | cons d xs =>
    dsimp only
    rw [← plain_setDescriptor]
    cases toldSetDescriptor d with
    | error e => rfl
    | ok p =>
      obtain ⟨role, hasType, hasName⟩ := p
      simp only [plainRes, id]
      split
      · rfl
      · congr 1
        · cases role <;> cases hasType <;> rfl
        · cases ident xs with
          | none => rfl
          | some p =>
            obtain ⟨type, xs⟩ := p
            simp only [toldNeed, need]
            cases hasName
            · rfl
            · simp only [if_true]
              cases ident xs <;> rfl

/-- C88.  Parsing with texts is parsing: the severities of the entries are the log of the set, and
template and objects are those of the set. -/
theorem c88_same {data : Bytes} {s : ObjectSet} (h : ObjectSet.new data = .ok s) :
    (toldParse data).told.map (·.severity) = s.parse.log ∧
    (toldParse data).objs.map (·.obj) = s.parse.objs ∧
    (toldParse data).tmpl.map (·.attr) = s.parse.tmpl ∧
    (toldParse data).undefined = s.parse.undefined := by
  have hc := plain_setComponent data
  unfold ObjectSet.new at h
  rw [← hc] at h
  unfold ObjectSet.parse toldParse
  rcases hr : toldSetComponent data with ⟨told, res⟩
  rw [hr] at h hc
  cases res with
  | error e => simp [plainRes] at h
  | ok p =>
    obtain ⟨role, type, name, xs⟩ := p
    simp only [plainRes, id, Except.ok.injEq] at h
    subst h
    simp only [Bool.false_eq_true, if_false]
    rw [← hc]
    simp only [plainRes, id]
    have ht := plain_templateLoop (xs.length + 1) xs [] told
    unfold parseTemplate
    simp only [List.map_nil] at ht
    rw [← ht]
    rcases htl : toldTemplateLoop (xs.length + 1) xs [] told with ⟨tmpl, told', res⟩
    simp only [ToldTemplate.plain]
    cases res with
    | error e => cases e <;> simp [plainRes, ToldErr.plain, ToldSet.finish, ObjectSet.finish, saysInterrupted]
    | ok xs =>
      simp only [plainRes, id, List.nil_append]
      unfold parseObjects
      rw [← plain_objectsLoop]
      rcases toldObjectsLoop type tmpl xs.length xs with ⟨objs, res⟩
      cases res with
      | ok u => simp [plainRes, ToldSet.finish, ObjectSet.finish]
      | error e => cases e <;> simp [plainRes, ToldErr.plain, ToldSet.finish, ObjectSet.finish, saysInterrupted]

/-! ### The logs of attributes -/

/-- The entries are those of the log. -/
def ToldAttr.Faithful (a : ToldAttr) : Prop := a.told.map (·.severity) = a.attr.log

/-- What the reads of the characteristics do: entries are added only for a representation code that
is none, and what is not read is kept. -/
structure Reads (f : AttribFlags) (a b : ToldAttr) (new : List LogEntry) : Prop where
  told : b.told = a.told ++ new
  log : b.attr.log = a.attr.log ++ new.map (·.severity)
  label : b.attr.label = a.attr.label
  invariant : b.attr.invariant = a.attr.invariant
  count : f.count = false → b.attr.count = a.attr.count
  code : f.reprc = false → b.attr.reprc = a.attr.reprc
  value : f.value = false → b.attr.value = a.attr.value
  valued : f.value = true → b.attr.count ≠ 0 → ∃ c vs, b.attr.reprc = some c ∧
    b.attr.value = some (c, vs) ∧ vs.length = b.attr.count
  new : (new = [] ∧ (f.reprc = true → b.attr.reprc ≠ none)) ∨
    ∃ x, new = [saysBadCode x] ∧ f.reprc = true ∧ b.attr.reprc = none ∧ reprcOfByte x = none

theorem extractVals_count (c : Reprc) : ∀ (n : Nat) (xs : Bytes) (vs : List Val) (r : Bytes),
    extractVals c n xs = some (vs, r) → vs.length = n
  | 0, xs, vs, r, h => by simp only [extractVals, Option.some.injEq, Prod.mk.injEq] at h; rw [← h.1]; rfl
  | n + 1, xs, vs, r, h => by
    unfold extractVals at h
    split at h
    · cases h
    · rename_i v xs' _
      split at h
      · cases h
      · rename_i vs' xs'' h2
        simp only [Option.some.injEq, Prod.mk.injEq] at h
        rw [← h.1, List.length_cons, extractVals_count c n _ _ _ h2]

theorem characteristics_reads {f : AttribFlags} {a b : ToldAttr} {xs r : Bytes}
    (h : toldCharacteristics f a xs = .ok (b, r)) : ∃ new, Reads f a b new := by
  unfold toldCharacteristics at h
  cases h1 : toldCount f.count a xs with
  | error e => rw [h1] at h; cases h
  | ok p =>
    obtain ⟨a1, xs1⟩ := p
    rw [h1] at h
    change (toldReprc f.reprc a1 xs1 >>= _) = _ at h
    cases h2 : toldReprc f.reprc a1 xs1 with
    | error e => rw [h2] at h; cases h
    | ok p =>
      obtain ⟨a2, xs2⟩ := p
      rw [h2] at h
      change (toldUnits f.units a2 xs2 >>= _) = _ at h
      cases h3 : toldUnits f.units a2 xs2 with
      | error e => rw [h3] at h; cases h
      | ok p =>
        obtain ⟨a3, xs3⟩ := p
        rw [h3] at h
        change toldValue f.value a3 xs3 = _ at h
        have e1 : (∃ n, a1 = { a with attr := { a.attr with count := n } }) ∧
            (f.count = false → a1 = a) := by
          unfold toldCount at h1
          cases hf : f.count with
          | false =>
            rw [hf] at h1
            simp only [Bool.false_eq_true, if_false, Except.ok.injEq, Prod.mk.injEq] at h1
            exact ⟨⟨_, h1.1.symm⟩, fun _ => h1.1.symm⟩
          | true =>
            rw [hf] at h1
            simp only [if_true] at h1
            cases hu : uvari xs with
            | none => rw [hu] at h1; cases h1
            | some q =>
              rw [hu] at h1
              simp only [toldNeed, Except.ok.injEq, Prod.mk.injEq] at h1
              exact ⟨⟨_, h1.1.symm⟩, by simp⟩
        have e2 : (f.reprc = false ∧ a2 = a1) ∨
            (f.reprc = true ∧ ∃ c, a2 = { a1 with attr := { a1.attr with reprc := some c } }) ∨
            (f.reprc = true ∧ ∃ x, reprcOfByte x = none ∧
              a2 = { a1 with attr := { a1.attr with reprc := none } }.say (saysBadCode x)) := by
          unfold toldReprc toldRepcode at h2
          cases hf : f.reprc with
          | false =>
            rw [hf] at h2
            simp only [Bool.false_eq_true, if_false, Except.ok.injEq, Prod.mk.injEq] at h2
            exact Or.inl ⟨rfl, h2.1.symm⟩
          | true =>
            rw [hf] at h2
            simp only [if_true] at h2
            cases hu : ushort xs1 with
            | none => rw [hu] at h2; cases h2
            | some q =>
              obtain ⟨x, q⟩ := q
              rw [hu] at h2
              simp only [toldNeed] at h2
              cases hc : reprcOfByte x with
              | none =>
                rw [hc] at h2
                simp only [Except.ok.injEq, Prod.mk.injEq] at h2
                exact Or.inr (Or.inr ⟨rfl, x, hc, h2.1.symm⟩)
              | some c =>
                rw [hc] at h2
                simp only [Except.ok.injEq, Prod.mk.injEq] at h2
                exact Or.inr (Or.inl ⟨rfl, c, h2.1.symm⟩)
        have e3 : ∃ u, a3 = { a2 with attr := { a2.attr with units := u } } := by
          unfold toldUnits at h3
          cases hf : f.units with
          | false =>
            rw [hf] at h3
            simp only [Bool.false_eq_true, if_false, Except.ok.injEq, Prod.mk.injEq] at h3
            exact ⟨_, h3.1.symm⟩
          | true =>
            rw [hf] at h3
            simp only [if_true] at h3
            cases hu : units xs2 with
            | none => rw [hu] at h3; cases h3
            | some q =>
              rw [hu] at h3
              simp only [toldNeed, Except.ok.injEq, Prod.mk.injEq] at h3
              exact ⟨_, h3.1.symm⟩
        have e4 : (∃ v, b = { a3 with attr := { a3.attr with value := v } }) ∧
            (f.value = false → b = a3) ∧
            (f.value = true → a3.attr.count ≠ 0 → ∃ c vs, a3.attr.reprc = some c ∧
              b = { a3 with attr := { a3.attr with value := some (c, vs) } } ∧
              vs.length = a3.attr.count) := by
          unfold toldValue toldElements at h
          cases hf : f.value with
          | false =>
            rw [hf] at h
            simp only [Bool.false_eq_true, if_false, Except.ok.injEq, Prod.mk.injEq] at h
            exact ⟨⟨_, h.1.symm⟩, fun _ => h.1.symm, by simp⟩
          | true =>
            rw [hf] at h
            simp only [if_true] at h
            split at h
            · rename_i h0
              simp only [Except.ok.injEq, Prod.mk.injEq] at h
              exact ⟨⟨_, h.1.symm⟩, by simp, fun _ hn => absurd h0 hn⟩
            · cases hc : a3.attr.reprc with
              | none => rw [hc] at h; cases h
              | some c =>
                rw [hc] at h
                dsimp only at h
                cases hu : extractVals c a3.attr.count xs3 with
                | none => rw [hu] at h; cases h
                | some q =>
                  obtain ⟨vs, q⟩ := q
                  rw [hu] at h
                  simp only [toldNeed, Except.ok.injEq, Prod.mk.injEq] at h
                  have hb : b = { a3 with attr := { a3.attr with value := some (c, vs) } } := by
                    rw [← h.1]; simp only [hc]
                  exact ⟨⟨_, hb⟩, by simp, fun _ _ => ⟨c, vs, rfl, hb, extractVals_count _ _ _ _ _ hu⟩⟩
        clear h h1 h2 h3
        obtain ⟨u, rfl⟩ := e3
        obtain ⟨⟨v, rfl⟩, e5, e6⟩ := e4
        obtain ⟨⟨n, rfl⟩, e7⟩ := e1
        have e7 : f.count = false → n = a.attr.count := fun h => by
          have := congrArg (fun z => z.attr.count) (e7 h); exact this
        have e5 : f.value = false → v = a2.attr.value := fun h => by
          have := congrArg (fun z => z.attr.value) (e5 h); exact this
        have e6' : f.value = true → a2.attr.count ≠ 0 → ∃ c vs, a2.attr.reprc = some c ∧
            v = some (c, vs) ∧ vs.length = a2.attr.count := by
          intro h h0
          obtain ⟨c, vs, h1, h2, h3⟩ := e6 h h0
          exact ⟨c, vs, h1, congrArg (fun z => z.attr.value) h2, h3⟩
        clear e6
        rcases e2 with ⟨h0, rfl⟩ | ⟨h0, c, rfl⟩ | ⟨h0, x, hx, rfl⟩
        · exact ⟨[], by simp, by simp, rfl, rfl, e7, fun _ => rfl, e5, e6', Or.inl ⟨rfl, by simp [h0]⟩⟩
        · exact ⟨[], by simp, by simp, rfl, rfl, e7, by simp [h0], e5, e6', Or.inl ⟨rfl, by simp⟩⟩
        · exact ⟨[saysBadCode x], by simp [ToldAttr.say], by simp [ToldAttr.say], rfl, rfl, e7, by simp [h0],
            e5, e6', Or.inr ⟨x, rfl, h0, rfl, hx⟩⟩

namespace Spec

/-- What the action says is what was done with the attribute: `t` is the attribute of the template,
`a` the one of the object. -/
structure ActionTrue (t a : ObjAttr) (x : LogEntry) : Prop where
  postponed : x.action = text "Continue. Postpone dealing with this until later" → a.reprc = none
  noInvariant : x.action = text "ignored invariant bit, assumed that attribute followed" →
    a.invariant = t.invariant
  noLabel : x.action = text "ignored label bit, assumed that label never followed" → a.label = t.label
  shrank : x.action = text "shrank template value to new attribute count" →
    ∃ c vs, t.value = some (c, vs) ∧ a.count < vs.length ∧ a.value = some (c, vs.take a.count)
  defaulted : x.action = text "value defaulted based on representation code from attribute" →
    ∃ c, a.reprc = some c ∧ a.value = some (c, List.replicate a.count (zero c))
  left : x.action = text "value is left as in template" → a.value = t.value
  leftDefault : x.action = text "attribute value is left as template default. Continue" →
    a.value = t.value

/-- What the problem says is the case: the bits of the descriptor (`inv` and `f`), and the counts
and codes. -/
inductive ProblemTrue (t : ObjAttr) (inv : Bool) (f : AttribFlags) (a : ObjAttr) : LogEntry → Prop
  | invariant {x} : x.problem = text "Invariant attribute in object attributes" →
      x.severity = .major → inv = true → ProblemTrue t inv f a x
  | label {x} : x.problem = text "Label bit set in object attribute" →
      x.severity = .major → f.label = true → ProblemTrue t inv f a x
  | code {x} (n : Nat) : x.problem = text "Invalid representation code " ++ Text.ofNat n →
      x.severity = .minor → f.reprc = true → (∀ c, Reprc.code c ≠ n) → ProblemTrue t inv f a x
  | fewer {x} (c : Reprc) (vs : List Val) : x.problem =
        text "template value is not overridden by object attribute, but count is. count (" ++
        Text.ofNat a.count ++ text ") < template count (" ++ Text.ofNat vs.length ++ text ")" →
      x.severity = .major → f.value = false → t.value = some (c, vs) → a.count < vs.length →
      ProblemTrue t inv f a x
  | more {x} (c : Reprc) (vs : List Val) : x.problem =
        text "template value is not overridden by object attribute, but count is. count (" ++
        Text.ofNat a.count ++ text ") > template count (" ++ Text.ofNat vs.length ++ text ")" →
      x.severity = .critical → f.value = false → t.value = some (c, vs) → vs.length < a.count →
      ProblemTrue t inv f a x
  | changed {x} (n : Nat) : x.problem = text "count (" ++ Text.ofNat a.count ++
        text ") isn't 0 and representation code (" ++ Text.ofNat n ++
        text ") changed, but value is not explicitly set" →
      x.severity = .major → f.value = false → f.reprc = true → a.reprc ≠ t.reprc →
      (∀ c, a.reprc = some c → n = c.code) → ProblemTrue t inv f a x
  | none {x} (n : Nat) : x.problem = text "invalid representation code " ++ Text.ofNat n →
      x.severity = .critical → f.value = false → a.reprc = none → ProblemTrue t inv f a x

end Spec

theorem reprcOfByte_none {x : Nat} (h : reprcOfByte x = none) (c : Reprc) : c.code ≠ x := by
  intro hc
  subst hc
  revert h
  cases c <;> decide

theorem action_invariant {t a : ObjAttr} (h : a.invariant = t.invariant) :
    Spec.ActionTrue t a saysInvariant where
  postponed := fun h => absurd h (by decide +kernel)
  noInvariant := fun _ => h
  noLabel := fun h => absurd h (by decide +kernel)
  shrank := fun h => absurd h (by decide +kernel)
  defaulted := fun h => absurd h (by decide +kernel)
  left := fun h => absurd h (by decide +kernel)
  leftDefault := fun h => absurd h (by decide +kernel)

theorem action_label {t a : ObjAttr} (h : a.label = t.label) : Spec.ActionTrue t a saysLabelled where
  postponed := fun h => absurd h (by decide +kernel)
  noInvariant := fun h => absurd h (by decide +kernel)
  noLabel := fun _ => h
  shrank := fun h => absurd h (by decide +kernel)
  defaulted := fun h => absurd h (by decide +kernel)
  left := fun h => absurd h (by decide +kernel)
  leftDefault := fun h => absurd h (by decide +kernel)

theorem action_code {t a : ObjAttr} (h : a.reprc = none) (n : Nat) :
    Spec.ActionTrue t a (saysBadCode n) where
  postponed := fun _ => h
  noInvariant := fun h => absurd h (by dsimp only [saysBadCode]; decide +kernel)
  noLabel := fun h => absurd h (by dsimp only [saysBadCode]; decide +kernel)
  shrank := fun h => absurd h (by dsimp only [saysBadCode]; decide +kernel)
  defaulted := fun h => absurd h (by dsimp only [saysBadCode]; decide +kernel)
  left := fun h => absurd h (by dsimp only [saysBadCode]; decide +kernel)
  leftDefault := fun h => absurd h (by dsimp only [saysBadCode]; decide +kernel)

theorem action_shrank {t a : ObjAttr} (h : ∃ c vs, t.value = some (c, vs) ∧ a.count < vs.length ∧
    a.value = some (c, vs.take a.count)) (n m : Nat) : Spec.ActionTrue t a (saysShrank n m) where
  postponed := fun h => absurd h (by dsimp only [saysShrank]; decide +kernel)
  noInvariant := fun h => absurd h (by dsimp only [saysShrank]; decide +kernel)
  noLabel := fun h => absurd h (by dsimp only [saysShrank]; decide +kernel)
  shrank := fun _ => h
  defaulted := fun h => absurd h (by dsimp only [saysShrank]; decide +kernel)
  left := fun h => absurd h (by dsimp only [saysShrank]; decide +kernel)
  leftDefault := fun h => absurd h (by dsimp only [saysShrank]; decide +kernel)

theorem action_recoded {t a : ObjAttr} (h : ∃ c, a.reprc = some c ∧
    a.value = some (c, List.replicate a.count (Spec.zero c))) (n : Nat) (c : Option Reprc) :
    Spec.ActionTrue t a (saysRecoded n c) where
  postponed := fun h => absurd h (by dsimp only [saysRecoded]; decide +kernel)
  noInvariant := fun h => absurd h (by dsimp only [saysRecoded]; decide +kernel)
  noLabel := fun h => absurd h (by dsimp only [saysRecoded]; decide +kernel)
  shrank := fun h => absurd h (by dsimp only [saysRecoded]; decide +kernel)
  defaulted := fun _ => h
  left := fun h => absurd h (by dsimp only [saysRecoded]; decide +kernel)
  leftDefault := fun h => absurd h (by dsimp only [saysRecoded]; decide +kernel)

theorem action_noDefault {t a : ObjAttr} (h : a.value = t.value) (c : Option Reprc) :
    Spec.ActionTrue t a (saysNoDefault c) where
  postponed := fun h => absurd h (by dsimp only [saysNoDefault]; decide +kernel)
  noInvariant := fun h => absurd h (by dsimp only [saysNoDefault]; decide +kernel)
  noLabel := fun h => absurd h (by dsimp only [saysNoDefault]; decide +kernel)
  shrank := fun h => absurd h (by dsimp only [saysNoDefault]; decide +kernel)
  defaulted := fun h => absurd h (by dsimp only [saysNoDefault]; decide +kernel)
  left := fun h => absurd h (by dsimp only [saysNoDefault]; decide +kernel)
  leftDefault := fun _ => h

theorem action_grown {t a : ObjAttr} (h : a.value = t.value) (n m : Nat) :
    Spec.ActionTrue t a (saysGrown n m) where
  postponed := fun h => absurd h (by dsimp only [saysGrown]; decide +kernel)
  noInvariant := fun h => absurd h (by dsimp only [saysGrown]; decide +kernel)
  noLabel := fun h => absurd h (by dsimp only [saysGrown]; decide +kernel)
  shrank := fun h => absurd h (by dsimp only [saysGrown]; decide +kernel)
  defaulted := fun h => absurd h (by dsimp only [saysGrown]; decide +kernel)
  left := fun _ => h
  leftDefault := fun h => absurd h (by dsimp only [saysGrown]; decide +kernel)

/-- What `patch_missing_value` does and says. -/
theorem patch_says (a : ToldAttr) : ∃ new, (toldPatch a).told = a.told ++ new ∧
    (toldPatch a).attr.log = a.attr.log ++ new.map (·.severity) ∧
    (toldPatch a).attr.label = a.attr.label ∧ (toldPatch a).attr.invariant = a.attr.invariant ∧
    (toldPatch a).attr.count = a.attr.count ∧ (toldPatch a).attr.reprc = a.attr.reprc ∧
    ((new = [] ∧ (a.attr.value = none → ∃ c, a.attr.reprc = some c ∧
        (toldPatch a).attr.value = some (c, List.replicate a.attr.count (Spec.zero c)))) ∨
      (new = [saysNoDefault none] ∧ a.attr.reprc = none ∧ a.attr.value = none ∧
        (toldPatch a).attr.value = none) ∨
      (∃ c vs, a.attr.value = some (c, vs) ∧ a.attr.count < vs.length ∧
        new = [saysShrank a.attr.count vs.length] ∧
        (toldPatch a).attr.value = some (c, vs.take a.attr.count)) ∨
      (∃ c vs, a.attr.value = some (c, vs) ∧ vs.length < a.attr.count ∧
        ((new = [saysGrown a.attr.count vs.length] ∧ ∃ d, a.attr.reprc = some d ∧
            (toldPatch a).attr.value = some (d, List.replicate a.attr.count (Spec.zero d))) ∨
          (new = [saysGrown a.attr.count vs.length, saysNoDefault none] ∧ a.attr.reprc = none ∧
            (toldPatch a).attr.value = a.attr.value)))) := by
  obtain ⟨⟨l, n, c, u, v, i, g⟩, told⟩ := a
  cases v with
  | none =>
    cases c with
    | none =>
      exact ⟨[saysNoDefault none], rfl, rfl, rfl, rfl, rfl, rfl, Or.inr (Or.inl ⟨rfl, rfl, rfl, rfl⟩)⟩
    | some c =>
      refine ⟨[], ?_, ?_, rfl, rfl, rfl, rfl, Or.inl ⟨rfl, fun _ => ⟨c, rfl, ?_⟩⟩⟩
      · simp [toldPatch, toldReset]
      · simp [toldPatch, toldReset]
      · rw [← defaultVal_zero]; rfl
  | some p =>
    obtain ⟨e, vs⟩ := p
    unfold toldPatch
    dsimp only
    by_cases h1 : vs.length = n
    · rw [if_pos h1]
      exact ⟨[], by simp, by simp, rfl, rfl, rfl, rfl, Or.inl ⟨rfl, by simp⟩⟩
    · rw [if_neg h1]
      by_cases h2 : vs.length > n
      · rw [if_pos h2]
        exact ⟨_, rfl, rfl, rfl, rfl, rfl, rfl, Or.inr (Or.inr (Or.inl ⟨e, vs, rfl, h2, rfl, rfl⟩))⟩
      · rw [if_neg h2]
        cases c with
        | none =>
          refine ⟨[saysGrown n vs.length, saysNoDefault none], ?_, ?_, rfl, rfl, rfl, rfl,
            Or.inr (Or.inr (Or.inr ⟨e, vs, rfl, by show vs.length < n; omega, Or.inr ⟨rfl, rfl, rfl⟩⟩))⟩
          · simp [toldReset, ToldAttr.say]
          · simp [toldReset, ToldAttr.say, saysGrown, saysNoDefault]
        | some c =>
          refine ⟨[saysGrown n vs.length], ?_, ?_, rfl, rfl, rfl, rfl,
            Or.inr (Or.inr (Or.inr ⟨e, vs, rfl, by show vs.length < n; omega,
              Or.inl ⟨rfl, c, rfl, ?_⟩⟩))⟩
          · simp [toldReset, ToldAttr.say]
          · simp [toldReset, ToldAttr.say]
          · rw [← defaultVal_zero]; rfl

/-- C88.  The entries that an attribute of an object gets beside those of the template.  What they
say is wrong is wrong.  What they say was done was done, but for two cases: a count larger than that
of the template, where the value is not left but replaced, and a representation code that is none in
place of one, where there is neither a default nor the value of the template. -/
theorem c88_attribute_partial {t a : ToldAttr} {inv : Bool} {f : AttribFlags} {xs r : Bytes}
    (h : toldObjectAttr t inv f xs = .ok (a, r)) :
    ∃ new, a.told = t.told ++ new ∧ a.attr.log = t.attr.log ++ new.map (·.severity) ∧
      ∀ x ∈ new, Spec.ProblemTrue t.attr inv f a.attr x ∧
        (Spec.ActionTrue t.attr a.attr x ∨
          (x.action = text "value is left as in template" ∧
            ∃ c, a.attr.value = some (c, List.replicate a.attr.count (Spec.zero c))) ∨
          (a.attr.reprc = none ∧ t.attr.reprc ≠ none ∧ f.value = false ∧ a.attr.value = none)) := by
  unfold toldObjectAttr at h
  dsimp only at h
  obtain ⟨n0, hn0, a0, ha0, h1, h2, h3, h4⟩ : ∃ n0 : List LogEntry,
      (∀ x ∈ n0, (x = saysInvariant ∧ inv = true) ∨ (x = saysLabelled ∧ f.label = true)) ∧
      ∃ a0, (if f.label = true then (if inv = true then t.say saysInvariant else t).say saysLabelled
          else (if inv = true then t.say saysInvariant else t)) = a0 ∧
        a0.told = t.told ++ n0 ∧ a0.attr.log = t.attr.log ++ n0.map (·.severity) ∧
        a0 = { a0 with attr := { t.attr with log := a0.attr.log } } ∧ True := by
    cases inv <;> cases hf : f.label
    · exact ⟨[], by simp, _, rfl, by simp, by simp, by simp, trivial⟩
    · exact ⟨[saysLabelled], by simp, _, rfl, by simp [ToldAttr.say], by simp [ToldAttr.say],
        by simp [ToldAttr.say], trivial⟩
    · exact ⟨[saysInvariant], by simp, _, rfl, by simp [ToldAttr.say], by simp [ToldAttr.say],
        by simp [ToldAttr.say], trivial⟩
    · exact ⟨[saysInvariant, saysLabelled], by simp, _, rfl, by simp [ToldAttr.say],
        by simp [ToldAttr.say], by simp [ToldAttr.say], trivial⟩
  rw [ha0] at h
  have hattr : a0.attr = { t.attr with log := a0.attr.log } := congrArg ToldAttr.attr h3
  have hlab : a0.attr.label = t.attr.label := by rw [hattr]
  have hinv : a0.attr.invariant = t.attr.invariant := by rw [hattr]
  have hval : a0.attr.value = t.attr.value := by rw [hattr]
  have hcod : a0.attr.reprc = t.attr.reprc := by rw [hattr]
  clear h3 h4 ha0 hattr
  cases hc : toldCharacteristics f a0 xs with
  | error e => rw [hc] at h; cases h
  | ok p =>
    obtain ⟨b, xs'⟩ := p
    rw [hc] at h
    obtain ⟨n1, rd⟩ := characteristics_reads hc
    -- what holds of the entries so far, whatever the value becomes
    have early : ∀ {z : ObjAttr}, z.label = t.attr.label → z.invariant = t.attr.invariant →
        z.reprc = b.attr.reprc → ∀ x ∈ n0 ++ n1,
        Spec.ProblemTrue t.attr inv f z x ∧ Spec.ActionTrue t.attr z x := by
      intro z z1 z2 z3 x hx
      rcases List.mem_append.1 hx with hx | hx
      · rcases hn0 x hx with ⟨rfl, hi⟩ | ⟨rfl, hl⟩
        · exact ⟨.invariant rfl rfl hi, action_invariant z2⟩
        · exact ⟨.label rfl rfl hl, action_label z1⟩
      · rcases rd.new with ⟨h0, -⟩ | ⟨n, h0, hf, hb, hn⟩
        · rw [h0] at hx; cases hx
        · rw [h0, List.mem_singleton] at hx
          subst hx
          exact ⟨.code n rfl rfl hf fun c => reprcOfByte_none hn c, action_code (z3.trans hb) n⟩
    have hl : b.attr.label = t.attr.label := rd.label.trans hlab
    have hi : b.attr.invariant = t.attr.invariant := rd.invariant.trans hinv
    have ht : b.told = t.told ++ (n0 ++ n1) := by rw [rd.told, h1, List.append_assoc]
    have hg : b.attr.log = t.attr.log ++ (n0 ++ n1).map (·.severity) := by
      rw [rd.log, h2, List.map_append, List.append_assoc]
    dsimp only at h
    by_cases h0 : b.attr.count = 0
    · rw [if_pos h0] at h
      simp only [Except.ok.injEq, Prod.mk.injEq] at h
      obtain ⟨rfl, -⟩ := h
      refine ⟨n0 ++ n1, ht, hg, fun x hx => ?_⟩
      have := early (z := { b.attr with value := none }) hl hi rfl x hx
      exact ⟨this.1, Or.inl this.2⟩
    · rw [if_neg h0] at h
      cases hv : f.value with
      | true =>
        rw [hv] at h
        simp only [if_true, Except.ok.injEq, Prod.mk.injEq] at h
        obtain ⟨rfl, -⟩ := h
        exact ⟨n0 ++ n1, ht, hg, fun x hx => ⟨(early hl hi rfl x hx).1, Or.inl (early hl hi rfl x hx).2⟩⟩
      | false =>
        rw [hv] at h
        simp only [Bool.false_eq_true, if_false] at h
        have hbv : b.attr.value = t.attr.value := (rd.value hv).trans hval
        by_cases hr : (f.reprc && decide (b.attr.reprc ≠ t.attr.reprc)) = true
        · rw [if_pos hr] at h
          simp only [Except.ok.injEq, Prod.mk.injEq] at h
          obtain ⟨rfl, -⟩ := h
          rw [Bool.and_eq_true, decide_eq_true_iff] at hr
          obtain ⟨n2, p1, p2, p3, p4, p5, p6, p7⟩ := patch_says
            { (b.say (saysRecoded b.attr.count b.attr.reprc)) with
              attr := { (b.say (saysRecoded b.attr.count b.attr.reprc)).attr with value := none } }
          generalize toldPatch _ = q at p1 p2 p3 p4 p5 p6 p7 ⊢
          simp only [ToldAttr.say] at p1 p2 p3 p4 p5 p6 p7
          have prob : Spec.ProblemTrue t.attr inv f q.attr (saysRecoded b.attr.count b.attr.reprc) := by
            refine .changed (codeNumber b.attr.reprc) (by rw [p5]; rfl) rfl hv hr.1 (by rw [p6]; exact hr.2) ?_
            intro c hc
            rw [p6] at hc
            rw [hc]; rfl
          refine ⟨(n0 ++ n1) ++ ([saysRecoded b.attr.count b.attr.reprc] ++ n2), ?_, ?_, ?_⟩
          · rw [p1, ht]; simp
          · rw [p2, hg]; simp
          · intro x hx
            rcases List.mem_append.1 hx with hx | hx
            · have := early (p3.trans hl) (p4.trans hi) p6 x hx
              exact ⟨this.1, Or.inl this.2⟩
            · rcases p7 with ⟨rfl, p7⟩ | ⟨rfl, e1, -, e2⟩ | ⟨c, vs, e1, -⟩ | ⟨c, vs, e1, -⟩
              · rw [List.append_nil, List.mem_singleton] at hx
                subst hx
                obtain ⟨c, c1, c2⟩ := p7 trivial
                exact ⟨prob, Or.inl (action_recoded ⟨c, p6.trans c1, by rw [p5]; exact c2⟩ _ _)⟩
              · have bad : q.attr.reprc = none ∧ t.attr.reprc ≠ none ∧ false = false ∧ q.attr.value = none :=
                  ⟨p6.trans e1, fun hn => hr.2 (e1.trans hn.symm), rfl, e2⟩
                simp only [List.cons_append, List.nil_append, List.mem_cons, List.not_mem_nil, or_false] at hx
                rcases hx with rfl | rfl
                · exact ⟨prob, Or.inr (Or.inr bad)⟩
                · exact ⟨.none 66 rfl rfl hv (p6.trans e1), Or.inr (Or.inr bad)⟩
              · cases e1
              · cases e1
        · rw [if_neg hr] at h
          simp only [Except.ok.injEq, Prod.mk.injEq] at h
          obtain ⟨rfl, -⟩ := h
          obtain ⟨n2, p1, p2, p3, p4, p5, p6, p7⟩ := patch_says b
          generalize toldPatch _ = q at p1 p2 p3 p4 p5 p6 p7 ⊢
          refine ⟨(n0 ++ n1) ++ n2, ?_, ?_, ?_⟩
          · rw [p1, ht]; simp
          · rw [p2, hg]; simp
          · intro x hx
            rcases List.mem_append.1 hx with hx | hx
            · have := early (p3.trans hl) (p4.trans hi) p6 x hx
              exact ⟨this.1, Or.inl this.2⟩
            · rcases p7 with ⟨rfl, -⟩ | ⟨rfl, e1, e2, e3⟩ | ⟨c, vs, e1, e2, rfl, e3⟩ | ⟨c, vs, e1, e2, e3⟩
              · cases hx
              · rw [List.mem_singleton] at hx
                subst hx
                exact ⟨.none 66 rfl rfl hv (p6.trans e1),
                  Or.inl (action_noDefault (by rw [e3, ← hbv, e2]) _)⟩
              · rw [List.mem_singleton] at hx
                subst hx
                exact ⟨.fewer c vs (by rw [p5]; simp [saysShrank, countProblem, text]) rfl hv
                    (hbv ▸ e1) (by rw [p5]; exact e2),
                  Or.inl (action_shrank ⟨c, vs, hbv ▸ e1, by rw [p5]; exact e2, by rw [p5]; exact e3⟩ _ _)⟩
              · have pm : Spec.ProblemTrue t.attr inv f q.attr (saysGrown b.attr.count vs.length) :=
                  .more c vs (by rw [p5]; simp [saysGrown, countProblem, text]) rfl hv (hbv ▸ e1)
                    (by rw [p5]; exact e2)
                rcases e3 with ⟨rfl, d, d1, d2⟩ | ⟨rfl, d1, d2⟩
                · rw [List.mem_singleton] at hx
                  subst hx
                  exact ⟨pm, Or.inr (Or.inl ⟨rfl, d, by rw [p5]; exact d2⟩)⟩
                · simp only [List.mem_cons, List.not_mem_nil, or_false] at hx
                  rcases hx with rfl | rfl
                  · exact ⟨pm, Or.inl (action_grown (d2.trans hbv) _ _)⟩
                  · exact ⟨.none 66 rfl rfl hv (p6.trans d1), Or.inl (action_noDefault (d2.trans hbv) _)⟩

/-! ### The logs of objects and sets -/

theorem attr_faithful {t a : ToldAttr} {inv : Bool} {f : AttribFlags} {xs r : Bytes}
    (ht : t.Faithful) (h : toldObjectAttr t inv f xs = .ok (a, r)) : a.Faithful := by
  obtain ⟨new, h1, h2, -⟩ := c88_attribute_partial h
  unfold ToldAttr.Faithful at *
  rw [h1, h2, List.map_append, ht]

theorem templateAttr_faithful {inv : Bool} {f : AttribFlags} {xs r : Bytes} {a : ToldAttr}
    (h : toldTemplateAttr inv f xs = .ok (a, r)) : a.Faithful ∧
      (a.told = [] ∨ ∃ n, a.told = [saysBadCode n] ∧ f.reprc = true ∧ a.attr.reprc = none ∧
        ∀ c, Reprc.code c ≠ n) := by
  unfold toldTemplateAttr at h
  split at h
  · cases h
  · split at h
    · cases h
    · rename_i b _ hb
      simp only [Except.ok.injEq, Prod.mk.injEq] at h
      obtain ⟨rfl, -⟩ := h
      obtain ⟨new, rd⟩ := characteristics_reads hb
      refine ⟨?_, ?_⟩
      · unfold ToldAttr.Faithful
        rw [show (ToldAttr.mk { b.attr with invariant := inv } b.told).told = b.told from rfl, rd.told,
          show (ToldAttr.mk { b.attr with invariant := inv } b.told).attr.log = b.attr.log from rfl, rd.log]
        rfl
      · have := rd.told
        rcases rd.new with ⟨h0, -⟩ | ⟨n, h0, hf, hr, hn⟩
        · rw [h0] at this; exact Or.inl this
        · rw [h0] at this
          exact Or.inr ⟨n, this, hf, hr, fun c => reprcOfByte_none hn c⟩

theorem templateLoop_faithful : ∀ (n : Nat) (xs : Bytes) (tmpl : List ToldAttr) (told : List LogEntry),
    (∀ t ∈ tmpl, t.Faithful) → ∀ t ∈ (toldTemplateLoop n xs tmpl told).tmpl, t.Faithful
  | 0, _, tmpl, told, h => h
  | _ + 1, [], tmpl, told, h => h
  | n + 1, d :: xs, tmpl, told, h => by
    unfold toldTemplateLoop
    split
    · exact h
    · exact h
    · exact templateLoop_faithful n xs tmpl _ h
    · rename_i inv f _
      dsimp only
      split
      · exact h
      · rename_i a r ha
        have h' : ∀ t ∈ tmpl ++ [a], t.Faithful := by
          intro t ht
          rcases List.mem_append.1 ht with ht | ht
          · exact h t ht
          · rw [List.mem_singleton] at ht; rw [ht]; exact (templateAttr_faithful ha).1
        split
        · exact h'
        · exact templateLoop_faithful n r _ _ h'

theorem setTold_mem {a x : ToldAttr} : ∀ {xs : List ToldAttr}, x ∈ setTold a xs → x = a ∨ x ∈ xs
  | [], h => by simp only [setTold, List.mem_singleton] at h; exact Or.inl h
  | y :: ys, h => by
    unfold setTold at h
    split at h
    · rcases List.mem_cons.1 h with h | h
      · exact Or.inl h
      · exact Or.inr (List.mem_cons_of_mem _ h)
    · rcases List.mem_cons.1 h with h | h
      · exact Or.inr (h ▸ List.mem_cons_self)
      · rcases setTold_mem h with h | h
        · exact Or.inl h
        · exact Or.inr (List.mem_cons_of_mem _ h)

theorem defaults_mem {tmpl : List ToldAttr} {x : ToldAttr} (h : x ∈ toldDefaults tmpl) : x ∈ tmpl := by
  have key : ∀ (ts acc : List ToldAttr), x ∈ ts.foldl (fun o a => setTold a o) acc → x ∈ ts ∨ x ∈ acc := by
    intro ts
    induction ts with
    | nil => intro acc h; exact Or.inr h
    | cons t ts ih =>
      intro acc h
      rcases ih _ h with h | h
      · exact Or.inl (List.mem_cons_of_mem _ h)
      · rcases setTold_mem h with h | h
        · exact Or.inl (h ▸ List.mem_cons_self)
        · exact Or.inr h
  rcases key tmpl [] h with h | h
  · exact h
  · cases h

/-- Every attribute of the object was there before, or was read for an attribute of the template. -/
theorem attrLoop_mem : ∀ {ts : List ToldAttr} {xs r : Bytes} {cur out : List ToldAttr} {c c' : Bool},
    toldAttrLoop ts xs cur c = .ok (out, c', r) → ∀ a ∈ out, a ∈ cur ∨
      ∃ t ∈ ts, ∃ inv f ys zs, toldObjectAttr t inv f ys = .ok (a, zs)
  | [], xs, r, cur, out, c, c', h => by
    simp only [toldAttrLoop, Except.ok.injEq, Prod.mk.injEq] at h
    intro a ha; rw [← h.1] at ha; exact Or.inl ha
  | t :: ts, xs, r, cur, out, c, c', h => by
    unfold toldAttrLoop at h
    split at h
    · intro a ha
      rcases attrLoop_mem h a ha with h | ⟨t', ht, hr⟩
      · exact Or.inl h
      · exact Or.inr ⟨t', List.mem_cons_of_mem _ ht, hr⟩
    · split at h
      · simp only [Except.ok.injEq, Prod.mk.injEq] at h
        intro a ha; rw [← h.1] at ha; exact Or.inl ha
      · split at h
        · cases h
        · simp only [Except.ok.injEq, Prod.mk.injEq] at h
          intro a ha; rw [← h.1] at ha; exact Or.inl ha
        · intro a ha
          rcases attrLoop_mem h a ha with h | ⟨t', ht, hr⟩
          · exact Or.inl (List.mem_filter.1 h).1
          · exact Or.inr ⟨t', List.mem_cons_of_mem _ ht, hr⟩
        · rename_i inv f _
          split at h
          · cases h
          · rename_i b rest hb
            intro a ha
            rcases attrLoop_mem h a ha with h | ⟨t', ht, hr⟩
            · rcases setTold_mem h with rfl | h
              · exact Or.inr ⟨t, List.mem_cons_self, inv, f, _, _, hb⟩
              · exact Or.inl h
            · exact Or.inr ⟨t', List.mem_cons_of_mem _ ht, hr⟩

theorem attrLoop_clear : ∀ {ts : List ToldAttr} {xs r : Bytes} {cur out : List ToldAttr} {c c' : Bool},
    toldAttrLoop ts xs cur c = .ok (out, c', r) →
    (c' = true → c = true ∧ ∀ a ∈ out, a ∈ cur ∨ ∃ t ∈ ts, ∃ inv f ys zs,
      toldObjectAttr t inv f ys = .ok (a, zs) ∧ isLogClear a.attr.log = true) ∧
    (c' = false → c = false ∨ ∃ t ∈ ts, ∃ inv f ys a zs,
      toldObjectAttr t inv f ys = .ok (a, zs) ∧ isLogClear a.attr.log = false)
  | [], xs, r, cur, out, c, c', h => by
    simp only [toldAttrLoop, Except.ok.injEq, Prod.mk.injEq] at h
    obtain ⟨rfl, rfl, -⟩ := h
    exact ⟨fun h => ⟨h, fun a ha => Or.inl ha⟩, fun h => Or.inl h⟩
  | t :: ts, xs, r, cur, out, c, c', h => by
    have more : ∀ {cur2 : List ToldAttr} {c2 : Bool} {xs2 : Bytes}, toldAttrLoop ts xs2 cur2 c2 = .ok (out, c', r) →
        (c2 = true → c = true) → (c2 = false → c = false ∨ ∃ inv f ys a zs,
          toldObjectAttr t inv f ys = .ok (a, zs) ∧ isLogClear a.attr.log = false) →
        (c2 = true → ∀ a ∈ cur2, a ∈ cur ∨ ∃ inv f ys zs,
          toldObjectAttr t inv f ys = .ok (a, zs) ∧ isLogClear a.attr.log = true) →
        (c' = true → c = true ∧ ∀ a ∈ out, a ∈ cur ∨ ∃ t' ∈ t :: ts, ∃ inv f ys zs,
          toldObjectAttr t' inv f ys = .ok (a, zs) ∧ isLogClear a.attr.log = true) ∧
        (c' = false → c = false ∨ ∃ t' ∈ t :: ts, ∃ inv f ys a zs,
          toldObjectAttr t' inv f ys = .ok (a, zs) ∧ isLogClear a.attr.log = false) := by
      intro cur2 c2 xs2 h2 e1 e2 e3
      obtain ⟨i1, i2⟩ := attrLoop_clear h2
      refine ⟨fun hc => ?_, fun hc => ?_⟩
      · obtain ⟨j1, j2⟩ := i1 hc
        refine ⟨e1 j1, fun a ha => ?_⟩
        rcases j2 a ha with h | ⟨t', ht, h⟩
        · rcases e3 j1 a h with h | h
          · exact Or.inl h
          · exact Or.inr ⟨t, List.mem_cons_self, h⟩
        · exact Or.inr ⟨t', List.mem_cons_of_mem _ ht, h⟩
      · rcases i2 hc with h | ⟨t', ht, h⟩
        · rcases e2 h with h | h
          · exact Or.inl h
          · exact Or.inr ⟨t, List.mem_cons_self, h⟩
        · exact Or.inr ⟨t', List.mem_cons_of_mem _ ht, h⟩
    have stop : c' = c → out = cur →
        (c' = true → c = true ∧ ∀ a ∈ out, a ∈ cur ∨ ∃ t' ∈ t :: ts, ∃ inv f ys zs,
          toldObjectAttr t' inv f ys = .ok (a, zs) ∧ isLogClear a.attr.log = true) ∧
        (c' = false → c = false ∨ ∃ t' ∈ t :: ts, ∃ inv f ys a zs,
          toldObjectAttr t' inv f ys = .ok (a, zs) ∧ isLogClear a.attr.log = false) := by
      rintro rfl rfl
      exact ⟨fun h => ⟨h, fun a ha => Or.inl ha⟩, fun h => Or.inl h⟩
    unfold toldAttrLoop at h
    split at h
    · exact more h id Or.inl (fun _ a ha => Or.inl ha)
    · split at h
      · simp only [Except.ok.injEq, Prod.mk.injEq] at h
        exact stop h.2.1.symm h.1.symm
      · split at h
        · cases h
        · simp only [Except.ok.injEq, Prod.mk.injEq] at h
          exact stop h.2.1.symm h.1.symm
        · exact more h id Or.inl (fun _ a ha => Or.inl (List.mem_filter.1 ha).1)
        · rename_i inv f _
          split at h
          · cases h
          · rename_i b rest hb
            refine more h (fun hc => (Bool.and_eq_true_iff.1 hc).1) (fun hc => ?_) (fun hc a ha => ?_)
            · rcases Bool.and_eq_false_iff.1 hc with h | h
              · exact Or.inl h
              · exact Or.inr ⟨inv, f, _, b, _, hb, h⟩
            · rcases setTold_mem ha with rfl | ha
              · exact Or.inr ⟨inv, f, _, _, hb, (Bool.and_eq_true_iff.1 hc).2⟩
              · exact Or.inl ha

/-- All entries of attributes count as errors. -/
theorem attr_clear {t a : ToldAttr} {inv : Bool} {f : AttribFlags} {xs r : Bytes}
    (ht : t.Faithful) (hm : ∀ x ∈ t.told, x.severity ≠ .info)
    (h : toldObjectAttr t inv f xs = .ok (a, r)) : isLogClear a.attr.log = true ↔ a.told = [] := by
  have ha := attr_faithful ht h
  obtain ⟨new, h1, -, h3⟩ := c88_attribute_partial h
  have hs : ∀ x ∈ a.told, x.severity ≠ .info := by
    intro x hx
    rw [h1] at hx
    rcases List.mem_append.1 hx with hx | hx
    · exact hm x hx
    · have := (h3 x hx).1
      cases this <;> (rename_i hh _ _; simp_all)
  unfold ToldAttr.Faithful at ha
  rw [← ha]
  cases hc : a.told with
  | nil => simp [isLogClear]
  | cons x l =>
    have : x.severity ≠ .info := hs x (by rw [hc]; exact List.mem_cons_self)
    simp only [List.map_cons, reduceCtorEq, iff_false]
    unfold isLogClear
    cases hx : x.severity <;> simp_all

/-- The exact form of an object that is read. -/
theorem object_form {type : Bytes} {tmpl : List ToldAttr} {d : Byte} {xs r : Bytes} {o : ToldObject}
    (h : toldObject type tmpl d xs = .ok (o, r)) :
    o.told.map (·.severity) = o.obj.log ∧ o.attrs.map (·.attr) = o.obj.attributes ∧
    (∃ clear : Bool, o.told = (if flag d 0x10 then [] else [saysUnnamed]) ++
        (if clear then [] else [saysAttributes]) ∧
      (clear = true → ∀ a ∈ o.attrs, a ∈ tmpl ∨ ∃ t ∈ tmpl, ∃ inv f ys zs,
        toldObjectAttr t inv f ys = .ok (a, zs) ∧ isLogClear a.attr.log = true) ∧
      (clear = false → ∃ t ∈ tmpl, ∃ inv f ys a zs,
        toldObjectAttr t inv f ys = .ok (a, zs) ∧ isLogClear a.attr.log = false)) ∧
    (∀ a ∈ o.attrs, a ∈ tmpl ∨ ∃ t ∈ tmpl, ∃ inv f ys zs,
      toldObjectAttr t inv f ys = .ok (a, zs)) := by
  unfold toldObject at h
  split at h
  · cases h
  · rename_i hasName hd
    have hn : hasName = flag d 0x10 := by
      unfold toldObjectDescriptor componentObject at hd
      split at hd
      · rename_i h1
        split at h1
        · cases h1; cases hd; rfl
        · cases h1
      · cases hd
    split at h
    · cases h
    · split at h
      · cases h
      · rename_i attrs clear rest hl
        simp only [Except.ok.injEq, Prod.mk.injEq] at h
        obtain ⟨rfl, -⟩ := h
        obtain ⟨c1, c2⟩ := attrLoop_clear hl
        refine ⟨rfl, rfl, ⟨clear, by rw [hn], fun hc a ha => ?_, fun hc => ?_⟩, fun a ha => ?_⟩
        · rcases (c1 hc).2 a ha with h | h
          · exact Or.inl (defaults_mem h)
          · exact Or.inr h
        · rcases c2 hc with h | h
          · cases h
          · exact h
        · rcases attrLoop_mem hl a ha with h | h
          · exact Or.inl (defaults_mem h)
          · exact Or.inr h

theorem objectsLoop_mem {type : Bytes} {tmpl : List ToldAttr} : ∀ {n : Nat} {xs : Bytes},
    ∀ o ∈ (toldObjectsLoop type tmpl n xs).1, ∃ d ys r, toldObject type tmpl d ys = .ok (o, r)
  | _, [], o, h => by unfold toldObjectsLoop at h; cases h
  | 0, _ :: _, o, h => by unfold toldObjectsLoop at h; cases h
  | n + 1, d :: xs, o, h => by
    unfold toldObjectsLoop at h
    split at h
    · cases h
    · rename_i b r hb
      rcases List.mem_cons.1 h with rfl | h
      · exact ⟨d, xs, r, hb⟩
      · exact objectsLoop_mem o h

theorem finishTold_objs (s : ToldSet) (r : Except ToldErr Unit) :
    (s.finish r).objs = s.objs ∧ (s.finish r).tmpl = s.tmpl := by
  cases r with
  | ok u => cases u; exact ⟨rfl, rfl⟩
  | error e => cases e <;> exact ⟨rfl, rfl⟩

/-- The objects of a set are read with the template of the set, and the template is that of the
loop. -/
theorem parse_mem (data : Bytes) :
    (∀ t ∈ (toldParse data).tmpl, t.Faithful) ∧
    ∀ o ∈ (toldParse data).objs, ∃ type d ys r,
      toldObject type (toldParse data).tmpl d ys = .ok (o, r) := by
  unfold toldParse
  split
  · rw [(finishTold_objs _ _).1, (finishTold_objs _ _).2]; exact ⟨by simp, by simp⟩
  · rename_i told role type name xs _
    have hf := templateLoop_faithful (xs.length + 1) xs [] told (by simp)
    dsimp only
    split
    · rw [(finishTold_objs _ _).1, (finishTold_objs _ _).2]
      exact ⟨hf, by simp⟩
    · rename_i rest hres
      rw [(finishTold_objs _ _).1, (finishTold_objs _ _).2]
      exact ⟨hf, fun o ho => by obtain ⟨d, ys, r, h⟩ := objectsLoop_mem o ho; exact ⟨type, d, ys, r, h⟩⟩

/-- C88.  The entries of every log of a set that is parsed, of its template, its objects and their
attributes, are those whose severities decide what is reported and raised. -/
theorem c88_logs {data : Bytes} {s : ObjectSet} (h : ObjectSet.new data = .ok s) :
    (toldParse data).told.map (·.severity) = s.parse.log ∧
    (toldParse data).objs.map (·.obj) = s.parse.objs ∧
    (toldParse data).tmpl.map (·.attr) = s.parse.tmpl ∧
    (∀ t ∈ (toldParse data).tmpl, t.told.map (·.severity) = t.attr.log) ∧
    ∀ o ∈ (toldParse data).objs, o.told.map (·.severity) = o.obj.log ∧
      o.attrs.map (·.attr) = o.obj.attributes ∧
      ∀ a ∈ o.attrs, a.told.map (·.severity) = a.attr.log := by
  obtain ⟨h1, h2, h3, -⟩ := c88_same h
  obtain ⟨h4, h5⟩ := parse_mem data
  refine ⟨h1, h2, h3, h4, ?_⟩
  intro o ho
  obtain ⟨type, d, ys, r, hr⟩ := h5 o ho
  obtain ⟨h6, h7, -, h8⟩ := object_form hr
  refine ⟨h6, h7, ?_⟩
  intro a ha
  rcases h8 a ha with h | ⟨t, ht, inv, f, ys, zs, h⟩
  · exact h4 a h
  · exact attr_faithful (h4 t ht) h

namespace Spec

/-- The entries of an attribute of a template: only that the representation code is none. -/
def TemplateEntry (t : ToldAttr) : Prop := t.told = [] ∨
  ∃ n, t.told = [⟨.minor, text "Invalid representation code " ++ Text.ofNat n,
    text "Appendix B: Representation Codes", text "Continue. Postpone dealing with this until later"⟩] ∧
    t.attr.reprc = none ∧ ∀ c, Reprc.code c ≠ n

end Spec

theorem templateLoop_entry : ∀ (n : Nat) (xs : Bytes) (tmpl : List ToldAttr) (told : List LogEntry),
    (∀ t ∈ tmpl, Spec.TemplateEntry t) → ∀ t ∈ (toldTemplateLoop n xs tmpl told).tmpl, Spec.TemplateEntry t
  | 0, _, tmpl, told, h => h
  | _ + 1, [], tmpl, told, h => h
  | n + 1, d :: xs, tmpl, told, h => by
    unfold toldTemplateLoop
    split
    · exact h
    · exact h
    · exact templateLoop_entry n xs tmpl _ h
    · rename_i inv f _
      dsimp only
      split
      · exact h
      · rename_i a r ha
        have h' : ∀ t ∈ tmpl ++ [a], Spec.TemplateEntry t := by
          intro t ht
          rcases List.mem_append.1 ht with ht | ht
          · exact h t ht
          · rw [List.mem_singleton] at ht
            subst ht
            rcases (templateAttr_faithful ha).2 with h1 | ⟨n, h1, -, h2, h3⟩
            · exact Or.inl h1
            · exact Or.inr ⟨n, h1, h2, h3⟩
        split
        · exact h'
        · exact templateLoop_entry n r _ _ h'

/-- C88.  Every entry of an attribute of an object is one of the template, which says that the
representation code in the template is none, or it was added when the attribute was read
(`c88_attribute_partial`).  The entry about attributes is there if and only if an attribute was read
that has entries (which may have been replaced or removed since only if two attributes of the
template have the same label). -/
theorem c88_objects (data : Bytes) :
    (∀ t ∈ (toldParse data).tmpl, Spec.TemplateEntry t) ∧
    ∀ o ∈ (toldParse data).objs,
      (∀ a ∈ o.attrs, a ∈ (toldParse data).tmpl ∨
        ∃ t ∈ (toldParse data).tmpl, ∃ inv f ys zs, toldObjectAttr t inv f ys = .ok (a, zs) ∧
          (a.told ≠ [] → saysAttributes ∈ o.told)) ∧
      (saysAttributes ∈ o.told → ∃ t ∈ (toldParse data).tmpl, ∃ inv f ys a zs,
        toldObjectAttr t inv f ys = .ok (a, zs) ∧ a.told ≠ []) := by
  have he : ∀ t ∈ (toldParse data).tmpl, Spec.TemplateEntry t := by
    unfold toldParse
    split
    · rw [(finishTold_objs _ _).2]; simp
    · rename_i told role type name xs _
      have hf := templateLoop_entry (xs.length + 1) xs [] told (by simp)
      dsimp only
      split
      · rw [(finishTold_objs _ _).2]; exact hf
      · rw [(finishTold_objs _ _).2]; exact hf
  have hi : ∀ t ∈ (toldParse data).tmpl, ∀ x ∈ t.told, x.severity ≠ .info := by
    intro t ht x hx
    rcases he t ht with h | ⟨n, h, -⟩
    · rw [h] at hx; cases hx
    · rw [h, List.mem_singleton] at hx; rw [hx]; simp
  refine ⟨he, fun o ho => ?_⟩
  obtain ⟨hf, hp⟩ := parse_mem data
  obtain ⟨type, d, ys, r, hr⟩ := hp o ho
  obtain ⟨-, -, ⟨clear, h3, h4, h5⟩, -⟩ := object_form hr
  have hs : saysAttributes ∈ o.told ↔ clear = false := by
    rw [h3]
    have : saysAttributes ≠ saysUnnamed := fun h => absurd (congrArg LogEntry.severity h) (by decide)
    cases clear <;> cases flag d 0x10 <;> simp [this]
  refine ⟨fun a ha => ?_, fun h => ?_⟩
  · cases hc : clear with
    | true =>
      rcases h4 hc a ha with h | ⟨t, ht, inv, f, ys, zs, h, hl⟩
      · exact Or.inl h
      · exact Or.inr ⟨t, ht, inv, f, ys, zs, h, fun hn => absurd ((attr_clear (hf t ht) (hi t ht) h).1 hl) hn⟩
    | false =>
      rcases (object_form hr).2.2.2 a ha with h | ⟨t, ht, inv, f, ys, zs, h⟩
      · exact Or.inl h
      · exact Or.inr ⟨t, ht, inv, f, ys, zs, h, fun _ => hs.2 hc⟩
  · obtain ⟨t, ht, inv, f, ys, a, zs, h, hl⟩ := h5 (hs.1 h)
    refine ⟨t, ht, inv, f, ys, a, zs, h, fun hn => ?_⟩
    rw [(attr_clear (hf t ht) (hi t ht) h).2 hn] at hl
    cases hl

/-! ### What is said about sets -/

/-- What `parse_template` does does not depend on the log, and it only adds to it. -/
theorem templateLoop_prefix (p : List LogEntry) : ∀ (n : Nat) (xs : Bytes) (tmpl : List ToldAttr)
    (told : List LogEntry), toldTemplateLoop n xs tmpl (p ++ told) =
      { toldTemplateLoop n xs tmpl told with told := p ++ (toldTemplateLoop n xs tmpl told).told }
  | 0, _, tmpl, told => rfl
  | _ + 1, [], tmpl, told => rfl
  | n + 1, d :: xs, tmpl, told => by
    unfold toldTemplateLoop
    cases h : toldAttributeDescriptor d with
    | error e => rfl
    | ok k =>
      cases k with
      | object => rfl
      | absent =>
        dsimp only
        rw [List.append_assoc, templateLoop_prefix p n]
      | attr inv f =>
        dsimp only
        have hl : (if f.label = true then p ++ told else p ++ told ++ [saysUnlabelled]) =
            p ++ (if f.label = true then told else told ++ [saysUnlabelled]) := by
          cases f.label <;> simp
        rw [hl]
        cases ha : toldTemplateAttr inv f xs with
        | error e => rfl
        | ok q =>
          obtain ⟨a, r⟩ := q
          dsimp only
          by_cases hr : r = []
          · rw [if_pos hr, if_pos hr]
            simp
          · rw [if_neg hr, if_neg hr, templateLoop_prefix p n]

theorem templateLoop_told : ∀ (n : Nat) (xs : Bytes) (tmpl : List ToldAttr),
    (∀ x ∈ (toldTemplateLoop n xs tmpl []).told, x = saysAbsent ∨ x = saysUnlabelled ∨
      (x = saysEmpty ∧ (toldTemplateLoop n xs tmpl []).res = .ok [])) ∧
    ((toldTemplateLoop n xs tmpl []).res = .ok [] → saysEmpty ∈ (toldTemplateLoop n xs tmpl []).told)
  | 0, _, tmpl => ⟨by simp [toldTemplateLoop], by simp [toldTemplateLoop]⟩
  | _ + 1, [], tmpl => ⟨by simp [toldTemplateLoop], by simp [toldTemplateLoop]⟩
  | n + 1, d :: xs, tmpl => by
    unfold toldTemplateLoop
    cases h : toldAttributeDescriptor d with
    | error e => exact ⟨by simp, by simp⟩
    | ok k =>
      cases k with
      | object => exact ⟨by simp, by simp⟩
      | absent =>
        dsimp only
        rw [show ([] ++ [saysAbsent] : List LogEntry) = [saysAbsent] ++ [] from rfl, templateLoop_prefix]
        obtain ⟨i1, i2⟩ := templateLoop_told n xs tmpl
        refine ⟨fun x hx => ?_, fun hr => List.mem_append_right _ (i2 hr)⟩
        rcases List.mem_append.1 hx with hx | hx
        · exact Or.inl (List.mem_singleton.1 hx)
        · exact i1 x hx
      | attr inv f =>
        dsimp only
        obtain ⟨l, hl, hm⟩ : ∃ l : List LogEntry, (if f.label = true then [] else [] ++ [saysUnlabelled]) = l ∧
            ∀ x ∈ l, x = saysUnlabelled := by
          cases f.label
          · exact ⟨_, rfl, by simp⟩
          · exact ⟨_, rfl, by simp⟩
        rw [hl]
        cases ha : toldTemplateAttr inv f xs with
        | error e => exact ⟨fun x hx => Or.inr (Or.inl (hm x hx)), by simp⟩
        | ok q =>
          obtain ⟨a, r⟩ := q
          dsimp only
          by_cases hr : r = []
          · rw [if_pos hr]
            refine ⟨fun x hx => ?_, fun _ => by simp⟩
            rcases List.mem_append.1 hx with hx | hx
            · exact Or.inr (Or.inl (hm x hx))
            · exact Or.inr (Or.inr ⟨List.mem_singleton.1 hx, rfl⟩)
          · rw [if_neg hr, show l = l ++ [] from (List.append_nil l).symm, templateLoop_prefix]
            obtain ⟨i1, i2⟩ := templateLoop_told n r (tmpl ++ [a])
            refine ⟨fun x hx => ?_, fun hr => List.mem_append_right _ (i2 hr)⟩
            rcases List.mem_append.1 hx with hx | hx
            · exact Or.inr (Or.inl (hm x hx))
            · exact i1 x hx

/-- The part of the parse that does not see the descriptor of the set. -/
def toldRest (told : List LogEntry) : Except ToldErr (Role × Bytes × Bytes × Bytes) → ToldSet
  | .error e => { told := told : ToldSet }.finish (.error e)
  | .ok (_, type, _, xs) =>
    let t := toldTemplateLoop (xs.length + 1) xs [] told
    match t.res with
    | .error e => { told := t.told, tmpl := t.tmpl : ToldSet }.finish (.error e)
    | .ok xs =>
      { told := t.told, tmpl := t.tmpl, objs := (toldObjectsLoop type t.tmpl xs.length xs).1 : ToldSet }.finish
        (toldObjectsLoop type t.tmpl xs.length xs).2

theorem parse_rest (data : Bytes) :
    toldParse data = toldRest (toldSetComponent data).1 (toldSetComponent data).2 := by
  unfold toldParse
  rcases toldSetComponent data with ⟨told, res⟩
  cases res with
  | error e => rfl
  | ok q => rfl

theorem finish_prefix (p : List LogEntry) (s : ToldSet) (r : Except ToldErr Unit) :
    ({ s with told := p ++ s.told } : ToldSet).finish r =
      { s.finish r with told := p ++ (s.finish r).told } := by
  cases r with
  | ok u => cases u; rfl
  | error e => cases e <;> simp [ToldSet.finish]

theorem rest_prefix (p told : List LogEntry) (r : Except ToldErr (Role × Bytes × Bytes × Bytes)) :
    toldRest (p ++ told) r = { toldRest told r with told := p ++ (toldRest told r).told } := by
  cases r with
  | error e => exact finish_prefix p { told := told } (.error e)
  | ok q =>
    obtain ⟨role, type, name, xs⟩ := q
    unfold toldRest
    dsimp only
    rw [templateLoop_prefix]
    generalize toldTemplateLoop (xs.length + 1) xs [] told = t
    dsimp only
    cases t.res with
    | error e => exact finish_prefix p { told := t.told, tmpl := t.tmpl } (.error e)
    | ok ys =>
      let u : ToldSet :=
        { told := t.told, tmpl := t.tmpl, objs := (toldObjectsLoop type t.tmpl ys.length ys).1 }
      exact finish_prefix p u _

namespace Spec

/-- The entry for the kind of the set, from the first three bits of the descriptor. -/
def kindEntry (d : Byte) : List LogEntry :=
  if d &&& 0xE0 = 0xA0 then
    [⟨.minor, text "Redundant sets are not supported by dlisio",
      text "3.2.2.2 Component Usage: A Redundant Set is an identical copy of some Set written previously in the same Logical File",
      text "Redundant set is treated as a normal set, which might lead to issues with duplicated objects"⟩]
  else if d &&& 0xE0 = 0xC0 then
    [⟨.major, text "Replacement sets are not supported by dlisio",
      text "3.2.2.2 Component Usage: Attributes of the Replacement Set reflect all updates that may have been applied since the original Set was written",
      text "Replacement set is treated as a normal set, which might lead to issues with duplicated objects and invalid information"⟩]
  else []

/-- The entry for a set whose descriptor says that it has no type. -/
def typeEntry (d : Byte) : List LogEntry :=
  if d &&& 0x10 = 0 then
    [⟨.major, text "SET:type not set",
      text "3.2.2.1 Component Descriptor: A Set’s Type Characteristic must be non-null and must always be explicitly present in the Set Component",
      text "Assumed set descriptor corrupted, attempt to read type anyway"⟩]
  else []

end Spec

theorem setDescriptor_bits : ∀ d : Byte, 0xA0 ≤ d →
    toldSetDescriptor d = .ok (component d, flag d 0x10, flag d 0x08) ∧
    toldSetDescriptor (d ||| 0xF0) = .ok (.set, true, flag d 0x08) ∧
    toldRole (component d) ++ (if flag d 0x10 then [] else [saysUntyped]) =
      Spec.kindEntry d ++ Spec.typeEntry d := by
  have h1 : ∀ d : Byte, 0xA0 ≤ d → toldSetDescriptor d = .ok (component d, flag d 0x10, flag d 0x08) ∧
      toldSetDescriptor (d ||| 0xF0) = .ok (.set, true, flag d 0x08) := by
    have : ∀ d : Byte, 0xA0 ≤ d → componentSet d (component d) = some (flag d 0x10, flag d 0x08) ∧
        component (d ||| 0xF0) = .set ∧
        componentSet (d ||| 0xF0) .set = some (true, flag d 0x08) := by decide +kernel
    intro d hd
    obtain ⟨a, b, c⟩ := this d hd
    unfold toldSetDescriptor
    rw [a, b, c]
    exact ⟨rfl, rfl⟩
  have h2 : ∀ d : Byte, 0xA0 ≤ d →
      (d &&& 0xE0 = 0xA0 ∧ component d = .rdset) ∨ (d &&& 0xE0 = 0xC0 ∧ component d = .rset) ∨
      (d &&& 0xE0 ≠ 0xA0 ∧ d &&& 0xE0 ≠ 0xC0 ∧ component d = .set) := by decide +kernel
  have h3 : ∀ d : Byte, flag d 0x10 = ! decide (d &&& 0x10 = 0) := by decide +kernel
  intro d hd
  refine ⟨(h1 d hd).1, (h1 d hd).2, ?_⟩
  unfold Spec.kindEntry Spec.typeEntry
  rw [h3]
  rcases h2 d hd with ⟨e, c⟩ | ⟨e, c⟩ | ⟨e, e', c⟩
  · rw [c, e, if_pos rfl]
    by_cases ht : d &&& 0x10 = 0 <;> simp [toldRole, saysRedundant, saysUntyped]
  · rw [c, e, if_neg (show ¬ (0xC0 : Byte) = 0xA0 by decide), if_pos (rfl : (0xC0 : Byte) = 0xC0)]
    by_cases ht : d &&& 0x10 = 0 <;> simp [toldRole, saysReplacement, saysUntyped]
  · rw [c, if_neg e, if_neg e']
    by_cases ht : d &&& 0x10 = 0 <;> simp [toldRole, saysUntyped]

/-- C88.  A redundant or replacement set is treated as a normal set, and a set without the bit for
the type as one with it, as is said: the result is that of the same record with the descriptor of a
normal set with a type, and before everything else the log says what was wrong with the
descriptor. -/
theorem c88_normal_set (d : Byte) (hd : 0xA0 ≤ d) (xs : Bytes) (hx : xs ≠ []) :
    toldParse (d :: xs) = { toldParse ((d ||| 0xF0) :: xs) with
      told := Spec.kindEntry d ++ Spec.typeEntry d ++ (toldParse ((d ||| 0xF0) :: xs)).told } := by
  obtain ⟨h1, h2, h3⟩ := setDescriptor_bits d hd
  rw [parse_rest, parse_rest]
  unfold toldSetComponent
  dsimp only
  rw [h1, h2]
  dsimp only
  rw [if_neg hx, if_neg hx, h3]
  dsimp only [toldRole]
  simp only [if_true, List.append_nil]
  have key := rest_prefix (Spec.kindEntry d ++ Spec.typeEntry d) []
  rw [List.append_nil] at key
  generalize toldNeed (ident xs) = q
  cases q with
  | error e => exact key _
  | ok q =>
    obtain ⟨type, ys⟩ := q
    dsimp only
    cases hn : (if flag d 8 = true then toldNeed (ident ys) else .ok ([], ys)) with
    | error e => exact key _
    | ok q => obtain ⟨name, zs⟩ := q; exact key (.ok (component d, type, name, zs))

/-! ### Interrupted parses -/

namespace Spec

/-- What an interrupted parse says: the record ends within the template; the descriptor of an
attribute or of an object is of another kind; or there is a value without a representation code. -/
inductive Interruption : Text → Prop
  | template : Interruption (text "unexpected end-of-record in template")
  | attribute (role : Role) (h : role = .reserv ∨ role = .rdset ∨ role = .rset ∨ role = .set) :
      Interruption (text "error parsing attribute descriptor: expected ATTRIB, INVATR, ABSATR or OBJECT, was " ++
        role.str ++ text " (" ++ bitText role.bits ++ text ")")
  | object (d : Byte) (h : component d ≠ .object) :
      Interruption (text "error parsing object descriptor: expected OBJECT, was " ++
        (component d).str ++ text " (" ++ bitText d ++ text ")")
  | code : Interruption (text "unable to interpret attribute: unknown representation code 66")

end Spec

theorem attributeDescriptor_says {d : Byte} {w : Text} (h : toldAttributeDescriptor d = .error (.threw w)) :
    Spec.Interruption w := by
  have key : ∀ d : Byte, component d ≠ .object → component d ≠ .absatr →
      componentAttrib d (component d) = none →
      component d = .reserv ∨ component d = .rdset ∨ component d = .rset ∨ component d = .set := by
    decide +kernel
  unfold toldAttributeDescriptor at h
  dsimp only at h
  split at h
  · cases h
  · rename_i h1
    split at h
    · cases h
    · rename_i h2
      split at h
      · cases h
      · rename_i h3
        have := key d h1 h2 h3
        simp only [unexpected, Except.error.injEq, ToldErr.threw.injEq] at h
        rw [← h]
        have e := Spec.Interruption.attribute (component d) this
        simpa [text] using e

theorem objectDescriptor_says {d : Byte} {w : Text} (h : toldObjectDescriptor d = .error (.threw w)) :
    Spec.Interruption w := by
  unfold toldObjectDescriptor at h
  split at h
  · cases h
  · rename_i h1
    have : component d ≠ .object := by
      intro hc
      rw [hc] at h1
      cases h1
    simp only [unexpected, Except.error.injEq, ToldErr.threw.injEq] at h
    rw [← h]
    have e := Spec.Interruption.object d this
    simpa [text] using e

theorem characteristics_says {f : AttribFlags} {a : ToldAttr} {xs : Bytes} {w : Text}
    (h : toldCharacteristics f a xs = .error (.threw w)) : Spec.Interruption w := by
  have need : ∀ {α : Type} {o : Option α} {w : Text}, toldNeed o ≠ .error (.threw w) := by
    intro α o w h; cases o <;> cases h
  unfold toldCharacteristics at h
  cases h1 : toldCount f.count a xs with
  | error e =>
    rw [h1] at h
    unfold toldCount at h1
    split at h1
    · split at h1
      · rename_i e' he; cases h1; cases h; exact absurd he need
      · cases h1
    · cases h1
  | ok p =>
    obtain ⟨a1, xs1⟩ := p
    rw [h1] at h
    change (toldReprc f.reprc a1 xs1 >>= _) = _ at h
    cases h2 : toldReprc f.reprc a1 xs1 with
    | error e =>
      rw [h2] at h
      unfold toldReprc toldRepcode at h2
      split at h2
      · split at h2
        · rename_i e' he; cases h2; cases h; exact absurd he need
        · split at h2 <;> cases h2
      · cases h2
    | ok p =>
      obtain ⟨a2, xs2⟩ := p
      rw [h2] at h
      change (toldUnits f.units a2 xs2 >>= _) = _ at h
      cases h3 : toldUnits f.units a2 xs2 with
      | error e =>
        rw [h3] at h
        unfold toldUnits at h3
        split at h3
        · split at h3
          · rename_i e' he; cases h3; cases h; exact absurd he need
          · cases h3
        · cases h3
      | ok p =>
        obtain ⟨a3, xs3⟩ := p
        rw [h3] at h
        change toldValue f.value a3 xs3 = _ at h
        unfold toldValue toldElements at h
        split at h
        · split at h
          · cases h
          · split at h
            · simp only [Except.error.injEq, ToldErr.threw.injEq] at h
              rw [← h]
              have : text "unable to interpret attribute: unknown representation code " ++
                  Text.ofNat (codeNumber none) =
                  text "unable to interpret attribute: unknown representation code 66" := by decide +kernel
              rw [this]
              exact .code
            · split at h
              · rename_i e' he; cases h; exact absurd he need
              · cases h
        · cases h

theorem templateLoop_says : ∀ {n : Nat} {xs : Bytes} {tmpl : List ToldAttr} {told : List LogEntry} {w : Text},
    (toldTemplateLoop n xs tmpl told).res = .error (.threw w) → Spec.Interruption w
  | 0, _, tmpl, told, w, h => by
    simp only [toldTemplateLoop, Except.error.injEq, ToldErr.threw.injEq] at h; rw [← h]; exact .template
  | _ + 1, [], tmpl, told, w, h => by
    simp only [toldTemplateLoop, Except.error.injEq, ToldErr.threw.injEq] at h; rw [← h]; exact .template
  | n + 1, d :: xs, tmpl, told, w, h => by
    unfold toldTemplateLoop at h
    split at h
    · rename_i e he
      simp only [Except.error.injEq] at h
      rw [h] at he
      exact attributeDescriptor_says he
    · cases h
    · exact templateLoop_says h
    · dsimp only at h
      split at h
      · rename_i e he
        simp only [Except.error.injEq] at h
        rw [h] at he
        unfold toldTemplateAttr at he
        split at he
        · rename_i e' hn
          cases he
          cases hi : ident xs <;> rw [hi] at hn <;> cases hn
        · split at he
          · rename_i e' hc
            cases he
            exact characteristics_says hc
          · cases he
      · split at h
        · cases h
        · exact templateLoop_says h

theorem attrLoop_says : ∀ {ts : List ToldAttr} {xs : Bytes} {cur : List ToldAttr} {c : Bool} {w : Text},
    toldAttrLoop ts xs cur c = .error (.threw w) → Spec.Interruption w
  | [], xs, cur, c, w, h => by unfold toldAttrLoop at h; cases h
  | t :: ts, xs, cur, c, w, h => by
    unfold toldAttrLoop at h
    split at h
    · exact attrLoop_says h
    · split at h
      · cases h
      · split at h
        · rename_i e he
          cases h
          exact attributeDescriptor_says he
        · cases h
        · exact attrLoop_says h
        · split at h
          · rename_i e he
            cases h
            unfold toldObjectAttr at he
            dsimp only at he
            split at he
            · rename_i e' hc
              cases he
              exact characteristics_says hc
            · split at he
              · cases he
              · split at he <;> cases he
          · exact attrLoop_says h

theorem objectsLoop_says {type : Bytes} {tmpl : List ToldAttr} : ∀ {n : Nat} {xs : Bytes} {w : Text},
    xs.length ≤ n → (toldObjectsLoop type tmpl n xs).2 = .error (.threw w) → Spec.Interruption w
  | _, [], w, _, h => by unfold toldObjectsLoop at h; cases h
  | 0, _ :: _, w, hl, h => by simp at hl
  | n + 1, d :: xs, w, hl, h => by
    unfold toldObjectsLoop at h
    split at h
    · rename_i e he
      simp only [Except.error.injEq] at h
      subst h
      unfold toldObject at he
      split at he
      · rename_i e' hd
        cases he
        exact objectDescriptor_says hd
      · split at he
        · rename_i e' hn
          cases he
          cases hi : obname xs <;> rw [hi] at hn <;> cases hn
        · split at he
          · rename_i e' ha
            cases he
            exact attrLoop_says ha
          · cases he
    · rename_i o r hr
      have : r.length ≤ n := by
        have hp := plain_object type tmpl d xs
        rw [hr] at hp
        have : r.length ≤ xs.length := (parseObject_ok hp.symm).2.1.length_le
        simp at hl
        omega
      exact objectsLoop_says this h

theorem rest_form (told : List LogEntry) (role : Role) (type name xs : Bytes) :
    ∃ mid fin, (toldRest told (.ok (role, type, name, xs))).told = told ++ mid ++ fin ∧
      (∀ x ∈ mid, x = saysAbsent ∨ x = saysUnlabelled ∨
        (x = saysEmpty ∧ (toldRest told (.ok (role, type, name, xs))).objs = [] ∧ fin = [] ∧
          (toldRest told (.ok (role, type, name, xs))).undefined = false)) ∧
      (fin = [] ∨ ∃ w, fin = [saysInterrupted w] ∧ Spec.Interruption w ∧
        (toldRest told (.ok (role, type, name, xs))).undefined = false) ∧
      ((toldRest told (.ok (role, type, name, xs))).objs = [] → fin = [] →
        (toldRest told (.ok (role, type, name, xs))).undefined = false → saysEmpty ∈ mid) := by
  have hp := templateLoop_prefix told (xs.length + 1) xs [] []
  rw [List.append_nil] at hp
  obtain ⟨t1, t2⟩ := templateLoop_told (xs.length + 1) xs []
  have hs : ∀ w, (toldTemplateLoop (xs.length + 1) xs [] []).res = .error (.threw w) → Spec.Interruption w :=
    fun w h => templateLoop_says h
  unfold toldRest
  dsimp only
  rw [hp]
  generalize toldTemplateLoop (xs.length + 1) xs [] [] = t at t1 t2 hs
  obtain ⟨tm, tl, res⟩ := t
  dsimp only at t1 t2 hs ⊢
  cases res with
  | error e =>
    have t1' : ∀ x ∈ tl, x = saysAbsent ∨ x = saysUnlabelled := by
      intro x hx
      rcases t1 x hx with h | h | ⟨-, h⟩
      · exact Or.inl h
      · exact Or.inr h
      · cases h
    cases e with
    | threw w =>
      exact ⟨tl, [saysInterrupted w], rfl, fun x hx => (t1' x hx).imp_right Or.inl,
        Or.inr ⟨w, rfl, hs w rfl, rfl⟩, fun _ h => by cases h⟩
    | outOfBounds =>
      exact ⟨tl, [], (List.append_nil _).symm, fun x hx => (t1' x hx).imp_right Or.inl, Or.inl rfl,
        fun _ _ h => by cases h⟩
  | ok ys =>
    cases ys with
    | nil =>
      refine ⟨tl, [], (List.append_nil _).symm, ?_, Or.inl rfl, fun _ _ _ => t2 rfl⟩
      intro x hx
      rcases t1 x hx with h | h | ⟨h, -⟩
      · exact Or.inl h
      · exact Or.inr (Or.inl h)
      · exact Or.inr (Or.inr ⟨h, rfl, rfl, rfl⟩)
    | cons d ys =>
      have t1' : ∀ x ∈ tl, x = saysAbsent ∨ x = saysUnlabelled := by
        intro x hx
        rcases t1 x hx with h | h | ⟨-, h⟩
        · exact Or.inl h
        · exact Or.inr h
        · cases h
      have hne : (toldObjectsLoop type tm (d :: ys).length (d :: ys)).1 = [] →
          (toldObjectsLoop type tm (d :: ys).length (d :: ys)).2 ≠ .ok () := by
        rw [List.length_cons]
        unfold toldObjectsLoop
        split
        · intro _ h; cases h
        · intro h; cases h
      have hi : ∀ w, (toldObjectsLoop type tm (d :: ys).length (d :: ys)).2 = .error (.threw w) →
          Spec.Interruption w := fun w h => objectsLoop_says (Nat.le_refl _) h
      dsimp only
      generalize toldObjectsLoop type tm (d :: ys).length (d :: ys) = q at hne hi
      obtain ⟨os, r⟩ := q
      dsimp only at hne hi ⊢
      cases r with
      | ok u =>
        cases u
        exact ⟨tl, [], (List.append_nil _).symm, fun x hx => (t1' x hx).imp_right Or.inl, Or.inl rfl,
          fun h _ _ => absurd rfl (hne h)⟩
      | error e =>
        cases e with
        | threw w =>
          exact ⟨tl, [saysInterrupted w], rfl, fun x hx => (t1' x hx).imp_right Or.inl,
            Or.inr ⟨w, rfl, hi w rfl, rfl⟩, fun _ h => by cases h⟩
        | outOfBounds =>
          exact ⟨tl, [], (List.append_nil _).symm, fun x hx => (t1' x hx).imp_right Or.inl, Or.inl rfl,
            fun _ _ h => by cases h⟩

/-- C88.  The log of a set.  First comes what is wrong with its descriptor, then what is wrong with
the template, and last why the parse was interrupted, if it was.  The log says that the set has no
objects if and only if it has none, nothing interrupted the parse, and no byte behind the record was
read. -/
theorem c88_set {data : Bytes} {s : ObjectSet} (h : ObjectSet.new data = .ok s) :
    ∃ d xs mid fin, data = d :: xs ∧ 0xA0 ≤ d ∧
      (toldParse data).told = Spec.kindEntry d ++ Spec.typeEntry d ++ mid ++ fin ∧
      (∀ x ∈ mid,
        (x.problem = text "Absent Attribute in object set template" ∧ x.severity = .major ∧
          x.action = text "Attribute not included in template") ∨
        (x.problem = text "Label not set in template" ∧ x.severity = .major ∧
          x.action = text "Assumed attribute descriptor corrupted, attempt to read label anyway") ∨
        (x.problem = text "Set contains no objects" ∧ x.severity = .info ∧
          x.action = text "Leave the set empty and return" ∧
          (toldParse data).objs = [] ∧ fin = [] ∧ (toldParse data).undefined = false)) ∧
      (fin = [] ∨ ∃ w, fin = [⟨.critical, w, [], text "object set parse has been interrupted"⟩] ∧
        Spec.Interruption w ∧ (toldParse data).undefined = false) ∧
      ((toldParse data).objs = [] → fin = [] → (toldParse data).undefined = false →
        ∃ x ∈ mid, x.problem = text "Set contains no objects") := by
  have hc := plain_setComponent data
  unfold ObjectSet.new at h
  rw [← hc] at h
  cases data with
  | nil => simp [toldSetComponent, plainRes] at h
  | cons d xs =>
    have all : ∀ d : Byte, 0xA0 ≤ d ∨ componentSet d (component d) = none := by decide +kernel
    rcases all d with hd | hd
    · by_cases hx : xs = []
      · subst hx
        rw [show toldSetComponent [d] = ([], .error (.threw (text "unexpected end-of-record after SET descriptor"))) by
          unfold toldSetComponent; dsimp only; rw [(setDescriptor_bits d hd).1]; rfl] at h
        simp [plainRes] at h
      · have key : (toldSetComponent (d :: xs)).1 = Spec.kindEntry d ++ Spec.typeEntry d := by
          unfold toldSetComponent
          dsimp only
          rw [(setDescriptor_bits d hd).1]
          dsimp only
          rw [if_neg hx]
          exact (setDescriptor_bits d hd).2.2
        cases hr : (toldSetComponent (d :: xs)).2 with
        | error e => rw [hr] at h; simp [plainRes] at h
        | ok q =>
          obtain ⟨role, type, name, ys⟩ := q
          rw [parse_rest, key, hr]
          obtain ⟨mid, fin, f1, f2, f3, f4⟩ := rest_form (Spec.kindEntry d ++ Spec.typeEntry d) role type name ys
          refine ⟨d, xs, mid, fin, rfl, hd, f1, fun x hx => ?_, f3, fun a b c => ⟨_, f4 a b c, rfl⟩⟩
          rcases f2 x hx with rfl | rfl | ⟨rfl, f⟩
          · exact Or.inl ⟨rfl, rfl, rfl⟩
          · exact Or.inr (Or.inl ⟨rfl, rfl, rfl⟩)
          · exact Or.inr (Or.inr ⟨rfl, rfl, rfl, f⟩)
    · rw [show toldSetComponent (d :: xs) = ([], .error (unexpected "object set" "SET, RSET or RDSET" (component d) d)) by
        unfold toldSetComponent toldSetDescriptor; dsimp only; rw [hd]] at h
      simp [plainRes] at h

theorem bitText_inj {a b : Byte} (h : bitText a = bitText b) : a = b := by
  have key : ∀ i, i < 8 → a.getLsbD i = b.getLsbD i := by
    unfold bitText at h
    simp only [List.map_cons, List.map_nil, List.cons.injEq, and_true] at h
    have one : ∀ {p q : Bool}, (if p = true then 49 else 48) = (if q = true then 49 else 48) → p = q := by
      intro p q; cases p <;> cases q <;> simp
    obtain ⟨h7, h6, h5, h4, h3, h2, h1, h0⟩ := h
    intro i hi
    have : i = 0 ∨ i = 1 ∨ i = 2 ∨ i = 3 ∨ i = 4 ∨ i = 5 ∨ i = 6 ∨ i = 7 := by omega
    rcases this with rfl | rfl | rfl | rfl | rfl | rfl | rfl | rfl
    · exact one h0
    · exact one h1
    · exact one h2
    · exact one h3
    · exact one h4
    · exact one h5
    · exact one h6
    · exact one h7
  exact BitVec.eq_of_getLsbD_eq key

theorem unexpected_inj {k e k' e' : String} {r r' : Role} {d d' : Byte}
    (h : unexpected k e r d = unexpected k' e' r' d') : d = d' := by
  unfold unexpected at h
  simp only [ToldErr.threw.injEq] at h
  have h1 := List.append_inj_left' h rfl
  exact bitText_inj (List.append_inj_right' h1 rfl)

/-- C88.  The descriptor can be read off the text when a set or an object was expected. -/
theorem c88_descriptor {d d' : Byte} {w : Text} :
    (toldObjectDescriptor d = .error (.threw w) → toldObjectDescriptor d' = .error (.threw w) → d = d') ∧
    (toldSetDescriptor d = .error (.threw w) → toldSetDescriptor d' = .error (.threw w) → d = d') := by
  constructor
  · intro h h'
    unfold toldObjectDescriptor at h h'
    split at h
    · cases h
    · split at h'
      · cases h'
      · rw [← h] at h'
        simp only [Except.error.injEq] at h'
        exact (unexpected_inj h').symm
  · intro h h'
    unfold toldSetDescriptor at h h'
    split at h
    · cases h
    · split at h'
      · cases h'
      · rw [← h] at h'
        simp only [Except.error.injEq] at h'
        exact (unexpected_inj h').symm

/-- C88, a defect: when an attribute was expected, the text has only the first three bits of the
descriptor, filled up with zeros. -/
theorem c88_descriptor_defect (d : Byte) (hd : 0x80 ≤ d) :
    toldAttributeDescriptor d = .error (.threw
      (text "error parsing attribute descriptor: expected ATTRIB, INVATR, ABSATR or OBJECT, was " ++
        (component d).str ++ text " (" ++ bitText (d &&& 0xE0) ++ text ")")) := by
  have key : ∀ d : Byte, 0x80 ≤ d → component d ≠ .object ∧ component d ≠ .absatr ∧
      componentAttrib d (component d) = none ∧ (component d).bits = d &&& 0xE0 := by decide +kernel
  obtain ⟨h1, h2, h3, h4⟩ := key d hd
  unfold toldAttributeDescriptor
  dsimp only
  rw [if_neg h1, if_neg h2, h3, h4]
  simp [unexpected, text]

/-- Two descriptors, one text. -/
example : ∃ w, toldAttributeDescriptor 0x80 = .error (.threw w) ∧
    toldAttributeDescriptor 0x9F = .error (.threw w) :=
  ⟨_, c88_descriptor_defect 0x80 (by decide), c88_descriptor_defect 0x9F (by decide)⟩

/-! ### What is reported -/

/-- C88.  Together with C87: a query of the pool reports the entries that follow from the bytes of
the record, one by one and at the set, and it goes on unless one of them raises. -/
theorem c88_query (hd : Handler) {data : Bytes} {s : ObjectSet} (h : ObjectSet.new data = .ok s) :
    reportSetErrors hd.policy s.parse = (reportSetText hd s.parse (toldParse data).told).2.isSome ∧
    ∀ t n, Dlisio.Spec.Utf8 t s.parse.type → Dlisio.Spec.Utf8 n s.parse.name →
      Dlisio.Spec.Reported hd (text "object set of type '" ++ t ++ text "' named '" ++ n ++ text "'")
        (toldParse data).told (reportSetText hd s.parse (toldParse data).told) :=
  ⟨c87_set_query hd s.parse _ (c88_same h).1, fun _ _ ht hn => c87_set_partial hd s.parse _ ht hn⟩

/-- C88.  The same for a value that is looked up in an object: what the entries of the object and of
the attribute say decides whether there is a value. -/
theorem c88_access (hd : Handler) (e : Env) (he : e.policy = hd.policy) (rules : Rules) (st : Store)
    {data : Bytes} {s : ObjectSet} (h : ObjectSet.new data = .ok s) (o : ToldObject)
    (ho : o ∈ (toldParse data).objs) (key : PyStr) (a : ToldAttr) (ha : a ∈ o.attrs)
    (hk : rules.attributes key ≠ none ∨ key ∈ pyKeys e o.obj)
    (hat : attrAt key.toStd o.obj.attributes = some a.attr) :
    o.obj ∈ s.parse.objs ∧
    ((reportObjectText hd e o.obj o.told).2.isSome = true →
      getItem e rules st o.obj key = (st, .error .handler)) ∧
    ((reportObjectText hd e o.obj o.told).2 = none → (pyValues e.dec a.attr).isSome →
      (reportAttrText hd e o.obj key a.told).2.isSome = true →
      getItem e rules st o.obj key = (st, .error .handler)) ∧
    ((reportObjectText hd e o.obj o.told).2 = none → ∀ v vs, pyValues e.dec a.attr = some (v :: vs) →
      (reportAttrText hd e o.obj key a.told).2 = none →
      getItem e rules st o.obj key =
        finishValue e rules st key ((rules.attributes key).getD .vector) v vs) := by
  obtain ⟨-, h2, -, -, h5⟩ := c88_logs h
  obtain ⟨h6, -, h8⟩ := h5 o ho
  obtain ⟨c1, c2, c3⟩ := c87_access hd e he rules st o.obj key o.told h6 hk
  refine ⟨?_, c1, fun r hp => c2 r a.attr hat a.told (h8 a ha) hp,
    fun r v vs hp => c3 r a.attr hat v vs hp a.told (h8 a ha)⟩
  rw [← h2]
  exact List.mem_map_of_mem ho

/-! ### Concrete records -/

/-- A set with one attribute `A`, which has two values by default, and one object `X` whose attribute
is `attr`. -/
def toldCase (attr : Bytes) : Bytes :=
  [0xF0, 0x01, 0x54, 0x3D, 0x01, 0x41, 0x02, 0x0F, 0x05, 0x06, 0x70, 0x01, 0x00, 0x01, 0x58] ++ attr

/-- C88, a defect: the count is larger than that of the template; the log says that the value is left
as in the template, but it is replaced. -/
theorem c88_left_defect : ∃ s o t a x, ObjectSet.new (toldCase [0x28, 0x03]) = .ok s ∧
    (toldParse (toldCase [0x28, 0x03])).objs = [o] ∧ (toldParse (toldCase [0x28, 0x03])).tmpl = [t] ∧
    o.attrs = [a] ∧ a.told = [x] ∧ x.action = text "value is left as in template" ∧
    t.attr.value = some (.ushort, [.int 1 5, .int 1 6]) ∧
    a.attr.value = some (.ushort, [.int 1 0, .int 1 0, .int 1 0]) :=
  ⟨_, _, _, _, _, rfl, rfl, rfl, rfl, rfl, by decide +kernel, by decide +kernel, by decide +kernel⟩

/-- C88, a defect: the attribute has representation code 240 and no value.  The log says that its
value was set by default according to the representation code, and that it is that of the template;
but there is none.  It also says that the code is 66. -/
theorem c88_default_defect : ∃ s o t a x y z, ObjectSet.new (toldCase [0x24, 0xF0]) = .ok s ∧
    (toldParse (toldCase [0x24, 0xF0])).objs = [o] ∧ (toldParse (toldCase [0x24, 0xF0])).tmpl = [t] ∧
    o.attrs = [a] ∧ a.told = [x, y, z] ∧
    x.problem = text "Invalid representation code 240" ∧
    y.problem = text "count (2) isn't 0 and representation code (66) changed, but value is not explicitly set" ∧
    y.action = text "value defaulted based on representation code from attribute" ∧
    z.problem = text "invalid representation code 66" ∧
    z.action = text "attribute value is left as template default. Continue" ∧
    t.attr.value = some (.ushort, [.int 1 5, .int 1 6]) ∧ a.attr.value = none :=
  ⟨_, _, _, _, _, _, _, rfl, rfl, rfl, rfl, rfl, by decide +kernel, by decide +kernel, by decide +kernel,
    by decide +kernel, by decide +kernel, by decide +kernel, by decide +kernel⟩

/-- C88, a defect: an object says that attributes violate the specification only of attributes that
it has itself.  Here the attribute of the template has no representation code, the object takes it
from there, and has no entry. -/
theorem c88_inherited_defect : ∃ data s o a, ObjectSet.new data = .ok s ∧
    (toldParse data).objs = [o] ∧ o.attrs = [a] ∧ a.told = [saysBadCode 240] ∧ o.told = [] :=
  ⟨[0xF0, 0x01, 0x54, 0x34, 0x01, 0x41, 0xF0, 0x70, 0x01, 0x00, 0x01, 0x58], _, _, _, rfl, rfl, rfl, rfl, rfl⟩

/-- A smaller count: the value is cut, as is said. -/
example : ∃ o a, (toldParse (toldCase [0x28, 0x01])).objs = [o] ∧ o.attrs = [a] ∧
    a.told = [saysShrank 1 2] ∧ a.attr.value = some (.ushort, [.int 1 5]) ∧ o.told = [saysAttributes] :=
  ⟨_, _, rfl, rfl, by decide +kernel, by decide +kernel, by decide +kernel⟩

/-- An invariant attribute with a label: both bits are ignored, and nothing else is read. -/
example : ∃ o a, (toldParse (toldCase [0x51, 0x07, 0x08])).objs = [o] ∧ o.attrs = [a] ∧
    a.told = [saysInvariant, saysLabelled] ∧ a.attr.label = [0x41] ∧ a.attr.invariant = false ∧
    a.attr.value = some (.ushort, [.int 1 7, .int 1 8]) :=
  ⟨_, _, rfl, rfl, by decide +kernel, by decide +kernel, by decide +kernel, by decide +kernel⟩

/-- An object descriptor was expected: the record is interrupted, and the object before it is kept. -/
example : (toldParse (toldCase [0x00, 0x21])).told =
      [saysInterrupted (text "error parsing object descriptor: expected OBJECT, was attribute (00100001)")] ∧
    (toldParse (toldCase [0x00, 0x21])).objs.length = 1 := by
  constructor <;> decide +kernel

/-- A redundant set without a type and without objects. -/
example : (toldParse [0xA0, 0x01, 0x54, 0x30, 0x01, 0x41]).told = [saysRedundant, saysUntyped, saysEmpty] := by
  decide +kernel

end Dlisio.Dlis
