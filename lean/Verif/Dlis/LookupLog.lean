import Verif.Dlis.ObjectText
import Verif.Dlis.Search
import Verif.Lis.CurvesLog
/-
What is said about objects, references and attributes: the texts of the exceptions of
`LogicalFile.object` (python/dlisio/dlis/file.py:594-611) and `BasicObject.__getitem__`
(basicobject.py:188), and of the warnings of `lookup` (utils/linkage.py:19-31), `parsevalue`
(utils/valuetypes.py:32-50), `LogicalFile.fileheader` (file.py:420-424) and `LogicalFile.__init__`
(file.py:356-361).  C94.

What the error handler is told about a set, an object or an attribute is in Messages.lean and
EflrLog.lean.
-/
namespace Dlisio.Dlis

open _root_.Dlisio.Dlis.Spec
open _root_.Dlisio.Lis (literalChars)

/-! ## Model -/

/-- `msg.format(…)` for a text that has braces only as `{}`, and not more of them than arguments. -/
def pyFormat : Text → List Text → Text
  | 123 :: 125 :: t, a :: as => a ++ pyFormat t as
  | c :: t, as => c :: pyFormat t as
  | [], _ => []

/-- The functions of `logging` that are used. -/
inductive Level where
  | debug | info | warning | error
deriving DecidableEq

/-- What is given to `logging`. -/
abbrev Note := Level × Text

/-- The exceptions: `ValueError` and `KeyError` with a text, that of the error handler (or of
`core.fingerprint` when something is reported to it), that of a date, and that of `str(value)`. -/
inductive Refusal where
  | value (t : Text)
  | key (t : Text)
  | handler
  | date
  | unwritable
deriving DecidableEq

/-- `if origin is None: origin = "'any'"`, file.py:596-597. -/
def orAny : Option Nat → Text
  | none => text "'any'"
  | some n => Text.ofNat n

/-- The text of the exception if nothing is found, file.py:595-599. -/
def notFoundText (type name : PyStr) (origin copynr : Option Nat) : Text :=
  pyFormat (text "Object not found: type={}, name={}, origin={}, copynumber={}")
    [type.shown, name.shown, orAny origin, orAny copynr]

/-- The text of the exception if several objects are found, file.py:606-611: the candidates are
appended before the type and the name are filled in. -/
def severalText (type name : PyStr) (ms : List PyObj) : Text :=
  pyFormat (text "Multiple {} objects with name {}. Candidates are:" ++
    (ms.map fun x => pyFormat (text "\norigin={}, copy={},")
      [Text.ofNat x.origin, Text.ofNat x.copynumber]).flatten) [type.shown, name.shown]

/-- The choice among the matches in `LogicalFile.object`, file.py:592-611. -/
def explainPick (type name : PyStr) (origin copynr : Option Nat) : List PyObj → Except Refusal PyObj
  | [] => .error (.value (notFoundText type name origin copynr))
  | [o] => .ok o
  | o :: os =>
    if (o :: os).all fun x => x.attic.eq o.attic then .ok o
    else .error (.value (severalText type name (o :: os)))

/-- `LogicalFile.object`, file.py:552-611. -/
def Store.explainObject (e : Env) (s : Store) (type name : PyStr) (origin copynr : Option Nat) :
    Store × Except Refusal PyObj :=
  match s.find e .exact type (some name) with
  | (s, none) => (s, .error .handler)
  | (s, some ms) =>
    (s, explainPick type name origin copynr
      (filterBy (·.copynumber) copynr (filterBy (·.origin) origin ms)))

/-- `str(value)` of a reference, ext/dlis.cpp:801-807, 826-829 and 855-862; `none` if it raises.  The
id of a name, and the type in a reference to an attribute, are converted from `std::string` by
pybind11, a fingerprint like all other strings.  `other` is for values that are not references. -/
def Val.reprText (e : Env) (other : PyVal → Text) (c : Reprc) : Val → Option Text
  | .obname n => (utf8Decode n.id).map fun id =>
      pyFormat (text "dlisio.core.obname(id='{}', origin={}, copynum={})")
        [id, Text.ofNat n.origin, Text.ofNat n.copy]
  | .objref r => (fingerprint r.type r.name.id r.name.origin r.name.copy).map fun b =>
      pyFormat (text "dlisio.core.objref(fingerprint={})") [(e.dec b).shown]
  | .attref r =>
    match utf8Decode r.name.id, utf8Decode r.type with
    | some id, some type =>
      some (pyFormat (text "dlisio.core.attref(id='{}', origin={}, copynum={}, type={})")
        [id, Text.ofNat r.name.origin, Text.ofNat r.name.copy, type])
    | _, _ => none
  | v => some (other (.raw c v))

/-- The warning about a value that is not a reference of the expected kind, utils/linkage.py:22-23. -/
def strayNote (t : Text) : Note := (.warning, pyFormat (text "Unable to create object-reference to '{}'") [t])

/-- `lookup`, utils/linkage.py:16-31. -/
def Store.explainLookup (e : Env) (other : PyVal → Text) (s : Store) (ref : RefType) (c : Reprc) (v : Val) :
    Store × List Note × Except Refusal (Option PyObj) :=
  match ref.run e.dec v with
  | none =>
    match v.reprText e other c with
    | none => (s, [], .error .unwritable)
    | some t => (s, [strayNote t], .ok none)
  | some (n, t) =>
    match s.explainObject e t (e.dec n.id) (some n.origin) (some n.copy) with
    | (s, .ok o) => (s, [], .ok (some o))
    | (s, .error (.value x)) =>
      (s, [(.warning, pyFormat (text "Unable to find linked object: {}") [x])], .ok none)
    | (s, .error x) => (s, [], .error x)

/-- `lookup` for an element of a list, utils/linkage.py:16-31. -/
def explainVal (e : Env) (other : PyVal → Text) (s : Store) (ref : RefType) :
    PyVal → Store × List Note × Except Refusal (Option PyObj)
  | .raw c v => s.explainLookup e other ref c v
  | w => (s, [strayNote (other w)], .ok none)

/-- `[utils.lookup(lf, reftype, v) for v in rp66value]`, basicobject.py:227. -/
def explainAll (e : Env) (other : PyVal → Text) (ref : RefType) :
    List PyVal → Store → Store × List Note × Except Refusal (List PyVal)
  | [], s => (s, [], .ok [])
  | v :: vs, s =>
    match explainVal e other s ref v with
    | (s, ns, .error x) => (s, ns, .error x)
    | (s, ns, .ok o) =>
      match explainAll e other ref vs s with
      | (s, ms, .error x) => (s, ns ++ ms, .error x)
      | (s, ms, .ok rest) => (s, ns ++ ms, .ok (.obj o :: rest))

/-- What `parsevalue` warns of, utils/valuetypes.py:32, 35-36 and 48-49. -/
def countNotes (n : Nat) : ParseAs → List Note
  | .scalar | .boolean =>
    if n ≠ 1 then
      [(.warning, pyFormat (text "Expected only 1 value, found {}, using the first.") [Text.ofNat n])]
    else []
  | _ => []

/-- The last part of `__getitem__`, basicobject.py:225-231, for values that are not empty. -/
def explainFinish (e : Env) (other : PyVal → Text) (rules : Rules) (s : Store) (key : PyStr) (parse : ParseAs)
    (v : PyVal) (vs : List PyVal) : Store × List Note × Except Refusal PyResult :=
  match rules.linkage key, isReference v with
  | some ref, true =>
    match explainAll e other ref (v :: vs) s with
    | (s, ns, .error x) => (s, ns, .error x)
    | (s, ns, .ok []) => (s, ns, .ok (defaultValue parse))
    | (s, ns, .ok (w :: ws)) => (s, ns ++ countNotes (w :: ws).length parse, .ok (parseValue w ws parse))
  | _, _ => (s, countNotes (v :: vs).length parse, .ok (parseValue (stripVal v) (vs.map stripVal) parse))

/-- `BasicObject.__getitem__`, basicobject.py:171-231. -/
def explainItem (e : Env) (other : PyVal → Text) (rules : Rules) (s : Store) (o : BasicObject) (key : PyStr) :
    Store × List Note × Except Refusal PyResult :=
  if rules.attributes key = none ∧ key ∉ pyKeys e o then
    (s, [], .error (.key (pyFormat (text "'{}'") [key.shown])))
  else
    let parse := (rules.attributes key).getD .vector
    if o.log.any fun sev => !tellObject e o || e.policy sev then (s, [], .error .handler)
    else
      match attrAt key.toStd o.attributes with
      | none => (s, [], .ok (defaultValue parse))
      | some a =>
        match pyValues e.dec a with
        | none => (s, [], .error .date)
        | some vs =>
          if a.log.any fun sev => !tellObject e o || e.policy sev then (s, [], .error .handler)
          else
            match vs with
            | [] => (s, [], .ok (defaultValue parse))
            | v :: vs => explainFinish e other rules s key parse v vs

/-- `BasicObject.__repr__`, basicobject.py:167-169. -/
def Printer.object (p : Printer) (o : PyObj) : Text :=
  pyFormat (text "{}({})") [(p.capitalized o.type).1, p.str o.name]

/-- `str` of a list of objects. -/
def Printer.objects (p : Printer) (os : List PyObj) : Text :=
  text "[" ++ (List.intersperse (text ", ") (os.map p.object)).flatten ++ text "]"

/-- `fileheader`, file.py:409-426; `none` if the error handler raises. -/
def Store.explainHeader (e : Env) (p : Printer) (s : Store) : Store × List Note × Option (Option PyObj) :=
  match s.all e (.str (text "FILE-HEADER")) with
  | (s, none) => (s, [], none)
  | (s, some values) =>
    match values with
    | [o] => (s, [], some (some o))
    | _ => (s, [(.warning, pyFormat (text "Expected exactly one fileheader. Was: {}") [p.objects values])],
        some none)

/-- The warning of the constructor, file.py:356-361; `some none` if there is none, `none` if the text
raises.  (What `repr` logs before is in `explainHeader`.) -/
def LogFile.initNote (e : Env) (other : PyResult → Text) (g : LogFile) : Option (Option Note) :=
  let s : Store := { pool := g.sets, caching := true, cache := [] }
  if s.hasUpdate e then
    match s.fileRepr e with
    | (_, none) => none
    | (_, some desc) => some (some (.warning, pyFormat (text "{} contains UPDATE-object(s) which changes other " ++
        text "objects. dlisio lacks support for UPDATEs, hence the " ++
        text "data in this logical file might be wrongly presented.") [reprText other desc]))
  else some none

/-! ## Specification -/

/-- A number that was asked for, or that any will do. -/
def Spec.asked : Option Nat → Text
  | some n => Text.ofNat n
  | none => text "'any'"

/-- There is no such object. -/
def Spec.noObject (type name : PyStr) (origin copynr : Option Nat) : Text :=
  text "Object not found: type=" ++ type.shown ++ text ", name=" ++ name.shown ++ text ", origin=" ++
    Spec.asked origin ++ text ", copynumber=" ++ Spec.asked copynr

/-- There are several such objects: these. -/
def Spec.manyObjects (type name : PyStr) (os : List PyObj) : Text :=
  text "Multiple " ++ type.shown ++ text " objects with name " ++ name.shown ++ text ". Candidates are:" ++
    os.flatMap fun o => text "\norigin=" ++ Text.ofNat o.origin ++ text ", copy=" ++
      Text.ofNat o.copynumber ++ text ","

/-- Why there is not one object that is meant. -/
inductive Spec.LookupFault (e : Env) (p : List ObjectSet) (type name : PyStr) (origin copynr : Option Nat) :
    Text → Prop
  | missing : Spec.candidates e p type name origin copynr = [] →
      LookupFault e p type name origin copynr (Spec.noObject type name origin copynr)
  | several (os : List PyObj) : Spec.candidates e p type name origin copynr = os → 2 ≤ os.length →
      (∃ a ∈ os, ∃ b ∈ os, ¬ Spec.SameObject a.attic b.attic) →
      LookupFault e p type name origin copynr (Spec.manyObjects type name os)

/-- A reference as it is written down. -/
inductive Spec.WrittenAs (e : Env) : Val → Text → Prop
  | obname (n : _root_.Dlisio.Dlis.Obname) (id : Text) : utf8Decode n.id = some id →
      WrittenAs e (.obname n) (text "dlisio.core.obname(id='" ++ id ++ text "', origin=" ++
        Text.ofNat n.origin ++ text ", copynum=" ++ Text.ofNat n.copy ++ text ")")
  | objref (r : _root_.Dlisio.Dlis.Objref) (fp : Bytes) :
      Spec.Fingerprint r.type r.name.id r.name.origin r.name.copy fp →
      WrittenAs e (.objref r) (text "dlisio.core.objref(fingerprint=" ++ (e.dec fp).shown ++ text ")")
  | attref (r : _root_.Dlisio.Dlis.Attref) (id type : Text) : utf8Decode r.name.id = some id → utf8Decode r.type = some type →
      WrittenAs e (.attref r) (text "dlisio.core.attref(id='" ++ id ++ text "', origin=" ++
        Text.ofNat r.name.origin ++ text ", copynum=" ++ Text.ofNat r.name.copy ++ text ", type=" ++ type ++
        text ")")

/-- Why a reference is not resolved. -/
inductive Spec.RefFault (e : Env) (p : List ObjectSet) (ref : RefType) (v : Val) : Text → Prop
  | kind (w : Text) : Spec.target e ref v = none → Spec.WrittenAs e v w →
      RefFault e p ref v (text "Unable to create object-reference to '" ++ w ++ text "'")
  | object (t : PyStr) (n : _root_.Dlisio.Dlis.Obname) (x : Text) : Spec.target e ref v = some (t, n) →
      Spec.LookupFault e p t (e.dec n.id) (some n.origin) (some n.copy) x →
      RefFault e p ref v (text "Unable to find linked object: " ++ x)

/-- The references are resolved to these values, and about each of those that are not, one thing is
said, in order. -/
inductive Spec.Followed (e : Env) (p : List ObjectSet) (ref : RefType) :
    List Val → List PyVal → List Text → Prop
  | nil : Followed e p ref [] [] []
  | found {v vs ws ts} (o : PyObj) : Spec.Refers e p ref v (.obj (some o)) → Followed e p ref vs ws ts →
      Followed e p ref (v :: vs) (.obj (some o) :: ws) ts
  | lost {v vs ws ts} (t : Text) : Spec.RefFault e p ref v t → Followed e p ref vs ws ts →
      Followed e p ref (v :: vs) (.obj none :: ws) (t :: ts)

/-- What is said about the number of values: something if and only if one value is wanted and there are
several. -/
def Spec.TooMany (shape : ParseAs) (n : Nat) (ts : List Text) : Prop :=
  ((shape = .scalar ∨ shape = .boolean) ∧ 1 < n ∧
    ts = [text "Expected only 1 value, found " ++ Text.ofNat n ++ text ", using the first."]) ∨
  (¬ ((shape = .scalar ∨ shape = .boolean) ∧ 1 < n) ∧ ts = [])

/-- Something about the file headers: their names. -/
def Spec.headersText (p : Printer) (os : List PyObj) : Text :=
  text "Expected exactly one fileheader. Was: [" ++
    (List.intersperse (text ", ") (os.map fun o =>
      (p.capitalized o.type).1 ++ text "(" ++ p.str o.name ++ text ")")).flatten ++ text "]"

/-! ## Lemmas -/

/-- For equations of formatted texts. -/
macro "formatted" : tactic => `(tactic| (simp only [List.append_assoc, text, literalChars]; rfl))

theorem notFoundText_eq (type name : PyStr) (origin copynr : Option Nat) :
    notFoundText type name origin copynr = Spec.noObject type name origin copynr := by
  have ha : ∀ o, orAny o = Spec.asked o := by intro o; cases o <;> rfl
  unfold notFoundText Spec.noObject
  rw [ha, ha]
  generalize type.shown = a
  generalize name.shown = b
  generalize Spec.asked origin = c
  generalize Spec.asked copynr = d
  have h : ∀ d : Text, pyFormat (text "Object not found: type={}, name={}, origin={}, copynumber={}") [a, b, c, d] =
    text "Object not found: type=" ++ a ++ text ", name=" ++ b ++ text ", origin=" ++ c ++
      text ", copynumber=" ++ (d ++ []) := by intro d; formatted
  rw [h, List.append_nil]

theorem pyFormat_plain (t : Text) (ht : 123 ∉ t) (as : List Text) : pyFormat t as = t := by
  induction t with
  | nil => rfl
  | cons c t ih =>
    have hc : c ≠ 123 := fun h => ht (by simp [h])
    have : pyFormat (c :: t) as = c :: pyFormat t as := by
      rw [pyFormat]
      intro _ _ _ _ h
      exact absurd h hc
    rw [this, ih fun h => ht (by simp [h])]

theorem num_no_brace (n : Nat) : 123 ∉ Text.ofNat n := by
  intro h
  obtain ⟨b, hb, h⟩ := List.mem_map.1 h
  have := ((toDecimal_spec n).1 b hb).2
  bv_omega

theorem severalText_eq (type name : PyStr) (os : List PyObj) :
    severalText type name os = Spec.manyObjects type name os := by
  unfold severalText Spec.manyObjects
  generalize type.shown = a
  generalize name.shown = b
  have h1 : ∀ x : PyObj, pyFormat (text "\norigin={}, copy={},") [Text.ofNat x.origin, Text.ofNat x.copynumber] =
      text "\norigin=" ++ Text.ofNat x.origin ++ text ", copy=" ++ Text.ofNat x.copynumber ++ text "," := by
    intro x
    generalize Text.ofNat x.origin = a
    generalize Text.ofNat x.copynumber = b
    formatted
  have h2 : ∀ t : Text, pyFormat (text "Multiple {} objects with name {}. Candidates are:" ++ t) [a, b] =
      text "Multiple " ++ a ++ text " objects with name " ++ b ++ text ". Candidates are:" ++ pyFormat t [] := by
    intro t; formatted
  simp only [h1, h2, List.flatMap_def]
  congr 1
  apply pyFormat_plain
  intro h
  rw [List.mem_flatten] at h
  obtain ⟨l, hl, h⟩ := h
  obtain ⟨x, -, rfl⟩ := List.mem_map.1 hl
  simp only [List.mem_append] at h
  have hn1 := num_no_brace x.origin
  have hn2 := num_no_brace x.copynumber
  have k1 : 123 ∉ text "\norigin=" := by simp only [text, literalChars]; decide
  have k2 : 123 ∉ text ", copy=" := by simp only [text, literalChars]; decide
  have k3 : 123 ∉ text "," := by simp only [text, literalChars]; decide
  tauto

theorem all_eq_iff (o : PyObj) (os : List PyObj) : ((o :: os).all fun x => x.attic.eq o.attic) = true ↔
    ∀ a ∈ o :: os, ∀ b ∈ o :: os, Spec.SameObject a.attic b.attic := by
  rw [List.all_eq_true]
  simp only [objectEq_iff]
  constructor
  · intro h a ha b hb
    exact sameObject_trans _ _ _ (h a ha) (sameObject_symm _ _ (h b hb))
  · intro h a ha
    exact h a ha o (by simp)

theorem explainPick_resolved (type name : PyStr) (origin copynr : Option Nat) (ms : List PyObj) :
    (match explainPick type name origin copynr ms with
      | .ok o => Resolved.object o
      | .error (.value _) => .nothing
      | .error _ => .raised) = (pickOne ms).resolved := by
  match ms with
  | [] => rfl
  | [_] => rfl
  | o :: o' :: os =>
    simp only [explainPick, pickOne]
    by_cases h : ((o :: o' :: os).all fun x => x.attic.eq o.attic) = true
    · rw [if_pos h, if_pos h]; rfl
    · rw [if_neg h, if_neg h]; rfl

theorem explainPick_fault (e : Env) (p : List ObjectSet) (type name : PyStr) (origin copynr : Option Nat)
    (t : Text) : explainPick type name origin copynr (Spec.candidates e p type name origin copynr) =
      .error (.value t) ↔ Spec.LookupFault e p type name origin copynr t := by
  constructor
  · intro h
    generalize hc : Spec.candidates e p type name origin copynr = l at h
    match l, h with
    | [], h =>
      simp only [explainPick, notFoundText_eq] at h
      cases h
      exact .missing hc
    | o :: o' :: os, h =>
      simp only [explainPick, severalText_eq] at h
      split at h
      · cases h
      · rename_i hn
        cases h
        refine .several _ hc (by simp) ?_
        rw [all_eq_iff] at hn
        push Not at hn
        exact hn
  · intro h
    cases h with
    | missing hc => rw [hc, ← notFoundText_eq]; rfl
    | several os hc hl hd =>
      rw [hc]
      match os, hl with
      | o :: o' :: os, _ =>
        simp only [explainPick, ← severalText_eq]
        rw [if_neg]
        rw [all_eq_iff]
        push Not
        exact hd

/-- The run of `explainObject`. -/
theorem explainObject_spec (e : Env) (p : List ObjectSet) (hf : Spec.Fresh p)
    (hist : List Spec.StoreOp) (type name : PyStr) (ht : Spec.Stable e type)
    (hn : Spec.Stable e name) (hne : name.isEmpty = false) (origin copynr : Option Nat)
    (hr : Spec.raises e .exact type p = false) :
    ((Spec.after e p hist).explainObject e type name origin copynr).2 =
      explainPick type name origin copynr (Spec.candidates e p type name origin copynr) := by
  have h := c34_exact_partial e p hf hist type name ht hn hne
  unfold Store.explainObject
  rcases hq : (Spec.after e p hist).find e .exact type (some name) with ⟨s, r⟩
  rw [hq] at h
  simp only at h
  unfold Spec.answer at h
  rw [hr] at h
  simp only [Bool.false_eq_true, if_false] at h
  rw [h]
  simp only [candidates_eq e p hf]

/-! ## Erasure -/

/-- What is left of an exception. -/
def Refusal.plain : Refusal → AccessErr
  | .key _ => .key
  | .date => .date
  | _ => .handler

theorem explainObject_plain (e : Env) (s : Store) (type name : PyStr) (origin copynr : Option Nat) :
    (s.explainObject e type name origin copynr).1 = (s.object e type name origin copynr).1 ∧
    (match (s.explainObject e type name origin copynr).2 with
      | .ok o => Resolved.object o
      | .error (.value _) => .nothing
      | .error _ => .raised) = (s.object e type name origin copynr).2.resolved := by
  unfold Store.explainObject Store.object
  generalize s.find e .exact type (some name) = q
  obtain ⟨s', r⟩ := q
  cases r with
  | none => exact ⟨rfl, rfl⟩
  | some ms => exact ⟨rfl, explainPick_resolved _ _ _ _ _⟩

theorem reprText_isSome (e : Env) (other : PyVal → Text) (c : Reprc) (v : Val) :
    (v.reprText e other c).isSome = v.reprOk := by
  cases v with
  | obname n => simp [Val.reprText, Val.reprOk]
  | objref r => simp [Val.reprText, Val.reprOk]
  | attref r =>
    simp only [Val.reprText, Val.reprOk]
    cases utf8Decode r.name.id <;> cases utf8Decode r.type <;> rfl
  | _ => rfl

theorem explainLookup_plain (e : Env) (other : PyVal → Text) (s : Store) (ref : RefType) (c : Reprc) (v : Val) :
    ((s.explainLookup e other ref c v).1,
      match (s.explainLookup e other ref c v).2.2 with
      | .ok (some o) => Resolved.object o
      | .ok none => .nothing
      | .error _ => .raised) = s.lookup e ref v := by
  unfold Store.explainLookup Store.lookup
  cases ref.run e.dec v with
  | none =>
    have h := reprText_isSome e other c v
    cases hr : v.reprText e other c with
    | none => rw [hr] at h; simp [← h]
    | some t => rw [hr] at h; simp [← h]
  | some nt =>
    obtain ⟨n, t⟩ := nt
    dsimp only
    obtain ⟨h1, h2⟩ := explainObject_plain e s t (e.dec n.id) (some n.origin) (some n.copy)
    rw [← h1, ← h2]
    generalize s.explainObject e t (e.dec n.id) (some n.origin) (some n.copy) = q
    obtain ⟨s', r⟩ := q
    cases r with
    | ok o => rfl
    | error x => cases x <;> rfl

theorem explainAll_plain (e : Env) (other : PyVal → Text) (ref : RefType) (vs : List PyVal) (s : Store) :
    ((explainAll e other ref vs s).1,
      match (explainAll e other ref vs s).2.2 with
      | .ok ws => some ws
      | .error _ => none) = lookupAll e ref vs s := by
  induction vs generalizing s with
  | nil => rfl
  | cons v vs ih =>
    have hv : ((explainVal e other s ref v).1, match (explainVal e other s ref v).2.2 with
        | .ok (some o) => Resolved.object o
        | .ok none => .nothing
        | .error _ => .raised) = lookupVal e s ref v := by
      cases v with
      | raw c v => exact explainLookup_plain e other s ref c v
      | str _ => rfl
      | obj _ => rfl
    unfold explainAll lookupAll
    rw [← hv]
    generalize explainVal e other s ref v = q
    obtain ⟨s', ns, r⟩ := q
    cases r with
    | error x => rfl
    | ok o =>
      have := ih s'
      cases o with
      | none =>
        dsimp only
        rw [← this]
        generalize explainAll e other ref vs s' = q
        obtain ⟨s'', ms, r⟩ := q
        cases r <;> rfl
      | some o =>
        dsimp only
        rw [← this]
        generalize explainAll e other ref vs s' = q
        obtain ⟨s'', ms, r⟩ := q
        cases r <;> rfl

theorem explainLookup_error {e : Env} {other : PyVal → Text} {s : Store} {ref : RefType} {c : Reprc} {v : Val}
    {x : Refusal} (h : (s.explainLookup e other ref c v).2.2 = .error x) : x = .handler ∨ x = .unwritable := by
  unfold Store.explainLookup at h
  cases hrun : ref.run e.dec v with
  | none =>
    rw [hrun] at h
    cases hr : v.reprText e other c with
    | none => rw [hr] at h; cases h; exact .inr rfl
    | some t => rw [hr] at h; cases h
  | some nt =>
    obtain ⟨n, t⟩ := nt
    rw [hrun] at h
    dsimp only at h
    have ho : ∀ y, (s.explainObject e t (e.dec n.id) (some n.origin) (some n.copy)).2 = .error y →
        y = .handler ∨ ∃ w, y = .value w := by
      intro y hy
      unfold Store.explainObject at hy
      generalize s.find e .exact t (some (e.dec n.id)) = q at hy
      obtain ⟨s', r⟩ := q
      cases r with
      | none => cases hy; exact .inl rfl
      | some ms =>
        dsimp only at hy
        generalize filterBy _ _ _ = l at hy
        match l, hy with
        | [], hy => cases hy; exact .inr ⟨_, rfl⟩
        | _ :: _ :: _, hy =>
          simp only [explainPick] at hy
          split at hy
          · cases hy
          · cases hy; exact .inr ⟨_, rfl⟩
    generalize s.explainObject e t (e.dec n.id) (some n.origin) (some n.copy) = q at h ho
    obtain ⟨s', r⟩ := q
    cases r with
    | ok o => cases h
    | error y =>
      rcases ho y rfl with rfl | ⟨w, rfl⟩
      · cases h; exact .inl rfl
      · cases h

theorem explainAll_error {e : Env} {other : PyVal → Text} {ref : RefType} {vs : List PyVal} {s : Store}
    {x : Refusal} (h : (explainAll e other ref vs s).2.2 = .error x) : x = .handler ∨ x = .unwritable := by
  induction vs generalizing s with
  | nil => cases h
  | cons v vs ih =>
    unfold explainAll at h
    have hv : ∀ y, (explainVal e other s ref v).2.2 = .error y → y = .handler ∨ y = .unwritable := by
      intro y hy
      cases v with
      | raw c v => exact explainLookup_error hy
      | str _ => cases hy
      | obj _ => cases hy
    generalize explainVal e other s ref v = q at h hv
    obtain ⟨s', ns, r⟩ := q
    cases r with
    | error y => cases h; exact hv _ rfl
    | ok o =>
      dsimp only at h
      have := ih (s := s')
      generalize explainAll e other ref vs s' = q at h this
      obtain ⟨s'', ms, r⟩ := q
      cases r with
      | error y => cases h; exact this rfl
      | ok ws => cases h

theorem explainFinish_plain (e : Env) (other : PyVal → Text) (rules : Rules) (s : Store) (key : PyStr)
    (parse : ParseAs) (v : PyVal) (vs : List PyVal) :
    finishValue e rules s key parse v vs = ((explainFinish e other rules s key parse v vs).1,
      match (explainFinish e other rules s key parse v vs).2.2 with
      | .ok r => .ok r
      | .error x => .error x.plain) := by
  unfold finishValue explainFinish
  cases rules.linkage key with
  | none => rfl
  | some ref =>
    cases isReference v with
    | false => rfl
    | true =>
      dsimp only
      rw [← explainAll_plain e other]
      have he := fun x => @explainAll_error e other ref (v :: vs) s x
      generalize explainAll e other ref (v :: vs) s = q at he
      obtain ⟨s', ns, r⟩ := q
      cases r with
      | error x => rcases he x rfl with rfl | rfl <;> rfl
      | ok ws => cases ws <;> rfl

/-- **C94** (model).  With what is said, an access gives what it gives without (C35). -/
theorem c94_plain (e : Env) (other : PyVal → Text) (rules : Rules) (s : Store) (o : BasicObject) (key : PyStr) :
    getItem e rules s o key = ((explainItem e other rules s o key).1,
      match (explainItem e other rules s o key).2.2 with
      | .ok r => .ok r
      | .error x => .error x.plain) := by
  unfold getItem explainItem
  split
  · rfl
  dsimp only
  split
  · rfl
  cases attrAt key.toStd o.attributes with
  | none => rfl
  | some a =>
    dsimp only
    cases pyValues e.dec a with
    | none => rfl
    | some vs =>
      dsimp only
      split
      · rfl
      cases vs with
      | nil => rfl
      | cons v vs => exact explainFinish_plain e other rules s key _ v vs

/-! ## C94 -/

/-- **C94** (objects).  After any history, that an object is not found is said if and only if there is
none that meets the criteria, and that there are several if and only if there are, and they are not all
equal; it is said which.  Nothing else is said.  The name must not be empty. -/
theorem c94_object_partial (e : Env) (p : List ObjectSet) (hf : Spec.Fresh p)
    (hist : List Spec.StoreOp) (type name : PyStr) (ht : Spec.Stable e type)
    (hn : Spec.Stable e name) (hne : name.isEmpty = false) (origin copynr : Option Nat)
    (hr : Spec.raises e .exact type p = false) :
    let res := ((Spec.after e p hist).explainObject e type name origin copynr).2
    (∀ t, res = .error (.value t) ↔ Spec.LookupFault e p type name origin copynr t) ∧
    ((∀ t, ¬ Spec.LookupFault e p type name origin copynr t) →
      ∃ o os, res = .ok o ∧ Spec.candidates e p type name origin copynr = o :: os) := by
  intro res
  have hres : res = _ := explainObject_spec e p hf hist type name ht hn hne origin copynr hr
  rw [hres]
  refine ⟨explainPick_fault e p type name origin copynr, ?_⟩
  intro h
  have h' := fun t => (not_congr (explainPick_fault e p type name origin copynr t)).2 (h t)
  generalize Spec.candidates e p type name origin copynr = l at h'
  match l, h' with
  | [], h' => exact absurd rfl (h' _)
  | [o], _ => exact ⟨o, [], rfl, rfl⟩
  | o :: o' :: os, h' =>
    simp only [explainPick] at h' ⊢
    split
    · exact ⟨o, _, rfl, rfl⟩
    · rename_i hc
      rw [if_neg hc] at h'
      exact absurd rfl (h' _)

theorem reprText_eq {e : Env} (other : PyVal → Text) (c : Reprc) {v : Val}
    (hv : (∃ n, v = .obname n) ∨ (∃ r, v = .objref r) ∨ ∃ t, v = .attref t) (hw : Spec.Writable v) :
    ∃ t, v.reprText e other c = some t ∧ Spec.WrittenAs e v t := by
  rcases hv with ⟨n, rfl⟩ | ⟨r, rfl⟩ | ⟨r, rfl⟩
  · obtain ⟨id, hid⟩ := hw
    refine ⟨_, ?_, .obname n id hid⟩
    simp only [Val.reprText, hid, Option.map_some, Option.some.injEq]
    generalize Text.ofNat n.origin = a
    generalize Text.ofNat n.copy = b
    formatted
  · have hfp := fingerprint_eq r.type r.name.id r.name.origin r.name.copy hw
    refine ⟨_, ?_, .objref r _ ⟨_, _, toDecimal_canonical _, toDecimal_canonical _, rfl⟩⟩
    simp only [Val.reprText, hfp, Option.map_some, Option.some.injEq]
    generalize PyStr.shown _ = a
    formatted
  · obtain ⟨⟨id, hid⟩, type, hty⟩ := hw
    refine ⟨_, ?_, .attref r id type hid hty⟩
    simp only [Val.reprText, hid, hty, Option.some.injEq]
    generalize Text.ofNat r.name.origin = a
    generalize Text.ofNat r.name.copy = b
    formatted

theorem explainLookup_spec {e : Env} (other : PyVal → Text) {p : List ObjectSet} (hf : Spec.Fresh p)
    (ref : RefType) (c : Reprc) (v : Val)
    (hv : (∃ n, v = .obname n) ∨ (∃ r, v = .objref r) ∨ ∃ t, v = .attref t)
    (hok : Spec.RefsOk e p ref [v]) (hist : List Spec.StoreOp) :
    ∃ ts x, (Spec.after e p hist).explainLookup e other ref c v =
        (Spec.after e p (hist ++ [.lookup ref v]), ts.map fun t => (.warning, t), .ok x) ∧
      ((∃ o, x = some o ∧ ts = [] ∧ Spec.Refers e p ref v (.obj (some o))) ∨
       (x = none ∧ ∃ t, ts = [t] ∧ Spec.RefFault e p ref v t)) := by
  have hs : ((Spec.after e p hist).explainLookup e other ref c v).1 =
      Spec.after e p (hist ++ [.lookup ref v]) := by
    rw [show ((Spec.after e p hist).explainLookup e other ref c v).1 = ((Spec.after e p hist).lookup e ref v).1 by
      rw [← explainLookup_plain e other _ ref c v]]
    simp [Spec.after, Spec.StoreOp.run]
  have hpl := explainLookup_plain e other (Spec.after e p hist) ref c v
  obtain ⟨r, hr, g1, g2, g3⟩ := lookup_refers hf ref v hok
  suffices h : ∃ ts x, ((Spec.after e p hist).explainLookup e other ref c v).2 =
        (ts.map fun t => (.warning, t), .ok x) ∧
      ((∃ o, x = some o ∧ ts = [] ∧ Spec.Refers e p ref v (.obj (some o))) ∨
       (x = none ∧ ∃ t, ts = [t] ∧ Spec.RefFault e p ref v t)) by
    obtain ⟨ts, x, h1, h2⟩ := h
    exact ⟨ts, x, Prod.ext hs h1, h2⟩
  cases ht : Spec.target e ref v with
  | none =>
    have hrun : ref.run e.dec v = none := by
      cases ref <;> cases v <;> simp_all [Spec.target, RefType.run]
    obtain ⟨w, hw1, hw2⟩ := reprText_eq (e := e) other c hv ((hok v (by simp)).2 ht)
    refine ⟨[_], none, ?_, .inr ⟨rfl, _, rfl, .kind w ht hw2⟩⟩
    unfold Store.explainLookup
    simp only [hrun, hw1, strayNote, List.map_cons, List.map_nil, Prod.mk.injEq, List.cons.injEq, true_and,
      and_true]
    formatted
  | some tn =>
    obtain ⟨t, n⟩ := tn
    obtain ⟨hst, hsn, hne, hra⟩ := (hok v (by simp)).1 t n ht
    have hrun : ref.run e.dec v = some (n, t) := by
      cases ref <;> cases v <;> simp_all [Spec.target, RefType.run]
    obtain ⟨k1, k2⟩ := c94_object_partial e p hf hist t (e.dec n.id) hst hsn hne (some n.origin) (some n.copy) hra
    have hlk := g1 hist
    rw [← hpl] at hlk
    dsimp only at hlk
    unfold Store.explainLookup at hlk ⊢
    simp only [hrun] at hlk ⊢
    generalize (Spec.after e p hist).explainObject e t (e.dec n.id) (some n.origin) (some n.copy) = q at k1 k2 hlk ⊢
    obtain ⟨s', y⟩ := q
    cases y with
    | ok o => exact ⟨[], some o, rfl, .inl ⟨o, rfl, rfl, g3 o hlk.symm⟩⟩
    | error y =>
      cases y with
      | value x =>
        refine ⟨[_], none, ?_, .inr ⟨rfl, _, rfl, .object t n x ht ((k1 x).1 rfl)⟩⟩
        simp only [List.map_cons, List.map_nil, Prod.mk.injEq, List.cons.injEq, true_and, and_true]
        have h : ∀ x : Text, pyFormat (text "Unable to find linked object: {}") [x] =
            text "Unable to find linked object: " ++ (x ++ []) := by intro x; formatted
        rw [h, List.append_nil]
      | key _ => exact absurd hlk.symm hr
      | handler => exact absurd hlk.symm hr
      | date => exact absurd hlk.symm hr
      | unwritable => exact absurd hlk.symm hr

/-- **C94** (references).  After any history, a reference is resolved and nothing is said, or there is one
warning that says why it is not: that it is of another kind than expected, or that there is no such
object, or several that differ. -/
theorem c94_lookup_partial (e : Env) (other : PyVal → Text) (p : List ObjectSet) (hf : Spec.Fresh p)
    (ref : RefType) (c : Reprc) (v : Val)
    (hv : (∃ n, v = .obname n) ∨ (∃ r, v = .objref r) ∨ ∃ t, v = .attref t)
    (hok : Spec.RefsOk e p ref [v]) (hist : List Spec.StoreOp) :
    let res := ((Spec.after e p hist).explainLookup e other ref c v).2
    (∃ o, res = ([], .ok (some o)) ∧ Spec.Refers e p ref v (.obj (some o))) ∨
    ∃ t, res = ([(.warning, t)], .ok none) ∧ Spec.RefFault e p ref v t := by
  obtain ⟨ts, x, h1, h2⟩ := explainLookup_spec other hf ref c v hv hok hist
  intro res
  have hres : res = _ := congrArg Prod.snd h1
  rw [hres]
  rcases h2 with ⟨o, rfl, rfl, h⟩ | ⟨rfl, t, rfl, h⟩
  · exact .inl ⟨o, rfl, h⟩
  · exact .inr ⟨t, rfl, h⟩

theorem explainAll_followed {e : Env} (other : PyVal → Text) {p : List ObjectSet} (hf : Spec.Fresh p)
    (ref : RefType) (c : Reprc) (vs : List Val)
    (hv : ∀ v ∈ vs, (∃ n, v = .obname n) ∨ (∃ r, v = .objref r) ∨ ∃ t, v = .attref t)
    (hok : Spec.RefsOk e p ref vs) (hist : List Spec.StoreOp) :
    ∃ ws ts, (explainAll e other ref (vs.map (.raw c)) (Spec.after e p hist)).2 =
        (ts.map fun t => (.warning, t), .ok ws) ∧ Spec.Followed e p ref vs ws ts ∧ ws.length = vs.length := by
  induction vs generalizing hist with
  | nil => exact ⟨[], [], rfl, .nil, rfl⟩
  | cons v vs ih =>
    obtain ⟨ts, x, h1, h2⟩ := explainLookup_spec other hf ref c v (hv v (by simp))
      (fun y hy => hok y (by rw [List.mem_singleton.1 hy]; simp)) hist
    obtain ⟨ws, us, k1, k2, k3⟩ := ih (fun y hy => hv y (List.mem_cons_of_mem _ hy))
      (fun y hy => hok y (List.mem_cons_of_mem _ hy)) (hist ++ [.lookup ref v])
    refine ⟨.obj x :: ws, ts ++ us, ?_, ?_, by simp [k3]⟩
    · rw [List.map_cons]
      unfold explainAll explainVal
      simp only [h1]
      generalize explainAll e other ref (vs.map (.raw c)) (Spec.after e p (hist ++ [.lookup ref v])) = q at k1
      obtain ⟨s', r⟩ := q
      simp only at k1
      subst k1
      simp
    · rcases h2 with ⟨o, rfl, rfl, h⟩ | ⟨rfl, t, rfl, h⟩
      · exact .found o h k2
      · exact .lost t h k2

/-- C94: if a reference cannot be followed because something is raised, then what was said about those
before it has been said, in their order, and nothing is said about those after it. -/
theorem c94_stopped (e : Env) (other : PyVal → Text) (p : List ObjectSet) (hf : Spec.Fresh p)
    (ref : RefType) (c : Reprc) (pre : List Val)
    (hv : ∀ v ∈ pre, (∃ n, v = .obname n) ∨ (∃ r, v = .objref r) ∨ ∃ t, v = .attref t)
    (hok : Spec.RefsOk e p ref pre) (v : Val) (post : List PyVal) (ns : List Note) (x : Refusal)
    (hx : ∀ hist, ((Spec.after e p hist).explainLookup e other ref c v).2 = (ns, .error x))
    (hist : List Spec.StoreOp) :
    ∃ ws ts, Spec.Followed e p ref pre ws ts ∧
      (explainAll e other ref (pre.map (.raw c) ++ .raw c v :: post) (Spec.after e p hist)).2 =
        (ts.map (fun t => (.warning, t)) ++ ns, .error x) := by
  induction pre generalizing hist with
  | nil =>
    refine ⟨[], [], .nil, ?_⟩
    have := hx hist
    simp only [List.map_nil, List.nil_append]
    unfold explainAll explainVal
    rcases hq : (Spec.after e p hist).explainLookup e other ref c v with ⟨s', r⟩
    rw [hq] at this
    simp only at this
    subst this
    simp only [hq]
  | cons w pre ih =>
    obtain ⟨ts, y, h1, h2⟩ := explainLookup_spec other hf ref c w (hv w (by simp))
      (fun y hy => hok y (by rw [List.mem_singleton.1 hy]; simp)) hist
    obtain ⟨ws, us, k2, k1⟩ := ih (fun y hy => hv y (List.mem_cons_of_mem _ hy))
      (fun y hy => hok y (List.mem_cons_of_mem _ hy)) (hist ++ [.lookup ref w])
    refine ⟨.obj y :: ws, ts ++ us, ?_, ?_⟩
    · rcases h2 with ⟨o, rfl, rfl, h⟩ | ⟨rfl, t, rfl, h⟩
      · exact .found o h k2
      · exact .lost t h k2
    · rw [List.map_cons, List.cons_append]
      unfold explainAll explainVal
      simp only [h1]
      generalize explainAll e other ref (pre.map (.raw c) ++ .raw c v :: post)
        (Spec.after e p (hist ++ [.lookup ref w])) = q at k1
      obtain ⟨s', r⟩ := q
      simp only at k1
      subst k1
      simp

theorem countNotes_spec (n : Nat) (hn : 0 < n) (shape : ParseAs) :
    ∃ us, countNotes n shape = us.map (fun t => (.warning, t)) ∧ Spec.TooMany shape n us := by
  have h : ∀ x : Text, pyFormat (text "Expected only 1 value, found {}, using the first.") [x] =
      text "Expected only 1 value, found " ++ x ++ text ", using the first." := by intro x; formatted
  have key : ∀ s, (s = ParseAs.scalar ∨ s = .boolean) → ∃ us, (if n ≠ 1 then
      [(Level.warning, pyFormat (text "Expected only 1 value, found {}, using the first.") [Text.ofNat n])]
    else []) = us.map (fun t => (.warning, t)) ∧ Spec.TooMany s n us := by
    intro s hs
    by_cases h1 : n = 1
    · exact ⟨[], by simp [h1], .inr ⟨by omega, rfl⟩⟩
    · refine ⟨[_], ?_, .inl ⟨hs, by omega, rfl⟩⟩
      rw [if_pos h1, h]
      rfl
  cases shape with
  | scalar => exact key _ (.inl rfl)
  | boolean => exact key _ (.inr rfl)
  | vector => exact ⟨[], rfl, .inr ⟨by simp, rfl⟩⟩
  | reverse => exact ⟨[], rfl, .inr ⟨by simp, rfl⟩⟩

/-- The run of `explainItem` for an attribute that is there. -/
theorem explainItem_present {e : Env} (other : PyVal → Text) {rules : Rules} {s : Store} {o : BasicObject}
    {a : ObjAttr} (hl : Spec.LabelsOk e o) (ha : a ∈ o.attributes) (hq : Spec.Quiet e o o.log)
    (hqa : Spec.Quiet e o a.log) {ws : List PyVal} (hv : pyValues e.dec a = some ws) :
    explainItem e other rules s o (e.dec a.label) =
      match ws with
      | [] => (s, [], .ok (defaultValue (Spec.parsing rules (e.dec a.label))))
      | w :: ws => explainFinish e other rules s (e.dec a.label)
          (Spec.parsing rules (e.dec a.label)) w ws := by
  have hat : attrAt (e.dec a.label).toStd o.attributes = some a := by
    rw [hl.2 a ha]; exact attrAt_of_mem hl.1 ha
  unfold explainItem
  rw [if_neg (by
    rintro ⟨_, h⟩
    exact h (List.mem_map.2 ⟨a, ha, rfl⟩))]
  simp only [quiet_any hq, quiet_any hqa, hat, hv, parsing_eq, Bool.false_eq_true, if_false]
  cases ws <;> rfl

/-- **C94** (labels).  An access to a label fails with the label in quotes if and only if there is no rule
for it, and no attribute of that label; then nothing is logged. -/
theorem c94_key (e : Env) (other : PyVal → Text) (rules : Rules) (s : Store) (o : BasicObject) (key : PyStr) (t : Text) :
    (explainItem e other rules s o key).2 = ([], .error (.key t)) ↔
      (rules.attributes key = none ∧ ∀ a ∈ o.attributes, e.dec a.label ≠ key) ∧
        t = text "'" ++ key.shown ++ text "'" := by
  have hfmt : ∀ x : Text, pyFormat (text "'{}'") [x] = text "'" ++ x ++ text "'" := by
    intro x; formatted
  rw [← c35_key_error e rules s o key]
  constructor
  · intro h
    refine ⟨by rw [c94_plain e other rules s o key, h]; rfl, ?_⟩
    have hk : rules.attributes key = none ∧ key ∉ pyKeys e o := by
      have := (c35_key_error e rules s o key).1 (by rw [c94_plain e other rules s o key, h]; rfl)
      exact ⟨this.1, by simpa [pyKeys] using this.2⟩
    unfold explainItem at h
    rw [if_pos hk] at h
    simp only [hfmt, Prod.mk.injEq, true_and, Except.error.injEq, Refusal.key.injEq] at h
    exact h.symm
  · rintro ⟨h, rfl⟩
    have := (c35_key_error e rules s o key).1 h
    unfold explainItem
    rw [if_pos ⟨this.1, by simpa [pyKeys] using this.2⟩, hfmt]

/-- **C94** (missing values).  Nothing is logged if an attribute is missing, or has no value. -/
theorem c94_missing_partial (e : Env) (other : PyVal → Text) (rules : Rules) (s : Store) (o : BasicObject) :
    (∀ key p, rules.attributes key = some p → (∀ a ∈ o.attributes, a.label ≠ key.toStd) →
      Spec.Quiet e o o.log → ∃ r, explainItem e other rules s o key = (s, [], .ok r) ∧ Spec.Missing p r) ∧
    ∀ a ∈ o.attributes, Spec.LabelsOk e o → Spec.Quiet e o o.log → Spec.Quiet e o a.log →
      (a.value = none ∨ ∃ c, a.value = some (c, [])) →
      ∃ r, explainItem e other rules s o (e.dec a.label) = (s, [], .ok r) ∧
        Spec.Missing (Spec.parsing rules (e.dec a.label)) r := by
  constructor
  · intro key p hp ha hq
    have hat : attrAt key.toStd o.attributes = none := by
      unfold attrAt
      rw [List.find?_eq_none]
      intro a h
      simpa using ha a h
    refine ⟨defaultValue p, ?_, default_spec p⟩
    unfold explainItem
    rw [if_neg (by rw [hp]; simp)]
    simp only [quiet_any hq, hat, hp, Option.getD_some, Bool.false_eq_true, if_false]
  · intro a ha hl hq hqa hv
    have : pyValues e.dec a = some [] := by
      rcases hv with h | ⟨c, h⟩ <;> simp [pyValues, h, toPyList]
    exact ⟨_, explainItem_present other hl ha hq hqa this, default_spec _⟩

/-- **C94** (values).  If the values of an attribute are no references or are not linked, there is one
warning if one value is wanted and there are more, with their number, and none otherwise. -/
theorem c94_value_partial (e : Env) (other : PyVal → Text) (rules : Rules) (s : Store) (o : BasicObject) (a : ObjAttr)
    (hl : Spec.LabelsOk e o) (ha : a ∈ o.attributes) (hq : Spec.Quiet e o o.log)
    (hqa : Spec.Quiet e o a.log) (c : Reprc) (vs : List Val) (hv : a.value = some (c, vs))
    (hne : vs ≠ []) (hd : Spec.DatesOk vs)
    (hlink : rules.linkage (e.dec a.label) = none ∨
      ∀ v ∈ vs.head?, (∀ n, v ≠ .obname n) ∧ (∀ r, v ≠ .objref r) ∧ ∀ t, v ≠ .attref t) :
    ∃ ws r us, explainItem e other rules s o (e.dec a.label) = (s, us.map fun t => (.warning, t), .ok r) ∧
      List.Forall₂ (Spec.Shown e c) vs ws ∧ Spec.Presented (Spec.parsing rules (e.dec a.label)) ws r ∧
      Spec.TooMany (Spec.parsing rules (e.dec a.label)) vs.length us := by
  obtain ⟨ws, r, h1, h2, h3⟩ := c35_value_partial e rules s o a hl ha hq hqa c vs hv hne hd hlink
  obtain ⟨us', hu, hu2⟩ := toPyList_some (e := e) (c := c) vs hd
  have hp : pyValues e.dec a = some us' := by simp [pyValues, hv, hu]
  obtain ⟨us, g1, g2⟩ := countNotes_spec vs.length (List.length_pos_iff.2 hne) (Spec.parsing rules (e.dec a.label))
  refine ⟨ws, r, us, ?_, h2, h3, g2⟩
  have hpl := c94_plain e other rules s o (e.dec a.label)
  rw [h1] at hpl
  have hnotes : (explainItem e other rules s o (e.dec a.label)).2.1 = us.map fun t => (.warning, t) := by
    rw [explainItem_present other hl ha hq hqa hp, ← g1, hu2.length_eq]
    cases hu2 with
    | nil => exact absurd rfl hne
    | @cons v u vs us' hu' hus =>
      dsimp only
      unfold explainFinish
      have : rules.linkage (e.dec a.label) = none ∨ isReference u = false := by
        rcases hlink with h | h
        · exact Or.inl h
        · right
          have hh := h v rfl
          cases v with
          | obname n => exact absurd rfl (hh.1 n)
          | objref r => exact absurd rfl (hh.2.1 r)
          | attref t => exact absurd rfl (hh.2.2 t)
          | dtime t =>
            simp only [toPy] at hu'
            split at hu'
            · cases hu'; rfl
            · cases hu'
          | _ => cases hu'; rfl
      rcases this with h | h
      · rw [h]
      · rw [h]; cases rules.linkage (e.dec a.label) <;> rfl
  generalize explainItem e other rules s o (e.dec a.label) = q at hpl hnotes
  obtain ⟨s', ns, x⟩ := q
  simp only at hnotes
  subst hnotes
  cases x with
  | ok y =>
    simp only [Prod.mk.injEq, Except.ok.injEq] at hpl
    rw [hpl.1, hpl.2]
  | error y => simp at hpl

/-- **C94** (linked values).  If the values of an attribute are references, there is one warning for each
that is not resolved, in order, that says why, and one more if one value is wanted and there are
several. -/
theorem c94_linked_partial (e : Env) (other : PyVal → Text) (rules : Rules) (p : List ObjectSet)
    (hf : Spec.Fresh p) (o : BasicObject) (a : ObjAttr)
    (hl : Spec.LabelsOk e o) (ha : a ∈ o.attributes) (hq : Spec.Quiet e o o.log)
    (hqa : Spec.Quiet e o a.log) (c : Reprc) (vs : List Val) (hv : a.value = some (c, vs))
    (hne : vs ≠ []) (ref : RefType) (hlink : rules.linkage (e.dec a.label) = some ref)
    (hrefs : ∀ v ∈ vs, (∃ n, v = .obname n) ∨ (∃ r, v = .objref r) ∨ ∃ t, v = .attref t)
    (hok : Spec.RefsOk e p ref vs) (hist : List Spec.StoreOp) :
    ∃ ws ts us r, (explainItem e other rules (Spec.after e p hist) o (e.dec a.label)).2 =
        ((ts ++ us).map fun t => (.warning, t), .ok r) ∧
      Spec.Followed e p ref vs ws ts ∧ Spec.Presented (Spec.parsing rules (e.dec a.label)) ws r ∧
      Spec.TooMany (Spec.parsing rules (e.dec a.label)) vs.length us := by
  have hp : pyValues e.dec a = some (vs.map (.raw c)) := by
    simp [pyValues, hv, toPyList_refs vs hrefs]
  obtain ⟨ws, ts, h1, h2, h3⟩ := explainAll_followed other hf ref c vs hrefs hok hist
  obtain ⟨us, g1, g2⟩ := countNotes_spec vs.length (List.length_pos_iff.2 hne) (Spec.parsing rules (e.dec a.label))
  cases vs with
  | nil => exact absurd rfl hne
  | cons v vs =>
    match ws, h3 with
    | w :: ws, h3 =>
      refine ⟨w :: ws, ts, us, parseValue w ws _, ?_, h2, parseValue_spec _ _ _, g2⟩
      rw [explainItem_present other hl ha hq hqa hp]
      have hi : isReference (.raw c v) = true := by
        rcases hrefs v (by simp) with ⟨n, rfl⟩ | ⟨r, rfl⟩ | ⟨t, rfl⟩ <;> rfl
      rw [List.map_cons] at h1
      show (explainFinish e other rules (Spec.after e p hist) (e.dec a.label)
        (Spec.parsing rules (e.dec a.label)) (.raw c v) (vs.map (.raw c))).2 = _
      unfold explainFinish
      simp only [hlink, hi]
      generalize explainAll e other ref (PyVal.raw c v :: vs.map (.raw c)) (Spec.after e p hist) = q at h1
      obtain ⟨q1, q2⟩ := q
      simp only at h1
      subst h1
      dsimp only
      rw [h3, g1, List.map_append]

/-- **C94** (file header).  There is a warning if and only if there is not exactly one file header, and it
names all that there are. -/
theorem c94_fileheader (e : Env) (pr : Printer) (p : List ObjectSet) (hu : Spec.Usable e p)
    (hist : List Spec.StoreOp) (ht : Spec.Stable e (.str (text "FILE-HEADER")))
    (hr : Spec.raises e .exact (.str (text "FILE-HEADER")) p = false) :
    let os := Spec.objectsOf e p (.str (text "FILE-HEADER"))
    let res := ((Spec.after e p hist).explainHeader e pr).2
    (∀ o, os = [o] → res = ([], some (some o))) ∧
    (os.length ≠ 1 → ∃ us, us.Perm os ∧ res = ([(.warning, Spec.headersText pr us)], some none)) := by
  intro os res
  have h := all_ok hu (after_ok hu.fresh hist) _ ht
  rw [hr] at h
  simp only [Bool.false_eq_true, if_false] at h
  obtain ⟨us, h1, h2⟩ := h
  have hfmt : ∀ x : Text, pyFormat (text "Expected exactly one fileheader. Was: {}") [x] =
      text "Expected exactly one fileheader. Was: " ++ (x ++ []) := by intro x; formatted
  have hobj : ∀ o, pr.object o = (pr.capitalized o.type).1 ++ text "(" ++ pr.str o.name ++ text ")" := by
    intro o
    unfold Printer.object
    generalize (pr.capitalized o.type).1 = a
    generalize pr.str o.name = b
    formatted
  have hw : pyFormat (text "Expected exactly one fileheader. Was: {}") [pr.objects us] = Spec.headersText pr us := by
    unfold Printer.objects Spec.headersText
    rw [hfmt, List.append_nil, List.map_congr_left fun o _ => hobj o]
    generalize List.flatten _ = x
    formatted
  show (∀ o, Spec.objectsOf e p (.str (text "FILE-HEADER")) = [o] →
      ((Spec.after e p hist).explainHeader e pr).2 = _) ∧
    ((Spec.objectsOf e p (.str (text "FILE-HEADER"))).length ≠ 1 → ∃ us : List PyObj,
      us.Perm (Spec.objectsOf e p (.str (text "FILE-HEADER"))) ∧
      ((Spec.after e p hist).explainHeader e pr).2 = _)
  unfold Store.explainHeader
  generalize (Spec.after e p hist).all e (.str (text "FILE-HEADER")) = q at h1
  obtain ⟨s', r⟩ := q
  simp only at h1
  subst h1
  constructor
  · intro o ho
    have : us = [o] := List.perm_singleton.1 (ho ▸ h2)
    subst this
    rfl
  · intro hl
    refine ⟨us, h2, ?_⟩
    rw [← h2.length_eq] at hl
    match us, hl, hw with
    | [], _, hw => simp only [hw]
    | [_], hl, _ => simp at hl
    | _ :: _ :: _, _, hw => simp only [hw]

/-- What is said when a logical file has updates. -/
def Spec.updateText (who : Text) : Text :=
  text "LogicalFile(" ++ who ++ text (") contains UPDATE-object(s) which changes other objects. " ++
    "dlisio lacks support for UPDATEs, hence the data in this logical file might be wrongly presented.")

/-- **C94** (updates).  The constructor of a logical file warns of updates if and only if there is a set
of them, and names the logical file; it does so exactly when the constructor of C79 does. -/
theorem c94_update_partial (e : Env) (other : PyResult → Text) (horder : Spec.IsSetOrder e.order) (g : LogFile) :
    (g.initNote e other = some none ↔ ¬ Spec.HasUpdates e g.sets) ∧
    (∀ n, g.initNote e other = some (some n) → Spec.HasUpdates e g.sets ∧
      ∃ who, n = (.warning, Spec.updateText who)) ∧
    (g.initNote e other).map Option.isSome = (g.init e).map Prod.snd := by
  have hiff := hasUpdate_iff horder g.sets
  have hs : Spec.after e g.sets [] = { pool := g.sets, caching := true, cache := [] } := rfl
  rw [hs] at hiff
  have hfmt : ∀ desc, pyFormat (text "{} contains UPDATE-object(s) which changes other " ++
        text "objects. dlisio lacks support for UPDATEs, hence the " ++
        text "data in this logical file might be wrongly presented.") [reprText other desc] =
      Spec.updateText (match desc with
        | some r => formatWith other r
        | none => text "Unknown") := by
    intro desc
    have : ∀ y : Text, pyFormat (text "{} contains UPDATE-object(s) which changes other " ++
        text "objects. dlisio lacks support for UPDATEs, hence the " ++
        text "data in this logical file might be wrongly presented.") [y] =
        y ++ (text " contains UPDATE-object(s) which changes other " ++
        text "objects. dlisio lacks support for UPDATEs, hence the " ++
        text "data in this logical file might be wrongly presented.") := by
      intro y; formatted
    have key : ∀ x : Text, text "LogicalFile(" ++ x ++ text ")" ++ (text " contains UPDATE-object(s) which changes other " ++
        text "objects. dlisio lacks support for UPDATEs, hence the " ++
        text "data in this logical file might be wrongly presented.") = Spec.updateText x := by
      intro x
      unfold Spec.updateText
      rw [← Lis.text_append]
      formatted
    rw [this]
    cases desc <;> exact key _
  by_cases hup : Spec.HasUpdates e g.sets
  · have hb := hiff.2 hup
    unfold LogFile.initNote LogFile.init
    simp only [hb, if_true, hup, hfmt]
    generalize Store.fileRepr e { pool := g.sets, caching := true, cache := [] } = q
    obtain ⟨s', r⟩ := q
    cases r with
    | none => simp
    | some desc => 
      refine ⟨by simp, ?_, ?_⟩
      · rintro n h
        simp only [Option.some.injEq] at h
        exact ⟨trivial, _, h.symm⟩
      · rfl
  · have hb : Store.hasUpdate e { pool := g.sets, caching := true, cache := [] } = false := by
      rw [← Bool.not_eq_true, hiff]; exact hup
    unfold LogFile.initNote LogFile.init
    simp only [hb, Bool.false_eq_true, if_false, hup]
    exact ⟨by simp, by simp, rfl⟩

/-! ## Cases -/

namespace LookupLogCase

open StoreCase AttributeCase

/-- Not used here. -/
def other : PyVal → Text := fun _ => text "?"

/-- C94: an object that is not there, and one that is there twice. -/
example :
    ((Spec.after env twoO []).explainObject env U P none (some 1)).2 = .error (.value
      (text "Object not found: type=U, name=P, origin='any', copynumber=1")) ∧
    ((Spec.after env twoO []).explainObject env U O none none).2 = .error (.value
      (text "Multiple U objects with name O. Candidates are:\norigin=1, copy=0,\norigin=1, copy=1,")) := by
  decide +kernel

/-- C94: the hypotheses for that. -/
example : Spec.Stable env U ∧ Spec.Stable env P ∧ Spec.Stable env O ∧ O.isEmpty = false ∧
    Spec.raises env .exact U twoO = false ∧ (Spec.candidates env twoO U O none none).length = 2 ∧
    Spec.candidates env twoO U P none (some 1) = [] := by
  unfold Spec.Stable; decide +kernel

/-- What is logged. -/
def said {α : Type} (r : Store × List Note × α) : List Note := r.2.1

/-- C94: a reference that is not resolved, references of another kind, a label without a rule. -/
example :
    let s := Spec.after env sets []
    said (explainItem env other rules s thing (key "LINK")) = [(.warning, text ("Unable to find linked object: " ++
      "Object not found: type=T, name=P, origin=9, copynumber=9"))] ∧
    said (explainItem env other rules s (stray .objref (.objref ⟨bytesOf "T", ⟨1, 0, bytesOf "P"⟩⟩)) (key "LINK")) =
      [(.warning, text "Unable to create object-reference to 'dlisio.core.objref(fingerprint=T.T-I.P-O.1-C.0)'")] ∧
    said (explainItem env other rules s (stray .attref
        (.attref ⟨bytesOf "T", ⟨1, 0, bytesOf "P"⟩, bytesOf "L"⟩)) (key "LINK")) =
      [(.warning, text ("Unable to create object-reference to " ++
        "'dlisio.core.attref(id='P', origin=1, copynum=0, type=T)'"))] ∧
    (explainItem env other rules s thing (key "NONE")).2 = ([], .error (.key (text "'NONE'"))) := by
  decide +kernel

/-- Case for `c94_stopped`: two references that are not resolved, one that cannot be written, and another. -/
example :
    (explainAll env other (.obname (key "T")) ([Val.obname ⟨9, 9, bytesOf "P"⟩, .obname ⟨8, 9, bytesOf "P"⟩].map
      (.raw .obname) ++ .raw .obname (.objref ⟨[], ⟨1, 0, bytesOf "P"⟩⟩) :: [.raw .obname (.obname ⟨9, 9, bytesOf "P"⟩)])
      (Spec.after env sets [])).2 =
      ([(.warning, text "Unable to find linked object: Object not found: type=T, name=P, origin=9, copynumber=9"),
        (.warning, text "Unable to find linked object: Object not found: type=T, name=P, origin=8, copynumber=9")],
        .error .unwritable) ∧
    ∀ hist, ((Spec.after env sets hist).explainLookup env other (.obname (key "T")) .obname
      (.objref ⟨[], ⟨1, 0, bytesOf "P"⟩⟩)).2 = ([], .error .unwritable) := by
  exact ⟨by decide +kernel, fun _ => rfl⟩

/-- C94: a name where another object is expected, and too many values. -/
example :
    let s := Spec.after env sets []
    said (explainItem env other { rules with linkage := fun _ => some .objref } s thing (key "LINK")) =
      [(.warning, text "Unable to create object-reference to 'dlisio.core.obname(id='P', origin=2, copynum=3)'"),
       (.warning, text "Unable to create object-reference to 'dlisio.core.obname(id='P', origin=9, copynum=9)'")] ∧
    said (explainItem env other { rules with attributes := fun _ => some .scalar } s thing (key "DIM")) =
      [(.warning, text "Expected only 1 value, found 2, using the first.")] ∧
    said (explainItem env other { rules with attributes := fun _ => some .boolean } s thing (key "DIM")) =
      [(.warning, text "Expected only 1 value, found 2, using the first.")] ∧
    said (explainItem env other rules s thing (key "DIM")) = [] := by
  decide +kernel

/-- Bytes are not written here. -/
def printer : Printer := ⟨fun _ => text "?", id, fun _ => .text [], fun _ => true⟩

/-- C94: no file header, and two. -/
example :
    ((Spec.after AccessorsCase.env [] []).explainHeader AccessorsCase.env printer).2.1 =
      [(.warning, text "Expected exactly one fileheader. Was: []")] ∧
    ((Spec.after AccessorsCase.env (file [AccessorsCase.set "FILE-HEADER" ["N", "M"]]) []).explainHeader
        AccessorsCase.env printer).2.1 =
      [(.warning, text "Expected exactly one fileheader. Was: [File-header(N), File-header(M)]")] := by
  decide +kernel

/-- **C94 is violated** by the empty name if the cache is off: it is said that there are several objects
of that name, and none has it. -/
theorem c94_empty_name_defect : ∃ p, Spec.Fresh p ∧ Spec.candidates env p T empty none none = [] ∧
    ((Spec.after env p [.caching false]).explainObject env T empty none none).2 = .error (.value
      (text "Multiple T objects with name . Candidates are:\norigin=1, copy=0,\norigin=2, copy=3,")) :=
  ⟨file [EflrCase.bytes], file_fresh _, by decide +kernel, by decide +kernel⟩

/-- **C94 is violated** by identical objects with a NaN: it is said that there are several objects, and what
is listed does not tell them apart. -/
theorem c94_nan_defect : ∃ p o, Spec.Fresh p ∧ Spec.candidates env p T O none none = [o, o] ∧
    ((Spec.after env p []).explainObject env T O none none).2 = .error (.value
      (text "Multiple T objects with name O. Candidates are:\norigin=1, copy=0,\norigin=1, copy=0,")) := by
  refine ⟨file [recNaN], env.promote ⟨⟨1, 0, [0x4f]⟩, [0x54],
    [{ label := [0x41], reprc := some .fsingl, value := some (.fsingl, [.f32s [0x7fc00000#32]]) }],
    []⟩, file_fresh _, by decide +kernel, by decide +kernel⟩

/-- A logical file with these sets. -/
def logical (sets : List ObjectSet) : LogFile := ⟨⟨[], .eof⟩, 0, none, [], [], sets, []⟩

/-- **C94 is violated** by a set of the type UPDATE without objects: it is said that there are UPDATE
objects, and there are none. -/
theorem c94_update_defect (other : PyResult → Text) : ∃ g : LogFile, Spec.Usable AccessorsCase.env g.sets ∧
    Spec.objectsOf AccessorsCase.env g.sets (.str (text "UPDATE")) = [] ∧
    g.initNote AccessorsCase.env other = some (some (.warning, Spec.updateText (text "Unknown"))) := by
  refine ⟨logical (file [AccessorsCase.set "UPDATE" []]), ⟨file_fresh _, order_set [], by unfold Spec.Stable; decide +kernel⟩,
    by decide +kernel, ?_⟩
  have h1 : Store.hasUpdate AccessorsCase.env (Spec.after AccessorsCase.env (file [AccessorsCase.set "UPDATE" []]) []) =
      true := by decide +kernel
  have h2 : (Store.fileRepr AccessorsCase.env
      (Spec.after AccessorsCase.env (file [AccessorsCase.set "UPDATE" []]) [])).2 = some none := by decide +kernel
  unfold LogFile.initNote
  show (if Store.hasUpdate AccessorsCase.env (Spec.after AccessorsCase.env (file [AccessorsCase.set "UPDATE" []]) []) then
      match Store.fileRepr AccessorsCase.env (Spec.after AccessorsCase.env (file [AccessorsCase.set "UPDATE" []]) []) with
      | (_, none) => none
      | (_, some desc) => _
    else _) = _
  rw [if_pos h1]
  generalize Store.fileRepr AccessorsCase.env
    (Spec.after AccessorsCase.env (file [AccessorsCase.set "UPDATE" []]) []) = q at h2
  obtain ⟨s', r⟩ := q
  simp only at h2
  subst h2
  simp only [Option.some.injEq, Prod.mk.injEq, true_and, reprText]
  unfold Spec.updateText
  simp only [text, String.toList_append, List.map_append, literalChars]
  decide +kernel

end LookupLogCase

end Dlisio.Dlis
