/-
The summaries of objects: `BasicObject.describe` (python/dlisio/dlis/basicobject.py:283-352), the
helpers in python/dlisio/dlis/utils/describe.py and `describe_attr` of all classes.  C70.

A summary is here the list of its rows, each a title and what is shown beside it.  Left out are the
headers, how rows are wrapped and aligned, and how a single value is written (`str`).  NumPy is
left out where it changes nothing (`np.array` of a list and `flatten`), but for the samples it is
that of Sampled.lean; it also removes trailing NUL characters of texts in lists.  Two kinds of
exceptions are not told apart from others: a date that does not exist in sampled values
(`ValueError`, which is caught, with what the variable `value` had before), and the exceptions of
`Measurement.samples` (`ValueError` counts as no samples; here all do).
-/
import Verif.Dlis.Classes

namespace Dlisio.Dlis

open _root_.Dlisio.Dlis.Spec

/-! ## Model -/

/-- What is left out of a summary, describe.py:24-45.  The option `refs` has no use. -/
structure Options where
  attr : Bool
  empty : Bool
  head : Bool
  stash : Bool
  inv : Bool
  units : Bool

/-- `parseoptions`, describe.py:24-45. -/
def parseOptions (fmt : String) : Options where
  attr := fmt.toList.contains 'a'
  empty := fmt.toList.contains 'e'
  head := fmt.toList.contains 'h'
  stash := fmt.toList.contains 's'
  inv := fmt.toList.contains 'i'
  units := fmt.toList.contains 'u'

/-- The exceptions: that of a property, `KeyError`, and those of NumPy and of conversions. -/
inductive DescErr where
  | prop (x : PropErr) | key | numpy
deriving DecidableEq

/-- What is shown in a row. -/
inductive DVal where
  /-- a value as it is -/
  | res (r : PyResult)
  /-- an `object_attribute`, describe.py:159: a value and units -/
  | attr (r : PyResult) (units : PyStr)
  /-- a list made by `replist`, describe.py:67-128: names of objects, or the elements as they are -/
  | names (l : List PyVal)
  /-- the characters of a text, made by `replist` -/
  | chars (s : PyStr)
  /-- two values in one text, origin.py:247-248 -/
  | pair (a b : PyResult)
  | number (n : Nat)
  /-- an array of samples, and units -/
  | samples (a : Samples PyVal) (units : PyStr)
  /-- one sample, and units -/
  | single (shape : List Nat) (elems : List PyVal) (units : PyStr)
  /-- values with invalid dimensions, and units -/
  | flat (vs : List PyVal) (units : PyStr)
deriving DecidableEq

abbrev Row := PyStr × DVal

/-- A step, and what comes after it unless it raises. -/
def Store.andThen {α β : Type} (x : Store × Except DescErr α)
    (f : Store → α → Store × Except DescErr β) : Store × Except DescErr β :=
  match x.2 with
  | .ok a => f x.1 a
  | .error err => (x.1, .error err)

/-- The steps of a loop. -/
def Store.each {α β : Type} (f : Store → α → Store × Except DescErr β) :
    Store → List α → Store × Except DescErr (List β)
  | s, [] => (s, .ok [])
  | s, a :: as =>
    Store.andThen (f s a) fun s b => Store.andThen (Store.each f s as) fun s bs => (s, .ok (b :: bs))

/-- A text as a value. -/
def DVal.ofText (l : PyStr) : DVal := .res (.elem (.str l))

/-- The property of an object, as part of a summary. -/
def Store.prop (e : Env) (s : Store) (o : BasicObject) (name : String) :
    Store × Except DescErr PyResult :=
  ((s.property e o name).1, match (s.property e o name).2 with
    | .ok r => .ok r
    | .error x => .error (.prop x))

/-- `replist(elements, 'name')`, describe.py:67-128.  `list` takes a list as it is, is a `TypeError`
for `None` and numbers, and gives the characters of a text.  An object has `__getitem__`, so `list`
asks it for the key 0, basicobject.py:171-231, which is a `KeyError`.  (For a pair of a value and
its bounds, FSING1, `list` gives the two, which is left out.) -/
def replist : PyResult → Except DescErr DVal
  | .list l => .ok (.names l)
  | .elem (.obj (some _)) => .error .key
  | .elem (.str s) => .ok (.chars s)
  | r => .ok (.res r)

/-- `len` of a value, coefficient.py:90. -/
def lenOf : PyResult → Except DescErr DVal
  | .list l => .ok (.number l.length)
  | _ => .error (.prop .type)

/-- Where the value of a row comes from. -/
inductive Source where
  /-- a text, meant as the label of an attribute -/
  | label (l : String)
  /-- `self.name` -/
  | prop (name : String)
  /-- `replist(self.name, 'name')` -/
  | names (name : String)
  /-- `self.objects` of a group -/
  | objects
  /-- two properties in one text -/
  | pair (a b : String)
  /-- `len(self.name)` -/
  | count (name : String)
  /-- `len(self.samples)` of a measurement, or 0, measurement.py:270-273 -/
  | samples
deriving DecidableEq

/-- The value of a row before `describe_attributes`. -/
def Source.eval (e : Env) (np : List PyVal → Option Nat) (o : BasicObject) (s : Store) :
    Source → Store × Except DescErr DVal
  | .label l => (s, .ok (.ofText (.str (text l))))
  | .prop n => Store.andThen (s.prop e o n) fun s r => (s, .ok (.res r))
  | .names n => Store.andThen (s.prop e o n) fun s r => (s, replist r)
  | .objects => ((s.groupObjects e o).1, match (s.groupObjects e o).2 with
    | .ok r => .ok (.res r)
    | .error x => .error (.prop x))
  | .pair a b => Store.andThen (s.prop e o a) fun s x =>
      Store.andThen (s.prop e o b) fun s y => (s, .ok (.pair x y))
  | .count n => Store.andThen (s.prop e o n) fun s r => (s, lenOf r)
  | .samples => ((s.measurementSamples e np o).1, .ok (.number
      (match (s.measurementSamples e np o).2 with
      | some a => a.count
      | none => 0)))

/-- A value that is empty, describe.py:57, 61: `not value and value != 0`. -/
def emptyVal : PyVal → Bool
  | .str s => s.isEmpty
  | .obj none => true
  | _ => false

/-- An element of the list that `replist` makes is empty: the name of an object, or `str(x)`. -/
def emptyName : PyVal → Bool
  | .obj (some o) => o.name.isEmpty
  | .str (.str []) => true
  | _ => false

/-- The test in `remove_empties`, describe.py:56-61, of a value. -/
def emptyResult : PyResult → Bool
  | .none => true
  | .list l => l.all emptyVal
  | .elem v => emptyVal v
  | .bool _ => false

/-- The test in `remove_empties`, describe.py:51-61. -/
def DVal.isEmpty : DVal → Bool
  | .res r => emptyResult r
  | .attr r _ => emptyResult r
  | .names l => l.all emptyName
  | .chars s => s.isEmpty
  | .pair _ _ => false
  | .number _ => false
  | .samples a _ => a.elems.all emptyVal
  | .single _ l _ => l.all emptyVal
  | .flat l _ => l.all emptyVal

/-- `describe_dict`, describe.py:216-242, for rows whose titles are texts (see `written`). -/
def describeDict (ex : Options) (rows : List Row) : List Row :=
  if ex.empty then rows.filter fun x => !x.2.isEmpty else rows

/-- The titles are joined with texts, describe.py:235: a `TypeError` for a title of type `bytes`. -/
def written (rows : List Row) : Except DescErr (List Row) :=
  if rows.all (fun x => match x.1 with
    | .str _ => true
    | .bytes _ => false) then .ok rows
  else .error (.prop .type)

/-- The rules of the class of an object, file.py:264; `Unknown` knows no attributes. -/
def rulesOf (t : PyStr) : Rules :=
  match classOf t with
  | none => ⟨fun _ => none, fun _ => none⟩
  | some c => c.rules

/-- A value that is a text, and so may be a label. -/
def DVal.key? : DVal → Option PyStr
  | .res (.elem (.str k)) => some k
  | _ => none

/-- The body of the loop in `describe_attributes`, describe.py:201-212.  Values that are no texts
are in no list of labels, or cannot be looked for (`TypeError`, which is caught). -/
def describeAttribute (e : Env) (o : BasicObject) (s : Store) (x : Row) : Store × Except DescErr Row :=
  match x.2.key? with
  | none => (s, .ok x)
  | some k =>
    if k ∉ pyKeys e o ∧ (rulesOf (e.dec o.type)).attributes k = none then (s, .ok x)
    else
      ((getItem e (rulesOf (e.dec o.type)) s o k).1,
        match (getItem e (rulesOf (e.dec o.type)) s o k).2 with
        | .error err => .error (.prop (.access err))
        | .ok r =>
          if k ∉ pyKeys e o then .ok (x.1, .res r)
          else
            match attrAt k.toStd o.attributes with
            | none => .error .key
            | some a => .ok (x.1, .attr r (e.dec a.units)))

/-- `describe_attributes`, describe.py:196-214. -/
def describeAttributes (e : Env) (ex : Options) (o : BasicObject) (s : Store) (rows : List Row) :
    Store × Except DescErr (List Row) :=
  Store.andThen (Store.each (describeAttribute e o) s rows) fun s rows =>
    (s, written (describeDict ex rows))

/-- One value in `describe_sampled_attrs`, describe.py:166-174 and 178-187: nothing if there is no
such attribute, otherwise the samples, or `none` in place of them and the values. -/
def sampledValue (e : Env) (np : List PyVal → Option Nat) (o : BasicObject) (dim : List PyVal)
    (single : Bool) (label : String) : Except DescErr (Option (Bool × DVal)) :=
  match atticValue e o (.str (text label)) with
  | .missing => .ok none
  | .raised => .error .numpy
  | .value data =>
    let units := e.dec (((attrAt (PyStr.str (text label)).toStd o.attributes).map (·.units)).getD [])
    match data with
    | none => .ok (some (true, .samples ⟨0, [], []⟩ units))
    | some [] => .ok (some (true, .samples ⟨0, [], []⟩ units))
    | some (v :: vs) =>
      match dim.mapM natOf, np (v :: vs) with
      | some d, some itemsize =>
        match validshape (some (v :: vs)) d none with
        | none => .ok (some (false, .flat (v :: vs) units))
        | some shape =>
          if single then
            match samplingSingle itemsize (some (v :: vs)) shape with
            | .sample sh el => .ok (some (true, .single sh el units))
            | _ => .error .numpy
          else
            match sampling itemsize (some (v :: vs)) shape with
            | some a => .ok (some (true, .samples a units))
            | none => .error .numpy
      | _, _ => .error .numpy

/-- The loop over all of them, with the titles. -/
def sampledLoop (e : Env) (np : List PyVal → Option Nat) (o : BasicObject) (dim : List PyVal) :
    List (String × String × Bool) → Except DescErr (List (Bool × Row))
  | [] => .ok []
  | (title, label, single) :: rest =>
    match sampledValue e np o dim single label with
    | .error x => .error x
    | .ok r =>
      match sampledLoop e np o dim rest with
      | .error x => .error x
      | .ok rows =>
        match r with
        | none => .ok rows
        | some (valid, v) => .ok ((valid, (.str (text title), v)) :: rows)

/-- `describe_sampled_attrs`, describe.py:161-194. -/
def describeSampled (e : Env) (np : List PyVal → Option Nat) (ex : Options) (o : BasicObject)
    (dim : List PyVal) (values : List (String × String × Bool)) : Except DescErr (List Row) :=
  match sampledLoop e np o dim values with
  | .error x => .error x
  | .ok rows => .ok (describeDict ex ((rows.filter (·.1)).map (·.2)) ++
      if ex.inv then [] else describeDict ex ((rows.filter (!·.1)).map (·.2)))

/-- The parts of `describe_attr`. -/
inductive Section where
  /-- `describe_dict` -/
  | dict (rows : List (String × Source))
  /-- `describe_attributes` -/
  | attributes (rows : List (String × Source))
  /-- `describe_sampled_attrs`; the dimension is a property, or `[1]` -/
  | sampled (dim : Option String) (values : List (String × String × Bool))
  /-- `describe_description` -/
  | description (name : String)
  /-- `describe_array`, without title -/
  | array (name : String)
  /-- `describe_dict(self.coordinates)` -/
  | coordinates
  /-- `Frame.describe_attr` -/
  | frame
deriving DecidableEq

/-- `describe_attr` of the classes: axis.py:65-71, fileheader.py:84-89, origin.py:246-274,
longname.py:189-207, frame.py:498-525, channel.py:268-279, zone.py:75-82, tool.py:110-128,
parameter.py:144-163, equipment.py:205-237, measurement.py:254-298, coefficient.py:87-109,
calibration.py:103-112, computation.py:170-190, splice.py:86-92, wellref.py:123-136, group.py:86-92,
process.py:157-177, path.py:168-187, message.py:103-114, comment.py:39-40 and noformat.py:54-59.
(In measurement.py:278 empty rows are removed before the labels are looked up, when no row is
empty.) -/
def sections : List (String × List Section) := [
  ("AXIS", [.attributes [("Description", .label "AXIS-ID"), ("Spacing", .label "SPACING"),
    ("Coordinates", .label "COORDINATES")]]),
  ("FILE-HEADER", [.dict [("Description", .prop "id"),
    ("Position in storage set", .prop "sequencenr")]]),
  ("ORIGIN", [
    .dict [("Logical file ID", .prop "file_id"),
      ("File set name and number", .pair "file_set_name" "file_set_nr"),
      ("File number and type", .pair "file_nr" "file_type")],
    .dict [("Field", .prop "field_name"), ("Well (id/name)", .pair "well_id" "well_name"),
      ("Produced by (code/name)", .pair "producer_code" "producer_name"),
      ("Produced for", .prop "company"), ("Order number", .prop "order_nr"),
      ("Run number", .prop "run_nr"), ("Descent number", .prop "descent_nr"),
      ("Created", .prop "creation_time")],
    .dict [("Created by", .pair "product" "version"),
      ("Other programs/services", .prop "programs")]]),
  ("LONG-NAME", [.dict [("General modifier", .prop "modifier"), ("Quantity", .prop "quantity"),
    ("Quantity modifier", .prop "quantity_mod"), ("Altered form", .prop "altered_form"),
    ("Entity", .prop "entity"), ("Entity modifier", .prop "entity_mod"),
    ("Entity number", .prop "entity_nr"), ("Entity part", .prop "entity_part"),
    ("Entity part number", .prop "entity_part_nr"), ("Generic source", .prop "generic_source"),
    ("Source part", .prop "source_part"), ("Source part number", .prop "source_part_nr"),
    ("Conditions", .prop "conditions"), ("Standard symbol", .prop "standard_symbol"),
    ("Private symbol", .prop "private_symbol")]]),
  ("FRAME", [.frame]),
  ("CHANNEL", [.description "long_name",
    .attributes [("Physical unit of sample", .label "UNITS"),
      ("Sample dimensions", .label "DIMENSION"), ("Axis", .label "AXIS"),
      ("Maximum sample dimensions", .label "ELEMENT-LIMIT"),
      ("Property indicators", .label "PROPERTIES"), ("Source", .label "SOURCE")]]),
  ("ZONE", [.attributes [("Description", .prop "description"), ("Domain", .label "DOMAIN"),
    ("Minimum", .label "MINIMUM"), ("Maximum", .label "MAXIMUM")]]),
  ("TOOL", [
    .dict [("Description", .prop "description"), ("Trademark name", .prop "trademark_name"),
      ("Generic name", .prop "generic_name"), ("Status", .prop "status")],
    .dict [("Channels", .names "channels"), ("Parameters", .names "parameters"),
      ("Parts", .names "parts")]]),
  ("PARAMETER", [.description "long_name",
    .attributes [("Sample dimensions", .label "DIMENSION"), ("Axis labels", .label "AXIS"),
      ("Zones", .label "ZONES")],
    .sampled (some "dimension") [("Value(s)", "VALUES", false)]]),
  ("EQUIPMENT", [
    .attributes [("Trademark name", .label "TRADEMARK-NAME"), ("Generic type", .label "TYPE"),
      ("Operational status", .label "STATUS"), ("Serial number", .label "SERIAL-NUMBER"),
      ("Location", .label "LOCATION")],
    .attributes [("Height", .label "HEIGHT"), ("Length", .label "LENGTH"),
      ("Diameter (min)", .label "MINIMUM-DIAMETER"), ("Diameter (max)", .label "MAXIMUM-DIAMETER"),
      ("Volume", .label "VOLUME"), ("Weight", .label "WEIGHT")],
    .attributes [("Minimum borehole size", .label "HOLE-SIZE"), ("Max pressure", .label "PRESSURE"),
      ("Max temperature", .label "TEMPERATURE")],
    .attributes [("Vertical depth", .label "VERTICAL-DEPTH"), ("Radial drift ", .label "RADIAL-DRIFT"),
      ("Angular drift", .label "ANGULAR-DRIFT")]]),
  ("CALIBRATION-MEASUREMENT", [
    .attributes [("Type of measurement", .label "TYPE"), ("Calibration standard", .label "STANDARD"),
      ("Phase in job sequence", .label "PHASE"), ("Start time of acquisition", .label "BEGIN-TIME"),
      ("Duration time", .label "DURATION"), ("Data source", .label "MEASUREMENT-SOURCE")],
    .attributes [("Dimensions", .label "DIMENSION"), ("Axis labels", .label "AXIS"),
      ("Number of values", .samples),
      ("Samples used to compute std/max-dev", .label "SAMPLE-COUNT")],
    .sampled (some "dimension") [("Value(s)", "MEASUREMENT", false), ("Reference", "REFERENCE", true),
      ("Minus Tolerance", "MINUS-TOLERANCE", true), ("Plus Tolerance", "PLUS-TOLERANCE", true),
      ("Std deviation", "STANDARD-DEVIATION", true), ("Max deviation", "MAXIMUM-DEVIATION", true)]]),
  ("CALIBRATION-COEFFICIENT", [
    .dict [("Coefficient type", .prop "label"), ("Number of value(s)", .count "coefficients")],
    .sampled none [("Value(s)", "COEFFICIENTS", false), ("Reference value(s)", "REFERENCES", false),
      ("Minus Tolerance(s)", "PLUS-TOLERANCES", false),
      ("Plus Tolerance(s)", "MINUS-TOLERANCES", false)]]),
  ("CALIBRATION", [.dict [("Computational method", .prop "method"),
    ("Calibrated channels", .names "calibrated"), ("Uncalibrated channels", .names "uncalibrated"),
    ("Coefficients", .names "coefficients"), ("Measurements", .names "measurements"),
    ("Parameters", .names "parameters")]]),
  ("COMPUTATION", [.description "long_name",
    .attributes [("Sample dimensions", .label "DIMENSION"), ("Axis labels", .label "AXIS"),
      ("Zones", .label "ZONES"), ("Property indicators", .label "PROPERTIES"),
      ("Source object", .label "SOURCE")],
    .sampled (some "dimension") [("Value(s)", "VALUES", false)]]),
  ("SPLICE", [.dict [("Zones", .names "zones"), ("Output Channel", .names "output_channel"),
    ("Input Channels", .names "input_channels")]]),
  ("WELL-REFERENCE", [
    .attributes [("Permanent datum", .label "PERMANENT-DATUM"),
      ("Vertical zero", .label "VERTICAL-ZERO"),
      ("Permanent datum elevation", .label "PERMANENT-DATUM-ELEVATION"),
      ("Above permanent datum", .label "ABOVE-PERMANENT-DATUM"),
      ("Magnetic declination", .label "MAGNETIC-DECLINATION")],
    .coordinates]),
  ("GROUP", [.dict [("Description", .prop "description"), ("Object list", .objects),
    ("Group list", .prop "groups")]]),
  ("PROCESS", [.description "description",
    .dict [("Trademark name", .prop "trademark_name"), ("Status", .prop "status"),
      ("Version", .prop "version"), ("Comments", .prop "comments")],
    .dict [("Properties", .prop "properties"), ("Parameters", .names "parameters")],
    .dict [("Input Channels", .names "input_channels"),
      ("Output Channels", .names "output_channels"),
      ("Input Computations", .names "input_computations"),
      ("Output computations", .names "output_computations")]]),
  ("PATH", [
    .dict [("Frame", .prop "frame"), ("Well reference point", .prop "well_reference_point"),
      ("Value Channel(s)", .names "value")],
    .attributes [("Borehole depth", .label "BOREHOLE-DEPTH"),
      ("Vertical depth", .label "VERTICAL-DEPTH"), ("Radial drift", .label "RADIAL-DRIFT"),
      ("Angular drift", .label "ANGULAR-DRIFT")],
    .attributes [("Time", .label "TIME"), ("Depth offset", .label "DEPTH-OFFSET"),
      ("Measure point offset", .label "MEASURE-POINT-OFFSET"),
      ("Tool zero offset", .label "TOOL-ZERO-OFFSET")]]),
  ("MESSAGE", [
    .attributes [("Message type", .label "TYPE"), ("Time of recording", .label "TIME"),
      ("Borehole drift", .label "BOREHOLE-DRIFT"), ("Vertical depth", .label "VERTICAL-DEPTH"),
      ("Radial drift", .label "RADIAL-DRIFT"), ("Angular drift", .label "ANGULAR-DRIFT")],
    .array "text"]),
  ("COMMENT", [.array "text"]),
  ("NO-FORMAT", [.attributes [("Consumer name", .label "CONSUMER-NAME"),
    ("Description", .label "DESCRIPTION")]])]

/-- `describe_attr` of the class of an object, basicobject.py:347-352 if there is none. -/
def sectionsOf (t : PyStr) : List Section :=
  match sections.find? (fun x => decide (t = .str (text x.1))) with
  | none => []
  | some x => x.2

/-- The values of the rows of a dict. -/
def evalRows (e : Env) (np : List PyVal → Option Nat) (o : BasicObject) (s : Store)
    (rows : List (String × Source)) : Store × Except DescErr (List Row) :=
  Store.each (fun s (x : String × Source) => Store.andThen (x.2.eval e np o s) fun s v =>
    (s, .ok (PyStr.str (text x.1), v))) s rows

/-- `not description`, describe.py:147. -/
def falsyResult : PyResult → Bool
  | .none => true
  | .list l => l.isEmpty
  | .elem v => !truth v
  | .bool b => !b

/-- The value of a coordinate, which may be missing. -/
def coordinateValue : Option PyVal → DVal
  | none => .res .none
  | some v => .res (.elem v)

/-- The rows of a coordinate, wellref.py:136; `len` of a title that is neither text nor `bytes` is a
`TypeError`, describe.py:224. -/
def coordinateRow : PyVal × Option PyVal → Option Row
  | (.str k, v) => some (k, coordinateValue v)
  | _ => none

/-- `Frame.describe_attr`, frame.py:498-525.  (`self.channels` is called once here.)  The index
channel is an object of the file; if it could not be found it is `None`, which has no `units`, and
neither has a text or a number. -/
def describeFrame (e : Env) (ex : Options) (o : BasicObject) (s : Store) :
    Store × Except DescErr (List Row) :=
  Store.andThen (s.prop e o "channels") fun s channels =>
    match channels with
    | .list [] => (s, .ok [])
    | .list (index :: rest) =>
      Store.andThen (s.prop e o "index_type") fun s indexType =>
        if indexType = .none then (s, .ok [(.str (text "Channels"), .names (index :: rest))])
        else
          match index with
          | .obj (some ch) =>
            Store.andThen (s.prop e ch.attic "units") fun s units =>
              Store.andThen (describeAttributes e ex o s
                [(.str (text "Description"), .ofText (.str (text "DESCRIPTION"))),
                 (.str (text "Indexed by"), .ofText (.str (text "INDEX-TYPE"))),
                 (.str (text "Index units"), .res units),
                 (.str (text "Index min"), .ofText (.str (text "INDEX-MIN"))),
                 (.str (text "Index max"), .ofText (.str (text "INDEX-MAX"))),
                 (.str (text "Direction"), .ofText (.str (text "DIRECTION"))),
                 (.str (text "Constant spacing"), .ofText (.str (text "SPACING"))),
                 (.str (text "Index channel"), .res (.elem index))]) fun s rows =>
                (s, .ok (rows ++ [(.str (text "Channels"), .names (index :: rest))]))
          | _ => (s, .error (.prop .attribute))
    | _ => (s, .error (.prop .type))

/-- The rows of one part. -/
def Section.run (e : Env) (np : List PyVal → Option Nat) (ex : Options) (o : BasicObject)
    (s : Store) : Section → Store × Except DescErr (List Row)
  | .dict rows => Store.andThen (evalRows e np o s rows) fun s rows => (s, .ok (describeDict ex rows))
  | .attributes rows =>
    Store.andThen (evalRows e np o s rows) fun s rows => describeAttributes e ex o s rows
  | .sampled none values => (s, describeSampled e np ex o [.raw .ushort (.int 1 1)] values)
  | .sampled (some dim) values =>
    Store.andThen (s.prop e o dim) fun s r =>
      (s, match r with
        | .list dim => describeSampled e np ex o dim values
        | _ => .error .numpy)
  | .description name =>
    Store.andThen (s.prop e o name) fun s r =>
      (s, .ok (if falsyResult r ∧ ex.empty then []
        else match r with
          | .elem (.obj (some x)) => [(.str (text "Description"), .res (.elem (.obj (some x))))]
          | r => describeDict ex [(.str (text "Description"), .res r)]))
  | .array name =>
    Store.andThen (s.prop e o name) fun s r =>
      (s, .ok (if falsyResult r then [] else [(.str [], .res r)]))
  | .coordinates =>
    (s, match _root_.Dlisio.Dlis.coordinates e o with
      | none => .error .numpy
      | some d =>
        match (if ex.empty then d.filter fun x => !(coordinateValue x.2).isEmpty else d).mapM
          coordinateRow with
        | none => .error (.prop .type)
        | some rows => written rows)
  | .frame => describeFrame e ex o s

/-- `headerinfo`, describe.py:16-22. -/
def headerRows (e : Env) (o : BasicObject) : List Row :=
  [(.str (text "name"), .ofText (e.dec o.name.id)), (.str (text "origin"), .number o.name.origin),
   (.str (text "copy"), .number o.name.copy)]

/-- The attributes that are not known, basicobject.py:339-343. -/
def describeStash (e : Env) (ex : Options) (o : BasicObject) (s : Store) :
    Store × Except DescErr (List Row) :=
  match stash e (rulesOf (e.dec o.type)) o with
  | none => (s, .error (.prop .type))
  | some d => describeAttributes e ex o s (d.map fun x => (x.1, .ofText x.1))

/-- `BasicObject.describe`, basicobject.py:283-345. -/
def Store.describe (e : Env) (np : List PyVal → Option Nat) (s : Store) (o : BasicObject)
    (ex : Options) : Store × Except DescErr (List Row) :=
  Store.andThen (if ex.attr then (s, .ok []) else
      Store.each (fun s sec => Section.run e np ex o s sec) s (sectionsOf (e.dec o.type))) fun s rows =>
    Store.andThen (if ex.stash then (s, .ok []) else describeStash e ex o s) fun s unknown =>
      (s, .ok ((if ex.head then [] else describeDict ex (headerRows e o)) ++ rows.flatten ++ unknown))

/-- `strip` of texts and bytes. -/
def stripUnits : PyStr → PyStr
  | .str t => .str (stripText t)
  | .bytes b =>
    let space : Byte → Bool := fun x => decide (x.toNat = 32 ∨ (9 ≤ x.toNat ∧ x.toNat ≤ 13))
    .bytes ((b.dropWhile space).reverse.dropWhile space).reverse

/-- The units that are printed beside a value, describe.py:229-234, 255: none if they are empty. -/
def DVal.units (ex : Options) : DVal → Option PyStr
  | .attr _ u | .samples _ u | .single _ _ u | .flat _ u =>
    if ex.units ∨ (stripUnits u).isEmpty then none else some (stripUnits u)
  | _ => none

end Dlisio.Dlis
