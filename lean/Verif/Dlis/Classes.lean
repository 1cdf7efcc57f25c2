/-
The classes of the objects in a DLIS file: which attribute a property of an object stands for, how
it is presented and what it refers to (python/dlisio/dlis/{axis,...,zone}.py), and the two
properties that are more than that, `Group.objects` and `Wellref.coordinates`.  C69.

The properties of parameters, computations and measurements that are arrays are in Sampled.lean,
those of frames and channels that have to do with curves in EndToEnd.lean and ChannelFrame.lean.
-/
import Verif.Dlis.Sampled
import Verif.Dlis.Accessors

namespace Dlisio.Dlis

open _root_.Dlisio.Dlis.Spec

/-! ## Model -/

deriving instance DecidableEq for RefType

/-- A class: the type that it is for, file.py:308-331, the dicts `attributes` and `linkage`, and
the properties whose body is `return self[label]`. -/
structure ObjClass where
  type : String
  attributes : List (String × ParseAs)
  linkage : List (String × RefType)
  properties : List (String × String)

/-- The rules of the instances of a class. -/
def ObjClass.rules (c : ObjClass) : Rules where
  attributes := ruleOf c.attributes
  linkage := ruleOf c.linkage

/-- `Axis`, axis.py:44-48, 53-63. -/
def axisClass : ObjClass where
  type := "AXIS"
  attributes :=
    [("AXIS-ID", .scalar), ("COORDINATES", .vector), ("SPACING", .scalar)]
  linkage :=
    []
  properties :=
    [("axis_id", "AXIS-ID"), ("coordinates", "COORDINATES"), ("spacing", "SPACING")]

/-- `Fileheader`, fileheader.py:68-71, 76-82. -/
def fileheaderClass : ObjClass where
  type := "FILE-HEADER"
  attributes :=
    [("SEQUENCE-NUMBER", .scalar), ("ID", .scalar)]
  linkage :=
    []
  properties :=
    [("sequencenr", "SEQUENCE-NUMBER"), ("id", "ID")]

/-- `Origin`, origin.py:140-161, 166-244. -/
def originClass : ObjClass where
  type := "ORIGIN"
  attributes :=
    [("FILE-ID", .scalar), ("FILE-SET-NAME", .scalar), ("FILE-SET-NUMBER", .scalar),
     ("FILE-NUMBER", .scalar), ("FILE-TYPE", .scalar), ("PRODUCT", .scalar),
     ("VERSION", .scalar), ("PROGRAMS", .vector), ("CREATION-TIME", .scalar),
     ("ORDER-NUMBER", .scalar), ("DESCENT-NUMBER", .vector), ("RUN-NUMBER", .vector),
     ("WELL-ID", .scalar), ("WELL-NAME", .scalar), ("FIELD-NAME", .scalar),
     ("PRODUCER-CODE", .scalar), ("PRODUCER-NAME", .scalar), ("COMPANY", .scalar),
     ("NAME-SPACE-NAME", .scalar), ("NAME-SPACE-VERSION", .scalar)]
  linkage :=
    []
  properties :=
    [("file_id", "FILE-ID"), ("file_set_name", "FILE-SET-NAME"),
     ("file_set_nr", "FILE-SET-NUMBER"), ("file_nr", "FILE-NUMBER"), ("file_type", "FILE-TYPE"),
     ("product", "PRODUCT"), ("version", "VERSION"), ("programs", "PROGRAMS"),
     ("creation_time", "CREATION-TIME"), ("order_nr", "ORDER-NUMBER"),
     ("descent_nr", "DESCENT-NUMBER"), ("run_nr", "RUN-NUMBER"), ("well_id", "WELL-ID"),
     ("well_name", "WELL-NAME"), ("field_name", "FIELD-NAME"),
     ("producer_code", "PRODUCER-CODE"), ("producer_name", "PRODUCER-NAME"),
     ("company", "COMPANY"), ("namespace_name", "NAME-SPACE-NAME"),
     ("namespace_version", "NAME-SPACE-VERSION")]

/-- `Longname`, longname.py:108-124, 129-187. -/
def longnameClass : ObjClass where
  type := "LONG-NAME"
  attributes :=
    [("GENERAL-MODIFIER", .vector), ("QUANTITY", .scalar), ("QUANTITY-MODIFIER", .vector),
     ("ALTERED-FORM", .scalar), ("ENTITY", .scalar), ("ENTITY-MODIFIER", .vector),
     ("ENTITY-NUMBER", .scalar), ("ENTITY-PART", .scalar), ("ENTITY-PART-NUMBER", .scalar),
     ("GENERIC-SOURCE", .scalar), ("SOURCE-PART", .vector), ("SOURCE-PART-NUMBER", .vector),
     ("CONDITIONS", .vector), ("STANDARD-SYMBOL", .scalar), ("PRIVATE-SYMBOL", .scalar)]
  linkage :=
    []
  properties :=
    [("modifier", "GENERAL-MODIFIER"), ("quantity", "QUANTITY"),
     ("quantity_mod", "QUANTITY-MODIFIER"), ("altered_form", "ALTERED-FORM"),
     ("entity", "ENTITY"), ("entity_mod", "ENTITY-MODIFIER"), ("entity_nr", "ENTITY-NUMBER"),
     ("entity_part", "ENTITY-PART"), ("entity_part_nr", "ENTITY-PART-NUMBER"),
     ("generic_source", "GENERIC-SOURCE"), ("source_part", "SOURCE-PART"),
     ("source_part_nr", "SOURCE-PART-NUMBER"), ("conditions", "CONDITIONS"),
     ("standard_symbol", "STANDARD-SYMBOL"), ("private_symbol", "PRIVATE-SYMBOL")]

/-- `Frame`, frame.py:94-103, 105-107, 117-147. -/
def frameClass : ObjClass where
  type := "FRAME"
  attributes :=
    [("DESCRIPTION", .scalar), ("CHANNELS", .vector), ("INDEX-TYPE", .scalar),
     ("DIRECTION", .scalar), ("SPACING", .scalar), ("ENCRYPTED", .boolean),
     ("INDEX-MIN", .scalar), ("INDEX-MAX", .scalar)]
  linkage :=
    [("CHANNELS", .obname (.str (text "CHANNEL")))]
  properties :=
    [("description", "DESCRIPTION"), ("channels", "CHANNELS"), ("index_type", "INDEX-TYPE"),
     ("direction", "DIRECTION"), ("spacing", "SPACING"), ("index_min", "INDEX-MIN"),
     ("index_max", "INDEX-MAX")]

/-- `Channel`, channel.py:85-94, 96-100, 138-168. -/
def channelClass : ObjClass where
  type := "CHANNEL"
  attributes :=
    [("LONG-NAME", .scalar), ("REPRESENTATION-CODE", .scalar), ("UNITS", .scalar),
     ("PROPERTIES", .vector), ("DIMENSION", .reverse), ("AXIS", .reverse),
     ("ELEMENT-LIMIT", .reverse), ("SOURCE", .scalar)]
  linkage :=
    [("LONG-NAME", .obname (.str (text "LONG-NAME"))), ("AXIS", .obname (.str (text "AXIS"))),
     ("SOURCE", .objref)]
  properties :=
    [("long_name", "LONG-NAME"), ("reprc", "REPRESENTATION-CODE"), ("units", "UNITS"),
     ("properties", "PROPERTIES"), ("dimension", "DIMENSION"), ("axis", "AXIS"),
     ("element_limit", "ELEMENT-LIMIT"), ("source", "SOURCE")]

/-- `Zone`, zone.py:47-52, 58-72. -/
def zoneClass : ObjClass where
  type := "ZONE"
  attributes :=
    [("DESCRIPTION", .scalar), ("DOMAIN", .scalar), ("MAXIMUM", .scalar), ("MINIMUM", .scalar)]
  linkage :=
    []
  properties :=
    [("description", "DESCRIPTION"), ("domain", "DOMAIN"), ("maximum", "MAXIMUM"),
     ("minimum", "MINIMUM")]

/-- `Tool`, tool.py:63-71, 73-77, 82-108. -/
def toolClass : ObjClass where
  type := "TOOL"
  attributes :=
    [("DESCRIPTION", .scalar), ("TRADEMARK-NAME", .scalar), ("GENERIC-NAME", .scalar),
     ("STATUS", .boolean), ("PARTS", .vector), ("CHANNELS", .vector), ("PARAMETERS", .vector)]
  linkage :=
    [("PARTS", .obname (.str (text "EQUIPMENT"))), ("CHANNELS", .obname (.str (text "CHANNEL"))),
     ("PARAMETERS", .obname (.str (text "PARAMETER")))]
  properties :=
    [("description", "DESCRIPTION"), ("trademark_name", "TRADEMARK-NAME"),
     ("generic_name", "GENERIC-NAME"), ("status", "STATUS"), ("parts", "PARTS"),
     ("channels", "CHANNELS"), ("parameters", "PARAMETERS")]

/-- `Parameter`, parameter.py:56-62, 64-68, 73-87. -/
def parameterClass : ObjClass where
  type := "PARAMETER"
  attributes :=
    [("LONG-NAME", .scalar), ("DIMENSION", .reverse), ("AXIS", .reverse), ("ZONES", .vector),
     ("VALUES", .vector)]
  linkage :=
    [("LONG-NAME", .obname (.str (text "LONG-NAME"))), ("AXIS", .obname (.str (text "AXIS"))),
     ("ZONES", .obname (.str (text "ZONE")))]
  properties :=
    [("long_name", "LONG-NAME"), ("dimension", "DIMENSION"), ("axis", "AXIS"),
     ("zones", "ZONES")]

/-- `Equipment`, equipment.py:114-132, 137-203. -/
def equipmentClass : ObjClass where
  type := "EQUIPMENT"
  attributes :=
    [("TRADEMARK-NAME", .scalar), ("STATUS", .boolean), ("TYPE", .scalar),
     ("SERIAL-NUMBER", .scalar), ("LOCATION", .scalar), ("HEIGHT", .scalar), ("LENGTH", .scalar),
     ("MINIMUM-DIAMETER", .scalar), ("MAXIMUM-DIAMETER", .scalar), ("VOLUME", .scalar),
     ("WEIGHT", .scalar), ("HOLE-SIZE", .scalar), ("PRESSURE", .scalar),
     ("TEMPERATURE", .scalar), ("VERTICAL-DEPTH", .scalar), ("RADIAL-DRIFT", .scalar),
     ("ANGULAR-DRIFT", .scalar)]
  linkage :=
    []
  properties :=
    [("trademark_name", "TRADEMARK-NAME"), ("status", "STATUS"), ("generic_type", "TYPE"),
     ("serial_number", "SERIAL-NUMBER"), ("location", "LOCATION"), ("height", "HEIGHT"),
     ("length", "LENGTH"), ("diameter_min", "MINIMUM-DIAMETER"),
     ("diameter_max", "MAXIMUM-DIAMETER"), ("volume", "VOLUME"), ("weight", "WEIGHT"),
     ("hole_size", "HOLE-SIZE"), ("pressure", "PRESSURE"), ("temperature", "TEMPERATURE"),
     ("vertical_depth", "VERTICAL-DEPTH"), ("radial_drift", "RADIAL-DRIFT"),
     ("angular_drift", "ANGULAR-DRIFT")]

/-- `Measurement`, measurement.py:75-91, 93-96, 101-135. -/
def measurementClass : ObjClass where
  type := "CALIBRATION-MEASUREMENT"
  attributes :=
    [("PHASE", .scalar), ("MEASUREMENT-SOURCE", .scalar), ("TYPE", .scalar),
     ("DIMENSION", .reverse), ("AXIS", .reverse), ("MEASUREMENT", .vector),
     ("SAMPLE-COUNT", .scalar), ("MAXIMUM-DEVIATION", .vector), ("STANDARD-DEVIATION", .vector),
     ("BEGIN-TIME", .scalar), ("DURATION", .scalar), ("REFERENCE", .vector),
     ("STANDARD", .vector), ("PLUS-TOLERANCE", .vector), ("MINUS-TOLERANCE", .vector)]
  linkage :=
    [("AXIS", .obname (.str (text "AXIS"))), ("MEASUREMENT-SOURCE", .objref)]
  properties :=
    [("phase", "PHASE"), ("source", "MEASUREMENT-SOURCE"), ("mtype", "TYPE"),
     ("dimension", "DIMENSION"), ("axis", "AXIS"), ("samplecount", "SAMPLE-COUNT"),
     ("begin_time", "BEGIN-TIME"), ("duration", "DURATION"), ("standard", "STANDARD")]

/-- `Coefficient`, coefficient.py:56-62, 67-85. -/
def coefficientClass : ObjClass where
  type := "CALIBRATION-COEFFICIENT"
  attributes :=
    [("LABEL", .scalar), ("COEFFICIENTS", .vector), ("REFERENCES", .vector),
     ("PLUS-TOLERANCES", .vector), ("MINUS-TOLERANCES", .vector)]
  linkage :=
    []
  properties :=
    [("label", "LABEL"), ("coefficients", "COEFFICIENTS"), ("references", "REFERENCES"),
     ("plus_tolerance", "PLUS-TOLERANCES"), ("minus_tolerance", "MINUS-TOLERANCES")]

/-- `Calibration`, calibration.py:59-66, 68-74, 79-101. -/
def calibrationClass : ObjClass where
  type := "CALIBRATION"
  attributes :=
    [("METHOD", .scalar), ("CALIBRATED-CHANNELS", .vector), ("UNCALIBRATED-CHANNELS", .vector),
     ("COEFFICIENTS", .vector), ("MEASUREMENTS", .vector), ("PARAMETERS", .vector)]
  linkage :=
    [("CALIBRATED-CHANNELS", .obname (.str (text "CHANNEL"))),
     ("UNCALIBRATED-CHANNELS", .obname (.str (text "CHANNEL"))),
     ("COEFFICIENTS", .obname (.str (text "CALIBRATION-COEFFICIENT"))),
     ("MEASUREMENTS", .obname (.str (text "CALIBRATION-MEASUREMENT"))),
     ("PARAMETERS", .obname (.str (text "PARAMETER")))]
  properties :=
    [("method", "METHOD"), ("calibrated", "CALIBRATED-CHANNELS"),
     ("uncalibrated", "UNCALIBRATED-CHANNELS"), ("coefficients", "COEFFICIENTS"),
     ("measurements", "MEASUREMENTS"), ("parameters", "PARAMETERS")]

/-- `Computation`, computation.py:71-79, 81-86, 91-113. -/
def computationClass : ObjClass where
  type := "COMPUTATION"
  attributes :=
    [("LONG-NAME", .scalar), ("PROPERTIES", .vector), ("DIMENSION", .reverse),
     ("AXIS", .reverse), ("ZONES", .vector), ("SOURCE", .scalar), ("VALUES", .vector)]
  linkage :=
    [("LONG-NAME", .obname (.str (text "LONG-NAME"))), ("AXIS", .obname (.str (text "AXIS"))),
     ("ZONES", .obname (.str (text "ZONE"))), ("SOURCE", .objref)]
  properties :=
    [("long_name", "LONG-NAME"), ("properties", "PROPERTIES"), ("dimension", "DIMENSION"),
     ("axis", "AXIS"), ("zones", "ZONES"), ("source", "SOURCE")]

/-- `Splice`, splice.py:59-63, 65-69, 74-84. -/
def spliceClass : ObjClass where
  type := "SPLICE"
  attributes :=
    [("OUTPUT-CHANNEL", .scalar), ("INPUT-CHANNELS", .vector), ("ZONES", .vector)]
  linkage :=
    [("OUTPUT-CHANNEL", .obname (.str (text "CHANNEL"))),
     ("INPUT-CHANNELS", .obname (.str (text "CHANNEL"))),
     ("ZONES", .obname (.str (text "ZONE")))]
  properties :=
    [("output_channel", "OUTPUT-CHANNEL"), ("input_channels", "INPUT-CHANNELS"),
     ("zones", "ZONES")]

/-- `Wellref`, wellref.py:64-76, 82-100. -/
def wellrefClass : ObjClass where
  type := "WELL-REFERENCE"
  attributes :=
    [("PERMANENT-DATUM", .scalar), ("VERTICAL-ZERO", .scalar),
     ("PERMANENT-DATUM-ELEVATION", .scalar), ("ABOVE-PERMANENT-DATUM", .scalar),
     ("MAGNETIC-DECLINATION", .scalar), ("COORDINATE-1-NAME", .scalar),
     ("COORDINATE-1-VALUE", .scalar), ("COORDINATE-2-NAME", .scalar),
     ("COORDINATE-2-VALUE", .scalar), ("COORDINATE-3-NAME", .scalar),
     ("COORDINATE-3-VALUE", .scalar)]
  linkage :=
    []
  properties :=
    [("permanent_datum", "PERMANENT-DATUM"), ("vertical_zero", "VERTICAL-ZERO"),
     ("permanent_datum_elevation", "PERMANENT-DATUM-ELEVATION"),
     ("above_permanent_datum", "ABOVE-PERMANENT-DATUM"),
     ("magnetic_declination", "MAGNETIC-DECLINATION")]

/-- `Group`, group.py:45-50, 52-56, 62-84. -/
def groupClass : ObjClass where
  type := "GROUP"
  attributes :=
    [("DESCRIPTION", .scalar), ("OBJECT-TYPE", .scalar), ("OBJECT-LIST", .vector),
     ("GROUP-LIST", .vector)]
  linkage :=
    [("OBJECT-LIST", .objref), ("GROUP-LIST", .obname (.str (text "GROUP")))]
  properties :=
    [("description", "DESCRIPTION"), ("objecttype", "OBJECT-TYPE"), ("groups", "GROUP-LIST")]

/-- `Process`, process.py:87-99, 101-108, 113-155. -/
def processClass : ObjClass where
  type := "PROCESS"
  attributes :=
    [("DESCRIPTION", .scalar), ("TRADEMARK-NAME", .scalar), ("VERSION", .scalar),
     ("PROPERTIES", .vector), ("STATUS", .scalar), ("INPUT-CHANNELS", .vector),
     ("OUTPUT-CHANNELS", .vector), ("INPUT-COMPUTATIONS", .vector),
     ("OUTPUT-COMPUTATIONS", .vector), ("PARAMETERS", .vector), ("COMMENTS", .vector)]
  linkage :=
    [("DESCRIPTION", .obname (.str (text "LONG-NAME"))),
     ("INPUT-CHANNELS", .obname (.str (text "CHANNEL"))),
     ("OUTPUT-CHANNELS", .obname (.str (text "CHANNEL"))),
     ("INPUT-COMPUTATIONS", .obname (.str (text "COMPUTATION"))),
     ("OUTPUT-COMPUTATIONS", .obname (.str (text "COMPUTATION"))),
     ("PARAMETERS", .obname (.str (text "PARAMETER")))]
  properties :=
    [("description", "DESCRIPTION"), ("trademark_name", "TRADEMARK-NAME"),
     ("version", "VERSION"), ("properties", "PROPERTIES"), ("status", "STATUS"),
     ("input_channels", "INPUT-CHANNELS"), ("output_channels", "OUTPUT-CHANNELS"),
     ("input_computations", "INPUT-COMPUTATIONS"),
     ("output_computations", "OUTPUT-COMPUTATIONS"), ("parameters", "PARAMETERS"),
     ("comments", "COMMENTS")]

/-- `Path`, path.py:96-108, 110-119, 124-166. -/
def pathClass : ObjClass where
  type := "PATH"
  attributes :=
    [("FRAME-TYPE", .scalar), ("WELL-REFERENCE-POINT", .scalar), ("VALUE", .vector),
     ("BOREHOLE-DEPTH", .scalar), ("VERTICAL-DEPTH", .scalar), ("RADIAL-DRIFT", .scalar),
     ("ANGULAR-DRIFT", .scalar), ("TIME", .scalar), ("DEPTH-OFFSET", .scalar),
     ("MEASURE-POINT-OFFSET", .scalar), ("TOOL-ZERO-OFFSET", .scalar)]
  linkage :=
    [("BOREHOLE-DEPTH", .obname (.str (text "CHANNEL"))),
     ("VERTICAL-DEPTH", .obname (.str (text "CHANNEL"))),
     ("RADIAL-DRIFT", .obname (.str (text "CHANNEL"))),
     ("ANGULAR-DRIFT", .obname (.str (text "CHANNEL"))),
     ("TIME", .obname (.str (text "CHANNEL"))), ("FRAME-TYPE", .obname (.str (text "FRAME"))),
     ("WELL-REFERENCE-POINT", .obname (.str (text "WELL-REFERENCE"))),
     ("VALUE", .obname (.str (text "CHANNEL")))]
  properties :=
    [("frame", "FRAME-TYPE"), ("well_reference_point", "WELL-REFERENCE-POINT"),
     ("value", "VALUE"), ("borehole_depth", "BOREHOLE-DEPTH"),
     ("vertical_depth", "VERTICAL-DEPTH"), ("radial_drift", "RADIAL-DRIFT"),
     ("angular_drift", "ANGULAR-DRIFT"), ("time", "TIME"), ("depth_offset", "DEPTH-OFFSET"),
     ("measure_point_offset", "MEASURE-POINT-OFFSET"), ("tool_zero_offset", "TOOL-ZERO-OFFSET")]

/-- `Message`, message.py:62-70, 75-101. -/
def messageClass : ObjClass where
  type := "MESSAGE"
  attributes :=
    [("TYPE", .scalar), ("TIME", .scalar), ("BOREHOLE-DRIFT", .scalar),
     ("VERTICAL-DEPTH", .scalar), ("RADIAL-DRIFT", .scalar), ("ANGULAR-DRIFT", .scalar),
     ("TEXT", .vector)]
  linkage :=
    []
  properties :=
    [("message_type", "TYPE"), ("time", "TIME"), ("borehole_drift", "BOREHOLE-DRIFT"),
     ("vertical_depth", "VERTICAL-DEPTH"), ("radial_drift", "RADIAL-DRIFT"),
     ("angular_drift", "ANGULAR-DRIFT"), ("text", "TEXT")]

/-- `Comment`, comment.py:30, 35-37. -/
def commentClass : ObjClass where
  type := "COMMENT"
  attributes :=
    [("TEXT", .vector)]
  linkage :=
    []
  properties :=
    [("text", "TEXT")]

/-- `Noformat`, noformat.py:38-41, 46-52. -/
def noformatClass : ObjClass where
  type := "NO-FORMAT"
  attributes :=
    [("CONSUMER-NAME", .scalar), ("DESCRIPTION", .scalar)]
  linkage :=
    []
  properties :=
    [("consumer_name", "CONSUMER-NAME"), ("description", "DESCRIPTION")]

/-- `LogicalFile.types`, file.py:308-331. -/
def objClasses : List ObjClass :=
  [axisClass, fileheaderClass, originClass, longnameClass, frameClass, channelClass, zoneClass,
   toolClass, parameterClass, equipmentClass, measurementClass, coefficientClass,
   calibrationClass, computationClass, spliceClass, wellrefClass, groupClass, processClass,
   pathClass, messageClass, commentClass, noformatClass]

/-- `self.logical_file.types[attic.type]`, file.py:264; `none` is `Unknown`. -/
def classOf (t : PyStr) : Option ObjClass :=
  objClasses.find? fun c => decide (t = .str (text c.type))

/-- The properties that are more than `return self[label]`: channel.py:105, 170, computation.py:115,
frame.py:137, 149, group.py:70, measurement.py:137, 155, 176, 197, 214, 234, parameter.py:89 and
wellref.py:102. -/
def computedProperties : List (String × String) :=
  [("CHANNEL", "frame"), ("CHANNEL", "dtype"), ("COMPUTATION", "values"), ("FRAME", "encrypted"),
   ("FRAME", "index"), ("GROUP", "objects"), ("CALIBRATION-MEASUREMENT", "samples"),
   ("CALIBRATION-MEASUREMENT", "max_deviation"), ("CALIBRATION-MEASUREMENT", "std_deviation"),
   ("CALIBRATION-MEASUREMENT", "reference"), ("CALIBRATION-MEASUREMENT", "plus_tolerance"),
   ("CALIBRATION-MEASUREMENT", "minus_tolerance"), ("PARAMETER", "values"),
   ("WELL-REFERENCE", "coordinates")]

/-- The exceptions: `AttributeError` because there is no such property, `TypeError`, or that of the
access to an attribute.  (`computed` is none: the property is in another definition.) -/
inductive PropErr where
  | attribute | type | access (x : AccessErr) | computed
deriving DecidableEq

/-- `obj.name` for the Python object of the given object, file.py:256-270 and the property of the
class.  What all objects have (`name`, `origin`, `attic`, `describe`, ...) is left out. -/
def Store.property (e : Env) (s : Store) (o : BasicObject) (name : String) :
    Store × Except PropErr PyResult :=
  match classOf (e.dec o.type) with
  | none => (s, .error .attribute)
  | some c =>
    match c.properties.find? (fun x => x.1 == name) with
    | none =>
      if (c.type, name) ∈ computedProperties then (s, .error .computed) else (s, .error .attribute)
    | some x =>
      match getItem e c.rules s o (.str (text x.2)) with
      | (s, .ok r) => (s, .ok r)
      | (s, .error err) => (s, .error (.access err))

/-- `Frame.encrypted`, frame.py:137-139. -/
def frameEncrypted (e : Env) (o : BasicObject) : Bool :=
  (pyKeys e o).any fun k => decide (k = .str (text "ENCRYPTED"))

/-- The rules of a `Group` whose linkage was changed, group.py:78.  The dict belongs to the
instance (group.py:60), and is changed again before each use, so that it is no state to speak
of; but see `c69_group_label_defect`. -/
def groupRulesFor (t : PyStr) : Rules where
  attributes := groupClass.rules.attributes
  linkage := fun k => if k = .str (text "OBJECT-LIST") then some (.obname t)
    else groupClass.rules.linkage k

/-- `Group.objects`, group.py:70-80.  The value `None` has no first element (`TypeError`, which is
not caught).  If the type of the objects is no string, the query in C++ is a `TypeError`, after the
checks of `__getitem__`. -/
def Store.groupObjects (e : Env) (s : Store) (o : BasicObject) : Store × Except PropErr PyResult :=
  match atticValue e o (.str (text "OBJECT-LIST")) with
  | .missing => (s, .ok (.list []))
  | .raised => (s, .error (.access .date))
  | .value none => (s, .error .type)
  | .value (some []) => (s, .ok (.list []))
  | .value (some (.raw _ (.obname _) :: _)) =>
    match getItem e groupClass.rules s o (.str (text "OBJECT-TYPE")) with
    | (s, .error err) => (s, .error (.access err))
    | (s, .ok (.elem (.str t))) =>
      match getItem e (groupRulesFor t) s o (.str (text "OBJECT-LIST")) with
      | (s, .ok r) => (s, .ok r)
      | (s, .error err) => (s, .error (.access err))
    | (s, .ok _) =>
      match (getItem e ⟨groupClass.rules.attributes, fun _ => none⟩ s o
          (.str (text "OBJECT-LIST"))).2 with
      | .ok _ => (s, .error .type)
      | .error err => (s, .error (.access err))
  | .value (some _) =>
    match getItem e groupClass.rules s o (.str (text "OBJECT-LIST")) with
    | (s, .ok r) => (s, .ok r)
    | (s, .error err) => (s, .error (.access err))

/-- What `objects` leaves in `self.linkage`, group.py:77-78: the type, or nothing new. -/
def Store.groupLinkage (e : Env) (s : Store) (o : BasicObject) : Option PyStr :=
  match atticValue e o (.str (text "OBJECT-LIST")) with
  | .value (some (.raw _ (.obname _) :: _)) =>
    match (getItem e groupClass.rules s o (.str (text "OBJECT-TYPE"))).2 with
    | .ok (.elem (.str t)) => some t
    | _ => none
  | _ => none

/-- `group[key]` with this linkage, basicobject.py:171-231. -/
def Store.groupItem (e : Env) (s : Store) (o : BasicObject) (changed : Option PyStr) (key : PyStr) :
    Store × Except AccessErr PyResult :=
  getItem e (match changed with | none => groupClass.rules | some t => groupRulesFor t) s o key

/-- The labels of the three coordinates, wellref.py:105-109. -/
def coordinateLabels : List (String × String × String) :=
  [("COORDINATE-1", "COORDINATE-1-NAME", "COORDINATE-1-VALUE"),
   ("COORDINATE-2", "COORDINATE-2-NAME", "COORDINATE-2-VALUE"),
   ("COORDINATE-3", "COORDINATE-3-NAME", "COORDINATE-3-VALUE")]

/-- `self.attic[label].value[0]` with a default for `KeyError`, wellref.py:110-118; `none` is an
exception. -/
def firstOr {α : Type} (e : Env) (o : BasicObject) (label : String) (default : α)
    (f : PyVal → α) : Option α :=
  match atticValue e o (.str (text label)) with
  | .missing => some default
  | .value (some (v :: _)) => some (f v)
  | _ => none

/-- `coordinates[key] = val`, wellref.py:120.  Keys are compared as they were decoded; that is
right for strings. -/
def setCoordinate (k : PyVal) (v : Option PyVal) :
    List (PyVal × Option PyVal) → List (PyVal × Option PyVal)
  | [] => [(k, v)]
  | (k', v') :: d => if k' = k then (k', v) :: d else (k', v') :: setCoordinate k v d

/-- The loop of `coordinates`, wellref.py:109-120. -/
def coordinateLoop (e : Env) (o : BasicObject) :
    List (String × String × String) → List (PyVal × Option PyVal) →
    Option (List (PyVal × Option PyVal))
  | [], d => some d
  | (custom, name, value) :: rest, d =>
    match firstOr e o name (.str (.str (text custom))) id with
    | none => none
    | some k =>
      match firstOr e o value none some with
      | none => none
      | some v => coordinateLoop e o rest (setCoordinate k v d)

/-- `Wellref.coordinates`, wellref.py:102-121. -/
def coordinates (e : Env) (o : BasicObject) : Option (List (PyVal × Option PyVal)) :=
  coordinateLoop e o coordinateLabels []

/-! ## What the properties should be -/

/-- What is documented of a property: the type of the objects that have it, its name, the label
in the standard, how the values are presented, and what they refer to. -/
structure Spec.Doc where
  type : String
  name : String
  label : String
  shape : ParseAs
  ref : Option RefType

/-- References to objects of one type. -/
def Spec.ref (t : String) : Option RefType := some (.obname (.str (text t)))

/-- The documentation of the classes (the docstrings), completed by the standard (chapter 5) where
the docstring does not say whether there are several values or what is referred to.  The label of
`Splice.output_channel` is that of the standard. -/
def Spec.documented : List Spec.Doc := [
  -- Axis
  ⟨"AXIS", "axis_id", "AXIS-ID", .scalar, none⟩,
  ⟨"AXIS", "coordinates", "COORDINATES", .vector, none⟩,
  ⟨"AXIS", "spacing", "SPACING", .scalar, none⟩,
  -- Fileheader
  ⟨"FILE-HEADER", "sequencenr", "SEQUENCE-NUMBER", .scalar, none⟩,
  ⟨"FILE-HEADER", "id", "ID", .scalar, none⟩,
  -- Origin
  ⟨"ORIGIN", "file_id", "FILE-ID", .scalar, none⟩,
  ⟨"ORIGIN", "file_set_name", "FILE-SET-NAME", .scalar, none⟩,
  ⟨"ORIGIN", "file_set_nr", "FILE-SET-NUMBER", .scalar, none⟩,
  ⟨"ORIGIN", "file_nr", "FILE-NUMBER", .scalar, none⟩,
  ⟨"ORIGIN", "file_type", "FILE-TYPE", .scalar, none⟩,
  ⟨"ORIGIN", "product", "PRODUCT", .scalar, none⟩,
  ⟨"ORIGIN", "version", "VERSION", .scalar, none⟩,
  ⟨"ORIGIN", "programs", "PROGRAMS", .vector, none⟩,
  ⟨"ORIGIN", "creation_time", "CREATION-TIME", .scalar, none⟩,
  ⟨"ORIGIN", "order_nr", "ORDER-NUMBER", .scalar, none⟩,
  ⟨"ORIGIN", "descent_nr", "DESCENT-NUMBER", .vector, none⟩,
  ⟨"ORIGIN", "run_nr", "RUN-NUMBER", .vector, none⟩,
  ⟨"ORIGIN", "well_id", "WELL-ID", .scalar, none⟩,
  ⟨"ORIGIN", "well_name", "WELL-NAME", .scalar, none⟩,
  ⟨"ORIGIN", "field_name", "FIELD-NAME", .scalar, none⟩,
  ⟨"ORIGIN", "producer_code", "PRODUCER-CODE", .scalar, none⟩,
  ⟨"ORIGIN", "producer_name", "PRODUCER-NAME", .scalar, none⟩,
  ⟨"ORIGIN", "company", "COMPANY", .scalar, none⟩,
  ⟨"ORIGIN", "namespace_name", "NAME-SPACE-NAME", .scalar, none⟩,
  ⟨"ORIGIN", "namespace_version", "NAME-SPACE-VERSION", .scalar, none⟩,
  -- Longname
  ⟨"LONG-NAME", "modifier", "GENERAL-MODIFIER", .vector, none⟩,
  ⟨"LONG-NAME", "quantity", "QUANTITY", .scalar, none⟩,
  ⟨"LONG-NAME", "quantity_mod", "QUANTITY-MODIFIER", .vector, none⟩,
  ⟨"LONG-NAME", "altered_form", "ALTERED-FORM", .scalar, none⟩,
  ⟨"LONG-NAME", "entity", "ENTITY", .scalar, none⟩,
  ⟨"LONG-NAME", "entity_mod", "ENTITY-MODIFIER", .vector, none⟩,
  ⟨"LONG-NAME", "entity_nr", "ENTITY-NUMBER", .scalar, none⟩,
  ⟨"LONG-NAME", "entity_part", "ENTITY-PART", .scalar, none⟩,
  ⟨"LONG-NAME", "entity_part_nr", "ENTITY-PART-NUMBER", .scalar, none⟩,
  ⟨"LONG-NAME", "generic_source", "GENERIC-SOURCE", .scalar, none⟩,
  ⟨"LONG-NAME", "source_part", "SOURCE-PART", .vector, none⟩,
  ⟨"LONG-NAME", "source_part_nr", "SOURCE-PART-NUMBER", .vector, none⟩,
  ⟨"LONG-NAME", "conditions", "CONDITIONS", .vector, none⟩,
  ⟨"LONG-NAME", "standard_symbol", "STANDARD-SYMBOL", .scalar, none⟩,
  ⟨"LONG-NAME", "private_symbol", "PRIVATE-SYMBOL", .scalar, none⟩,
  -- Frame
  ⟨"FRAME", "description", "DESCRIPTION", .scalar, none⟩,
  ⟨"FRAME", "channels", "CHANNELS", .vector, ref "CHANNEL"⟩,
  ⟨"FRAME", "index_type", "INDEX-TYPE", .scalar, none⟩,
  ⟨"FRAME", "direction", "DIRECTION", .scalar, none⟩,
  ⟨"FRAME", "spacing", "SPACING", .scalar, none⟩,
  ⟨"FRAME", "index_min", "INDEX-MIN", .scalar, none⟩,
  ⟨"FRAME", "index_max", "INDEX-MAX", .scalar, none⟩,
  -- Channel
  ⟨"CHANNEL", "long_name", "LONG-NAME", .scalar, ref "LONG-NAME"⟩,
  ⟨"CHANNEL", "reprc", "REPRESENTATION-CODE", .scalar, none⟩,
  ⟨"CHANNEL", "units", "UNITS", .scalar, none⟩,
  ⟨"CHANNEL", "properties", "PROPERTIES", .vector, none⟩,
  ⟨"CHANNEL", "dimension", "DIMENSION", .reverse, none⟩,
  ⟨"CHANNEL", "axis", "AXIS", .reverse, ref "AXIS"⟩,
  ⟨"CHANNEL", "element_limit", "ELEMENT-LIMIT", .reverse, none⟩,
  ⟨"CHANNEL", "source", "SOURCE", .scalar, some .objref⟩,
  -- Zone
  ⟨"ZONE", "description", "DESCRIPTION", .scalar, none⟩,
  ⟨"ZONE", "domain", "DOMAIN", .scalar, none⟩,
  ⟨"ZONE", "maximum", "MAXIMUM", .scalar, none⟩,
  ⟨"ZONE", "minimum", "MINIMUM", .scalar, none⟩,
  -- Tool
  ⟨"TOOL", "description", "DESCRIPTION", .scalar, none⟩,
  ⟨"TOOL", "trademark_name", "TRADEMARK-NAME", .scalar, none⟩,
  ⟨"TOOL", "generic_name", "GENERIC-NAME", .scalar, none⟩,
  ⟨"TOOL", "status", "STATUS", .boolean, none⟩,
  ⟨"TOOL", "parts", "PARTS", .vector, ref "EQUIPMENT"⟩,
  ⟨"TOOL", "channels", "CHANNELS", .vector, ref "CHANNEL"⟩,
  ⟨"TOOL", "parameters", "PARAMETERS", .vector, ref "PARAMETER"⟩,
  -- Parameter
  ⟨"PARAMETER", "long_name", "LONG-NAME", .scalar, ref "LONG-NAME"⟩,
  ⟨"PARAMETER", "dimension", "DIMENSION", .reverse, none⟩,
  ⟨"PARAMETER", "axis", "AXIS", .reverse, ref "AXIS"⟩,
  ⟨"PARAMETER", "zones", "ZONES", .vector, ref "ZONE"⟩,
  -- Equipment
  ⟨"EQUIPMENT", "trademark_name", "TRADEMARK-NAME", .scalar, none⟩,
  ⟨"EQUIPMENT", "status", "STATUS", .boolean, none⟩,
  ⟨"EQUIPMENT", "generic_type", "TYPE", .scalar, none⟩,
  ⟨"EQUIPMENT", "serial_number", "SERIAL-NUMBER", .scalar, none⟩,
  ⟨"EQUIPMENT", "location", "LOCATION", .scalar, none⟩,
  ⟨"EQUIPMENT", "height", "HEIGHT", .scalar, none⟩,
  ⟨"EQUIPMENT", "length", "LENGTH", .scalar, none⟩,
  ⟨"EQUIPMENT", "diameter_min", "MINIMUM-DIAMETER", .scalar, none⟩,
  ⟨"EQUIPMENT", "diameter_max", "MAXIMUM-DIAMETER", .scalar, none⟩,
  ⟨"EQUIPMENT", "volume", "VOLUME", .scalar, none⟩,
  ⟨"EQUIPMENT", "weight", "WEIGHT", .scalar, none⟩,
  ⟨"EQUIPMENT", "hole_size", "HOLE-SIZE", .scalar, none⟩,
  ⟨"EQUIPMENT", "pressure", "PRESSURE", .scalar, none⟩,
  ⟨"EQUIPMENT", "temperature", "TEMPERATURE", .scalar, none⟩,
  ⟨"EQUIPMENT", "vertical_depth", "VERTICAL-DEPTH", .scalar, none⟩,
  ⟨"EQUIPMENT", "radial_drift", "RADIAL-DRIFT", .scalar, none⟩,
  ⟨"EQUIPMENT", "angular_drift", "ANGULAR-DRIFT", .scalar, none⟩,
  -- Measurement
  ⟨"CALIBRATION-MEASUREMENT", "phase", "PHASE", .scalar, none⟩,
  ⟨"CALIBRATION-MEASUREMENT", "source", "MEASUREMENT-SOURCE", .scalar, some .objref⟩,
  ⟨"CALIBRATION-MEASUREMENT", "mtype", "TYPE", .scalar, none⟩,
  ⟨"CALIBRATION-MEASUREMENT", "dimension", "DIMENSION", .reverse, none⟩,
  ⟨"CALIBRATION-MEASUREMENT", "axis", "AXIS", .reverse, ref "AXIS"⟩,
  ⟨"CALIBRATION-MEASUREMENT", "samplecount", "SAMPLE-COUNT", .scalar, none⟩,
  ⟨"CALIBRATION-MEASUREMENT", "begin_time", "BEGIN-TIME", .scalar, none⟩,
  ⟨"CALIBRATION-MEASUREMENT", "duration", "DURATION", .scalar, none⟩,
  ⟨"CALIBRATION-MEASUREMENT", "standard", "STANDARD", .vector, none⟩,
  -- Coefficient
  ⟨"CALIBRATION-COEFFICIENT", "label", "LABEL", .scalar, none⟩,
  ⟨"CALIBRATION-COEFFICIENT", "coefficients", "COEFFICIENTS", .vector, none⟩,
  ⟨"CALIBRATION-COEFFICIENT", "references", "REFERENCES", .vector, none⟩,
  ⟨"CALIBRATION-COEFFICIENT", "plus_tolerance", "PLUS-TOLERANCES", .vector, none⟩,
  ⟨"CALIBRATION-COEFFICIENT", "minus_tolerance", "MINUS-TOLERANCES", .vector, none⟩,
  -- Calibration
  ⟨"CALIBRATION", "method", "METHOD", .scalar, none⟩,
  ⟨"CALIBRATION", "calibrated", "CALIBRATED-CHANNELS", .vector, ref "CHANNEL"⟩,
  ⟨"CALIBRATION", "uncalibrated", "UNCALIBRATED-CHANNELS", .vector, ref "CHANNEL"⟩,
  ⟨"CALIBRATION", "coefficients", "COEFFICIENTS", .vector, ref "CALIBRATION-COEFFICIENT"⟩,
  ⟨"CALIBRATION", "measurements", "MEASUREMENTS", .vector, ref "CALIBRATION-MEASUREMENT"⟩,
  ⟨"CALIBRATION", "parameters", "PARAMETERS", .vector, ref "PARAMETER"⟩,
  -- Computation
  ⟨"COMPUTATION", "long_name", "LONG-NAME", .scalar, ref "LONG-NAME"⟩,
  ⟨"COMPUTATION", "properties", "PROPERTIES", .vector, none⟩,
  ⟨"COMPUTATION", "dimension", "DIMENSION", .reverse, none⟩,
  ⟨"COMPUTATION", "axis", "AXIS", .reverse, ref "AXIS"⟩,
  ⟨"COMPUTATION", "zones", "ZONES", .vector, ref "ZONE"⟩,
  ⟨"COMPUTATION", "source", "SOURCE", .scalar, some .objref⟩,
  -- Splice
  ⟨"SPLICE", "output_channel", "OUTPUT-CHANNEL", .scalar, ref "CHANNEL"⟩,
  ⟨"SPLICE", "input_channels", "INPUT-CHANNELS", .vector, ref "CHANNEL"⟩,
  ⟨"SPLICE", "zones", "ZONES", .vector, ref "ZONE"⟩,
  -- Wellref
  ⟨"WELL-REFERENCE", "permanent_datum", "PERMANENT-DATUM", .scalar, none⟩,
  ⟨"WELL-REFERENCE", "vertical_zero", "VERTICAL-ZERO", .scalar, none⟩,
  ⟨"WELL-REFERENCE", "permanent_datum_elevation", "PERMANENT-DATUM-ELEVATION", .scalar, none⟩,
  ⟨"WELL-REFERENCE", "above_permanent_datum", "ABOVE-PERMANENT-DATUM", .scalar, none⟩,
  ⟨"WELL-REFERENCE", "magnetic_declination", "MAGNETIC-DECLINATION", .scalar, none⟩,
  -- Group
  ⟨"GROUP", "description", "DESCRIPTION", .scalar, none⟩,
  -- Process
  ⟨"PROCESS", "description", "DESCRIPTION", .scalar, ref "LONG-NAME"⟩,
  ⟨"PROCESS", "trademark_name", "TRADEMARK-NAME", .scalar, none⟩,
  ⟨"PROCESS", "version", "VERSION", .scalar, none⟩,
  ⟨"PROCESS", "properties", "PROPERTIES", .vector, none⟩,
  ⟨"PROCESS", "status", "STATUS", .scalar, none⟩,
  ⟨"PROCESS", "input_channels", "INPUT-CHANNELS", .vector, ref "CHANNEL"⟩,
  ⟨"PROCESS", "output_channels", "OUTPUT-CHANNELS", .vector, ref "CHANNEL"⟩,
  ⟨"PROCESS", "input_computations", "INPUT-COMPUTATIONS", .vector, ref "COMPUTATION"⟩,
  ⟨"PROCESS", "output_computations", "OUTPUT-COMPUTATIONS", .vector, ref "COMPUTATION"⟩,
  ⟨"PROCESS", "parameters", "PARAMETERS", .vector, ref "PARAMETER"⟩,
  ⟨"PROCESS", "comments", "COMMENTS", .vector, none⟩,
  -- Path
  ⟨"PATH", "well_reference_point", "WELL-REFERENCE-POINT", .scalar, ref "WELL-REFERENCE"⟩,
  ⟨"PATH", "value", "VALUE", .vector, ref "CHANNEL"⟩,
  ⟨"PATH", "borehole_depth", "BOREHOLE-DEPTH", .scalar, ref "CHANNEL"⟩,
  ⟨"PATH", "vertical_depth", "VERTICAL-DEPTH", .scalar, ref "CHANNEL"⟩,
  ⟨"PATH", "radial_drift", "RADIAL-DRIFT", .scalar, ref "CHANNEL"⟩,
  ⟨"PATH", "angular_drift", "ANGULAR-DRIFT", .scalar, ref "CHANNEL"⟩,
  ⟨"PATH", "time", "TIME", .scalar, ref "CHANNEL"⟩,
  ⟨"PATH", "depth_offset", "DEPTH-OFFSET", .scalar, none⟩,
  ⟨"PATH", "measure_point_offset", "MEASURE-POINT-OFFSET", .scalar, none⟩,
  ⟨"PATH", "tool_zero_offset", "TOOL-ZERO-OFFSET", .scalar, none⟩,
  -- Message
  ⟨"MESSAGE", "message_type", "TYPE", .scalar, none⟩,
  ⟨"MESSAGE", "time", "TIME", .scalar, none⟩,
  ⟨"MESSAGE", "borehole_drift", "BOREHOLE-DRIFT", .scalar, none⟩,
  ⟨"MESSAGE", "vertical_depth", "VERTICAL-DEPTH", .scalar, none⟩,
  ⟨"MESSAGE", "radial_drift", "RADIAL-DRIFT", .scalar, none⟩,
  ⟨"MESSAGE", "angular_drift", "ANGULAR-DRIFT", .scalar, none⟩,
  ⟨"MESSAGE", "text", "TEXT", .vector, none⟩,
  -- Comment
  ⟨"COMMENT", "text", "TEXT", .vector, none⟩,
  -- Noformat
  ⟨"NO-FORMAT", "consumer_name", "CONSUMER-NAME", .scalar, none⟩,
  ⟨"NO-FORMAT", "description", "DESCRIPTION", .scalar, none⟩]

/-- Properties that have another name than the documented one: `object_type`, `group_list` and
`frame_type`. -/
def Spec.renamed : List Spec.Doc := [
  ⟨"GROUP", "objecttype", "OBJECT-TYPE", .scalar, none⟩,
  ⟨"GROUP", "groups", "GROUP-LIST", .vector, ref "GROUP"⟩,
  ⟨"PATH", "frame", "FRAME-TYPE", .scalar, ref "FRAME"⟩]

/-- Documented names that the classes do not have. -/
def Spec.misnamed : List (String × String) :=
  [("GROUP", "object_type"), ("GROUP", "object_list"), ("GROUP", "group_list"),
   ("PATH", "frame_type"), ("WELL-REFERENCE", "coordinate")]

/-- The values of an attribute as something gives them (after every history if they are references):
nothing, or the empty list, if there is no attribute or the attribute has no value; the values as
they are, without white space around texts; or the objects that they refer to. -/
structure Spec.ValueIs {ε : Type} (e : Env) (p : List ObjectSet) (o : BasicObject) (label : String)
    (shape : ParseAs) (refs : Option RefType) (get : Store → Store × Except ε PyResult) : Prop where
  absent : (∀ a ∈ o.attributes, a.label ≠ Fingerprint.ascii label) →
    ∃ r, Spec.Missing shape r ∧ ∀ s : Store, get s = (s, .ok r)
  empty : ∀ a ∈ o.attributes, a.label = Fingerprint.ascii label → Spec.Quiet e o a.log →
    (a.value = none ∨ ∃ c, a.value = some (c, [])) →
    ∃ r, Spec.Missing shape r ∧ ∀ s : Store, get s = (s, .ok r)
  plain : ∀ a ∈ o.attributes, a.label = Fingerprint.ascii label → Spec.Quiet e o a.log →
    ∀ c vs, a.value = some (c, vs) → vs ≠ [] → Spec.DatesOk vs →
    (refs = none ∨
      ∀ v ∈ vs.head?, (∀ n, v ≠ .obname n) ∧ (∀ r, v ≠ .objref r) ∧ ∀ t, v ≠ .attref t) →
    ∃ ws r, List.Forall₂ (Spec.Shown e c) vs ws ∧ Spec.Presented shape ws r ∧
      ∀ s : Store, get s = (s, .ok r)
  linked : ∀ a ∈ o.attributes, a.label = Fingerprint.ascii label → Spec.Quiet e o a.log →
    ∀ c vs, a.value = some (c, vs) → vs ≠ [] → ∀ ref, refs = some ref →
    (∀ v ∈ vs, (∃ n, v = .obname n) ∨ (∃ r, v = .objref r) ∨ ∃ t, v = .attref t) →
    Spec.RefsOk e p ref vs →
    ∃ ws r, List.Forall₂ (Spec.Refers e p ref) vs ws ∧ Spec.Presented shape ws r ∧
      ∀ hist, (get (Spec.after e p hist)).2 = .ok r

/-- The value of a property of an object is that of its attribute. -/
abbrev Spec.PropertyIs (e : Env) (p : List ObjectSet) (o : BasicObject) (d : Spec.Doc) : Prop :=
  Spec.ValueIs e p o d.label d.shape d.ref fun s => s.property e o d.name

/-- The labels that the properties above are not made from, or not alone: the standard has them in
these objects. -/
def Spec.further : List (String × String × ParseAs × Option RefType) := [
  ("FRAME", "ENCRYPTED", .boolean, none),
  ("PARAMETER", "VALUES", .vector, none),
  ("COMPUTATION", "VALUES", .vector, none),
  ("CALIBRATION-MEASUREMENT", "MEASUREMENT", .vector, none),
  ("CALIBRATION-MEASUREMENT", "MAXIMUM-DEVIATION", .vector, none),
  ("CALIBRATION-MEASUREMENT", "STANDARD-DEVIATION", .vector, none),
  ("CALIBRATION-MEASUREMENT", "REFERENCE", .vector, none),
  ("CALIBRATION-MEASUREMENT", "PLUS-TOLERANCE", .vector, none),
  ("CALIBRATION-MEASUREMENT", "MINUS-TOLERANCE", .vector, none),
  ("WELL-REFERENCE", "COORDINATE-1-NAME", .scalar, none),
  ("WELL-REFERENCE", "COORDINATE-1-VALUE", .scalar, none),
  ("WELL-REFERENCE", "COORDINATE-2-NAME", .scalar, none),
  ("WELL-REFERENCE", "COORDINATE-2-VALUE", .scalar, none),
  ("WELL-REFERENCE", "COORDINATE-3-NAME", .scalar, none),
  ("WELL-REFERENCE", "COORDINATE-3-VALUE", .scalar, none),
  ("GROUP", "OBJECT-LIST", .vector, some .objref)]

/-- All labels of the classes: type, label, how it is read and what it refers to. -/
def Spec.labels : List (String × String × ParseAs × Option RefType) :=
  (Spec.documented ++ Spec.renamed).map (fun d => (d.type, d.label, d.shape, d.ref)) ++ Spec.further

/-- Properties that are more than the value of an attribute. -/
def Spec.computed : List (String × String) :=
  [("FRAME", "index"), ("FRAME", "encrypted"), ("CHANNEL", "dtype"), ("CHANNEL", "frame"),
   ("PARAMETER", "values"), ("COMPUTATION", "values"), ("GROUP", "objects"),
   ("WELL-REFERENCE", "coordinates")] ++
  ["samples", "reference", "max_deviation", "std_deviation", "plus_tolerance",
    "minus_tolerance"].map fun n => ("CALIBRATION-MEASUREMENT", n)

/-- The name of a coordinate: the text in the file, or the default. -/
def Spec.CoordinateName (e : Env) (o : BasicObject) (label custom : String) (k : PyVal) : Prop :=
  ((∀ a ∈ o.attributes, a.label ≠ Fingerprint.ascii label) ∧ k = .str (.str (text custom))) ∨
  ∃ c t rest, Spec.ValuesAre o label c (.str t :: rest) ∧ Spec.DatesOk rest ∧ k = .str (e.dec t)

/-- The value of a coordinate, if there is one. -/
def Spec.CoordinateValue (e : Env) (o : BasicObject) (label : String) (w : Option PyVal) : Prop :=
  ((∀ a ∈ o.attributes, a.label ≠ Fingerprint.ascii label) ∧ w = none) ∨
  ∃ c v rest u, Spec.ValuesAre o label c (v :: rest) ∧ Spec.DatesOk (v :: rest) ∧
    Spec.Decoded e c v u ∧ w = some u

/-! ## Lemmas -/

/-- What the tables must say for one property. -/
def docCheck (d : Spec.Doc) : Bool :=
  match classOf (.str (text d.type)) with
  | none => false
  | some c =>
    match c.properties.find? (fun x => x.1 == d.name) with
    | none => false
    | some x =>
      x.2 == d.label && decide (c.rules.attributes (.str (text d.label)) = some d.shape) &&
      decide (c.rules.linkage (.str (text d.label)) = d.ref) &&
      ((Fingerprint.ascii d.label).all fun b => decide (0 < b.toNat ∧ b.toNat < 128)) &&
      decide ((Fingerprint.ascii d.label).map (·.toNat) = text d.label)

set_option maxRecDepth 4000 in
theorem docs_check : ∀ d ∈ Spec.documented ++ Spec.renamed, docCheck d = true := by
  decide +kernel

theorem docCheck_property {e : Env} {o : BasicObject} {d : Spec.Doc} (h : docCheck d = true)
    (ht : e.dec o.type = .str (text d.type)) :
    PlainLabel d.label ∧ ∃ rules : Rules,
      rules.attributes (.str (text d.label)) = some d.shape ∧
      rules.linkage (.str (text d.label)) = d.ref ∧
      ∀ s : Store, s.property e o d.name =
        match getItem e rules s o (.str (text d.label)) with
        | (s, .ok r) => (s, .ok r)
        | (s, .error err) => (s, .error (.access err)) := by
  unfold docCheck at h
  rcases hc : classOf (.str (text d.type)) with _ | c
  · rw [hc] at h; cases h
  rw [hc] at h
  simp only at h
  rcases hp : c.properties.find? (fun x => x.1 == d.name) with _ | x
  · rw [hp] at h; cases h
  rw [hp] at h
  simp only [Bool.and_eq_true, decide_eq_true_eq, beq_iff_eq, List.all_eq_true] at h
  obtain ⟨⟨⟨⟨h1, h2⟩, h3⟩, h4⟩, h5⟩ := h
  refine ⟨⟨h4, h5⟩, c.rules, h2, h3, fun s => ?_⟩
  unfold Store.property
  rw [ht, hc]
  simp only [hp, h1]

theorem property_ok {e : Env} {o : BasicObject} {d : Spec.Doc} {rules : Rules} {s t : Store}
    {r : PyResult}
    (h : s.property e o d.name =
        match getItem e rules s o (.str (text d.label)) with
        | (s, .ok r) => (s, .ok r)
        | (s, .error err) => (s, .error (.access err)))
    (hg : getItem e rules s o (.str (text d.label)) = (t, .ok r)) :
    s.property e o d.name = (t, .ok r) := by
  rw [h, hg]

/-! ## C69 -/

/-- What rules give for a label. -/
theorem getItem_valueIs {e : Env} (hd : Spec.ReadsUtf8 e.dec) {p : List ObjectSet}
    (hf : Spec.Fresh p) {o : BasicObject} (hl : Spec.LabelsOk e o) (hq : Spec.Quiet e o o.log)
    {rules : Rules} {label : String} (hpl : PlainLabel label) {shape : ParseAs}
    {refs : Option RefType} (hr : rules.attributes (.str (text label)) = some shape)
    (hlink : rules.linkage (.str (text label)) = refs) :
    Spec.ValueIs e p o label shape refs fun s => getItem e rules s o (.str (text label)) := by
  obtain ⟨h1, h2⟩ := label_dec hd hpl
  have hpar : Spec.parsing rules (.str (text label)) = shape := by
    unfold Spec.parsing; rw [hr]
  refine ⟨?_, ?_, ?_, ?_⟩
  · intro ha
    have key : ∀ s : Store, ∃ r, getItem e rules s o (.str (text label)) = (s, .ok r) ∧
        Spec.Missing shape r := fun s =>
      c35_absent e rules s o (.str (text label)) shape hr (by rw [h2]; exact ha) hq
    refine ⟨defaultValue shape, default_spec _, fun s => ?_⟩
    obtain ⟨r, g1, g2⟩ := key s
    have : r = defaultValue shape := by
      generalize shape = q at g2
      cases q <;> exact g2
    subst this
    exact g1
  · intro a ha hlab hqa hv
    refine ⟨defaultValue shape, default_spec _, fun s => ?_⟩
    obtain ⟨r, g1, g2⟩ := c35_no_value_partial e rules s o a hl ha hq hqa hv
    rw [hlab, h1] at g1 g2
    rw [hpar] at g2
    have : r = defaultValue shape := by
      generalize shape = q at g2
      cases q <;> exact g2
    subst this
    exact g1
  · intro a ha hlab hqa c vs hv hne hdates hun
    have hlk : rules.linkage (e.dec a.label) = none ∨
        ∀ v ∈ vs.head?, (∀ n, v ≠ .obname n) ∧ (∀ r, v ≠ .objref r) ∧ ∀ t, v ≠ .attref t := by
      rw [hlab, h1, hlink]; exact hun
    obtain ⟨us, k1, k2⟩ := toPyList_some (e := e) (c := c) vs hdates
    obtain ⟨ws, r, g1, g2, g3⟩ := c35_value_partial e rules ⟨[], true, []⟩ o a hl ha hq hqa c vs hv
      hne hdates hlk
    rw [hlab, h1] at g3
    rw [hpar] at g3
    refine ⟨ws, r, g2, g3, fun s => ?_⟩
    have hp : pyValues e.dec a = some us := by simp [pyValues, hv, k1]
    have hany : ∀ s : Store, ∃ r, getItem e rules s o (e.dec a.label) = (s, .ok r) :=
      fun s => by
        obtain ⟨ws, r, g, -⟩ := c35_value_partial e rules s o a hl ha hq hqa c vs hv hne hdates hlk
        exact ⟨r, g⟩
    have hsame : ∀ s : Store, getItem e rules s o (e.dec a.label) = (s, .ok r) := by
      intro s
      cases k2 with
      | nil => exact absurd rfl hne
      | @cons v u vs us hu hus =>
        rw [getItem_present hl ha hq hqa hp] at g1
        have g := hany s
        rw [getItem_present hl ha hq hqa hp] at g ⊢
        simp only at g g1 ⊢
        unfold finishValue at g g1 ⊢
        rcases hlk with h | h
        · rw [h] at g1 ⊢
          simp only [Prod.mk.injEq, true_and] at g1 ⊢
          exact g1
        · have hnr : isReference u = false := by
            have hh := h v rfl
            cases v with
            | obname n => exact absurd rfl (hh.1 n)
            | objref r => exact absurd rfl (hh.2.1 r)
            | attref t => exact absurd rfl (hh.2.2 t)
            | dtime t =>
              simp only [toPy] at hu
              split at hu
              · cases hu; rfl
              · cases hu
            | _ => cases hu; rfl
          rw [hnr] at g1 ⊢
          rcases hk : rules.linkage (e.dec a.label) with _ | ref
          · simp only [hk, Prod.mk.injEq, true_and] at g1 ⊢
            exact g1
          · simp only [hk, Prod.mk.injEq, true_and] at g1 ⊢
            exact g1
    have := hsame s
    rw [hlab, h1] at this
    exact this
  · intro a ha hlab hqa c vs hv hne ref href hrefs hok
    obtain ⟨ws, r, g1, g2, g3⟩ := c35_linked_partial e rules p hf o a hl ha hq hqa c vs hv hne ref
      (by rw [hlab, h1, hlink, href]) hrefs hok
    rw [hlab, h1] at g2 g3
    rw [hpar] at g2
    refine ⟨ws, r, g1, g2, fun hist => ?_⟩
    exact g3 hist

/-- C69.  Every documented property of an object gives the attribute that the standard means, in
the documented form, whatever was done before. -/
theorem c69_property_partial (e : Env) (hd : Spec.ReadsUtf8 e.dec) (p : List ObjectSet)
    (hf : Spec.Fresh p) (d : Spec.Doc) (hdoc : d ∈ Spec.documented ++ Spec.renamed)
    (o : BasicObject) (ht : e.dec o.type = .str (text d.type)) (hl : Spec.LabelsOk e o)
    (hq : Spec.Quiet e o o.log) : Spec.PropertyIs e p o d := by
  obtain ⟨hpl, rules, hr, hlink, hrun⟩ := docCheck_property (docs_check d hdoc) ht
  have h := getItem_valueIs hd hf hl hq hpl hr hlink (p := p)
  refine ⟨fun ha => ?_, fun a ha hlab hqa hv => ?_, fun a ha hlab hqa c vs hv hne hdates hun => ?_,
    fun a ha hlab hqa c vs hv hne ref href hrefs hok => ?_⟩
  · obtain ⟨r, g1, g2⟩ := h.absent ha
    exact ⟨r, g1, fun s => property_ok (hrun s) (g2 s)⟩
  · obtain ⟨r, g1, g2⟩ := h.empty a ha hlab hqa hv
    exact ⟨r, g1, fun s => property_ok (hrun s) (g2 s)⟩
  · obtain ⟨ws, r, g1, g2, g3⟩ := h.plain a ha hlab hqa c vs hv hne hdates hun
    exact ⟨ws, r, g1, g2, fun s => property_ok (hrun s) (g3 s)⟩
  · obtain ⟨ws, r, g1, g2, g3⟩ := h.linked a ha hlab hqa c vs hv hne ref href hrefs hok
    refine ⟨ws, r, g1, g2, fun hist => ?_⟩
    rw [property_ok (hrun _) (t := (getItem e rules (Spec.after e p hist) o (.str (text d.label))).1)
      (r := r) (Prod.ext rfl (g3 hist))]

/-- What the tables must say for one label. -/
def labelCheck (x : String × String × ParseAs × Option RefType) : Bool :=
  match classOf (.str (text x.1)) with
  | none => false
  | some c =>
    decide (c.rules.attributes (.str (text x.2.1)) = some x.2.2.1) &&
    decide (c.rules.linkage (.str (text x.2.1)) = x.2.2.2) &&
    ((Fingerprint.ascii x.2.1).all fun b => decide (0 < b.toNat ∧ b.toNat < 128)) &&
    decide ((Fingerprint.ascii x.2.1).map (·.toNat) = text x.2.1)

set_option maxRecDepth 4000 in
theorem labels_check : ∀ x ∈ Spec.labels, labelCheck x = true := by
  decide +kernel

/-- C69.  `obj[label]` gives the attribute for every label that the standard has for the class, in
the form that the standard means, whatever was done before. -/
theorem c69_item (e : Env) (hd : Spec.ReadsUtf8 e.dec) (p : List ObjectSet) (hf : Spec.Fresh p)
    (type label : String) (shape : ParseAs) (refs : Option RefType)
    (hx : (type, label, shape, refs) ∈ Spec.labels)
    (o : BasicObject) (ht : e.dec o.type = .str (text type)) (hl : Spec.LabelsOk e o)
    (hq : Spec.Quiet e o o.log) : ∃ c, classOf (e.dec o.type) = some c ∧
      Spec.ValueIs e p o label shape refs fun s => getItem e c.rules s o (.str (text label)) := by
  have h := labels_check _ hx
  unfold labelCheck at h
  rw [ht]
  rcases hc : classOf (.str (text type)) with _ | c
  · simp only [hc] at h; cases h
  simp only [hc, Bool.and_eq_true, decide_eq_true_eq, List.all_eq_true] at h
  obtain ⟨⟨⟨h1, h2⟩, h3⟩, h4⟩ := h
  exact ⟨c, rfl, getItem_valueIs hd hf hl hq ⟨h3, h4⟩ h1 h2⟩

/-- What the tables must say for one class: they have the labels and names of the specification
and no others. -/
def classCheck (c : ObjClass) : Bool :=
  (c.attributes.all fun x => decide (∃ y ∈ Spec.labels, y.1 = c.type ∧ y.2.1 = x.1)) &&
  (c.linkage.all fun x => decide (∃ y ∈ Spec.labels, y.1 = c.type ∧ y.2.1 = x.1)) &&
  (c.properties.all fun x => decide (∃ d ∈ Spec.documented ++ Spec.renamed,
    d.type = c.type ∧ d.name = x.1))

set_option maxRecDepth 4000 in
theorem class_check : ∀ c ∈ objClasses, classCheck c = true := by decide +kernel

theorem classOf_some {t : PyStr} {c : ObjClass} (h : classOf t = some c) :
    c ∈ objClasses ∧ t = .str (text c.type) := by
  unfold classOf at h
  exact ⟨List.mem_of_find?_eq_some h, of_decide_eq_true (by simpa using List.find?_some h)⟩

/-- C69.  Labels that the standard does not have for the class are not interpreted: all values are
given, and references are not followed. -/
theorem c69_other_labels (t : PyStr) (c : ObjClass) (hc : classOf t = some c) (k : PyStr)
    (hk : ∀ x ∈ Spec.labels, t = .str (text x.1) → k ≠ .str (text x.2.1)) :
    c.rules.attributes k = none ∧ c.rules.linkage k = none := by
  obtain ⟨hm, rfl⟩ := classOf_some hc
  have h := class_check c hm
  simp only [classCheck, Bool.and_eq_true, List.all_eq_true, decide_eq_true_eq] at h
  obtain ⟨⟨h1, h2⟩, -⟩ := h
  constructor
  · show (List.find? _ _).map _ = none
    rw [Option.map_eq_none_iff, List.find?_eq_none]
    intro x hx
    obtain ⟨y, hy, hy1, hy2⟩ := h1 x hx
    have := hk y hy (by rw [hy1])
    rw [hy2] at this
    simpa using this
  · show (List.find? _ _).map _ = none
    rw [Option.map_eq_none_iff, List.find?_eq_none]
    intro x hx
    obtain ⟨y, hy, hy1, hy2⟩ := h2 x hx
    have := hk y hy (by rw [hy1])
    rw [hy2] at this
    simpa using this

/-- C69.  There are no other properties than those of the specification: `AttributeError` for all
other names. -/
theorem c69_names (e : Env) (s : Store) (o : BasicObject) (name : String)
    (type : String) (ht : e.dec o.type = .str (text type)) (hx : type ∈ typeTable) :
    ((s.property e o name).2 = .error .computed ↔ (type, name) ∈ Spec.computed) ∧
    ((s.property e o name).2 = .error .attribute ↔
      (type, name) ∉ Spec.computed ∧
      ∀ d ∈ Spec.documented ++ Spec.renamed, d.type = type → d.name ≠ name) := by
  have hcls : ∀ t ∈ typeTable, ((classOf (.str (text t))).map (·.type)) = some t := by
    decide +kernel
  have hc := hcls type hx
  rcases hk : classOf (.str (text type)) with _ | c
  · rw [hk] at hc; cases hc
  rw [hk] at hc
  simp only [Option.map_some, Option.some.injEq] at hc
  subst hc
  have hm := (classOf_some hk).1
  have h := class_check c hm
  simp only [classCheck, Bool.and_eq_true, List.all_eq_true, decide_eq_true_eq] at h
  obtain ⟨-, h3⟩ := h
  have hcomp : ∀ x, x ∈ computedProperties ↔ x ∈ Spec.computed := by
    have h1 : ∀ x ∈ computedProperties, x ∈ Spec.computed := by decide +kernel
    have h2 : ∀ x ∈ Spec.computed, x ∈ computedProperties := by decide +kernel
    exact fun x => ⟨h1 x, h2 x⟩
  have hdis : ∀ d ∈ Spec.documented ++ Spec.renamed, (d.type, d.name) ∉ Spec.computed := by
    decide +kernel
  have hdoc : (∀ d ∈ Spec.documented ++ Spec.renamed, d.type = c.type → d.name ≠ name) ↔
      c.properties.find? (fun x => x.1 == name) = none := by
    rw [List.find?_eq_none]
    constructor
    · intro hall x hx' hname
      obtain ⟨d, hd, hd1, hd2⟩ := h3 x hx'
      exact hall d hd hd1 (hd2.trans (by simpa using hname))
    · intro hnone d hd hd1 hd2
      have := docs_check d hd
      unfold docCheck at this
      rw [hd1, hk] at this
      simp only at this
      rcases hp : c.properties.find? (fun x => x.1 == d.name) with _ | x
      · rw [hp] at this; cases this
      · have h1 := List.find?_some hp
        exact hnone x (List.mem_of_find?_eq_some hp) (by rw [← hd2]; exact h1)
  rw [hdoc, ← hcomp]
  unfold Store.property
  rw [ht, hk]
  simp only
  rcases hp : c.properties.find? (fun x => x.1 == name) with _ | x
  · by_cases hin : (c.type, name) ∈ computedProperties
    · simp [hp, hin]
    · simp [hp, hin]
  · have hnot : (c.type, name) ∉ computedProperties := by
      rw [hcomp]
      obtain ⟨d, hd, hd1, hd2⟩ := h3 x (List.mem_of_find?_eq_some hp)
      have h1 : x.1 = name := by simpa using List.find?_some hp
      rw [← hd1, ← h1, ← hd2]
      exact hdis d hd
    simp only [hp]
    rcases getItem e c.rules s o (.str (text x.2)) with ⟨s', r | r⟩ <;> simp [hnot]

/-- C69: the names `object_type`, `object_list`, `group_list`, `frame_type` and `coordinate`, which
the documentation gives, are those of no property: `AttributeError`. -/
theorem c69_names_defect : ∀ x ∈ Spec.misnamed, ∀ (e : Env) (s : Store) (o : BasicObject),
    e.dec o.type = .str (text x.1) → s.property e o x.2 = (s, .error .attribute) := by
  have hc : ∀ x ∈ Spec.misnamed, ∃ c ∈ classOf (.str (text x.1)),
      c.properties.find? (fun y => y.1 == x.2) = none ∧ (c.type, x.2) ∉ computedProperties := by
    simp only [Option.mem_def]
    intro x hx
    have h : Spec.misnamed.all (fun x => match classOf (.str (text x.1)) with
      | none => false
      | some c => (c.properties.find? (fun y => y.1 == x.2)).isNone &&
          decide ((c.type, x.2) ∉ computedProperties)) = true := by decide +kernel
    have := List.all_eq_true.1 h x hx
    rcases hk : classOf (.str (text x.1)) with _ | c
    · simp only [hk] at this; cases this
    · simp only [hk, Bool.and_eq_true, Option.isNone_iff_eq_none, decide_eq_true_eq] at this
      exact ⟨c, rfl, this.1, this.2⟩
  intro x hx e s o ht
  obtain ⟨c, h1, h2, h3⟩ := hc x hx
  unfold Store.property
  rw [ht, h1]
  simp only [h2, if_neg h3]

/-- C69.  A frame is encrypted if it has the attribute ENCRYPTED. -/
theorem c69_encrypted (e : Env) (hd : Spec.ReadsUtf8 e.dec) (o : BasicObject)
    (hl : Spec.LabelsOk e o) :
    frameEncrypted e o = true ↔ ∃ a ∈ o.attributes, a.label = Fingerprint.ascii "ENCRYPTED" := by
  obtain ⟨h1, h2⟩ := label_dec (label := "ENCRYPTED") hd (by unfold PlainLabel; decide +kernel)
  simp only [frameEncrypted, pyKeys, List.any_map, List.any_eq_true, Function.comp,
    decide_eq_true_eq]
  constructor
  · rintro ⟨a, ha, h⟩
    refine ⟨a, ha, ?_⟩
    rw [← hl.2 a ha, h, h2]
  · rintro ⟨a, ha, h⟩
    exact ⟨a, ha, by rw [h, h1]⟩

theorem attrAt_missing {key : PyStr} {o : BasicObject} {label : Bytes} (h2 : key.toStd = label)
    (ha : ∀ a ∈ o.attributes, a.label ≠ label) : attrAt key.toStd o.attributes = none := by
  rw [h2]
  revert ha
  induction o.attributes with
  | nil => intro _; rfl
  | cons a as ih =>
    intro ha
    have := ha a (by simp)
    simp_all [attrAt]

theorem objectList_label : PlainLabel "OBJECT-LIST" := by unfold PlainLabel; decide +kernel
theorem objectType_label : PlainLabel "OBJECT-TYPE" := by unfold PlainLabel; decide +kernel

/-- C69.  A group without objects: the empty list. -/
theorem c69_group_none_partial (e : Env) (hd : Spec.ReadsUtf8 e.dec) (s : Store) (o : BasicObject)
    (hl : Spec.LabelsOk e o)
    (h : (∀ a ∈ o.attributes, a.label ≠ Fingerprint.ascii "OBJECT-LIST") ∨
      ∃ c, Spec.ValuesAre o "OBJECT-LIST" c []) :
    s.groupObjects e o = (s, .ok (.list [])) := by
  obtain ⟨h1, h2⟩ := label_dec hd objectList_label
  unfold Store.groupObjects
  rcases h with h | ⟨c, h⟩
  · have : atticValue e o (.str (text "OBJECT-LIST")) = .missing := by
      unfold atticValue; rw [attrAt_missing h2 h]
    rw [this]
  · rw [attic_values hd hl objectList_label h .nil (by intro v hv; cases hv)]

/-- C69.  A group whose objects are given by name and type. -/
theorem c69_group_objrefs_partial (e : Env) (hd : Spec.ReadsUtf8 e.dec) (p : List ObjectSet)
    (hf : Spec.Fresh p) (o : BasicObject) (hl : Spec.LabelsOk e o) (hq : Spec.Quiet e o o.log)
    (a : ObjAttr) (ha : a ∈ o.attributes) (hlab : a.label = Fingerprint.ascii "OBJECT-LIST")
    (hqa : Spec.Quiet e o a.log) (c : Reprc) (refs : List Objref) (hne : refs ≠ [])
    (hv : a.value = some (c, refs.map .objref)) (hok : Spec.RefsOk e p .objref (refs.map .objref)) :
    ∃ ws, List.Forall₂ (Spec.Refers e p .objref) (refs.map .objref) ws ∧
      ∀ hist, ((Spec.after e p hist).groupObjects e o).2 = .ok (.list ws) := by
  obtain ⟨h1, h2⟩ := label_dec hd objectList_label
  obtain ⟨ws, r, g1, g2, g3⟩ := c35_linked_partial e groupClass.rules p hf o a hl ha hq hqa c _ hv
    (by simpa using hne) .objref (by rw [hlab, h1]; decide +kernel)
    (by intro v hv; obtain ⟨x, -, rfl⟩ := List.mem_map.1 hv; exact Or.inr (Or.inl ⟨x, rfl⟩)) hok
  rw [hlab, h1] at g2 g3
  have hpar : Spec.parsing groupClass.rules (.str (text "OBJECT-LIST")) = .vector := by
    decide +kernel
  rw [hpar] at g2
  simp only [Spec.Presented] at g2
  subst g2
  refine ⟨ws, g1, fun hist => ?_⟩
  have hat := attic_values hd hl objectList_label (c := c) (ws := refs.map fun x => .raw c (.objref x))
    ⟨a, ha, hlab, hv⟩
    (List.forall₂_map_left_iff.2 (List.forall₂_map_right_iff.2 (List.forall₂_same.2 fun _ _ => rfl)))
    (by intro t ht; obtain ⟨x, -, hx⟩ := List.mem_map.1 ht; cases hx)
  obtain ⟨x, xs, rfl⟩ := List.exists_cons_of_ne_nil hne
  unfold Store.groupObjects
  rw [hat]
  have g := g3 hist
  simp only [List.map_cons]
  generalize getItem e groupClass.rules (Spec.after e p hist) o (.str (text "OBJECT-LIST")) = res at g
  obtain ⟨s, _ | _⟩ := res
  · cases g
  · simp only at g ⊢
    cases g
    rfl

/-- C69.  A group whose objects are given by name, and have the type that OBJECT-TYPE gives. -/
theorem c69_group_obnames_partial (e : Env) (hd : Spec.ReadsUtf8 e.dec) (p : List ObjectSet)
    (hf : Spec.Fresh p) (o : BasicObject) (hl : Spec.LabelsOk e o) (hq : Spec.Quiet e o o.log)
    (a : ObjAttr) (ha : a ∈ o.attributes) (hlab : a.label = Fingerprint.ascii "OBJECT-LIST")
    (hqa : Spec.Quiet e o a.log) (c : Reprc) (names : List Obname) (hne : names ≠ [])
    (hv : a.value = some (c, names.map .obname))
    (b : ObjAttr) (hb : b ∈ o.attributes) (hlabb : b.label = Fingerprint.ascii "OBJECT-TYPE")
    (hqb : Spec.Quiet e o b.log) (cb : Reprc) (t : Bytes) (rest : List Val)
    (hvb : b.value = some (cb, .str t :: rest)) (hdates : Spec.DatesOk rest) :
    ∃ ty, Spec.Shown e cb (.str t) (.str ty) ∧
      (Spec.RefsOk e p (.obname ty) (names.map .obname) →
        ∃ ws, List.Forall₂ (Spec.Refers e p (.obname ty)) (names.map .obname) ws ∧
          ∀ hist, ((Spec.after e p hist).groupObjects e o).2 = .ok (.list ws)) := by
  obtain ⟨h1, h2⟩ := label_dec hd objectList_label
  obtain ⟨k1, k2⟩ := label_dec hd objectType_label
  have htype : ∃ ty, Spec.Shown e cb (.str t) (.str ty) ∧ ∀ s : Store,
      getItem e groupClass.rules s o (.str (text "OBJECT-TYPE")) = (s, .ok (.elem (.str ty))) := by
    have hpar : Spec.parsing groupClass.rules (.str (text "OBJECT-TYPE")) = .scalar := by
      decide +kernel
    have hlk : groupClass.rules.linkage (.str (text "OBJECT-TYPE")) = none := by decide +kernel
    have hds : Spec.DatesOk (.str t :: rest) := by
      intro x hx
      rcases List.mem_cons.1 hx with h | h
      · cases h
      · exact hdates x h
    obtain ⟨us, m1, m2⟩ := toPyList_some (e := e) (c := cb) (.str t :: rest) hds
    have hp : pyValues e.dec b = some us := by simp [pyValues, hvb, m1]
    cases m2 with
    | @cons v u vs us hu hus =>
      cases hu
      refine ⟨match e.dec t with | .str x => .str (stripText x) | .bytes x => .bytes x, ?_, ?_⟩
      · unfold Spec.Shown
        rcases hx : e.dec t with x | x
        · simp only [hx]; exact ⟨_, rfl, stripText_spec x⟩
        · simp only [hx]
      · intro s
        have := getItem_present (rules := groupClass.rules) (s := s) hl hb hq hqb hp
        rw [hlabb, k1] at this
        rw [this]
        simp only [finishValue, hlk, hpar, parseValue]
        rcases e.dec t with x | x <;> rfl
  obtain ⟨ty, hty, hrun⟩ := htype
  refine ⟨ty, hty, fun hok => ?_⟩
  obtain ⟨ws, r, g1, g2, g3⟩ := c35_linked_partial e (groupRulesFor ty) p hf o a hl ha hq hqa c _ hv
    (by simpa using hne) (.obname ty) (by rw [hlab, h1]; simp [groupRulesFor])
    (by intro v hv; obtain ⟨x, -, rfl⟩ := List.mem_map.1 hv; exact Or.inl ⟨x, rfl⟩) hok
  rw [hlab, h1] at g2 g3
  have hpar : Spec.parsing (groupRulesFor ty) (.str (text "OBJECT-LIST")) = .vector := by
    have : groupClass.rules.attributes (.str (text "OBJECT-LIST")) = some .vector := by
      decide +kernel
    simp only [Spec.parsing, groupRulesFor, this]
  rw [hpar] at g2
  simp only [Spec.Presented] at g2
  subst g2
  refine ⟨ws, g1, fun hist => ?_⟩
  have hat := attic_values hd hl objectList_label (c := c) (ws := names.map fun x => .raw c (.obname x))
    ⟨a, ha, hlab, hv⟩
    (List.forall₂_map_left_iff.2 (List.forall₂_map_right_iff.2 (List.forall₂_same.2 fun _ _ => rfl)))
    (by intro t ht; obtain ⟨x, -, hx⟩ := List.mem_map.1 ht; cases hx)
  obtain ⟨x, xs, rfl⟩ := List.exists_cons_of_ne_nil hne
  unfold Store.groupObjects
  rw [hat]
  have g := g3 hist
  simp only [List.map_cons, hrun]
  generalize getItem e (groupRulesFor ty) (Spec.after e p hist) o (.str (text "OBJECT-LIST")) = res at g
  obtain ⟨s, _ | _⟩ := res
  · cases g
  · simp only at g ⊢
    cases g
    rfl

theorem firstOr_name {e : Env} (hd : Spec.ReadsUtf8 e.dec) {o : BasicObject} (hl : Spec.LabelsOk e o)
    {label custom : String} (hp : PlainLabel label) {k : PyVal}
    (h : Spec.CoordinateName e o label custom k) :
    firstOr e o label (.str (.str (text custom))) id = some k := by
  obtain ⟨-, h2⟩ := label_dec hd hp
  rcases h with ⟨h, rfl⟩ | ⟨c, t, rest, h, hdates, rfl⟩
  · have : atticValue e o (.str (text label)) = .missing := by
      unfold atticValue; rw [attrAt_missing h2 h]
    simp [firstOr, this]
  · obtain ⟨a, ha, hlab, hv⟩ := h
    obtain ⟨us, m1, m2⟩ := toPyList_some (e := e) (c := c) (.str t :: rest) (by
      intro x hx
      rcases List.mem_cons.1 hx with h | h
      · cases h
      · exact hdates x h)
    have : atticValue e o (.str (text label)) = .value (some us) := by
      unfold atticValue; rw [h2, ← hlab, attrAt_of_mem hl.1 ha]; simp only [hv, m1]
    cases m2 with
    | @cons v u vs us hu hus =>
      cases hu
      simp [firstOr, this]

theorem firstOr_value {e : Env} (hd : Spec.ReadsUtf8 e.dec) {o : BasicObject}
    (hl : Spec.LabelsOk e o) {label : String} (hp : PlainLabel label) {w : Option PyVal}
    (h : Spec.CoordinateValue e o label w) : firstOr e o label none some = some w := by
  obtain ⟨-, h2⟩ := label_dec hd hp
  rcases h with ⟨h, rfl⟩ | ⟨c, v, rest, u, h, hdates, hu, rfl⟩
  · have : atticValue e o (.str (text label)) = .missing := by
      unfold atticValue; rw [attrAt_missing h2 h]
    simp [firstOr, this]
  · obtain ⟨a, ha, hlab, hv⟩ := h
    obtain ⟨us, m1, m2⟩ := toPyList_some (e := e) (c := c) (v :: rest) hdates
    have : atticValue e o (.str (text label)) = .value (some us) := by
      unfold atticValue; rw [h2, ← hlab, attrAt_of_mem hl.1 ha]; simp only [hv, m1]
    have hone := decoded_list (List.Forall₂.cons hu .nil) (by
      intro x hx; exact hdates x (by simp_all))
    cases m2 with
    | @cons v u' vs us hu' hus =>
      have : u' = u := by
        simp only [toPyList, hu'] at hone
        simpa using hone
      subst this
      simp [firstOr, *]

/-- C69.  The coordinates of a well reference point: each name with its value, in order, if the
names are different. -/
theorem c69_coordinates_partial (e : Env) (hd : Spec.ReadsUtf8 e.dec) (o : BasicObject)
    (hl : Spec.LabelsOk e o) (k1 k2 k3 : PyVal) (w1 w2 w3 : Option PyVal)
    (h1 : Spec.CoordinateName e o "COORDINATE-1-NAME" "COORDINATE-1" k1)
    (h2 : Spec.CoordinateName e o "COORDINATE-2-NAME" "COORDINATE-2" k2)
    (h3 : Spec.CoordinateName e o "COORDINATE-3-NAME" "COORDINATE-3" k3)
    (g1 : Spec.CoordinateValue e o "COORDINATE-1-VALUE" w1)
    (g2 : Spec.CoordinateValue e o "COORDINATE-2-VALUE" w2)
    (g3 : Spec.CoordinateValue e o "COORDINATE-3-VALUE" w3)
    (h12 : k1 ≠ k2) (h13 : k1 ≠ k3) (h23 : k2 ≠ k3) :
    coordinates e o = some [(k1, w1), (k2, w2), (k3, w3)] := by
  have p1 := firstOr_name hd hl (by unfold PlainLabel; decide +kernel) h1
  have p2 := firstOr_name hd hl (by unfold PlainLabel; decide +kernel) h2
  have p3 := firstOr_name hd hl (by unfold PlainLabel; decide +kernel) h3
  have q1 := firstOr_value hd hl (by unfold PlainLabel; decide +kernel) g1
  have q2 := firstOr_value hd hl (by unfold PlainLabel; decide +kernel) g2
  have q3 := firstOr_value hd hl (by unfold PlainLabel; decide +kernel) g3
  simp [coordinates, coordinateLabels, coordinateLoop, p1, p2, p3, q1, q2, q3, setCoordinate, h12,
    h13, h23]

/-! ## Cases -/

namespace ClassCase

open StoreCase AttributeCase SampledCase

/-- The attributes of an object, also without value, and its type. -/
def withType (t : String) (attrs : List (String × Option (Reprc × List Val))) : BasicObject where
  name := ⟨1, 0, bytesOf "X"⟩
  type := bytesOf t
  log := []
  attributes := attrs.map fun x => { label := bytesOf x.1, value := x.2 }

/-- A zone with a maximum that is missing, and a description with white space. -/
def zone : BasicObject := withType "ZONE"
  [("DESCRIPTION", some (.ascii, [.str (bytesOf " upper  ")])), ("MINIMUM", some (.ushort, ints [7])),
   ("MAXIMUM", none)]

/-- C69: properties of a zone and of objects of other types, and a property that a zone has not. -/
example :
    (start.property env zone "description").2.toOption = some (.elem (.str (.str (text "upper")))) ∧
    (start.property env zone "minimum").2.toOption = some (.elem (.raw .ushort (.int 1 7))) ∧
    (start.property env zone "maximum").2.toOption = some .none ∧
    (start.property env zone "domain").2.toOption = some .none ∧
    (start.property env zone "spacing").2.toOption = none ∧
    (start.property env (withType "AXIS" [("COORDINATES", some (.ushort, ints [1, 2]))])
      "coordinates").2.toOption = some (.list [.raw .ushort (.int 1 1), .raw .ushort (.int 1 2)]) := by
  decide +kernel

/-- C69: its hypotheses hold for this zone. -/
example : ∃ d ∈ Spec.documented ++ Spec.renamed, d.name = "description" ∧
    env.dec zone.type = .str (text d.type) ∧ Spec.LabelsOk env zone ∧ Spec.Quiet env zone zone.log := by
  refine ⟨⟨"ZONE", "description", "DESCRIPTION", .scalar, none⟩, ?_, rfl, by decide +kernel,
    by unfold Spec.LabelsOk; decide +kernel, by unfold Spec.Quiet; decide +kernel⟩
  simp [Spec.documented]

/-- C69: two documented names. -/
example :
    (start.property env (withType "PATH" []) "frame_type").2.toOption = none ∧
    (start.property env (withType "PATH" []) "frame").2.toOption = some .none := by decide +kernel

/-- C69: an encrypted frame. -/
example : frameEncrypted env (withType "FRAME" [("ENCRYPTED", none)]) = true ∧
    frameEncrypted env (withType "FRAME" [("DIRECTION", none)]) = false := by decide +kernel

/-- The origin and the name of the objects of a list. -/
def namesOf (r : Option PyResult) : Option (List (Option (Nat × PyStr))) :=
  match r with
  | some (.list l) => some (l.map fun v => match v with
    | .obj (some o) => some (o.origin, o.name)
    | _ => none)
  | _ => none

def obnames : List Obname := [⟨1, 1, bytesOf "Q"⟩, ⟨1, 0, bytesOf "NONE"⟩]
def objrefs : List Objref := [⟨bytesOf "T", ⟨2, 3, bytesOf "P"⟩⟩, ⟨bytesOf "U", ⟨1, 1, bytesOf "Q"⟩⟩]

/-- A group of objects of the type "U", one of which does not exist. -/
def groupU : BasicObject := withType "GROUP"
  [("OBJECT-TYPE", some (.ident, [.str (bytesOf "U ")])),
   ("OBJECT-LIST", some (.obname, obnames.map .obname))]

/-- A group of objects of two types. -/
def groupTU : BasicObject := withType "GROUP" [("OBJECT-LIST", some (.objref, objrefs.map .objref))]

def twoSets : List ObjectSet := file [EflrCase.bytes, recU]

def begin : Store := Spec.after env twoSets []

/-- C69: the objects of a group by name, and by name and type. -/
example :
    namesOf (begin.groupObjects env groupU).2.toOption = some [some (1, .str (text "Q")), none] ∧
    namesOf (begin.groupObjects env groupTU).2.toOption =
      some [some (2, .str (text "P")), some (1, .str (text "Q"))] ∧
    (begin.groupObjects env (withType "GROUP" [])).2.toOption = some (.list []) := by
  decide +kernel

/-- C69: its hypotheses hold for these groups. -/
example : Spec.LabelsOk env groupU ∧ Spec.Quiet env groupU groupU.log ∧
    Spec.RefsOk env twoSets .objref (objrefs.map .objref) ∧
    Spec.RefsOk env twoSets (.obname (.str (text "U"))) (obnames.map .obname) := by
  have hs : ∀ x : String, x = "Q" ∨ x = "NONE" ∨ x = "P" → Spec.Stable env (env.dec (bytesOf x)) ∧
      (env.dec (bytesOf x)).isEmpty = false := by
    unfold Spec.Stable
    rintro x (rfl | rfl | rfl) <;> decide +kernel
  have ht : ∀ x : String, x = "T" ∨ x = "U" → Spec.Stable env (env.dec (bytesOf x)) ∧
      Spec.raises env .exact (env.dec (bytesOf x)) twoSets = false := by
    unfold Spec.Stable
    rintro x (rfl | rfl) <;> decide +kernel
  have hu : env.dec (bytesOf "U") = .str (text "U") := by decide +kernel
  refine ⟨by unfold Spec.LabelsOk; decide +kernel, by unfold Spec.Quiet; decide +kernel, ?_, ?_⟩
  · intro v hv
    simp only [objrefs, List.map_cons, List.map_nil, List.mem_cons, List.not_mem_nil, or_false] at hv
    rcases hv with rfl | rfl <;> refine ⟨fun t n h => ?_, fun h => by cases h⟩ <;> simp only [Spec.target, Option.some.injEq, Prod.mk.injEq] at h <;>
      obtain ⟨rfl, rfl⟩ := h
    · exact ⟨(ht "T" (by simp)).1, (hs "P" (by simp)).1, (hs "P" (by simp)).2, (ht "T" (by simp)).2⟩
    · exact ⟨(ht "U" (by simp)).1, (hs "Q" (by simp)).1, (hs "Q" (by simp)).2, (ht "U" (by simp)).2⟩
  · intro v hv
    have hU := ht "U" (by simp)
    rw [hu] at hU
    simp only [obnames, List.map_cons, List.map_nil, List.mem_cons, List.not_mem_nil, or_false] at hv
    rcases hv with rfl | rfl <;> refine ⟨fun t n h => ?_, fun h => by cases h⟩ <;> simp only [Spec.target, Option.some.injEq, Prod.mk.injEq] at h <;>
      obtain ⟨rfl, rfl⟩ := h
    · exact ⟨hU.1, (hs "Q" (by simp)).1, (hs "Q" (by simp)).2, hU.2⟩
    · exact ⟨hU.1, (hs "NONE" (by simp)).1, (hs "NONE" (by simp)).2, hU.2⟩

/-- C69: `objects` of a group is a `TypeError` if OBJECT-LIST has no value (the template of the set
may say so), and if there are objects but no OBJECT-TYPE. -/
theorem c69_group_type_error_defect :
    ∃ o1 o2 : BasicObject, Spec.LabelsOk env o1 ∧ Spec.LabelsOk env o2 ∧
      (∃ a ∈ o1.attributes, a.label = Fingerprint.ascii "OBJECT-LIST" ∧ a.value = none) ∧
      Spec.ValuesAre o2 "OBJECT-LIST" .obname (obnames.map .obname) ∧
      (match (begin.groupObjects env o1).2, (begin.groupObjects env o2).2 with
        | .error a, .error b => a = .type ∧ b = .type
        | _, _ => False) := by
  refine ⟨withType "GROUP" [("OBJECT-LIST", none)],
    withType "GROUP" [("OBJECT-LIST", some (.obname, obnames.map .obname))],
    by unfold Spec.LabelsOk; decide +kernel, by unfold Spec.LabelsOk; decide +kernel,
    ⟨_, List.mem_cons_self, by decide +kernel, rfl⟩, ⟨_, List.mem_cons_self, by decide +kernel, rfl⟩,
    ?_⟩
  have h : (match (begin.groupObjects env (withType "GROUP" [("OBJECT-LIST", none)])).2,
      (begin.groupObjects env
        (withType "GROUP" [("OBJECT-LIST", some (.obname, obnames.map .obname))])).2 with
      | .error a, .error b => decide (a = .type ∧ b = .type)
      | _, _ => false) = true := by decide +kernel
  revert h
  generalize (begin.groupObjects env (withType "GROUP" [("OBJECT-LIST", none)])).2 = x
  generalize (begin.groupObjects env
    (withType "GROUP" [("OBJECT-LIST", some (.obname, obnames.map .obname))])).2 = y
  intro h
  rcases x with x | x <;> rcases y with y | y <;> simp_all

/-- C69: what `group['OBJECT-LIST']` gives depends on whether `group.objects` was used before. -/
theorem c69_group_label_defect :
    namesOf (begin.groupItem env groupU none (.str (text "OBJECT-LIST"))).2.toOption =
      some [none, none] ∧
    namesOf (begin.groupItem env groupU (begin.groupLinkage env groupU)
      (.str (text "OBJECT-LIST"))).2.toOption = some [some (1, .str (text "Q")), none] := by
  decide +kernel

/-- A well reference point with two coordinates. -/
def well : BasicObject := withType "WELL-REFERENCE"
  [("COORDINATE-1-NAME", some (.ascii, [.str (bytesOf "Latitude")])),
   ("COORDINATE-1-VALUE", some (.ushort, ints [60])),
   ("COORDINATE-2-NAME", some (.ascii, [.str (bytesOf "Longitude")])),
   ("COORDINATE-2-VALUE", some (.ushort, ints [5]))]

/-- C69: its coordinates. -/
example : coordinates env well = some
    [(.str (.str (text "Latitude")), some (.raw .ushort (.int 1 60))),
     (.str (.str (text "Longitude")), some (.raw .ushort (.int 1 5))),
     (.str (.str (text "COORDINATE-3")), none)] := by decide +kernel

/-- C69: the hypotheses hold for it. -/
example : Spec.LabelsOk env well ∧
    Spec.CoordinateName env well "COORDINATE-1-NAME" "COORDINATE-1" (.str (.str (text "Latitude"))) ∧
    Spec.CoordinateName env well "COORDINATE-3-NAME" "COORDINATE-3"
      (.str (.str (text "COORDINATE-3"))) ∧
    Spec.CoordinateValue env well "COORDINATE-1-VALUE" (some (.raw .ushort (.int 1 60))) ∧
    Spec.CoordinateValue env well "COORDINATE-3-VALUE" none := by
  refine ⟨by unfold Spec.LabelsOk; decide +kernel, Or.inr ⟨.ascii, bytesOf "Latitude", [],
    ⟨_, List.mem_cons_self, by decide +kernel, rfl⟩, (by intro t ht; cases ht), by decide +kernel⟩,
    Or.inl ⟨by decide +kernel, rfl⟩, Or.inr ⟨.ushort, .int 1 60, [], _,
    ⟨_, List.mem_cons_of_mem _ List.mem_cons_self, by decide +kernel, rfl⟩,
    (by intro t ht; simp at ht), rfl, rfl⟩, Or.inl ⟨by decide +kernel, rfl⟩⟩

/-- C69: of two coordinates with the same name only one value is left, and the value is that of the
second. -/
theorem c69_same_name_defect : ∃ o, Spec.LabelsOk env o ∧
    Spec.ValuesAre o "COORDINATE-1-VALUE" .ushort (ints [60]) ∧
    Spec.ValuesAre o "COORDINATE-2-VALUE" .ushort (ints [5]) ∧
    coordinates env o = some [(.str (.str (text "X")), some (.raw .ushort (.int 1 5))),
      (.str (.str (text "COORDINATE-3")), none)] :=
  ⟨withType "WELL-REFERENCE"
    [("COORDINATE-1-NAME", some (.ascii, [.str (bytesOf "X")])),
     ("COORDINATE-1-VALUE", some (.ushort, ints [60])),
     ("COORDINATE-2-NAME", some (.ascii, [.str (bytesOf "X")])),
     ("COORDINATE-2-VALUE", some (.ushort, ints [5]))],
    by unfold Spec.LabelsOk; decide +kernel,
    ⟨_, List.mem_cons_of_mem _ List.mem_cons_self, by decide +kernel, rfl⟩,
    ⟨_, List.mem_cons_of_mem _ (List.mem_cons_of_mem _ (List.mem_cons_of_mem _ List.mem_cons_self)),
      by decide +kernel, rfl⟩, by decide +kernel⟩

/-- C69: a coordinate whose value is absent in the object but not in the template has no values,
and then there are no coordinates at all: `TypeError`. -/
theorem c69_coordinate_no_value_defect : ∃ o, Spec.LabelsOk env o ∧
    Spec.ValuesAre o "COORDINATE-1-VALUE" .ushort (ints [60]) ∧
    (∃ a ∈ o.attributes, a.label = Fingerprint.ascii "COORDINATE-2-VALUE" ∧ a.value = none) ∧
    coordinates env o = none :=
  ⟨withType "WELL-REFERENCE"
    [("COORDINATE-1-VALUE", some (.ushort, ints [60])), ("COORDINATE-2-VALUE", none)],
    by unfold Spec.LabelsOk; decide +kernel, ⟨_, List.mem_cons_self, by decide +kernel, rfl⟩,
    ⟨_, List.mem_cons_of_mem _ List.mem_cons_self, by decide +kernel, rfl⟩, by decide +kernel⟩

/-- C69: what `obj[label]` gives for a label that no property has alone, names of a parameter, and
a label that parameters have not. -/
example :
    ("PARAMETER", "VALUES", .vector, none) ∈ Spec.labels ∧
    (getItem env parameterClass.rules start (withType "PARAMETER" [("VALUES", some (.ushort, ints [1, 2]))])
      (.str (text "VALUES"))).2.toOption =
        some (.list [.raw .ushort (.int 1 1), .raw .ushort (.int 1 2)]) ∧
    (match (start.property env (withType "PARAMETER" []) "values").2 with
      | .error .computed => true | _ => false) = true ∧
    (match (start.property env (withType "PARAMETER" []) "value").2 with
      | .error .attribute => true | _ => false) = true ∧
    parameterClass.rules.attributes (.str (text "VALUE")) = none := by
  decide +kernel

end ClassCase

/-- C69: the rules of frames, channels, parameters, computations and measurements are those that are
used for their other properties. -/
theorem c69_rules : frameClass.rules = frameRules ∧ channelClass.rules = channelRules ∧
    parameterClass.rules = parameterRules ∧ computationClass.rules = computationRules ∧
    measurementClass.rules = measurementRules := ⟨rfl, rfl, rfl, rfl, rfl⟩

/-- C69: the types are those of `typeTable`. -/
theorem c69_types : objClasses.map (·.type) = typeTable := by decide +kernel


end Dlisio.Dlis
