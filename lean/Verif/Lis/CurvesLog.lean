import Verif.Lis.DataFormat
import Verif.Lis.ParseLog
/-
C93: what is said when `curves` and `curves_metadata` (python/dlisio/lis/curves.py) refuse a data
format specification, and when an entry block cannot be looked up
(python/dlisio/lis/dataformatspec.py).

The functions of Verif/Lis/Curves.lean, Verif/Lis/Labels.lean and Verif/Lis/DataFormat.lean, with the
exceptions and what is logged.

Simplifications: the texts of mnemonics, of floats, of the values of entry blocks and of the
exceptions of NumPy are arbitrary.  Of a `TypeError` (from pybind11, or of the unary minus) no text
is kept.  The numbers that are divided are below 2^16, so `% 1` of a quotient is zero exactly when
the division has no remainder.  That NumPy refuses labels which are not `str` is left out.
-/
namespace Dlisio.Lis

open _root_.Dlisio.Lis.Spec

/-! ### Model -/

/-- The exceptions.  `numpy` is the `ValueError` of `np.dtype`. -/
inductive CurveError where
  | runtime (t : Text)
  | value (t : Text)
  | notImplemented (t : Text)
  | type
  | numpy
deriving DecidableEq

/-- What `str.format` makes of a mnemonic, of a float, of the value of an entry block, and of the
exception of `np.dtype` for fields with these names.  ASCII is decoded as it is (C56). -/
structure CurveTexts where
  dec : Bytes → Text
  ascii : dec [0x44, 0x45, 0x50, 0x54] = text "DEPT"
  float : ℚ → Text
  value : Value → Text
  numpy : List Text → Text

/-- The names of `core.lis_ebtype`, ext/lis.cpp:606-624. -/
def ebName : Nat → String
  | 0 => "terminator" | 1 => "data_rec_type" | 2 => "spec_block_type" | 3 => "frame_size"
  | 4 => "up_down_flag" | 5 => "depth_scale_units" | 6 => "ref_point" | 7 => "ref_point_units"
  | 8 => "spacing" | 9 => "spacing_units" | 10 => "undefined" | 11 => "max_frames_pr_rec"
  | 12 => "absent_value" | 13 => "depth_rec_mode" | 14 => "units_of_depth"
  | 15 => "reprc_output_depth" | 16 => "spec_bloc_subtype" | _ => "???"

/-- `find_entry`, dataformatspec.py:323-333; `str()` of a pybind11 enumerator has the name of the
type in front. -/
def explainFind (d : Dfsr) (type : Nat) : Except CurveError (Option Entry) :=
  match d.entries.filter fun x => x.type = type with
  | [] => .ok none
  | [e] => .ok (some e)
  | _ => .error (.value (text "Multiple Entry Blocks of type " ++ text "lis_ebtype." ++ text (ebName type)))

/-- `entry_value`, dataformatspec.py:319-321. -/
def explainValue (d : Dfsr) (type : Nat) (default : Value) : Except CurveError Value :=
  match explainFind d type with
  | .error e => .error e
  | .ok none => .ok default
  | .ok (some e) => .ok e.value

/-- The properties, dataformatspec.py:120-298. -/
def Dfsr.explain (d : Dfsr) : Field → Except CurveError Value
  | .recordType => explainValue d 1 (.i32 0)
  | .blockType => explainValue d 1 (.i32 0)
  | .frameSize => explainValue d 3 .none
  | .direction => explainValue d 4 (.i32 1)
  | .opticalUnits => explainValue d 5 (.i32 1)
  | .referencePoint => explainValue d 6 .none
  | .referenceUnits => explainValue d 7 tenthInch
  | .spacing => explainValue d 8 .none
  | .spacingUnits => explainValue d 9 tenthInch
  | .maxFrames => explainValue d 11 .none
  | .absentValue => explainValue d 12 (.f32 (.num (-999.25)))
  | .depthMode => explainValue d 13 (.i32 0)
  | .depthUnits => explainValue d 14 tenthInch
  | .depthReprc => explainValue d 15 .none
  | .blockSubtype => explainValue d 16 (.i32 0)

/-- `directional_spacing`, dataformatspec.py:300-317.  `none` is a value that is returned but that
is not a number. -/
def explainSpacing (c : CurveTexts) (d : Dfsr) : Except CurveError (Option Flt) :=
  match d.explain .spacing with
  | .error e => .error e
  | .ok .none => .error (.value (text "No spacing recorded"))
  | .ok spacing =>
    match d.explain .direction with
    | .error e => .error e
    | .ok dir =>
      if dir.is 1 then
        match spacing.minus with
        | none => .error .type
        | some x => .ok (some x)
      else if dir.is 255 then .ok spacing.double
      else .error (.value (text "Invalid direction (UP/DOWN flag). was: " ++ c.value dir))

/-- `validate_reprc` of a number below 256, curves.py:452-458: `core.lis_reprc` takes them all. -/
def explainCode (n : Nat) (mnemonic : Text) : Except CurveError Reprc :=
  match Reprc.ofCode n with
  | none => .error (.value (text "Invalid representation code (" ++ Text.ofNat n ++
      text ") in curve " ++ mnemonic))
  | some .mask => .error (.notImplemented (text "lis::mask is not supported as a curve type"))
  | some r => .ok r

/-- `validate_reprc` of the value of an entry block, curves.py:447-458. -/
def explainReprc (v : Value) (mnemonic : Text) : Except CurveError Reprc :=
  if v = .none then .error (.value (text "Invalid representation code (" ++ text "None" ++
      text ") in curve " ++ mnemonic))
  else
    match v.int with
    | none => .error .type
    | some r => if 0 ≤ r ∧ r < 256 then explainCode r.toNat mnemonic else .error .type

/-- The checks on the index channel, curves.py:483-495. -/
def explainIndex (s : SpecCommon) : Except CurveError Unit :=
  if s.reservedSize < 0 then .error (.value (text "Index channel is suppressed"))
  else if 1 < s.samples then
    .error (.value (text "Index channel cannot be a fast channel (samples=" ++ Text.ofNat s.samples ++
      text ")"))
  else if sizeofType s.reprc < s.reservedSize then
    .error (.value (text "Index channel cannot have multiple entries per sample"))
  else .ok ()

/-- The checks on one specification block, curves.py:497-525.  The size in the first text is 0. -/
def explainChannel (c : CurveTexts) (s : SpecCommon) : Except CurveError Unit :=
  if s.reservedSize = 0 then
    .error (.value (text "Invalid size (" ++ text "0" ++ text ") for curve " ++ c.dec s.mnemonic ++
      text ", " ++ text "should be != 0)"))
  else if s.samples < 1 then
    .error (.value (text "Invalid number of samples (" ++ Text.ofNat s.samples ++ text ") for curve " ++
      c.dec s.mnemonic ++ text ", " ++ text "should be > 0)"))
  else if s.reservedSize % s.samples ≠ 0 then
    .error (.value (text "Invalid sample size (" ++ c.float (s.reservedSize / s.samples) ++
      text ") for curve " ++ c.dec s.mnemonic ++ text ", " ++
      text "should be an integral number of bytes"))
  else
    match explainCode s.reprc (c.dec s.mnemonic) with
    | .error e => .error e
    | .ok .string => .ok ()
    | .ok .mask => .ok ()
    | .ok r =>
      if s.reservedSize / s.samples % (r.size : Int) ≠ 0 then
        .error (.value (text "Invalid number of entries per sample (" ++
          c.float (s.reservedSize / s.samples / r.size) ++ text ") in curve " ++ c.dec s.mnemonic ++
          text ". " ++ text "should be an integral number of entries"))
      else .ok ()

/-- The loop over the specification blocks, curves.py:497-525. -/
def explainChannels (c : CurveTexts) : List SpecCommon → Except CurveError Unit
  | [] => .ok ()
  | s :: specs =>
    match explainChannel c s with
    | .error e => .error e
    | .ok () => explainChannels c specs

/-- The type of the index, curves.py:474-481. -/
def explainIndexType (c : CurveTexts) (d : Dfsr) (mode : Value) (first : SpecCommon) :
    Except CurveError Reprc :=
  let r :=
    if mode.is 0 then explainCode first.reprc (c.dec first.mnemonic)
    else
      match d.explain .depthReprc with
      | .error e => .error e
      | .ok v => explainReprc v (text "DEPT")
  match r with
  | .error e => .error e
  | .ok .string => .error (.value (text "Invalid type for index (string)"))
  | .ok r => .ok r

/-- `validate_dfsr`, curves.py:461-525: the mode and the type of the index, which are asked for
again later.  `str(dfsr)` is that of dataformatspec.py:43-44. -/
def explainFormat (c : CurveTexts) (d : Dfsr) : Except CurveError (Value × Reprc) :=
  match d.explain .depthMode with
  | .error e => .error e
  | .ok mode =>
    if !mode.is 0 && !mode.is 1 then .error (.value (text "Invalid depth recording mode"))
    else
      match d.specs.map SpecBlock.common with
      | [] => .error (.value (text "DataFormatSpec()" ++ text " has no channels"))
      | first :: specs =>
        match explainIndexType c d mode first with
        | .error e => .error e
        | .ok r =>
          match if mode.is 0 then explainIndex first else .ok () with
          | .error e => .error e
          | .ok () =>
            match explainChannels c (first :: specs) with
            | .error e => .error e
            | .ok () => .ok (mode, r)

/-- Is it about the mode, whatever type of number it is? -/
def Value.mode (v : Value) : Int := if v.is 0 then 0 else 1

/-- `uniform_sampling`, curves.py:284-292, which asks for the mode if there are channels. -/
def explainUniform (d : Dfsr) : Except CurveError Bool :=
  if d.specs = [] then .ok true
  else
    match d.explain .depthMode with
    | .error e => .error e
    | .ok mode => .ok (uniformSampling ⟨mode.mode, none, d.specs.map SpecBlock.common⟩)

/-- The start of `curves` and `curves_metadata`, curves.py:77-82 and 257-262. -/
def explainRate (d : Dfsr) (rate : Option Nat) : Except CurveError Nat :=
  match explainUniform d with
  | .error e => .error e
  | .ok uniform =>
    if !uniform && rate.isNone then
      .error (.runtime (text "Multiple sampling rates in file, " ++
        text "please explicitly specify which to read"))
    else .ok (rate.getD 1)

/-- The end of `dfsr_dtype`, curves.py:435-445: what is logged, and the names. -/
def explainDtype (c : CurveTexts) (labels : List Text) (strict : Bool) :
    List Text × Except CurveError (List Text) :=
  match npNames labels with
  | some names => ([], .ok names)
  | none =>
    ([text "duplicated mnemonics in frame '" ++ text "DataFormatSpec()" ++ text "': " ++
        c.numpy labels],
      if strict then .error .numpy
      else
        match npNames (uniqueMnemonics labels) with
        | some names => .ok names
        | none => .error .numpy)

/-- `curves` up to the call of `read_data_records`, curves.py:257-272: what is logged, and the
configuration and the names of the columns.  The `TypeError` of the last lines is that of
`frameconfig`.  There is no format or type to be made of a specification that has not been
refused (`c93_curves`). -/
def explainCurves (c : CurveTexts) (d : Dfsr) (rate : Option Nat) (strict : Bool) :
    List Text × Except CurveError (Conf × List Text) :=
  match explainRate d rate with
  | .error e => ([], .error e)
  | .ok n =>
    match explainFormat c d with
    | .error e => ([], .error e)
    | .ok (mode, r) =>
      match if mode.is 1 then explainSpacing c d else .ok (some (.num 0)) with
      | .error e => ([], .error e)
      | .ok spacing =>
        let f : Format := ⟨mode.mode, if mode.is 1 then some r.code else none,
          d.specs.map SpecBlock.common⟩
        match dfsrColumns f n with
        | none => ([], .error .type)
        | some cols =>
          match explainDtype c (cols.map fun x => c.dec x.1) strict with
          | (log, .error e) => (log, .error e)
          | (log, .ok names) =>
            match mode.int, spacing with
            | some _, some x =>
              match curvesConf f n x with
              | some conf => (log, .ok (conf, names))
              | none => (log, .error .type)
            | _, _ => (log, .error .type)

/-- The mnemonics in `curves_metadata`, curves.py:84-94; that of the index is `None` in modes beside
0 and 1, dataformatspec.py:50-62. -/
def metadataMnemonics (c : CurveTexts) (mode : Value) (specs : List SpecCommon) (rate : Nat) :
    List (Option Text) :=
  let index :=
    if mode.is 0 then specs.head?.map fun s => c.dec s.mnemonic
    else if mode.is 1 then some (text "DEPT")
    else none
  index :: (metadataChannels ⟨mode.mode, none, specs⟩ rate).map fun s => some (c.dec s.mnemonic)

/-- `curves_metadata`, curves.py:75-101: the exception, if any.  That `unique_mnemonics` changes
something is said by `c53_strict`: a name occurs twice, and `None` does only once. -/
def explainMetadata (c : CurveTexts) (d : Dfsr) (rate : Option Nat) (strict : Bool) :
    Except CurveError Unit :=
  if d.specs = [] then .ok ()
  else
    match explainRate d rate with
    | .error e => .error e
    | .ok n =>
      match d.explain .depthMode with
      | .error e => .error e
      | .ok mode =>
        let mnemonics := metadataMnemonics c mode (d.specs.map SpecBlock.common) n
        let uniques := uniqueMnemonics (mnemonics.filterMap id)
        if strict && uniques ≠ mnemonics.filterMap id then
          .error (.value (text "duplicated mnemonics in '" ++ text "DataFormatSpec()" ++ text "'"))
        else .ok ()

/-! ### Specification -/

namespace Spec

/-- The values of the entry blocks for a field. -/
def entryValues (d : Dfsr) (x : Field) : List Value :=
  (d.entries.filter fun e => e.type = x.number).map Entry.value

/-- The value of a field: that of its only entry block, or that of the standard. -/
def Has (d : Dfsr) (x : Field) (v : Value) : Prop :=
  entryValues d x = [v] ∨ (entryValues d x = [] ∧ v = x.default)

/-- The names of the fields in dlisio. -/
def Field.name : Field → String
  | .recordType => "data_rec_type" | .blockType => "spec_block_type" | .frameSize => "frame_size"
  | .direction => "up_down_flag" | .opticalUnits => "depth_scale_units"
  | .referencePoint => "ref_point" | .referenceUnits => "ref_point_units" | .spacing => "spacing"
  | .spacingUnits => "spacing_units" | .maxFrames => "max_frames_pr_rec"
  | .absentValue => "absent_value" | .depthMode => "depth_rec_mode"
  | .depthUnits => "units_of_depth" | .depthReprc => "reprc_output_depth"
  | .blockSubtype => "spec_bloc_subtype"

/-- A field that is there more than once. -/
inductive FieldFault (d : Dfsr) (x : Field) : CurveError → Prop
  | twice (h : 2 ≤ (entryValues d x).length) :
      FieldFault d x (.value (text ("Multiple Entry Blocks of type lis_ebtype." ++ x.name)))

/-- What is wrong with a code as type of a curve. -/
inductive CodeFault (code : ℕ) (mnemonic : Text) : CurveError → Prop
  | unknown (h : width code = none) :
      CodeFault code mnemonic (.value (text "Invalid representation code (" ++ Text.ofNat code ++
        text ") in curve " ++ mnemonic))
  | mask (h : code = 77) :
      CodeFault code mnemonic (.notImplemented (text "lis::mask is not supported as a curve type"))

/-- What is wrong with a channel. -/
inductive ChannelFault (c : CurveTexts) (s : SpecCommon) : CurveError → Prop
  | size (h : s.reservedSize = 0) :
      ChannelFault c s (.value (text "Invalid size (0) for curve " ++ c.dec s.mnemonic ++
        text ", should be != 0)"))
  | samples (h : s.samples = 0) :
      ChannelFault c s (.value (text "Invalid number of samples (0) for curve " ++
        c.dec s.mnemonic ++ text ", should be > 0)"))
  | bytes (h : ¬ (s.samples : ℤ) ∣ s.reservedSize) :
      ChannelFault c s (.value (text "Invalid sample size (" ++
        c.float (s.reservedSize / s.samples) ++ text ") for curve " ++ c.dec s.mnemonic ++
        text ", should be an integral number of bytes"))
  | code (e : CurveError) (h : CodeFault s.reprc (c.dec s.mnemonic) e) : ChannelFault c s e
  | entries (w : ℕ) (hw : width s.reprc = some w) (h0 : 0 < w)
      (h : ¬ ((s.samples * w : ℕ) : ℤ) ∣ s.reservedSize) :
      ChannelFault c s (.value (text "Invalid number of entries per sample (" ++
        c.float (s.reservedSize / (s.samples * w)) ++ text ") in curve " ++ c.dec s.mnemonic ++
        text ". should be an integral number of entries"))

/-- What is wrong with a channel as the index. -/
inductive IndexFault (s : SpecCommon) : CurveError → Prop
  | text (h : s.reprc = 65) : IndexFault s (.value (text "Invalid type for index (string)"))
  | suppressed (h : s.reservedSize < 0) : IndexFault s (.value (text "Index channel is suppressed"))
  | fast (h : 1 < s.samples) :
      IndexFault s (.value (text "Index channel cannot be a fast channel (samples=" ++
        Text.ofNat s.samples ++ text ")"))
  | many (w : ℕ) (hw : width s.reprc = some w) (h : (w : ℤ) < s.reservedSize) :
      IndexFault s (.value (text "Index channel cannot have multiple entries per sample"))

/-- What is wrong with the spacing. -/
inductive SpacingFault (c : CurveTexts) (d : Dfsr) : CurveError → Prop
  | field (x : Field) (hx : x = .spacing ∨ x = .direction) (e : CurveError) (h : FieldFault d x e) :
      SpacingFault c d e
  | none (h : Has d .spacing .none) : SpacingFault c d (.value (text "No spacing recorded"))
  | direction (v : Value) (hv : Has d .direction v) (h1 : number v ≠ some 1)
      (h2 : number v ≠ some 255) :
      SpacingFault c d (.value (text "Invalid direction (UP/DOWN flag). was: " ++ c.value v))

/-- What is wrong with the type of an index that is not a channel. -/
inductive DepthFault (d : Dfsr) : CurveError → Prop
  | field (e : CurveError) (h : FieldFault d .depthReprc e) : DepthFault d e
  | missing (h : Has d .depthReprc .none) :
      DepthFault d (.value (text "Invalid representation code (None) in curve DEPT"))
  | code (v : Value) (n : ℕ) (hv : Has d .depthReprc v) (hn : whole? v = some (n : ℤ)) (h256 : n < 256)
      (e : CurveError) (h : CodeFault n (text "DEPT") e) : DepthFault d e
  | text (v : Value) (hv : Has d .depthReprc v) (hn : whole? v = some 65) :
      DepthFault d (.value (text "Invalid type for index (string)"))

/-- The mode is recorded to be this. -/
def Mode (d : Dfsr) (n : ℚ) : Prop := ∃ v, Has d .depthMode v ∧ number v = some n

/-- The channel at this place, if it is not the index. -/
def Beside (d : Dfsr) (i : ℕ) (b : SpecBlock) : Prop := d.specs[i]? = some b ∧ ¬ (Mode d 0 ∧ i = 0)

/-- There are two rates of sampling to choose from. -/
inductive RateFault (d : Dfsr) (rate : Option ℕ) : CurveError → Prop
  | field (hs : d.specs ≠ []) (e : CurveError) (h : FieldFault d .depthMode e) : RateFault d rate e
  | rates (hr : rate = none) (v : Value) (hv : Has d .depthMode v) (i j : ℕ) (a b : SpecBlock) (ha : Beside d i a) (hb : Beside d j b)
      (h : a.common.samples ≠ b.common.samples) : RateFault d rate
        (.runtime (text "Multiple sampling rates in file, please explicitly specify which to read"))

/-- What is wrong with a specification of which curves are to be read. -/
inductive CurveFault (c : CurveTexts) (d : Dfsr) (rate : Option ℕ) : CurveError → Prop
  | rate (e : CurveError) (h : RateFault d rate e) : CurveFault c d rate e
  | field (e : CurveError) (h : FieldFault d .depthMode e) : CurveFault c d rate e
  | mode (v : Value) (hv : Has d .depthMode v) (h0 : number v ≠ some 0) (h1 : number v ≠ some 1) :
      CurveFault c d rate (.value (text "Invalid depth recording mode"))
  | empty (h : d.specs = []) :
      CurveFault c d rate (.value (text "DataFormatSpec() has no channels"))
  | channel (b : SpecBlock) (hb : b ∈ d.specs) (e : CurveError) (h : ChannelFault c b.common e) :
      CurveFault c d rate e
  | index (hm : Mode d 0) (b : SpecBlock) (hb : d.specs.head? = some b) (e : CurveError)
      (h : IndexFault b.common e) : CurveFault c d rate e
  | depth (hm : Mode d 1) (e : CurveError) (h : DepthFault d e) : CurveFault c d rate e
  | spacing (hm : Mode d 1) (e : CurveError) (h : SpacingFault c d e) : CurveFault c d rate e

/-- The names of the columns: the index, and the channels with this rate that are not suppressed. -/
def Columns (c : CurveTexts) (d : Dfsr) (rate : ℕ) (labels : List Text) : Prop :=
  let names (bs : List SpecBlock) : List Text :=
    (bs.filter fun b => b.common.samples = rate ∧ 0 < b.common.reservedSize).map fun b =>
      c.dec b.common.mnemonic
  ∃ b bs, d.specs = b :: bs ∧
    ((Mode d 0 ∧ labels = c.dec b.common.mnemonic :: names bs) ∨
      (Mode d 1 ∧ labels = text "DEPT" :: names (b :: bs)))

/-- The names in the metadata: the index, if the mode is known, and the channels with this rate. -/
def MetadataNames (c : CurveTexts) (d : Dfsr) (rate : ℕ) (labels : List Text) : Prop :=
  let names (bs : List SpecBlock) : List Text :=
    (bs.filter fun b => b.common.samples = rate).map fun b => c.dec b.common.mnemonic
  ∃ b bs, d.specs = b :: bs ∧
    ((Mode d 0 ∧ labels = c.dec b.common.mnemonic :: names bs) ∨
      (Mode d 1 ∧ labels = text "DEPT" :: names (b :: bs)) ∨
      (¬ Mode d 0 ∧ ¬ Mode d 1 ∧ labels = names (b :: bs)))

/-- Something is not the kind of number that is asked for. -/
inductive KindFault (d : Dfsr) (rate : Option ℕ) : Prop
  | mode (v : Value) (hv : Has d .depthMode v) (h : whole? v = none)
  | reprc (hm : Mode d 1) (v : Value) (hv : Has d .depthReprc v)
      (h : ∀ n : ℕ, n < 256 → whole? v ≠ some (n : ℤ))
  | spacing (hm : Mode d 1) (v : Value) (hv : Has d .spacing v)
      (h : v = .none ∨ (∃ s, v = .string s) ∨ ∃ s, v = .mask s)
  | rate (n : ℕ) (h : rate = some n) (hn : 256 ≤ n)

end Spec

/-! ### Fields -/

theorem explainValue_has (d : Dfsr) (x : Field) :
    (∀ v, explainValue d x.number x.default = .ok v ↔ Has d x v) ∧
    ∀ e, explainValue d x.number x.default = .error e ↔
      2 ≤ (entryValues d x).length ∧
      e = .value (text "Multiple Entry Blocks of type " ++ text "lis_ebtype." ++ text (ebName x.number)) := by
  unfold explainValue explainFind Has entryValues
  generalize d.entries.filter (fun e => e.type = x.number) = l
  match l with
  | [] => simp [eq_comm]
  | [e] => simp
  | _ :: _ :: _ =>
    exact ⟨by simp, fun e => ⟨fun h => ⟨by simp, by cases h; rfl⟩, fun h => by rw [h.2]⟩⟩

theorem text_append (s t : String) : text s ++ text t = text (s ++ t) := by simp [text]

theorem absent_eq : (Value.f32 (.num (-999.25))) = Field.default .absentValue := by
  simp only [Field.default]; norm_num

theorem explain_eq (d : Dfsr) (x : Field) (hx : x ≠ .blockType) :
    d.explain x = explainValue d x.number x.default := by
  cases x <;> first | rfl | exact absurd rfl hx |
    (show explainValue _ 12 (.f32 (.num (-999.25))) = _; rw [absent_eq]; rfl)

theorem ebName_field (x : Field) : ebName x.number = x.name := by cases x <;> rfl

theorem multiple_eq (x : Field) :
    text "Multiple Entry Blocks of type " ++ text "lis_ebtype." ++ text (ebName x.number) =
      text ("Multiple Entry Blocks of type lis_ebtype." ++ x.name) := by
  have h : text "Multiple Entry Blocks of type " ++ text "lis_ebtype." =
    text "Multiple Entry Blocks of type lis_ebtype." := by literals
  rw [h, text_append, ebName_field]

/-- **C93** (fields).  An attribute of `DataFormatSpec` but `spec_block_type` has the value of the
field, or there is an exception which says, truly, that there are several entry blocks of its
type. -/
theorem c93_fields (d : Dfsr) (x : Field) (hx : x ≠ .blockType) :
    (∀ v, d.explain x = .ok v ↔ Has d x v) ∧ ∀ e, d.explain x = .error e ↔ FieldFault d x e := by
  rw [explain_eq d x hx]
  refine ⟨(explainValue_has d x).1, fun e => ?_⟩
  rw [(explainValue_has d x).2, multiple_eq]
  constructor
  · rintro ⟨h, rfl⟩; exact .twice h
  · rintro ⟨h⟩; exact ⟨h, rfl⟩

/-- The same but for the exception. -/
theorem c93_fields_plain (d : Dfsr) (x : Field) : (d.explain x).toOption = d.get x := by
  have h : ∀ t v, (explainValue d t v).toOption = entryValue d t v := by
    intro t v
    unfold explainValue explainFind entryValue findEntry
    generalize d.entries.filter (fun e => e.type = t) = l
    match l with
    | [] => rfl
    | [e] => rfl
    | _ :: _ :: _ => rfl
  cases x <;> exact h _ _

/-! ### Channels -/

theorem width_ofCode (n : ℕ) : width n = (Reprc.ofCode (n : ℤ)).map Reprc.size := by
  unfold width Reprc.ofCode
  by_cases h : n < 80
  · revert h n; decide
  · have : ∀ k : ℕ, k < 80 → n ≠ k := by intro k hk h1; omega
    have hi : ∀ k : ℤ, k < 80 → (n : ℤ) ≠ k := by intro k hk h1; omega
    have e : ∀ k : ℕ, k < 80 → (n == k) = false := fun k hk => by simp [this k hk]
    simp only [List.lookup, e 49 (by omega), e 50 (by omega), e 56 (by omega), e 65 (by omega),
      e 66 (by omega), e 68 (by omega), e 70 (by omega), e 73 (by omega), e 77 (by omega), e 79 (by omega)]
    rw [if_neg (hi 56 (by omega)), if_neg (hi 79 (by omega)), if_neg (hi 73 (by omega)),
      if_neg (hi 49 (by omega)), if_neg (hi 68 (by omega)), if_neg (hi 50 (by omega)),
      if_neg (hi 70 (by omega)), if_neg (hi 65 (by omega)), if_neg (hi 66 (by omega)),
      if_neg (hi 77 (by omega))]
    rfl

theorem explainCode_spec (n : ℕ) (m : Text) :
    (∀ e, explainCode n m = .error e ↔ CodeFault n m e) ∧
    ∀ r, explainCode n m = .ok r ↔ Reprc.ofCode n = some r ∧ r ≠ .mask := by
  unfold explainCode
  have hw := width_ofCode n
  match h : Reprc.ofCode n with
  | none =>
    rw [h] at hw
    refine ⟨fun e => ⟨?_, ?_⟩, by simp⟩
    · intro h; cases h; exact .unknown hw
    · rintro (_ | rfl)
      · rfl
      · cases h
  | some r =>
    rw [h] at hw
    have hc := code_cases h
    by_cases hm : r = .mask
    · subst hm
      refine ⟨fun e => ⟨?_, ?_⟩, ?_⟩
      · intro h; cases h; exact .mask hc
      · rintro (h1 | _)
        · rw [hw] at h1; cases h1
        · rfl
      · rintro r; constructor
        · intro h; cases h
        · rintro ⟨h1, h2⟩; cases h1; exact absurd rfl h2
    · have e1 : (match some r with
        | none => Except.error (CurveError.value (text "Invalid representation code (" ++ Text.ofNat n ++
          text ") in curve " ++ m))
        | some Reprc.mask => .error (.notImplemented (text "lis::mask is not supported as a curve type"))
        | some r => .ok r) = .ok r := by cases r <;> first | rfl | exact absurd rfl hm
      rw [e1]
      refine ⟨fun e => ⟨by simp, ?_⟩, ?_⟩
      · rintro (h1 | rfl)
        · rw [hw] at h1; cases h1
        · cases r <;> first | exact absurd rfl hm | cases hc
      · intro r'
        simp only [Except.ok.injEq, Option.some.injEq]
        exact ⟨fun h => ⟨h, h ▸ hm⟩, fun h => h.1⟩

theorem ofCode_size {n : ℕ} {r : Reprc} (h : Reprc.ofCode n = some r) : width n = some r.size := by
  rw [width_ofCode, h]; rfl

theorem size_pos {r : Reprc} (h1 : r ≠ .string) (h2 : r ≠ .mask) : 0 < r.size := by
  cases r <;> first | exact absurd rfl h1 | exact absurd rfl h2 | decide

theorem entries_iff (n : ℤ) (s w : ℕ) (hs : 1 ≤ s) (h : n % s = 0) :
    n / s % (w : ℤ) ≠ 0 ↔ ¬ ((s * w : ℕ) : ℤ) ∣ n := by
  obtain ⟨k, rfl⟩ := Int.dvd_of_emod_eq_zero h
  have h0 : (s : ℤ) ≠ 0 := by omega
  rw [Int.mul_ediv_cancel_left _ h0, Nat.cast_mul, not_iff_not, mul_dvd_mul_iff_left h0]
  exact ⟨Int.dvd_of_emod_eq_zero, Int.emod_eq_zero_of_dvd⟩

/-- **C93** (channels).  What is said when a specification block is refused is true of it. -/
theorem c93_channel (c : CurveTexts) (s : SpecCommon) (e : CurveError)
    (h : explainChannel c s = .error e) : ChannelFault c s e := by
  unfold explainChannel at h
  by_cases h0 : s.reservedSize = 0
  · rw [if_pos h0] at h
    have h1 : text "Invalid size (" ++ text "0" ++ text ") for curve " =
      text "Invalid size (0) for curve " := by literals
    have h2 : text ", " ++ text "should be != 0)" = text ", should be != 0)" := by literals
    rw [h1, List.append_assoc _ (text ", "), h2] at h
    cases h
    exact .size h0
  rw [if_neg h0] at h
  by_cases hs : s.samples < 1
  · rw [if_pos hs] at h
    have hs : s.samples = 0 := by omega
    have h1 : text "Invalid number of samples (" ++ Text.ofNat 0 ++ text ") for curve " =
      text "Invalid number of samples (0) for curve " := by literals
    have h2 : text ", " ++ text "should be > 0)" = text ", should be > 0)" := by literals
    rw [hs, h1, List.append_assoc _ (text ", "), h2] at h
    cases h
    exact .samples hs
  rw [if_neg hs] at h
  by_cases hb : s.reservedSize % s.samples ≠ 0
  · rw [if_pos hb] at h
    have h2 : text ", " ++ text "should be an integral number of bytes" =
      text ", should be an integral number of bytes" := by literals
    rw [List.append_assoc _ (text ", "), h2] at h
    cases h
    exact .bytes fun hd => hb (Int.emod_eq_zero_of_dvd hd)
  rw [if_neg hb] at h
  match hc : explainCode s.reprc (c.dec s.mnemonic) with
  | .error e' =>
    rw [hc] at h
    cases h
    exact .code _ (((explainCode_spec _ _).1 _).1 hc)
  | .ok r =>
    rw [hc] at h
    obtain ⟨h1, h2⟩ := ((explainCode_spec _ _).2 _).1 hc
    by_cases h3 : r = .string
    · subst h3; cases h
    have e1 : (if s.reservedSize / s.samples % (r.size : Int) ≠ 0 then
        Except.error (CurveError.value (text "Invalid number of entries per sample (" ++
          c.float (s.reservedSize / s.samples / r.size) ++ text ") in curve " ++ c.dec s.mnemonic ++
          text ". " ++ text "should be an integral number of entries"))
      else .ok ()) = .error e := by
      cases r <;> first | exact h | exact absurd rfl h3 | exact absurd rfl h2
    by_cases h4 : s.reservedSize / s.samples % (r.size : Int) ≠ 0
    · rw [if_pos h4] at e1
      have h5 : text ". " ++ text "should be an integral number of entries" =
        text ". should be an integral number of entries" := by literals
      rw [List.append_assoc _ (text ". "), h5, div_div] at e1
      cases e1
      exact .entries _ (ofCode_size h1) (size_pos h3 h2)
        ((entries_iff _ _ _ (by omega) (by simpa using hb)).1 h4)
    · rw [if_neg h4] at e1; cases e1

/-- **C93** (channels).  A specification block with something wrong is refused. -/
theorem c93_channel_refused (c : CurveTexts) (s : SpecCommon) (e : CurveError)
    (h : ChannelFault c s e) : ∃ e', explainChannel c s = .error e' := by
  by_contra hn
  have hok : explainChannel c s = .ok () := by
    match hx : explainChannel c s with
    | .ok () => rfl
    | .error e => exact absurd ⟨e, hx⟩ hn
  unfold explainChannel at hok
  split at hok
  · cases hok
  rename_i h0
  split at hok
  · cases hok
  rename_i hs
  split at hok
  · cases hok
  rename_i hb
  match hc : explainCode s.reprc (c.dec s.mnemonic) with
  | .error e' => rw [hc] at hok; cases hok
  | .ok r =>
    rw [hc] at hok
    obtain ⟨h1, h2⟩ := ((explainCode_spec _ _).2 _).1 hc
    cases h with
    | size h => exact h0 h
    | samples h => omega
    | bytes h => exact h (Int.dvd_of_emod_eq_zero (by simpa using hb))
    | code e h => rw [((explainCode_spec _ _).1 _).2 h] at hc; cases hc
    | entries w hw hp h =>
      rw [ofCode_size h1] at hw
      cases hw
      have h4 := (entries_iff _ _ _ (by omega) (by simpa using hb)).2 h
      have h3 : r ≠ .string := by rintro rfl; exact absurd hp (by decide)
      cases r <;> first | exact absurd rfl h3 | exact absurd rfl h2 |
        (simp only at hok; rw [if_pos h4] at hok; cases hok)

/-- Cases: three bytes in two samples, a mask, and three bytes of a type of two. -/
example (c : CurveTexts) :
    explainChannel c (exChan (latin "GR") 3 2 66) = .error (.value (text "Invalid sample size (" ++
      c.float (3 / 2) ++ text ") for curve " ++ c.dec (latin "GR") ++
      text ", should be an integral number of bytes")) ∧
    explainChannel c (exChan (latin "GR") 3 1 77) =
      .error (.notImplemented (text "lis::mask is not supported as a curve type")) ∧
    explainChannel c (exChan (latin "GR") 3 1 79) =
      .error (.value (text "Invalid number of entries per sample (" ++
      c.float (3 / 2) ++ text ") in curve " ++ c.dec (latin "GR") ++
      text ". should be an integral number of entries")) ∧
    explainChannel c (exChan (latin "GR") 6 3 79) = .ok () := by
  have h2 : text ", " ++ text "should be an integral number of bytes" =
    text ", should be an integral number of bytes" := by literals
  have h5 : text ". " ++ text "should be an integral number of entries" =
    text ". should be an integral number of entries" := by literals
  refine ⟨?_, rfl, ?_, rfl⟩
  · rw [← h2, ← List.append_assoc]
    show Except.error (CurveError.value (_ ++ c.float ((3 : ℤ) / (2 : ℕ)) ++ _ ++ _ ++ _ ++ _)) = _
    norm_num
    rfl
  · rw [← h5, ← List.append_assoc]
    show Except.error (CurveError.value (_ ++ c.float ((3 : ℤ) / (1 : ℕ) / (2 : ℕ)) ++ _ ++ _ ++ _ ++ _)) = _
    norm_num
    rfl

theorem explainChannels_error (c : CurveTexts) : ∀ (l : List SpecCommon) (e : CurveError),
    explainChannels c l = .error e → ∃ s ∈ l, ChannelFault c s e
  | [], e, h => by cases h
  | s :: l, e, h => by
    rw [explainChannels] at h
    match hs : explainChannel c s with
    | .error e' => rw [hs] at h; cases h; exact ⟨s, by simp, c93_channel _ _ _ hs⟩
    | .ok () =>
      rw [hs] at h
      obtain ⟨t, ht, h⟩ := explainChannels_error c l e h
      exact ⟨t, by simp [ht], h⟩

theorem explainChannels_ok (c : CurveTexts) : ∀ (l : List SpecCommon),
    explainChannels c l = .ok () → ∀ s ∈ l, ∀ e, ¬ ChannelFault c s e
  | [], _, s, hs, _ => by cases hs
  | t :: l, h, s, hs, e => by
    rw [explainChannels] at h
    match ht : explainChannel c t with
    | .error e' => rw [ht] at h; cases h
    | .ok () =>
      rw [ht] at h
      rcases List.mem_cons.1 hs with rfl | hs
      · intro hf
        obtain ⟨e', he⟩ := c93_channel_refused c s e hf
        rw [ht] at he; cases he
      · exact explainChannels_ok c l h s hs e

/-! ### The index -/

theorem sizeofType_ofCode {n : ℕ} {r : Reprc} (h : Reprc.ofCode n = some r) :
    sizeofType n = r.size := by
  rw [sizeofType, h]

theorem explainIndex_error {s : SpecCommon} {r : Reprc} (hr : Reprc.ofCode s.reprc = some r)
    {e : CurveError} (h : explainIndex s = .error e) : IndexFault s e := by
  unfold explainIndex at h
  split at h
  · rename_i h1; cases h; exact .suppressed h1
  split at h
  · rename_i h1; cases h; exact .fast h1
  split at h
  · rename_i h1
    cases h
    rw [sizeofType_ofCode hr] at h1
    exact .many _ (ofCode_size hr) h1
  · cases h

theorem explainIndex_ok {s : SpecCommon} {r : Reprc} (hr : Reprc.ofCode s.reprc = some r)
    (hr1 : r ≠ .string) (h : explainIndex s = .ok ()) (e : CurveError) : ¬ IndexFault s e := by
  unfold explainIndex at h
  split at h
  · cases h
  rename_i h1
  split at h
  · cases h
  rename_i h2
  split at h
  · cases h
  rename_i h3
  rintro (h | h | h | ⟨w, hw, h⟩)
  · rw [h] at hr; exact hr1 (Option.some.inj hr).symm
  · exact h1 h
  · exact h2 h
  · rw [ofCode_size hr] at hw
    rw [sizeofType_ofCode hr] at h3
    cases hw
    exact h3 h

theorem mode_zero {d : Dfsr} {v : Value} (hv : Has d .depthMode v) : v.is 0 = true ↔ Mode d 0 := by
  rw [is_number, Int.cast_zero]
  constructor
  · exact fun h => ⟨v, hv, h⟩
  · rintro ⟨w, hw, h⟩
    have := ((c93_fields d .depthMode (by decide)).1 v).2 hv
    rw [((c93_fields d .depthMode (by decide)).1 w).2 hw] at this
    cases this
    exact h

theorem mode_one {d : Dfsr} {v : Value} (hv : Has d .depthMode v) : v.is 1 = true ↔ Mode d 1 := by
  rw [is_number, Int.cast_one]
  constructor
  · exact fun h => ⟨v, hv, h⟩
  · rintro ⟨w, hw, h⟩
    have := ((c93_fields d .depthMode (by decide)).1 v).2 hv
    rw [((c93_fields d .depthMode (by decide)).1 w).2 hw] at this
    cases this
    exact h

/-- A field has one value. -/
theorem has_unique {d : Dfsr} {x : Field} {v w : Value} (hv : Has d x v) (hw : Has d x w) : v = w := by
  unfold Has at hv hw
  rcases hv with hv | ⟨hv, rfl⟩ <;> rcases hw with hw | ⟨hw, rfl⟩ <;> rw [hv] at hw <;>
    first | rfl | cases hw
  rfl

theorem fieldFault_not_has {d : Dfsr} {x : Field} {v : Value} (hv : Has d x v) {e : CurveError} :
    ¬ FieldFault d x e := by
  rintro ⟨h⟩
  rcases hv with hv | ⟨hv, -⟩ <;> rw [hv] at h <;> simp at h

theorem explainReprc_spec (v : Value) (m : Text) :
    (∀ e, explainReprc v m = .error e → e = .type ∧ v ≠ .none ∧ (∀ n : ℕ, n < 256 → whole? v ≠ some (n : ℤ)) ∨
      (v = .none ∧ e = .value (text "Invalid representation code (" ++ text "None" ++
      text ") in curve " ++ m)) ∨ ∃ n : ℕ, n < 256 ∧ whole? v = some (n : ℤ) ∧ CodeFault n m e) ∧
    ∀ r, explainReprc v m = .ok r ↔ ∃ n : ℕ, n < 256 ∧ whole? v = some (n : ℤ) ∧ Reprc.ofCode n = some r ∧
      r ≠ .mask := by
  unfold explainReprc
  by_cases hn : v = .none
  · subst hn
    rw [if_pos rfl]
    refine ⟨fun e h => ?_, fun r => ⟨(by intro h; cases h), (by rintro ⟨n, -, h, -⟩; cases h)⟩⟩
    cases h
    exact .inr (.inl ⟨rfl, rfl⟩)
  rw [if_neg hn, int_whole]
  match hw : whole? v with
  | none =>
    refine ⟨fun e h => ?_, fun r => ⟨(by intro h; cases h), (by rintro ⟨n, -, h, -⟩; cases h)⟩⟩
    cases h
    exact .inl ⟨rfl, hn, by simp⟩
  | some z =>
    simp only
    by_cases hz : 0 ≤ z ∧ z < 256
    · rw [if_pos hz]
      obtain ⟨h0, h1⟩ := hz
      obtain ⟨n, rfl⟩ := Int.eq_ofNat_of_zero_le h0
      have h1 : n < 256 := by omega
      rw [Int.toNat_natCast]
      constructor
      · intro e h
        exact .inr (.inr ⟨n, h1, rfl, ((explainCode_spec _ _).1 _).1 h⟩)
      · intro r
        rw [(explainCode_spec _ _).2]
        constructor
        · intro h; exact ⟨n, h1, rfl, h⟩
        · rintro ⟨k, -, h, h'⟩
          cases h
          exact h'
    · rw [if_neg hz]
      refine ⟨fun e h => ?_, fun r => ⟨(by intro h; cases h), ?_⟩⟩
      · cases h
        refine .inl ⟨rfl, hn, fun n h1 h2 => ?_⟩
        cases h2
        omega
      · rintro ⟨n, h1, h, -⟩
        cases h
        omega

/-- What the type of the index is found to be. -/
theorem explainIndexType_spec (c : CurveTexts) (d : Dfsr) {mode : Value} (hmode : Has d .depthMode mode)
    (h01 : Mode d 0 ∨ Mode d 1) (b : SpecBlock) (bs : List SpecBlock) (hb : d.specs = b :: bs)
    (rate : Option ℕ) :
    (∀ e, explainIndexType c d mode b.common = .error e → CurveFault c d rate e ∨
      (e = .type ∧ KindFault d rate)) ∧
    ∀ r, explainIndexType c d mode b.common = .ok r → r ≠ .string ∧ r ≠ .mask ∧
      (Mode d 0 → Reprc.ofCode b.common.reprc = some r) ∧
      (Mode d 1 → ∃ v, ∃ n : ℕ, Has d .depthReprc v ∧ n < 256 ∧ whole? v = some (n : ℤ) ∧
        Reprc.ofCode n = some r) := by
  have h10 : ¬ (Mode d 0 ∧ Mode d 1) := by
    rintro ⟨⟨v, hv, h⟩, ⟨w, hw, h'⟩⟩
    cases has_unique hv hw
    rw [h] at h'
    norm_num at h'
  unfold explainIndexType
  simp only
  by_cases h0 : mode.is 0 = true
  · have hm := (mode_zero hmode).1 h0
    rw [if_pos h0]
    match hc : explainCode b.common.reprc (c.dec b.common.mnemonic) with
    | .error e' =>
      refine ⟨fun e h => ?_, by intro r h; cases h⟩
      cases h
      exact .inl (.channel b (by simp [hb]) _ (.code _ (((explainCode_spec _ _).1 _).1 hc)))
    | .ok r =>
      obtain ⟨h1, h2⟩ := ((explainCode_spec _ _).2 _).1 hc
      by_cases h3 : r = .string
      · subst h3
        refine ⟨fun e h => ?_, by intro r h; cases h⟩
        cases h
        exact .inl (.index hm b (by simp [hb]) _ (.text (code_cases h1)))
      · have e1 : ∀ t : Text, (match (Except.ok r : Except CurveError Reprc) with
          | .error e => Except.error e
          | .ok .string => .error (.value t)
          | .ok r => .ok r) = .ok r := by intro t; cases r <;> first | rfl | exact absurd rfl h3
        rw [e1]
        refine ⟨(by intro e h; cases h), ?_⟩
        intro r' h
        cases h
        exact ⟨h3, h2, fun _ => h1, fun h => absurd ⟨hm, h⟩ h10⟩
  · rw [if_neg h0]
    have hm0 : ¬ Mode d 0 := fun h => h0 ((mode_zero hmode).2 h)
    have hm : Mode d 1 := by tauto
    match hd : d.explain .depthReprc with
    | .error e' =>
      refine ⟨fun e h => ?_, by intro r h; cases h⟩
      cases h
      exact .inl (.depth hm _ (.field _ (((c93_fields d .depthReprc (by decide)).2 _).1 hd)))
    | .ok v =>
      have hv := ((c93_fields d .depthReprc (by decide)).1 _).1 hd
      simp only
      match hc : explainReprc v (text "DEPT") with
      | .error e' =>
        refine ⟨fun e h => ?_, by intro r h; cases h⟩
        cases h
        rcases (explainReprc_spec _ _).1 _ hc with ⟨rfl, -, h⟩ | ⟨rfl, rfl⟩ | ⟨n, h1, h2, h3⟩
        · exact .inr ⟨rfl, .reprc hm v hv h⟩
        · have h1 : text "Invalid representation code (" ++ text "None" ++ text ") in curve " ++
            text "DEPT" = text "Invalid representation code (None) in curve DEPT" := by literals
          rw [h1]
          exact .inl (.depth hm _ (.missing hv))
        · exact .inl (.depth hm _ (.code v n hv h2 h1 _ h3))
      | .ok r =>
        obtain ⟨n, hn, hw, h1, h2⟩ := ((explainReprc_spec _ _).2 _).1 hc
        by_cases h3 : r = .string
        · subst h3
          refine ⟨fun e h => ?_, by intro r h; cases h⟩
          cases h
          have := code_cases h1
          subst this
          exact .inl (.depth hm _ (.text v hv hw))
        · have e1 : ∀ t : Text, (match (Except.ok r : Except CurveError Reprc) with
            | .error e => Except.error e
            | .ok .string => .error (.value t)
            | .ok r => .ok r) = .ok r := by intro t; cases r <;> first | rfl | exact absurd rfl h3
          rw [e1]
          refine ⟨(by intro e h; cases h), ?_⟩
          intro r' h
          cases h
          exact ⟨h3, h2, fun h => absurd h hm0, fun _ => ⟨v, n, hv, hn, hw, h1⟩⟩

/-! ### The specification as a whole -/

theorem explainFormat_error (c : CurveTexts) (d : Dfsr) (rate : Option ℕ) (e : CurveError)
    (h : explainFormat c d = .error e) : CurveFault c d rate e ∨ (e = .type ∧ KindFault d rate) := by
  unfold explainFormat at h
  match hd : d.explain .depthMode with
  | .error e' =>
    rw [hd] at h
    cases h
    exact .inl (.field _ (((c93_fields d .depthMode (by decide)).2 _).1 hd))
  | .ok mode =>
    have hv := ((c93_fields d .depthMode (by decide)).1 _).1 hd
    rw [hd] at h
    simp only at h
    split at h
    · rename_i h1
      cases h
      rw [Bool.and_eq_true, Bool.not_eq_true', Bool.not_eq_true'] at h1
      refine .inl (.mode _ hv (fun h2 => ?_) fun h2 => ?_)
      · rw [(is_number mode 0).2 (by rw [h2, Int.cast_zero])] at h1; exact absurd h1.1 (by decide)
      · rw [(is_number mode 1).2 (by rw [h2, Int.cast_one])] at h1; exact absurd h1.2 (by decide)
    · rename_i h1
      have h01 : Mode d 0 ∨ Mode d 1 := by
        rw [← mode_zero hv, ← mode_one hv]
        revert h1
        cases mode.is 0 <;> cases mode.is 1 <;> simp
      match hs : d.specs with
      | [] =>
        rw [hs] at h
        have h1 : text "DataFormatSpec()" ++ text " has no channels" =
          text "DataFormatSpec() has no channels" := by literals
        rw [List.map_nil] at h
        simp only at h
        rw [h1] at h
        cases h
        exact .inl (.empty hs)
      | b :: bs =>
        rw [hs, List.map_cons] at h
        simp only at h
        have hi := explainIndexType_spec c d hv h01 b bs hs rate
        match ht : explainIndexType c d mode b.common with
        | .error e' =>
          rw [ht] at h
          cases h
          exact hi.1 _ ht
        | .ok r =>
          rw [ht] at h
          simp only at h
          obtain ⟨hr1, hr2, hr3, hr4⟩ := hi.2 _ ht
          match hx : (if mode.is 0 then explainIndex b.common else .ok ()) with
          | .error e' =>
            rw [hx] at h
            cases h
            split at hx
            · rename_i hm
              have hm := (mode_zero hv).1 hm
              exact .inl (.index hm b (by simp [hs]) _ (explainIndex_error (hr3 hm) hx))
            · cases hx
          | .ok () =>
            rw [hx] at h
            simp only at h
            match hch : explainChannels c (b.common :: bs.map SpecBlock.common) with
            | .error e' =>
              rw [hch] at h
              cases h
              obtain ⟨s, hs', hf⟩ := explainChannels_error c _ _ hch
              rw [← List.map_cons, List.mem_map] at hs'
              obtain ⟨b', hb', rfl⟩ := hs'
              exact .inl (.channel b' (by rw [hs]; exact hb') _ hf)
            | .ok () => rw [hch] at h; cases h

theorem explainFormat_ok (c : CurveTexts) (d : Dfsr) (mode : Value) (r : Reprc)
    (h : explainFormat c d = .ok (mode, r)) :
    Has d .depthMode mode ∧ (Mode d 0 ∨ Mode d 1) ∧ d.specs ≠ [] ∧ r ≠ .string ∧ r ≠ .mask ∧
    (Mode d 0 → ∃ b, d.specs.head? = some b ∧ Reprc.ofCode b.common.reprc = some r ∧
      explainIndex b.common = .ok ()) ∧
    (Mode d 1 → ∃ v, ∃ n : ℕ, Has d .depthReprc v ∧ n < 256 ∧ whole? v = some (n : ℤ) ∧
        Reprc.ofCode n = some r) ∧
    explainChannels c (d.specs.map SpecBlock.common) = .ok () := by
  unfold explainFormat at h
  match hd : d.explain .depthMode with
  | .error e' => rw [hd] at h; cases h
  | .ok mode' =>
    have hv := ((c93_fields d .depthMode (by decide)).1 _).1 hd
    rw [hd] at h
    simp only at h
    split at h
    · cases h
    · rename_i h1
      have h01 : Mode d 0 ∨ Mode d 1 := by
        rw [← mode_zero hv, ← mode_one hv]
        revert h1
        cases mode'.is 0 <;> cases mode'.is 1 <;> simp
      match hs : d.specs with
      | [] => rw [hs] at h; cases h
      | b :: bs =>
        rw [hs, List.map_cons] at h
        simp only at h
        have hi := explainIndexType_spec c d hv h01 b bs hs none
        match ht : explainIndexType c d mode' b.common with
        | .error e' => rw [ht] at h; cases h
        | .ok r' =>
          rw [ht] at h
          simp only at h
          obtain ⟨hr1, hr2, hr3, hr4⟩ := hi.2 _ ht
          match hx : (if mode'.is 0 then explainIndex b.common else .ok ()) with
          | .error e' => rw [hx] at h; cases h
          | .ok () =>
            rw [hx] at h
            simp only at h
            match hch : explainChannels c (b.common :: bs.map SpecBlock.common) with
            | .error e' => rw [hch] at h; cases h
            | .ok () =>
              rw [hch] at h
              cases h
              refine ⟨hv, h01, by simp, hr1, hr2, fun hm => ⟨b, rfl, hr3 hm, ?_⟩, hr4, rfl⟩
              rw [if_pos ((mode_zero hv).2 hm)] at hx
              exact hx

theorem explainCode_valid (n : ℕ) (m : Text) : (∃ r, explainCode n m = .ok r) ↔ validReprc n = true := by
  unfold validReprc
  simp only [(explainCode_spec n m).2]
  match h : Reprc.ofCode n with
  | none => simp
  | some r => cases r <;> simp [nptypeSize]

theorem explainChannel_valid (c : CurveTexts) (s : SpecCommon) :
    explainChannel c s = .ok () ↔ validSpec s = true := by
  unfold explainChannel validSpec
  by_cases h0 : s.reservedSize = 0
  · simp [h0]
  rw [if_neg h0]
  by_cases hs : s.samples < 1
  · simp [hs]
  rw [if_neg hs]
  by_cases hb : s.reservedSize % s.samples ≠ 0
  · simp [hb]
  rw [if_neg hb]
  rw [not_not] at hb
  have hcv := explainCode_valid s.reprc (c.dec s.mnemonic)
  match hc : explainCode s.reprc (c.dec s.mnemonic) with
  | .error e =>
    rw [hc] at hcv
    have : validReprc s.reprc = false := by
      rw [← Bool.not_eq_true, ← hcv]; rintro ⟨r, h⟩; cases h
    simp [this]
  | .ok r =>
    rw [hc] at hcv
    have hv := hcv.1 ⟨r, rfl⟩
    obtain ⟨h1, h2⟩ := ((explainCode_spec _ _).2 _).1 hc
    rw [sizeofType_ofCode h1, hv, h1]
    simp only [ne_eq, h0, not_false_eq_true, decide_true, hs, decide_false, Bool.not_false, hb,
      Bool.and_self, Bool.true_and, Option.some.injEq, Bool.or_eq_true, decide_eq_true_eq]
    cases r with
    | mask => exact absurd rfl h2
    | string => simp
    | _ =>
      simp only [reduceCtorEq, false_or]
      split <;> rename_i h
      · simp [h]
      · simp [not_not.1 h]

theorem explainChannels_valid (c : CurveTexts) : ∀ l : List SpecCommon,
    explainChannels c l = .ok () ↔ l.all validSpec = true
  | [] => by simp [explainChannels]
  | s :: l => by
    rw [explainChannels, List.all_cons, Bool.and_eq_true, ← explainChannel_valid c s,
      ← explainChannels_valid c l]
    match explainChannel c s with
    | .error e => simp
    | .ok () => simp

theorem explainIndex_valid (s : SpecCommon) : explainIndex s = .ok () ↔ validIndex s = true := by
  unfold explainIndex validIndex
  by_cases h0 : s.reservedSize < 0
  · simp [h0]
  by_cases h1 : 1 < s.samples
  · simp [h0, h1]
  by_cases h2 : sizeofType s.reprc < s.reservedSize
  · simp [h0, h1, h2]
  · simp [h0, h1, h2]

/-- The format that is used for reading. -/
def usedFormat (d : Dfsr) (mode : Value) (r : Reprc) : Format :=
  ⟨mode.mode, if mode.is 1 then some r.code else none, d.specs.map SpecBlock.common⟩

theorem is_zero_one {v : Value} (h : v.is 0 = true) : v.is 1 = false := by
  rw [← Bool.not_eq_true]
  intro h1
  rw [is_number] at h h1
  rw [h] at h1
  norm_num at h1

theorem ofCode_code (r : Reprc) : Reprc.ofCode (r.code : ℤ) = some r := by cases r <;> rfl

/-- What is not refused can be read. -/
theorem usedFormat_valid {c : CurveTexts} {d : Dfsr} {mode : Value} {r : Reprc}
    (h : explainFormat c d = .ok (mode, r)) : validFormat (usedFormat d mode r) = true := by
  obtain ⟨hv, h01, hne, hr1, hr2, h0, h1, hch⟩ := explainFormat_ok c d mode r h
  unfold validFormat usedFormat
  have hvr : validReprc r.code = true := by
    unfold validReprc
    rw [ofCode_code]
    cases r <;> first | rfl | exact absurd rfl hr2
  have hall := (explainChannels_valid c _).1 hch
  match hs : d.specs with
  | [] => exact absurd hs hne
  | b :: bs =>
    rw [hs] at hall
    by_cases hz : mode.is 0 = true
    · obtain ⟨b', hb', hr, hi⟩ := h0 ((mode_zero hv).1 hz)
      rw [hs] at hb'
      cases hb'
      have hi := (explainIndex_valid _).1 hi
      have hc := code_cases hr
      simp only [Value.mode, hz, if_true, List.map_cons, decide_true, Bool.true_or, Bool.true_and]
      rw [hc, hvr, ofCode_code, hi]
      simp only [Bool.true_and, Bool.and_eq_true, decide_eq_true_eq, ne_eq, Option.some.injEq]
      exact ⟨⟨hr1, by simp⟩, hall⟩
    · have ho : mode.is 1 = true := by
        rcases h01 with h | h
        · exact absurd ((mode_zero hv).2 h) hz
        · exact (mode_one hv).2 h
      simp only [Value.mode, hz, ho, if_true, List.map_cons]
      simp only [Bool.false_eq_true, if_false, one_ne_zero, decide_false, decide_true, Bool.or_true, Bool.true_and]
      rw [hvr, ofCode_code]
      simp only [Bool.true_and, Bool.and_eq_true, decide_eq_true_eq, ne_eq, Option.some.injEq]
      exact ⟨⟨hr1, by simp⟩, hall⟩

theorem explain_depthMode (d : Dfsr) : (d.explain .depthMode).toOption = d.depthMode :=
  c93_fields_plain d .depthMode

theorem explain_depthReprc (d : Dfsr) : (d.explain .depthReprc).toOption = d.depthReprc :=
  c93_fields_plain d .depthReprc

theorem is_of_int {v : Value} {m : ℤ} (h : v.int = some m) (n : ℤ) : v.is n = true ↔ m = n := by
  cases v <;> simp_all [Value.int, Value.is]

/-- The format is that of `Dfsr.format`, when the mode is an integer. -/
theorem format_used {c : CurveTexts} {d : Dfsr} {mode : Value} {r : Reprc}
    (h : explainFormat c d = .ok (mode, r)) :
    d.format = (mode.int.map fun _ => usedFormat d mode r) := by
  obtain ⟨hv, h01, hne, hr1, hr2, h0, h1, hch⟩ := explainFormat_ok c d mode r h
  have hm : d.depthMode = some mode := by
    rw [← explain_depthMode, ((c93_fields d .depthMode (by decide)).1 mode).2 hv]; rfl
  unfold Dfsr.format
  rw [hm, Option.bind_some]
  match hi : mode.int with
  | none => rfl
  | some m =>
    simp only [Option.map_some]
    by_cases hm1 : m = 1
    · subst hm1
      rw [if_pos rfl]
      have ho : mode.is 1 = true := (is_of_int hi 1).2 rfl
      have hz : ¬ mode.is 0 = true := fun hz => by rw [is_zero_one hz] at ho; cases ho
      obtain ⟨v, n, hvr, hn, hw, hr⟩ := h1 ((mode_one hv).1 ho)
      have hd : d.depthReprc = some v := by
        rw [← explain_depthReprc, ((c93_fields d .depthReprc (by decide)).1 v).2 hvr]; rfl
      have hc := code_cases hr
      rw [hd]
      have : v ≠ .none := by rintro rfl; cases hw
      have e1 : (match some v with
        | none => none
        | some Value.none => some (⟨1, none, d.specs.map SpecBlock.common⟩ : Format)
        | some v =>
          match v.int with
          | none => none
          | some r => if 0 ≤ r ∧ r < 256 then some ⟨1, some r.toNat, d.specs.map SpecBlock.common⟩ else none) =
          match v.int with
          | none => none
          | some r => if 0 ≤ r ∧ r < 256 then some ⟨1, some r.toNat, d.specs.map SpecBlock.common⟩ else none := by
        cases v <;> first | rfl | exact absurd rfl this
      refine e1.trans ?_
      rw [int_whole, hw]
      simp only
      rw [if_pos (by omega), usedFormat, Value.mode, if_neg hz, if_pos ho, Int.toNat_natCast, hc]
    · rw [if_neg hm1]
      have ho : ¬ mode.is 1 = true := fun ho => hm1 ((is_of_int hi 1).1 ho)
      have hz : mode.is 0 = true := by
        rcases h01 with h | h
        · exact (mode_zero hv).2 h
        · exact absurd ((mode_one hv).2 h) ho
      rw [usedFormat, Value.mode, if_pos hz, if_neg ho, (is_of_int hi 0).1 hz]

/-- What can be read is not refused. -/
theorem explainFormat_valid (c : CurveTexts) {d : Dfsr} {f : Format} (hf : d.format = some f)
    (hv : validFormat f = true) : ∃ mode r, explainFormat c d = .ok (mode, r) := by
  unfold Dfsr.format at hf
  match hm : d.explain .depthMode with
  | .error e =>
    rw [← explain_depthMode, hm] at hf
    cases hf
  | .ok mode =>
    rw [← explain_depthMode, hm] at hf
    unfold explainFormat
    rw [hm]
    simp only
    have e0 : (Except.ok mode : Except CurveError Value).toOption = some mode := rfl
    rw [e0, Option.bind_some] at hf
    match hi : mode.int with
    | none => rw [hi] at hf; cases hf
    | some m =>
      rw [hi] at hf
      simp only at hf
      have hfm : f.mode = m ∧ f.specs = d.specs.map SpecBlock.common := by
        split at hf
        · split at hf
          · cases hf
          · cases hf; exact ⟨rfl, rfl⟩
          · split at hf
            · cases hf
            · split at hf
              · cases hf; exact ⟨rfl, rfl⟩
              · cases hf
        · cases hf; exact ⟨rfl, rfl⟩
      unfold validFormat at hv
      rw [Bool.and_eq_true, hfm.1, hfm.2] at hv
      obtain ⟨hmode, hv⟩ := hv
      have hmode : m = 0 ∨ m = 1 := by simpa using hmode
      have h1 : (!mode.is 0 && !mode.is 1) = false := by
        rcases hmode with h | h
        · rw [(is_of_int hi 0).2 h]; rfl
        · rw [(is_of_int hi 1).2 h]; simp
      rw [h1, if_neg (by simp)]
      match hs : d.specs with
      | [] => rw [hs] at hv; cases hv
      | b :: bs =>
        rw [hs, List.map_cons] at hv
        simp only [List.map_cons]
        simp only at hv
        split at hv
        · cases hv
        rename_i n hn
        simp only [Bool.and_eq_true, decide_eq_true_eq] at hv
        obtain ⟨⟨⟨hv1, hv2⟩, hv3⟩, hv4⟩ := hv
        obtain ⟨r, hr, hc, hr1, hr2⟩ := indexReprc_valid hv1 hv2
        have ht : explainIndexType c d mode b.common = .ok r := by
          unfold explainIndexType
          simp only
          rcases hmode with h | h
          · subst h
            rw [if_pos rfl] at hn
            cases hn
            rw [if_pos ((is_of_int hi 0).2 rfl), ((explainCode_spec _ _).2 r).2 ⟨hr, hr2⟩]
            cases r <;> first | rfl | exact absurd rfl hr1
          · subst h
            have hz : ¬ mode.is 0 = true := fun hz => by simpa using (is_of_int hi 0).1 hz
            rw [if_neg (by decide)] at hn
            rw [if_neg hz]
            rw [if_pos rfl] at hf
            match hd : d.explain .depthReprc with
            | .error e => rw [← explain_depthReprc, hd] at hf; cases hf
            | .ok v =>
              rw [← explain_depthReprc, hd] at hf
              simp only
              have e1 : (Except.ok v : Except CurveError Value).toOption = some v := rfl
              rw [e1] at hf
              by_cases hvn : v = .none
              · subst hvn; cases hf; cases hn
              · have hok : explainReprc v (text "DEPT") = .ok r := by
                  rw [(explainReprc_spec _ _).2]
                  rw [← int_whole]
                  match hvi : v.int with
                  | none =>
                    exfalso
                    cases v <;> simp_all [Value.int]
                  | some z =>
                    have hf' : (if 0 ≤ z ∧ z < 256 then
                        some (⟨1, some z.toNat, d.specs.map SpecBlock.common⟩ : Format) else none) = some f := by
                      rw [← hf]
                      cases v <;> simp_all [Value.int]
                    split at hf'
                    · rename_i hz
                      cases hf'
                      cases hn
                      refine ⟨z.toNat, by omega, ?_, hr, hr2⟩
                      rw [Int.toNat_of_nonneg hz.1]
                    · cases hf'
                rw [hok]
                cases r <;> first | rfl | exact absurd rfl hr1
        rw [ht]
        simp only
        have hx : (if mode.is 0 then explainIndex b.common else .ok ()) = .ok () := by
          split
          · rename_i hz
            have hz := (is_of_int hi 0).1 hz
            subst hz
            exact (explainIndex_valid _).2 (by simpa using hv3)
          · rfl
        rw [hx]
        simp only
        rw [(explainChannels_valid c _).2 hv4]
        exact ⟨_, _, rfl⟩

/-! ### The spacing -/

theorem double_none {v : Value} (h : v.double = none) :
    v = .none ∨ (∃ s, v = .string s) ∨ ∃ s, v = .mask s := by
  cases v <;> simp_all [Value.double]

/-- **C93** (spacing).  What `directional_spacing` says when it raises is true, except when it is a
`TypeError`: then the spacing is not a number.  Whatever is returned has a spacing and a
direction. -/
theorem c93_spacing (c : CurveTexts) (d : Dfsr) :
    (∀ e, explainSpacing c d = .error e → SpacingFault c d e ∨ (e = .type ∧ ∃ v, Has d .spacing v ∧
      ((∃ s, v = .string s) ∨ ∃ s, v = .mask s))) ∧
    ∀ x, explainSpacing c d = .ok x → (∀ e, ¬ SpacingFault c d e) ∧
      ∃ v w, Has d .spacing v ∧ v ≠ .none ∧ Has d .direction w ∧
        ((number w = some 1 ∧ x = v.double.map Flt.neg ∧ x ≠ none) ∨ (number w = some 255 ∧ x = v.double)) := by
  unfold explainSpacing
  match hs : d.explain .spacing with
  | .error e' =>
    refine ⟨fun e h => ?_, by intro x h; cases h⟩
    cases h
    exact .inl (.field .spacing (.inl rfl) _ (((c93_fields d .spacing (by decide)).2 _).1 hs))
  | .ok v =>
    have hv := ((c93_fields d .spacing (by decide)).1 _).1 hs
    by_cases hn : v = .none
    · subst hn
      refine ⟨fun e h => ?_, by intro x h; cases h⟩
      cases h
      exact .inl (.none hv)
    have e1 : ∀ (t : CurveError) (k : Value → Except CurveError (Option Flt)),
        (match (Except.ok v : Except CurveError Value) with
        | .error e => .error e
        | .ok .none => .error t
        | .ok v => k v) = k v := by intro t k; cases v <;> first | rfl | exact absurd rfl hn
    refine (e1 _ fun v => _).symm ▸ ?_
    match hd : d.explain .direction with
    | .error e' =>
      refine ⟨fun e h => ?_, by intro x h; cases h⟩
      cases h
      exact .inl (.field .direction (.inr rfl) _ (((c93_fields d .direction (by decide)).2 _).1 hd))
    | .ok w =>
      have hw := ((c93_fields d .direction (by decide)).1 _).1 hd
      have hno : (number w = some 1 ∨ number w = some 255) → ∀ e, ¬ SpacingFault c d e := by
        rintro h12 e (⟨x, rfl | rfl, _, h⟩ | h | ⟨w', hw', h1, h2⟩)
        · exact fieldFault_not_has hv h
        · exact fieldFault_not_has hw h
        · exact hn (has_unique hv h)
        · cases has_unique hw hw'
          tauto
      simp only
      by_cases h1 : w.is 1 = true
      · rw [if_pos h1]
        rw [is_number, Int.cast_one] at h1
        match hm : v.minus with
        | none =>
          refine ⟨fun e h => ?_, by intro x h; cases h⟩
          cases h
          rcases double_none (by simpa [Value.minus] using hm) with h | h
          · exact absurd h hn
          · exact .inr ⟨rfl, v, hv, h⟩
        | some x =>
          refine ⟨(by intro e h; cases h), ?_⟩
          intro y h
          cases h
          exact ⟨hno (.inl h1), v, w, hv, hn, hw, .inl ⟨h1, hm.symm, by simp⟩⟩
      · rw [if_neg h1]
        rw [is_number, Int.cast_one] at h1
        by_cases h2 : w.is 255 = true
        · rw [if_pos h2]
          have h2 : number w = some 255 := by
            have := (is_number w 255).1 h2
            rw [this]; norm_num
          refine ⟨(by intro e h; cases h), ?_⟩
          intro y h
          cases h
          exact ⟨hno (.inr h2), v, w, hv, hn, hw, .inr ⟨h2, rfl⟩⟩
        · rw [if_neg h2]
          have h2 : number w ≠ some 255 := by
            intro h; exact h2 ((is_number w 255).2 (by rw [h]; norm_num))
          refine ⟨fun e h => ?_, by intro x h; cases h⟩
          cases h
          exact .inl (.direction w hw h1 h2)

/-- The same but for the exception. -/
theorem c93_spacing_plain (c : CurveTexts) (d : Dfsr) :
    (explainSpacing c d).toOption.join = d.directionalSpacing := by
  have h1 := c93_fields_plain d .spacing
  have h2 := c93_fields_plain d .direction
  simp only [Dfsr.get] at h1 h2
  unfold explainSpacing Dfsr.directionalSpacing
  rw [← h1, ← h2]
  match d.explain .spacing with
  | .error e => rfl
  | .ok v =>
    match d.explain .direction with
    | .error e => cases v <;> rfl
    | .ok w =>
      simp only [Except.toOption]
      by_cases hn : v = .none
      · subst hn; rfl
      have e1 : ∀ (t : CurveError) (k : Value → Except CurveError (Option Flt)),
          (match (Except.ok v : Except CurveError Value) with
          | .error e => .error e
          | .ok .none => .error t
          | .ok v => k v) = k v := by intro t k; cases v <;> first | rfl | exact absurd rfl hn
      have e2 : ∀ (k : Value → Option Flt),
          (match some v with
          | none => none
          | some .none => none
          | some v => k v) = k v := by intro k; cases v <;> first | rfl | exact absurd rfl hn
      refine (e1 _ fun v => _).symm ▸ ?_
      refine Eq.trans ?_ (e2 fun v => if w.is 1 then v.minus else if w.is 255 then v.double else none).symm
      by_cases h1 : w.is 1 = true
      · rw [if_pos h1, if_pos h1]
        match v.minus with
        | none => rfl
        | some x => rfl
      · rw [if_neg h1, if_neg h1]
        by_cases h2 : w.is 255 = true
        · rw [if_pos h2, if_pos h2]; rfl
        · rw [if_neg h2, if_neg h2]; rfl

/-! ### The rate -/

theorem mode_value_zero (v : Value) : v.mode = 0 ↔ v.is 0 = true := by
  unfold Value.mode
  split <;> rename_i h <;> simp [h]

theorem beside_iff {d : Dfsr} {mode : Value} (hv : Has d .depthMode mode) (i : ℕ) (s : SpecCommon) :
    Spec.beside ⟨mode.mode, none, d.specs.map SpecBlock.common⟩ i s ↔ ∃ b, Beside d i b ∧ b.common = s := by
  unfold Spec.beside Beside
  simp only [List.getElem?_map, mode_value_zero, mode_zero hv]
  constructor
  · rintro ⟨h, h'⟩
    obtain ⟨b, hb, rfl⟩ := Option.map_eq_some_iff.1 h
    exact ⟨b, ⟨hb, h'⟩, rfl⟩
  · rintro ⟨b, ⟨hb, h'⟩, rfl⟩
    exact ⟨by rw [hb]; rfl, h'⟩

/-- **C93** (rate).  What is said when no rate is chosen is true, and it is said whenever it is. -/
theorem c93_rate (d : Dfsr) (rate : Option ℕ) :
    (∀ e, explainRate d rate = .error e ↔ RateFault d rate e) ∧
    ∀ n, explainRate d rate = .ok n → n = rate.getD 1 := by
  have hmsg : text "Multiple sampling rates in file, " ++ text "please explicitly specify which to read" =
    text "Multiple sampling rates in file, please explicitly specify which to read" := by literals
  unfold explainRate explainUniform
  rw [hmsg]
  by_cases hs : d.specs = []
  · rw [if_pos hs]
    refine ⟨fun e => ⟨(by intro h; cases h), ?_⟩, (by intro n h; cases h; rfl)⟩
    rintro (⟨h, -⟩ | ⟨-, -, -, i, j, a, b, ha, -⟩)
    · exact absurd hs h
    · rw [Beside, hs] at ha
      simp at ha
  rw [if_neg hs]
  match hm : d.explain .depthMode with
  | .error e' =>
    have hf := ((c93_fields d .depthMode (by decide)).2 _).1 hm
    refine ⟨fun e => ⟨?_, ?_⟩, (by intro n h; cases h)⟩
    · intro h; cases h; exact .field hs _ hf
    · intro h
      have he : FieldFault d .depthMode e := by
        rcases h with ⟨-, _, h⟩ | ⟨-, v, hv, -⟩
        · exact h
        · exact absurd hf (fieldFault_not_has hv)
      rw [((c93_fields d .depthMode (by decide)).2 _).2 he] at hm
      cases hm
      rfl
  | .ok mode =>
    have hv := ((c93_fields d .depthMode (by decide)).1 _).1 hm
    have hr := (c52_rate ⟨mode.mode, none, d.specs.map SpecBlock.common⟩).2
    unfold curvesRate at hr
    simp only [beside_iff hv] at hr
    simp only
    have key : (!uniformSampling ⟨mode.mode, none, d.specs.map SpecBlock.common⟩) = true ↔
        ∃ i j a b, Beside d i a ∧ Beside d j b ∧ a.common.samples ≠ b.common.samples := by
      have : (!uniformSampling ⟨mode.mode, none, d.specs.map SpecBlock.common⟩) = true ↔
        (if (!uniformSampling ⟨mode.mode, none, d.specs.map SpecBlock.common⟩ &&
          (none : Option ℕ).isNone) = true then none else some ((none : Option ℕ).getD 1)) = none := by
        cases uniformSampling ⟨mode.mode, none, d.specs.map SpecBlock.common⟩ <;> simp
      rw [this, hr]
      constructor
      · rintro ⟨i, j, _, _, ⟨a, ha, rfl⟩, ⟨b, hb, rfl⟩, h⟩; exact ⟨i, j, a, b, ha, hb, h⟩
      · rintro ⟨i, j, a, b, ha, hb, h⟩; exact ⟨i, j, _, _, ⟨a, ha, rfl⟩, ⟨b, hb, rfl⟩, h⟩
    refine ⟨fun e => ⟨?_, ?_⟩, ?_⟩
    · intro h
      split at h
      · rename_i h1
        rw [Bool.and_eq_true, key] at h1
        cases h
        obtain ⟨⟨i, j, a, b, ha, hb, h⟩, hn⟩ := h1
        exact .rates (by simpa using hn) _ hv i j a b ha hb h
      · cases h
    · rintro (⟨-, _, h⟩ | ⟨rfl, -, -, i, j, a, b, ha, hb, h⟩)
      · exact absurd h (fieldFault_not_has hv)
      · rw [key.2 ⟨i, j, a, b, ha, hb, h⟩]
        rfl
    · intro n h
      split at h
      · cases h
      · cases h; rfl

/-! ### Curves -/

theorem curvesRate_used {d : Dfsr} {mode : Value} (hv : Has d .depthMode mode) (r : Reprc)
    (rate : Option ℕ) (hs : d.specs ≠ []) :
    curvesRate (usedFormat d mode r) rate = (explainRate d rate).toOption := by
  unfold curvesRate explainRate explainUniform
  rw [if_neg hs, ((c93_fields d .depthMode (by decide)).1 mode).2 hv]
  simp only
  have : uniformSampling (usedFormat d mode r) =
    uniformSampling ⟨mode.mode, none, d.specs.map SpecBlock.common⟩ := rfl
  rw [this]
  split <;> rfl

theorem columns_used {c : CurveTexts} {d : Dfsr} {mode : Value} {r : Reprc}
    (h : explainFormat c d = .ok (mode, r)) (n : ℕ) :
    ∃ cols, dfsrColumns (usedFormat d mode r) n = some cols ∧
      Columns c d n (cols.map fun x => c.dec x.1) := by
  refine ⟨_, c51_columns (usedFormat_valid h) n, ?_⟩
  obtain ⟨hv, h01, hne, -⟩ := explainFormat_ok c d mode r h
  match hs : d.specs with
  | [] => exact absurd hs hne
  | b :: bs =>
    refine ⟨b, bs, hs, ?_⟩
    have hsel : ∀ l : List SpecBlock,
        (((l.map SpecBlock.common).filter fun s => Selected n s).map fun s => c.dec s.mnemonic) =
        (l.filter fun b => b.common.samples = n ∧ 0 < b.common.reservedSize).map fun b =>
          c.dec b.common.mnemonic := by
      intro l
      rw [List.filter_map, List.map_map]
      refine congrArg _ (List.filter_congr fun b _ => ?_)
      exact decide_eq_decide.2 And.comm
    unfold columns
    rw [List.map_cons, List.map_map]
    have e : ((fun x : Bytes × ℕ => c.dec x.1) ∘ fun s : SpecCommon => (s.mnemonic, columnBytes s)) =
      fun s => c.dec s.mnemonic := rfl
    rw [e]
    by_cases hz : mode.is 0 = true
    · refine .inl ⟨(mode_zero hv).1 hz, ?_⟩
      have h0 : (usedFormat d mode r).mode = 0 := by rw [usedFormat, Value.mode, if_pos hz]
      have hsp : (usedFormat d mode r).specs = b.common :: bs.map SpecBlock.common := by
        rw [usedFormat, hs, List.map_cons]
      rw [indexLabel, channels, if_pos h0, if_pos h0, hsp, List.tail_cons, hsel]
      rfl
    · have ho : Mode d 1 := by
        rcases h01 with h | h
        · exact absurd ((mode_zero hv).2 h) hz
        · exact h
      refine .inr ⟨ho, ?_⟩
      have h0 : ¬ (usedFormat d mode r).mode = 0 := by rw [usedFormat, Value.mode, if_neg hz]; exact one_ne_zero
      have hsp : (usedFormat d mode r).specs = (b :: bs).map SpecBlock.common := by
        rw [usedFormat, hs]
      rw [indexLabel, channels, if_neg h0, if_neg h0, hsp, hsel, c.ascii]

theorem int_none {v : Value} : v.int = none ↔ whole? v = none := by rw [int_whole]

theorem npNames_none {l : List Text} (h0 : [] ∉ l) : npNames l = none ↔ ¬ l.Nodup := by
  constructor
  · intro h hn
    rw [npNames_of_nodup h0 hn] at h
    cases h
  · exact npNames_of_dup h0

theorem dup_msg : text "duplicated mnemonics in frame '" ++ text "DataFormatSpec()" ++ text "': " =
    text "duplicated mnemonics in frame 'DataFormatSpec()': " := by literals

/-- The outcome of `curves` after the checks. -/
theorem explainCurves_late {c : CurveTexts} {d : Dfsr} {rate : Option ℕ} {strict : Bool} {n : ℕ}
    {mode : Value} {r : Reprc} {x : Option Flt} (hrate : explainRate d rate = .ok n)
    (hf : explainFormat c d = .ok (mode, r))
    (hx : (if mode.is 1 then explainSpacing c d else .ok (some (.num 0))) = .ok x) :
    ∃ labels, Columns c d n labels ∧
      explainCurves c d rate strict =
        ((explainDtype c labels strict).1,
          match (explainDtype c labels strict).2 with
          | .error e => .error e
          | .ok names =>
            match mode.int.bind fun _ => x.bind fun x => curvesConf (usedFormat d mode r) n x with
            | some conf => .ok (conf, names)
            | none => .error .type) := by
  obtain ⟨cols, hc, hl⟩ := columns_used hf n
  refine ⟨_, hl, ?_⟩
  unfold explainCurves
  rw [hrate]
  simp only
  rw [hf]
  simp only
  rw [hx]
  simp only
  show (match dfsrColumns (usedFormat d mode r) n with
    | none => _
    | some cols => _) = _
  rw [hc]
  simp only
  generalize explainDtype c (cols.map fun x => c.dec x.1) strict = p
  match p with
  | (log, .error e) => rfl
  | (log, .ok names) =>
    simp only
    match mode.int, x with
    | none, none => rfl
    | none, some x => rfl
    | some m, none => rfl
    | some m, some x =>
      simp only [Option.bind_some]
      show (match curvesConf (usedFormat d mode r) n x with
        | some conf => _
        | none => _) = _
      cases curvesConf (usedFormat d mode r) n x <;> rfl

theorem explainDtype_spec (c : CurveTexts) (labels : List Text) (strict : Bool) :
    (∀ t ∈ (explainDtype c labels strict).1, npNames labels = none ∧
      t = text "duplicated mnemonics in frame 'DataFormatSpec()': " ++ c.numpy labels) ∧
    (npNames labels = none → (explainDtype c labels strict).1 =
      [text "duplicated mnemonics in frame 'DataFormatSpec()': " ++ c.numpy labels]) ∧
    (∀ e, (explainDtype c labels strict).2 = .error e → e = .numpy ∧ npNames labels = none) ∧
    (explainDtype c labels strict).2.toOption = dtypeNames labels strict := by
  unfold explainDtype dtypeNames
  rw [dup_msg]
  match hn : npNames labels with
  | some names => simp [Except.toOption]
  | none =>
    refine ⟨by simp, by simp, ?_, ?_⟩
    · intro e h
      simp only at h
      split at h
      · cases h; exact ⟨rfl, rfl⟩
      · split at h
        · cases h
        · cases h; exact ⟨rfl, rfl⟩
    · simp only
      cases strict with
      | true => rfl
      | false =>
        simp only [Bool.false_eq_true, if_false]
        cases npNames (uniqueMnemonics labels) <;> rfl

/-- **C93** (curves).  What is said when `curves` refuses a specification is true of it.  A
`TypeError` means that something is not the kind of number that is asked for; and the exception of
NumPy comes with something logged (see `c93_logged`). -/
theorem c93_curves (c : CurveTexts) (d : Dfsr) (rate : Option ℕ) (strict : Bool) (log : List Text)
    (e : CurveError) (h : explainCurves c d rate strict = (log, .error e)) :
    CurveFault c d rate e ∨ (e = .type ∧ KindFault d rate) ∨ (e = .numpy ∧ log ≠ []) := by
  match hrate : explainRate d rate with
  | .error e' =>
    unfold explainCurves at h
    rw [hrate] at h
    cases h
    exact .inl (.rate _ (((c93_rate d rate).1 _).1 hrate))
  | .ok n =>
    match hf : explainFormat c d with
    | .error e' =>
      unfold explainCurves at h
      rw [hrate] at h
      simp only at h
      rw [hf] at h
      cases h
      rcases explainFormat_error c d rate _ hf with h | h
      · exact .inl h
      · exact .inr (.inl h)
    | .ok (mode, r) =>
      obtain ⟨hv, h01, hne, -⟩ := explainFormat_ok c d mode r hf
      match hx : (if mode.is 1 then explainSpacing c d else .ok (some (.num 0))) with
      | .error e' =>
        unfold explainCurves at h
        rw [hrate] at h
        simp only at h
        rw [hf] at h
        simp only at h
        rw [hx] at h
        cases h
        split at hx
        · rename_i hm
          have hm := (mode_one hv).1 hm
          rcases (c93_spacing c d).1 _ hx with h | ⟨rfl, v, hv, h⟩
          · exact .inl (.spacing hm _ h)
          · exact .inr (.inl ⟨rfl, .spacing hm v hv (.inr h)⟩)
        · cases hx
      | .ok x =>
        obtain ⟨labels, -, he⟩ := explainCurves_late (strict := strict) hrate hf hx
        rw [he] at h
        obtain ⟨h1, h2, h3, -⟩ := explainDtype_spec c labels strict
        match hd : (explainDtype c labels strict).2 with
        | .error e' =>
          rw [hd] at h
          cases h
          obtain ⟨rfl, hn⟩ := h3 _ hd
          exact .inr (.inr ⟨rfl, by rw [h2 hn]; simp⟩)
        | .ok names =>
          rw [hd] at h
          simp only at h
          match hc : (mode.int.bind fun _ => x.bind fun x => curvesConf (usedFormat d mode r) n x) with
          | some conf => rw [hc] at h; cases h
          | none =>
            rw [hc] at h
            cases h
            refine .inr (.inl ⟨rfl, ?_⟩)
            match hi : mode.int with
            | none => exact .mode mode hv (int_none.1 hi)
            | some m =>
              rw [hi, Option.bind_some] at hc
              match x with
              | none =>
                split at hx
                · rename_i hm
                  have hm := (mode_one hv).1 hm
                  obtain ⟨-, v, w, hs, hn, hw, ⟨-, -, h⟩ | ⟨-, h⟩⟩ := (c93_spacing c d).2 _ hx
                  · exact absurd rfl h
                  · exact .spacing hm v hs (double_none h.symm)
                · cases hx
              | some x =>
                rw [Option.bind_some] at hc
                have hn : 256 ≤ n := by
                  by_contra hlt
                  obtain ⟨conf, hconf⟩ := c51_accepted (usedFormat_valid hf) n (by omega) x
                  rw [hconf] at hc
                  cases hc
                have hr := (c93_rate d rate).2 _ hrate
                match rate with
                | none => rw [Option.getD_none] at hr; omega
                | some k => rw [Option.getD_some] at hr; exact .rate k rfl (by omega)

/-- **C93** (refused).  What has something wrong is refused. -/
theorem c93_refused (c : CurveTexts) (d : Dfsr) (rate : Option ℕ) (strict : Bool)
    (h : (∃ e, CurveFault c d rate e) ∨ KindFault d rate) :
    ∃ log e, explainCurves c d rate strict = (log, .error e) := by
  by_contra hn
  have hok : ∃ log a, explainCurves c d rate strict = (log, .ok a) := by
    match hx : explainCurves c d rate strict with
    | (log, .ok a) => exact ⟨log, a, rfl⟩
    | (log, .error e) => exact absurd ⟨log, e, hx⟩ hn
  obtain ⟨log, a, hok⟩ := hok
  match hrate : explainRate d rate with
  | .error e' => unfold explainCurves at hok; rw [hrate] at hok; cases hok
  | .ok n =>
    match hf : explainFormat c d with
    | .error e' =>
      unfold explainCurves at hok; rw [hrate] at hok; simp only at hok; rw [hf] at hok; cases hok
    | .ok (mode, r) =>
      obtain ⟨hv, h01, hne, hr1, hr2, h0, h1, hch⟩ := explainFormat_ok c d mode r hf
      have h10 : ¬ (Mode d 0 ∧ Mode d 1) := by
        rintro ⟨⟨v, hv, h⟩, ⟨w, hw, h'⟩⟩
        cases has_unique hv hw
        rw [h] at h'
        norm_num at h'
      match hx : (if mode.is 1 then explainSpacing c d else .ok (some (.num 0))) with
      | .error e' =>
        unfold explainCurves at hok
        rw [hrate] at hok
        simp only at hok
        rw [hf] at hok
        simp only at hok
        rw [hx] at hok
        cases hok
      | .ok x =>
        obtain ⟨labels, -, he⟩ := explainCurves_late (strict := strict) hrate hf hx
        rw [he] at hok
        have hsp : Mode d 1 → explainSpacing c d = .ok x := by
          intro hm
          rw [if_pos ((mode_one hv).2 hm)] at hx
          exact hx
        match hc : (mode.int.bind fun _ => x.bind fun x => curvesConf (usedFormat d mode r) n x) with
        | none =>
          rw [hc] at hok
          revert hok
          cases (explainDtype c labels strict).2 <;> simp
        | some conf =>
          match hi : mode.int with
          | none => rw [hi] at hc; cases hc
          | some m =>
            rw [hi, Option.bind_some] at hc
            match x, hx, hsp, hc with
            | none, _, _, hc => cases hc
            | some x, hx, hsp, hc =>
              rw [Option.bind_some] at hc
              rcases h with ⟨e, h⟩ | h
              · cases h with
                | rate e h => rw [((c93_rate d rate).1 _).2 h] at hrate; cases hrate
                | field e h => exact fieldFault_not_has hv h
                | mode v hv' h0 h1 =>
                  cases has_unique hv hv'
                  rcases h01 with ⟨w, hw, h⟩ | ⟨w, hw, h⟩ <;> cases has_unique hv hw
                  · exact h0 h
                  · exact h1 h
                | empty h => exact hne h
                | channel b hb e h =>
                  exact explainChannels_ok c _ hch _ (List.mem_map.2 ⟨b, hb, rfl⟩) e h
                | index hm b hb e h =>
                  obtain ⟨b', hb', hr, hi⟩ := h0 hm
                  rw [hb] at hb'
                  cases hb'
                  exact explainIndex_ok hr hr1 hi e h
                | depth hm e h =>
                  obtain ⟨v, k, hd, hk, hw, hr⟩ := h1 hm
                  rcases h with ⟨_, h⟩ | h | ⟨v', k', hd', hw', hk', _, h⟩ | ⟨v', hd', hw'⟩
                  · exact fieldFault_not_has hd h
                  · cases has_unique hd h; cases hw
                  · cases has_unique hd hd'
                    rw [hw] at hw'
                    cases hw'
                    rw [← (explainCode_spec _ _).1, ((explainCode_spec _ _).2 r).2 ⟨hr, hr2⟩] at h
                    cases h
                  · cases has_unique hd hd'
                    rw [hw] at hw'
                    have : k = 65 := by have := Option.some.inj hw'; omega
                    subst this
                    exact hr1 (Option.some.inj hr).symm
                | spacing hm e h => exact ((c93_spacing c d).2 _ (hsp hm)).1 e h
              · cases h with
                | mode v hv' h =>
                  cases has_unique hv hv'
                  rw [int_none.2 h] at hi
                  cases hi
                | reprc hm v hv' h =>
                  obtain ⟨v', k, hd, hk, hw, hr⟩ := h1 hm
                  cases has_unique hd hv'
                  exact h k hk hw
                | spacing hm v hv' h =>
                  obtain ⟨-, v', w, hs, hn', hw, h'⟩ := (c93_spacing c d).2 _ (hsp hm)
                  cases has_unique hs hv'
                  rcases h with rfl | ⟨s, rfl⟩ | ⟨s, rfl⟩
                  · exact hn' rfl
                  · rcases h' with ⟨-, h', -⟩ | ⟨-, h'⟩ <;> cases h'
                  · rcases h' with ⟨-, h', -⟩ | ⟨-, h'⟩ <;> cases h'
                | rate k h hk =>
                  have hr := (c93_rate d rate).2 _ hrate
                  subst h
                  rw [Option.getD_some] at hr
                  subst hr
                  unfold curvesConf at hc
                  split at hc
                  · cases hc
                  · split at hc
                    · rw [if_neg (by omega)] at hc; cases hc
                    · cases hc

theorem columns_unique {c : CurveTexts} {d : Dfsr} {n : ℕ} {l l' : List Text} (h : Columns c d n l)
    (h' : Columns c d n l') : l = l' := by
  have h10 : ¬ (Mode d 0 ∧ Mode d 1) := by
    rintro ⟨⟨v, hv, h⟩, ⟨w, hw, h'⟩⟩
    cases has_unique hv hw
    rw [h] at h'
    norm_num at h'
  obtain ⟨b, bs, hs, h⟩ := h
  obtain ⟨b', bs', hs', h'⟩ := h'
  rw [hs] at hs'
  cases hs'
  rcases h with ⟨h1, h⟩ | ⟨h1, h⟩ <;> rcases h' with ⟨h2, h'⟩ | ⟨h2, h'⟩
  · rw [h, h']
  · exact absurd ⟨h1, h2⟩ h10
  · exact absurd ⟨h2, h1⟩ h10
  · rw [h, h']

/-- **C93** (log, for labels that are not empty).  What `curves` logs is that mnemonics of the columns
are duplicated, with what NumPy says of them, and they are. -/
theorem c93_logged_partial (c : CurveTexts) (d : Dfsr) (rate : Option ℕ) (strict : Bool) (t : Text)
    (h : t ∈ (explainCurves c d rate strict).1) :
    ∃ labels, Columns c d (rate.getD 1) labels ∧
      t = text "duplicated mnemonics in frame 'DataFormatSpec()': " ++ c.numpy labels ∧
      ([] ∉ labels → ¬ labels.Nodup) := by
  match hrate : explainRate d rate with
  | .error e' => unfold explainCurves at h; rw [hrate] at h; cases h
  | .ok n =>
    match hf : explainFormat c d with
    | .error e' => unfold explainCurves at h; rw [hrate] at h; simp only at h; rw [hf] at h; cases h
    | .ok (mode, r) =>
      match hx : (if mode.is 1 then explainSpacing c d else .ok (some (.num 0))) with
      | .error e' =>
        unfold explainCurves at h
        rw [hrate] at h
        simp only at h
        rw [hf] at h
        simp only at h
        rw [hx] at h
        cases h
      | .ok x =>
        obtain ⟨labels, hl, he⟩ := explainCurves_late (strict := strict) hrate hf hx
        rw [he] at h
        obtain ⟨hn, rfl⟩ := (explainDtype_spec c labels strict).1 t h
        refine ⟨labels, ?_, rfl, fun h0 => (npNames_none h0).1 hn⟩
        rw [← (c93_rate d rate).2 _ hrate]
        exact hl

/-- **C93** (duplicates, for labels that are not empty).  With nothing else wrong: something is logged
exactly if mnemonics are duplicated, and then a strict reading is refused. -/
theorem c93_duplicates_partial (c : CurveTexts) (d : Dfsr) (rate : Option ℕ) (strict : Bool)
    (h1 : ∀ e, ¬ CurveFault c d rate e) (h2 : ¬ KindFault d rate) (labels : List Text)
    (hl : Columns c d (rate.getD 1) labels) (h0 : [] ∉ labels) :
    (explainCurves c d rate strict).1 = (if labels.Nodup then []
      else [text "duplicated mnemonics in frame 'DataFormatSpec()': " ++ c.numpy labels]) ∧
    (strict = true → ((∃ a, (explainCurves c d rate strict).2 = .ok a) ↔ labels.Nodup)) := by
  match hrate : explainRate d rate with
  | .error e' => exact absurd (.rate _ (((c93_rate d rate).1 _).1 hrate)) (h1 e')
  | .ok n =>
    match hf : explainFormat c d with
    | .error e' =>
      rcases explainFormat_error c d rate _ hf with h | ⟨-, h⟩
      · exact absurd h (h1 e')
      · exact absurd h h2
    | .ok (mode, r) =>
      obtain ⟨hv, -⟩ := explainFormat_ok c d mode r hf
      match hx : (if mode.is 1 then explainSpacing c d else .ok (some (.num 0))) with
      | .error e' =>
        split at hx
        · rename_i hm
          have hm := (mode_one hv).1 hm
          rcases (c93_spacing c d).1 _ hx with h | ⟨-, v, hv, h⟩
          · exact absurd (.spacing hm _ h) (h1 e')
          · exact absurd (.spacing hm v hv (.inr h)) h2
        · cases hx
      | .ok x =>
        obtain ⟨labels', hl', he⟩ := explainCurves_late (strict := strict) hrate hf hx
        rw [(c93_rate d rate).2 _ hrate] at hl'
        cases columns_unique hl hl'
        obtain ⟨-, h4, h5, h6⟩ := explainDtype_spec c labels strict
        by_cases hn : labels.Nodup
        · have hnp := npNames_of_nodup h0 hn
          have hd : explainDtype c labels strict = ([], .ok labels) := by
            unfold explainDtype; rw [hnp]
          rw [if_pos hn]
          refine ⟨by rw [he, hd], fun _ => ⟨fun _ => hn, fun _ => ?_⟩⟩
          match hx : explainCurves c d rate strict with
          | (log, .ok a) => exact ⟨a, rfl⟩
          | (log, .error e) =>
            exfalso
            rcases c93_curves c d rate strict log e hx with h | ⟨-, h⟩ | ⟨h, h'⟩
            · exact h1 e h
            · exact h2 h
            · rw [he, hd] at hx
              exact h' (congrArg Prod.fst hx).symm
        · have hnp := npNames_of_dup h0 hn
          rw [if_neg hn]
          refine ⟨by rw [he]; exact h4 hnp, fun hs => ⟨?_, fun h => absurd h hn⟩⟩
          rintro ⟨a, ha⟩
          subst hs
          have hd : (explainDtype c labels true).2 = .error .numpy := by
            unfold explainDtype; rw [hnp]; rfl
          rw [he, hd] at ha
          cases ha

/-- **C93**: but for the texts, `explainCurves` is the model of C61. -/
theorem c93_plain (c : CurveTexts) (d : Dfsr) (rate : Option ℕ) (strict : Bool) :
    (explainCurves c d rate strict).2.toOption = d.config c.dec rate strict := by
  match hf : explainFormat c d with
  | .error e =>
    have hl : (explainCurves c d rate strict).2.toOption = none := by
      unfold explainCurves
      match explainRate d rate with
      | .error e' => rfl
      | .ok n => simp only; rw [hf]; rfl
    rw [hl]
    unfold Dfsr.config
    match hd : d.format with
    | none => rfl
    | some f =>
      have hv : validFormat f = false := by
        rw [← Bool.not_eq_true]
        intro hv
        obtain ⟨mode, r, h⟩ := explainFormat_valid c hd hv
        rw [hf] at h
        cases h
      have hn : curvesNames c.dec f rate strict = none := by
        unfold curvesNames
        rw [hv]
        cases curvesRate f rate <;> rfl
      simp only
      rw [hn]
      cases curvesRate f rate <;> rfl
  | .ok (mode, r) =>
    obtain ⟨hv, h01, hne, -⟩ := explainFormat_ok c d mode r hf
    have hfu := format_used hf
    have hvf := usedFormat_valid hf
    match hrate : explainRate d rate with
    | .error e =>
      have hl : (explainCurves c d rate strict).2.toOption = none := by
        unfold explainCurves; rw [hrate]; rfl
      rw [hl]
      unfold Dfsr.config
      rw [hfu]
      match mode.int with
      | none => rfl
      | some m =>
        simp only [Option.map_some]
        rw [curvesRate_used hv r rate hne, hrate]
        rfl
    | .ok n =>
      have hcr : curvesRate (usedFormat d mode r) rate = some n := by
        rw [curvesRate_used hv r rate hne, hrate]; rfl
      have hm1 : (usedFormat d mode r).mode = 1 ↔ mode.is 1 = true := by
        rw [usedFormat, Value.mode]
        simp only
        split
        · rename_i hz
          simp [is_zero_one hz]
        · rename_i hz
          simp only [true_iff]
          rcases h01 with h | h
          · exact absurd ((mode_zero hv).2 h) hz
          · exact (mode_one hv).2 h
      have hsp : (if (usedFormat d mode r).mode = 1 then d.directionalSpacing else some (.num 0)) =
          (if mode.is 1 then explainSpacing c d else .ok (some (.num 0))).toOption.join := by
        by_cases hm : mode.is 1 = true
        · rw [if_pos hm, if_pos (hm1.2 hm), c93_spacing_plain]
        · rw [if_neg hm, if_neg (fun h => hm (hm1.1 h))]; rfl
      match hx : (if mode.is 1 then explainSpacing c d else .ok (some (.num 0))) with
      | .error e =>
        have hl : (explainCurves c d rate strict).2.toOption = none := by
          unfold explainCurves; rw [hrate]; simp only; rw [hf]; simp only; rw [hx]; rfl
        rw [hl]
        unfold Dfsr.config
        rw [hfu]
        match mode.int with
        | none => rfl
        | some m =>
          simp only [Option.map_some]
          rw [hsp, hx]
          cases curvesRate (usedFormat d mode r) rate <;>
            cases curvesNames c.dec (usedFormat d mode r) rate strict <;> rfl
      | .ok x =>
        obtain ⟨cols, hc, hl⟩ := columns_used hf n
        obtain ⟨labels', hl', he⟩ := explainCurves_late (strict := strict) hrate hf hx
        cases columns_unique hl hl'
        have hnames : curvesNames c.dec (usedFormat d mode r) rate strict =
            (explainDtype c (cols.map fun x => c.dec x.1) strict).2.toOption := by
          rw [(explainDtype_spec _ _ _).2.2.2]
          unfold curvesNames
          rw [hcr]
          simp only
          rw [hvf, hc]
          rfl
        rw [he]
        unfold Dfsr.config
        rw [hfu]
        simp only
        match hi : mode.int with
        | none =>
          simp only [Option.map_none, Option.bind_none]
          cases (explainDtype c (cols.map fun x => c.dec x.1) strict).2 <;> rfl
        | some m =>
          simp only [Option.map_some, Option.bind_some]
          rw [hsp, hx, hcr, hnames]
          cases (explainDtype c (cols.map fun x => c.dec x.1) strict).2 with
          | error e => cases x <;> rfl
          | ok names =>
            cases x with
            | none => rfl
            | some x =>
              simp only [Option.bind_some]
              show _ = (curvesConf (usedFormat d mode r) n x).map fun c => (c, names)
              cases curvesConf (usedFormat d mode r) n x <;> rfl

/-! ### Metadata -/

theorem metadata_msg : text "duplicated mnemonics in '" ++ text "DataFormatSpec()" ++ text "'" =
    text "duplicated mnemonics in 'DataFormatSpec()'" := by literals

theorem metadataNames_model {c : CurveTexts} {d : Dfsr} {mode : Value} (hv : Has d .depthMode mode)
    (hs : d.specs ≠ []) (n : ℕ) :
    MetadataNames c d n ((metadataMnemonics c mode (d.specs.map SpecBlock.common) n).filterMap id) := by
  match hs' : d.specs with
  | [] => exact absurd hs' hs
  | b :: bs =>
    refine ⟨b, bs, hs', ?_⟩
    unfold metadataMnemonics
    simp only
    rw [metadataChannels_eq]
    have hsel : ∀ l : List SpecBlock,
        (((l.map SpecBlock.common).filter fun s => s.samples = n).map fun s => some (c.dec s.mnemonic)).filterMap id =
        (l.filter fun b => b.common.samples = n).map fun b => c.dec b.common.mnemonic := by
      intro l
      rw [List.filterMap_map, List.filter_map, List.filterMap_map]
      exact congrFun List.filterMap_eq_map _
    by_cases hz : mode.is 0 = true
    · refine .inl ⟨(mode_zero hv).1 hz, ?_⟩
      rw [if_pos hz, channels, if_pos ((mode_value_zero mode).2 hz)]
      simp only [List.map_cons, List.head?_cons, Option.map_some, List.tail_cons]
      rw [List.filterMap_cons_some (by rfl), hsel]
    · have h0 : ¬ mode.mode = 0 := fun h => hz ((mode_value_zero mode).1 h)
      have hz' : ¬ Mode d 0 := fun h => hz ((mode_zero hv).2 h)
      rw [if_neg hz, channels, if_neg h0]
      by_cases ho : mode.is 1 = true
      · refine .inr (.inl ⟨(mode_one hv).1 ho, ?_⟩)
        rw [if_pos ho, List.filterMap_cons_some (by rfl)]
        simp only
        rw [hsel]
      · refine .inr (.inr ⟨hz', fun h => ho ((mode_one hv).2 h), ?_⟩)
        rw [if_neg ho, List.filterMap_cons_none (by rfl)]
        simp only
        rw [hsel]

/-- **C93** (metadata).  What `curves_metadata` says when it raises is true: about the rate, or that
mnemonics are duplicated.  Without anything to say about the rate, a strict call is refused exactly
if a mnemonic occurs twice, and others never. -/
theorem c93_metadata (c : CurveTexts) (d : Dfsr) (rate : Option ℕ) (strict : Bool) (hs : d.specs ≠ []) :
    (∀ e, explainMetadata c d rate strict = .error e → RateFault d rate e ∨
      (strict = true ∧ e = .value (text "duplicated mnemonics in 'DataFormatSpec()'") ∧
        ∃ labels, MetadataNames c d (rate.getD 1) labels ∧ ¬ labels.Nodup)) ∧
    (explainMetadata c d rate strict = .ok () → (∀ e, ¬ RateFault d rate e) ∧
      ∃ labels, MetadataNames c d (rate.getD 1) labels ∧ (strict = true → labels.Nodup)) := by
  unfold explainMetadata
  rw [if_neg hs, metadata_msg]
  match hrate : explainRate d rate with
  | .error e' =>
    refine ⟨fun e h => ?_, (by intro h; cases h)⟩
    cases h
    exact .inl (((c93_rate d rate).1 _).1 hrate)
  | .ok n =>
    have hno : ∀ e, ¬ RateFault d rate e := by
      intro e h
      rw [((c93_rate d rate).1 _).2 h] at hrate
      cases hrate
    have hn := (c93_rate d rate).2 _ hrate
    simp only
    match hm : d.explain .depthMode with
    | .error e' =>
      exact absurd (.field hs _ (((c93_fields d .depthMode (by decide)).2 _).1 hm)) (hno e')
    | .ok mode =>
      have hv := ((c93_fields d .depthMode (by decide)).1 _).1 hm
      have hnames := metadataNames_model (c := c) hv hs n
      simp only
      rw [← hn]
      generalize (metadataMnemonics c mode (d.specs.map SpecBlock.common) n).filterMap id = l at hnames
      by_cases hd : (strict && decide (uniqueMnemonics l ≠ l)) = true
      · rw [if_pos hd]
        refine ⟨fun e h => ?_, (by intro h; cases h)⟩
        cases h
        rw [Bool.and_eq_true, decide_eq_true_eq] at hd
        exact .inr ⟨hd.1, rfl, l, hnames, fun h => hd.2 ((c53_strict l).2 h)⟩
      · rw [if_neg hd]
        refine ⟨(by intro e h; cases h), fun _ => ⟨hno, l, hnames, fun h => ?_⟩⟩
        rw [Bool.and_eq_true, decide_eq_true_eq] at hd
        by_contra hnd
        exact hd ⟨h, fun he => hnd ((c53_strict l).1 he)⟩

/-- The same but for the exception: the model of C53, when the mode is 0 or 1. -/
theorem c93_metadata_plain (c : CurveTexts) (d : Dfsr) (rate : Option ℕ) (strict : Bool) {mode : Value}
    (hv : Has d .depthMode mode) (h01 : Mode d 0 ∨ Mode d 1) :
    explainMetadata c d rate strict = .ok () ↔
      curvesMetadata c.dec ⟨mode.mode, none, d.specs.map SpecBlock.common⟩ rate strict ≠ none := by
  unfold explainMetadata curvesMetadata
  by_cases hs : d.specs = []
  · rw [if_pos hs]
    simp [hs]
  have hs' : ¬ d.specs.map SpecBlock.common = [] := by simpa using hs
  rw [if_neg hs]
  simp only
  rw [if_neg hs']
  have hr : curvesRate ⟨mode.mode, none, d.specs.map SpecBlock.common⟩ rate = (explainRate d rate).toOption := by
    unfold curvesRate explainRate explainUniform
    rw [if_neg hs, ((c93_fields d .depthMode (by decide)).1 mode).2 hv]
    simp only
    split <;> rfl
  rw [hr]
  match explainRate d rate with
  | .error e => simp [Except.toOption]
  | .ok n =>
    simp only [Except.toOption]
    rw [((c93_fields d .depthMode (by decide)).1 mode).2 hv]
    simp only
    have hl : (metadataMnemonics c mode (d.specs.map SpecBlock.common) n).filterMap id =
        c.dec (indexMnem ⟨mode.mode, none, d.specs.map SpecBlock.common⟩) ::
          (metadataChannels ⟨mode.mode, none, d.specs.map SpecBlock.common⟩ n).map fun s => c.dec s.mnemonic := by
      unfold metadataMnemonics indexMnem
      simp only
      have hsel : ∀ l : List SpecCommon,
          (l.map fun s => some (c.dec s.mnemonic)).filterMap id = l.map fun s => c.dec s.mnemonic := by
        intro l
        rw [List.filterMap_map]
        exact congrFun List.filterMap_eq_map _
      by_cases hz : mode.is 0 = true
      · rw [if_pos hz, if_pos ((mode_value_zero mode).2 hz)]
        match hsp : d.specs with
        | [] => exact absurd hsp hs
        | b :: bs =>
          rw [List.map_cons, List.head?_cons, Option.map_some, List.filterMap_cons_some (by rfl), hsel]
          rfl
      · have ho : mode.is 1 = true := by
          rcases h01 with h | h
          · exact absurd ((mode_zero hv).2 h) hz
          · exact (mode_one hv).2 h
        rw [if_neg hz, if_pos ho, if_neg (fun h => hz ((mode_value_zero mode).1 h)),
          List.filterMap_cons_some (by rfl), hsel, c.ascii]
    rw [hl]
    split
    · simp
    · simp

/-! ### Cases and defects -/

/-- Mnemonics in ASCII up to a NUL; texts of numbers do not matter. -/
def exTexts : CurveTexts := ⟨cstr, by decide +kernel, fun _ => [], fun _ => [], fun _ => []⟩

/-- A specification block with what matters. -/
def exBlock (mnemonic : Bytes) (size : Int) (samples reprc : Nat) : SpecBlock :=
  .sub0 (exChan mnemonic size samples reprc) 0 0 0 0 0

/-- Cases: two modes, no channels, two rates, an index that is a text, mode 1 without the type of
the index, without a spacing, with a direction that is none, and a specification that is read. -/
example :
    (explainCurves exTexts ⟨[⟨13, 1, 66, .byte 0⟩, ⟨13, 1, 66, .byte 0⟩], []⟩ none true).2 =
      .error (.value (text "Multiple Entry Blocks of type lis_ebtype.depth_rec_mode")) ∧
    (explainCurves exTexts ⟨[], []⟩ none true).2 =
      .error (.value (text "DataFormatSpec() has no channels")) ∧
    (explainCurves exTexts ⟨[], [exBlock (latin "DEPT") 4 1 73, exBlock (latin "A") 4 1 73,
        exBlock (latin "B") 8 2 73]⟩ none true).2 = .error (.runtime
          (text "Multiple sampling rates in file, please explicitly specify which to read")) ∧
    (explainCurves exTexts ⟨[], [exBlock (latin "DEPT") 4 1 65]⟩ none true).2 =
      .error (.value (text "Invalid type for index (string)")) ∧
    (explainCurves exTexts ⟨[⟨13, 1, 66, .byte 1⟩], [exBlock (latin "A") 4 1 73]⟩ none true).2 =
      .error (.value (text "Invalid representation code (None) in curve DEPT")) ∧
    (explainCurves exTexts ⟨[⟨13, 1, 66, .byte 1⟩, ⟨15, 1, 66, .byte 73⟩],
        [exBlock (latin "A") 4 1 73]⟩ none true).2 = .error (.value (text "No spacing recorded")) ∧
    (explainCurves exTexts ⟨[⟨13, 1, 66, .byte 1⟩, ⟨15, 1, 66, .byte 73⟩, ⟨8, 1, 66, .byte 5⟩,
        ⟨4, 1, 66, .byte 2⟩], [exBlock (latin "A") 4 1 73]⟩ none true).2 =
      .error (.value (text "Invalid direction (UP/DOWN flag). was: ")) ∧
    ((explainCurves exTexts ⟨[⟨13, 1, 66, .byte 1⟩, ⟨15, 1, 66, .byte 73⟩, ⟨8, 1, 66, .byte 5⟩],
        [exBlock (latin "A") 4 1 73]⟩ none true).2.toOption.map fun x => x.2) =
      some [text "DEPT", text "A"] := by
  refine ⟨?_, ?_, ?_, ?_, ?_, ?_, ?_, ?_⟩ <;> decide +kernel

/-- **C93 fails** for the log: it says that mnemonics are duplicated when NumPy names a column
without a mnemonic as another is called.  They are not, and reading is refused even if it is not
strict. -/
theorem c93_logged_defect :
    let d : Dfsr := ⟨[], [exBlock (latin "DEPT") 4 1 73, exBlock [0, 0, 0, 0] 1 1 66,
      exBlock [0x66, 0x31, 0, 0] 1 1 66]⟩
    Columns exTexts d 1 [text "DEPT", [], text "f1"] ∧ [text "DEPT", [], text "f1"].Nodup ∧
    (∀ strict, explainCurves exTexts d none strict =
      ([text "duplicated mnemonics in frame 'DataFormatSpec()': "], .error .numpy)) ∧
    explainMetadata exTexts d none true = .ok () := by
  refine ⟨⟨_, _, rfl, .inl ⟨⟨.i32 0, .inr ⟨rfl, rfl⟩, by decide +kernel⟩, by decide +kernel⟩⟩,
    by decide +kernel, by decide +kernel, by decide +kernel⟩

/-- **C93 fails** for an index of three bytes of a type that takes two: it does not have several
entries in a sample, but is said to. -/
theorem c93_entries_defect :
    let s := exChan (latin "DEPT") 3 1 79
    explainFormat exTexts ⟨[], [exBlock (latin "DEPT") 3 1 79]⟩ =
      .error (.value (text "Index channel cannot have multiple entries per sample")) ∧
    width s.reprc = some 2 ∧ ¬ ∃ k : ℤ, 2 ≤ k ∧ s.reservedSize = k * (s.samples * 2) := by
  refine ⟨by decide +kernel, by decide +kernel, ?_⟩
  rintro ⟨k, hk, h⟩
  have : (3 : ℤ) = k * 2 := by simpa [exChan] using h
  omega

/-- **C93 fails** for channels that are not read: a mask is not supported "as a curve type" although
the channel is suppressed, and nothing else is wrong. -/
theorem c93_suppressed_defect :
    let d (reprc : ℕ) : Dfsr := ⟨[], [exBlock (latin "DEPT") 4 1 73, exBlock (latin "A") 4 1 73,
      exBlock (latin "B") (-4) 1 reprc]⟩
    (explainCurves exTexts (d 77) none true).2 =
      .error (.notImplemented (text "lis::mask is not supported as a curve type")) ∧
    ((explainCurves exTexts (d 73) none true).2.toOption.map fun x => x.2) =
      some [text "DEPT", text "A"] ∧
    ((explainCurves exTexts (d 66) none true).2.toOption.map fun x => x.1) =
      ((explainCurves exTexts (d 73) none true).2.toOption.map fun x => x.1) := by
  decide +kernel

/-- **C93 fails** for `spec_block_type`: the exception is about another type of entry block, and
several of its own go unnoticed (see `c61_block_type_defect`). -/
theorem c93_block_type_defect :
    let e (type : ℕ) : Entry := ⟨type, 1, 66, .byte 0⟩
    Dfsr.explain ⟨[e 1, e 1], []⟩ .blockType =
      .error (.value (text "Multiple Entry Blocks of type lis_ebtype.data_rec_type")) ∧
    entryValues ⟨[e 1, e 1], []⟩ .blockType = [] ∧
    Dfsr.explain ⟨[e 2, e 2], []⟩ .blockType = .ok (.i32 0) := by
  decide +kernel

end Dlisio.Lis
