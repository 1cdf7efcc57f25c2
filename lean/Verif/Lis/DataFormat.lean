import Verif.Lis.Labels
import Verif.Lis.ProtocolProps
/-
C61: what `DataFormatSpec` (python/dlisio/lis/dataformatspec.py) tells of a data format
specification, and how `curves` (python/dlisio/lis/curves.py) uses it.

Values are as in the C++ code; to Python the integers are `int`, the floats are `float`,
texts are `str` (see C56) and masks are `bytes`.
-/
namespace Dlisio.Lis

open _root_.Dlisio.Lis.Spec

/-! ### Model -/

/-- `find_entry`, dataformatspec.py:323-333: `none` when it raises, `some none` for `None`. -/
def findEntry (d : Dfsr) (type : Nat) : Option (Option Entry) :=
  match d.entries.filter fun x => x.type = type with
  | [] => some none
  | [e] => some (some e)
  | _ => none

/-- `entry_value`, dataformatspec.py:319-321: `none` when it raises. -/
def entryValue (d : Dfsr) (type : Nat) (default : Value) : Option Value :=
  match findEntry d type with
  | none => none
  | some none => some default
  | some (some e) => some e.value

/-- The text `'.1IN'`. -/
def tenthInch : Value := .string [0x2E, 0x31, 0x49, 0x4E]

/-- `absent_value`, dataformatspec.py:120-128. -/
def Dfsr.absentValue (d : Dfsr) : Option Value := entryValue d 12 (.f32 (.num (-999.25)))

/-- `depth_mode`, dataformatspec.py:130-139. -/
def Dfsr.depthMode (d : Dfsr) : Option Value := entryValue d 13 (.i32 0)

/-- `depth_reprc`, dataformatspec.py:141-149. -/
def Dfsr.depthReprc (d : Dfsr) : Option Value := entryValue d 15 .none

/-- `depth_units`, dataformatspec.py:151-163. -/
def Dfsr.depthUnits (d : Dfsr) : Option Value := entryValue d 14 tenthInch

/-- `direction`, dataformatspec.py:165-174. -/
def Dfsr.direction (d : Dfsr) : Option Value := entryValue d 4 (.i32 1)

/-- `frame_size`, dataformatspec.py:176-190. -/
def Dfsr.frameSize (d : Dfsr) : Option Value := entryValue d 3 .none

/-- `max_frames`, dataformatspec.py:192-202. -/
def Dfsr.maxFrames (d : Dfsr) : Option Value := entryValue d 11 .none

/-- `optical_log_depth_units`, dataformatspec.py:204-213. -/
def Dfsr.opticalLogDepthUnits (d : Dfsr) : Option Value := entryValue d 5 (.i32 1)

/-- `record_type`, dataformatspec.py:215-229. -/
def Dfsr.recordType (d : Dfsr) : Option Value := entryValue d 1 (.i32 0)

/-- `reference_point`, dataformatspec.py:231-250. -/
def Dfsr.referencePoint (d : Dfsr) : Option Value := entryValue d 6 .none

/-- `reference_point_units`, dataformatspec.py:252-260. -/
def Dfsr.referencePointUnits (d : Dfsr) : Option Value := entryValue d 7 tenthInch

/-- `spacing`, dataformatspec.py:262-269. -/
def Dfsr.spacing (d : Dfsr) : Option Value := entryValue d 8 .none

/-- `spacing_units`, dataformatspec.py:271-279. -/
def Dfsr.spacingUnits (d : Dfsr) : Option Value := entryValue d 9 tenthInch

/-- `spec_block_type`, dataformatspec.py:281-288: it looks for `data_rec_type`. -/
def Dfsr.specBlockType (d : Dfsr) : Option Value := entryValue d 1 (.i32 0)

/-- `spec_block_subtype`, dataformatspec.py:290-298. -/
def Dfsr.specBlockSubtype (d : Dfsr) : Option Value := entryValue d 16 (.i32 0)

/-- A value compared with an `int` in Python. -/
def Value.is (v : Value) (n : Int) : Bool :=
  match v with
  | .i8 x => x = n
  | .i16 x => x = n
  | .i32 x => x = n
  | .byte x => (x : Int) = n
  | .f16 x => x = .num n
  | .f32 x => x = .num n
  | .f32low x => x = .num n
  | .f32fix x => x = .num n
  | .none => false
  | .string _ => false
  | .mask _ => false

/-- A value as argument for `double` (pybind11): `none` if it is refused. -/
def Value.double : Value → Option Flt
  | .i8 x => some (.num x)
  | .i16 x => some (.num x)
  | .i32 x => some (.num x)
  | .byte x => some (.num x)
  | .f16 x => some x
  | .f32 x => some x
  | .f32low x => some x
  | .f32fix x => some x
  | .none => Option.none
  | .string _ => Option.none
  | .mask _ => Option.none

/-- A value as argument for an integer type (pybind11): floats are refused. -/
def Value.int : Value → Option Int
  | .i8 x => some x
  | .i16 x => some x
  | .i32 x => some x
  | .byte x => some x
  | _ => Option.none

/-- Unary minus, then an argument for `double`: `none` for the `TypeError`. -/
def Value.minus (v : Value) : Option Flt := v.double.map Flt.neg

/-- `directional_spacing`, dataformatspec.py:300-317, as a `double`: `none` when it raises. -/
def Dfsr.directionalSpacing (d : Dfsr) : Option Flt :=
  match d.spacing with
  | none => none
  | some .none => none
  | some spacing =>
    match d.direction with
    | none => none
    | some dir =>
      if dir.is 1 then spacing.minus
      else if dir.is 255 then spacing.double
      else none

/-- The part that specification blocks have in common, protocol.hpp:237-246. -/
def SpecBlock.common : SpecBlock → SpecCommon
  | .sub0 c .. => c
  | .sub1 c .. => c

/-- `index_mnem`, dataformatspec.py:50-62: `some none` for `None`. -/
def Dfsr.indexMnem (d : Dfsr) : Option (Option Bytes) :=
  match d.depthMode with
  | none => none
  | some mode =>
    if mode.is 0 then some (d.specs.head?.map fun s => s.common.mnemonic)
    else if mode.is 1 then some (some [0x44, 0x45, 0x50, 0x54])
    else some none

/-- `index_units`, dataformatspec.py:64-76. -/
def Dfsr.indexUnits (d : Dfsr) : Option Value :=
  match d.depthMode with
  | none => none
  | some mode =>
    if mode.is 0 then some ((d.specs.head?.map fun s => Value.string s.common.units).getD .none)
    else if mode.is 1 then d.depthUnits
    else some .none

/-- `sample_rates`, dataformatspec.py:78-87, as a list. -/
def Dfsr.sampleRates (d : Dfsr) : Option (List Nat) :=
  match d.depthMode with
  | none => none
  | some mode => some ((d.specs.drop (if mode.is 0 then 1 else 0)).map fun s => s.common.samples)

/-- What `curves` takes from the specification, curves.py:262-270 and 461-525: the mode must
be an integer for `frameconfig`; the representation code of the index is only looked at in
mode 1, and must be one for `core.lis_reprc`.  `none` when something raises. -/
def Dfsr.format (d : Dfsr) : Option Format :=
  match d.depthMode.bind Value.int with
  | none => none
  | some mode =>
    if mode = 1 then
      match d.depthReprc with
      | none => none
      | some .none => some ⟨mode, none, d.specs.map SpecBlock.common⟩
      | some v =>
        match v.int with
        | none => none
        | some r =>
          if 0 ≤ r ∧ r < 256 then some ⟨mode, some r.toNat, d.specs.map SpecBlock.common⟩ else none
    else some ⟨mode, none, d.specs.map SpecBlock.common⟩

/-- `curves` up to the call of `read_data_records`, curves.py:257-272: rate, configuration
and names of the columns.  `none` when it raises. -/
def Dfsr.config (dec : Bytes → Text) (d : Dfsr) (rate : Option Nat) (strict : Bool) :
    Option (Conf × List Text) :=
  match d.format with
  | none => none
  | some f =>
    match curvesRate f rate, curvesNames dec f rate strict,
        (if f.mode = 1 then d.directionalSpacing else some (.num 0)) with
    | some rate, some names, some spacing => (curvesConf f rate spacing).map fun c => (c, names)
    | _, _, _ => none

/-! ### Specification -/

namespace Spec

/-- The entry blocks of LIS79, chapter 4.1.6, that users see. -/
inductive Field where
  | recordType | blockType | frameSize | direction | opticalUnits | referencePoint
  | referenceUnits | spacing | spacingUnits | maxFrames | absentValue | depthMode | depthUnits
  | depthReprc | blockSubtype
deriving DecidableEq

/-- Their type numbers. -/
def Field.number : Field → Nat
  | .recordType => 1 | .blockType => 2 | .frameSize => 3 | .direction => 4 | .opticalUnits => 5
  | .referencePoint => 6 | .referenceUnits => 7 | .spacing => 8 | .spacingUnits => 9
  | .maxFrames => 11 | .absentValue => 12 | .depthMode => 13 | .depthUnits => 14
  | .depthReprc => 15 | .blockSubtype => 16

/-- The values if there is no such block; `none` if they are undefined then. -/
def Field.default : Field → Value
  | .recordType | .blockType | .depthMode | .blockSubtype => .i32 0
  | .direction | .opticalUnits => .i32 1
  | .referenceUnits | .spacingUnits | .depthUnits => .string [0x2E, 0x31, 0x49, 0x4E]
  | .absentValue => .f32 (.num (-3997 / 4))
  | .frameSize | .referencePoint | .spacing | .maxFrames | .depthReprc => .none

/-- The values recorded for a field. -/
def RawDfsr.recorded (r : RawDfsr) (x : Field) : List Value :=
  (r.all.filter fun e => e.type.toNat = x.number).map fun e => content e.code.toNat e.payload

/-- The value of a field; there is none if it is recorded more than once. -/
def RawDfsr.value (r : RawDfsr) (x : Field) : Option Value :=
  match r.recorded x with
  | [] => some x.default
  | [v] => some v
  | _ => none

/-- The whole number in a value of an integer type. -/
def whole? : Value → Option Int
  | .i8 x => some x
  | .i16 x => some x
  | .i32 x => some x
  | .byte x => some x
  | _ => none

/-- The format of the frames: how the index is recorded, and the channels. -/
structure RawDfsr.Describes (r : RawDfsr) (f : Format) : Prop where
  mode : (r.value .depthMode).bind whole? = some f.mode
  reprc : f.mode = 1 → ∃ v, r.value .depthReprc = some v ∧
    ((v = .none ∧ f.depthReprc = none) ∨
      ∃ n : Nat, n < 256 ∧ whole? v = some (n : Int) ∧ f.depthReprc = some n)
  unused : f.mode ≠ 1 → f.depthReprc = none
  specs : f.specs = r.blocks.map Spec.common

end Spec

/-- The values that `DataFormatSpec` has for the fields. -/
def Dfsr.get (d : Dfsr) : Field → Option Value
  | .recordType => d.recordType
  | .blockType => d.specBlockType
  | .frameSize => d.frameSize
  | .direction => d.direction
  | .opticalUnits => d.opticalLogDepthUnits
  | .referencePoint => d.referencePoint
  | .referenceUnits => d.referencePointUnits
  | .spacing => d.spacing
  | .spacingUnits => d.spacingUnits
  | .maxFrames => d.maxFrames
  | .absentValue => d.absentValue
  | .depthMode => d.depthMode
  | .depthUnits => d.depthUnits
  | .depthReprc => d.depthReprc
  | .blockSubtype => d.specBlockSubtype

/-! ### Proofs -/

theorem entryValue_raw (r : RawDfsr) (x : Field) :
    entryValue r.dfsr x.number x.default = r.value x := by
  have h : r.dfsr.entries.filter (fun e => e.type = x.number) =
      (r.all.filter fun e => e.type.toNat = x.number).map RawEntry.entry := by
    unfold RawDfsr.dfsr
    simp only
    rw [List.filter_map]
    rfl
  unfold entryValue findEntry RawDfsr.value RawDfsr.recorded
  rw [h]
  generalize r.all.filter (fun e => e.type.toNat = x.number) = l
  match l with
  | [] => rfl
  | [e] => rfl
  | _ :: _ :: _ => rfl

theorem get_raw (r : RawDfsr) (x : Field) (hx : x ≠ .blockType) : r.dfsr.get x = r.value x := by
  have h999 : (Value.f32 (.num (-999.25))) = Field.default .absentValue := by
    simp only [Field.default]; norm_num
  rw [← entryValue_raw]
  cases x <;> first | rfl | exact absurd rfl hx |
    (show entryValue _ 12 (.f32 (.num (-999.25))) = _; rw [h999]; rfl)

theorem is_number (v : Value) (n : Int) : v.is n = true ↔ number v = some (n : ℚ) := by
  cases v with
  | f16 x => cases x <;> simp [Value.is, number]
  | f32 x => cases x <;> simp [Value.is, number]
  | f32low x => cases x <;> simp [Value.is, number]
  | f32fix x => cases x <;> simp [Value.is, number]
  | byte x =>
    simp only [Value.is, number, decide_eq_true_eq, Option.some.injEq]
    exact ⟨fun h => by rw [← h]; simp, fun h => by exact_mod_cast h⟩
  | _ => simp [Value.is, number]

theorem double_number {v : Value} {q : ℚ} (h : number v = some q) : v.double = some (.num q) := by
  cases v with
  | f16 x => cases x <;> simp_all [Value.double, number]
  | f32 x => cases x <;> simp_all [Value.double, number]
  | f32low x => cases x <;> simp_all [Value.double, number]
  | f32fix x => cases x <;> simp_all [Value.double, number]
  | _ => simp_all [Value.double, number]

theorem int_whole (v : Value) : v.int = whole? v := by cases v <;> rfl

/-- **C61** (entries).  For every record that is accepted: each attribute but
`spec_block_type` has the value of the only entry block of its type in the record; the value
that the standard gives if there is none; and there is an exception if there are several. -/
theorem c61_entries_partial (data : Bytes) (d : Dfsr) (h : parseDfsr data = .ok d) :
    ∃ r : RawDfsr, r.Ok ∧ data = r.bytes ∧
      ∀ x : Field, x ≠ .blockType → d.get x = r.value x := by
  obtain ⟨r, hok, hb, rfl⟩ := (c47_parse data d).1 h
  exact ⟨r, hok, hb, get_raw r⟩

/-- **C61** (spacing).  Between frames the index changes by the recorded spacing: it
decreases if the direction is up (1, also if it is not recorded), increases if it is down
(255); there is an exception if it is anything else. -/
theorem c61_spacing (r : RawDfsr) (v w : Value) (q : ℚ) (hv : r.value .spacing = some v)
    (hq : number v = some q) (hw : r.value .direction = some w) :
    (number w = some 1 → r.dfsr.directionalSpacing = some (.num (-q))) ∧
    (number w = some 255 → r.dfsr.directionalSpacing = some (.num q)) ∧
    (number w ≠ some 1 → number w ≠ some 255 → r.dfsr.directionalSpacing = none) := by
  have h1 : r.dfsr.spacing = some v := (get_raw r .spacing (by decide)).trans hv
  have h2 : r.dfsr.direction = some w := (get_raw r .direction (by decide)).trans hw
  have hn : v ≠ .none := by rintro rfl; cases hq
  have e1 : w.is 1 = true ↔ number w = some 1 := by simpa using is_number w 1
  have e2 : w.is 255 = true ↔ number w = some 255 := by simpa using is_number w 255
  have hdir : r.dfsr.directionalSpacing =
      if w.is 1 then v.minus else if w.is 255 then v.double else none := by
    unfold Dfsr.directionalSpacing
    rw [h1, h2]
    cases v <;> first | rfl | exact absurd rfl hn
  rw [hdir]
  refine ⟨fun h => ?_, fun h => ?_, fun h h' => ?_⟩
  · rw [if_pos (e1.2 h), Value.minus, double_number hq]; rfl
  · rw [if_neg (by rw [e1, h]; norm_num), if_pos (e2.2 h), double_number hq]
  · rw [if_neg (by rwa [e1]), if_neg (by rwa [e2])]

/-- **C61** (no spacing).  There is an exception if the spacing is not recorded, has no
value, is a text or a mask, or is recorded twice. -/
theorem c61_no_spacing (r : RawDfsr) (h : ∀ v, r.value .spacing = some v →
    v = .none ∨ (∃ s, v = .string s) ∨ ∃ s, v = .mask s) : r.dfsr.directionalSpacing = none := by
  have h1 : r.dfsr.spacing = r.value .spacing := get_raw r .spacing (by decide)
  unfold Dfsr.directionalSpacing
  rw [h1]
  match hv : r.value .spacing with
  | none => rfl
  | some v =>
    rcases h v hv with rfl | ⟨s, rfl⟩ | ⟨s, rfl⟩
    · rfl
    · simp only
      split
      · rfl
      · simp [Value.minus, Value.double]
    · simp only
      split
      · rfl
      · simp [Value.minus, Value.double]

/-- **C61** (depths).  The indices of the frames of a record with index `x` before them: as
the spacing and the direction say. -/
theorem c61_depths (r : RawDfsr) (v w : Value) (q : ℚ) (hv : r.value .spacing = some v)
    (hq : number v = some q) (hw : r.value .direction = some w)
    (hd : number w = some 1 ∨ number w = some 255) (x : ℚ) (bs : List Bytes)
    (hrep : ∀ i < bs.length,
      Representable64 (if number w = some 1 then x - i * q else x + i * q)) :
    ∃ spacing, r.dfsr.directionalSpacing = some spacing ∧ ∀ (i : Nat) (b : Bytes), bs[i]? = some b →
      (steps spacing (.num x) bs)[i]? =
        some (Flt.num (if number w = some 1 then x - i * q else x + i * q), b) := by
  obtain ⟨h1, h2, -⟩ := c61_spacing r v w q hv hq hw
  rcases hd with hd | hd
  · refine ⟨_, h1 hd, fun i b hb => ?_⟩
    simp only [if_pos hd] at hrep ⊢
    have := c52_steps (-q) bs x (fun i hi => by
      have := hrep i hi; rwa [show x - i * q = x + i * -q by ring] at this) i b hb
    rw [this]
    congr 3
    ring
  · refine ⟨_, h2 hd, fun i b hb => ?_⟩
    have hne : number w ≠ some 1 := by rw [hd]; norm_num
    simp only [if_neg hne] at hrep ⊢
    exact c52_steps q bs x hrep i b hb

/-- **C61** (subtype).  `spec_block_subtype` is one exactly if the blocks of the record are
read with the layout of subtype 1. -/
theorem c61_subtype (r : RawDfsr) (v : Value) (hv : r.dfsr.specBlockSubtype = some v) :
    r.dfsr.specs = r.blocks.map (block (decide (number v = some 1))) := by
  have h1 : r.value .blockSubtype = some v := by
    rw [← get_raw r .blockSubtype (by decide)]; exact hv
  have key : Spec.One r.all ↔ number v = some 1 := by
    unfold RawDfsr.value RawDfsr.recorded at h1
    unfold Spec.One
    have hm : ∀ e : RawEntry, (e ∈ r.all ∧ e.type = 16) ↔
        e ∈ r.all.filter fun e => e.type.toNat = Field.number .blockSubtype := by
      intro e
      rw [List.mem_filter, decide_eq_true_eq]
      simp only [Field.number]
      constructor
      · rintro ⟨h, h'⟩; exact ⟨h, by rw [h']; rfl⟩
      · rintro ⟨h, h'⟩; exact ⟨h, BitVec.eq_of_toNat_eq (by simpa using h')⟩
    have hiff : (∃ e ∈ r.all, e.type = 16 ∧ number (content e.code.toNat e.payload) = some 1) ↔
        ∃ e ∈ r.all.filter fun e => e.type.toNat = Field.number .blockSubtype,
          number (content e.code.toNat e.payload) = some 1 := by
      constructor
      · rintro ⟨e, h, h', h''⟩; exact ⟨e, (hm e).1 ⟨h, h'⟩, h''⟩
      · rintro ⟨e, h, h''⟩; exact ⟨e, ((hm e).2 h).1, ((hm e).2 h).2, h''⟩
    rw [hiff]
    generalize r.all.filter (fun e => e.type.toNat = Field.number .blockSubtype) = l at h1
    match l with
    | [] => cases h1; simp [number, Field.default]
    | [e] => cases h1; simp
    | _ :: _ :: _ => cases h1
  unfold RawDfsr.dfsr
  simp only
  rw [show decide (Spec.One r.all) = decide (number v = some 1) from by simp [key]]

theorem common_block (one : Bool) (b : Bytes) : (block one b).common = Spec.common b := by
  cases one <;> rfl

theorem specs_common (r : RawDfsr) : r.dfsr.specs.map SpecBlock.common = r.blocks.map Spec.common := by
  unfold RawDfsr.dfsr
  simp only [List.map_map]
  exact List.map_congr_left fun b _ => common_block _ _

/-- **C61** (index).  Mnemonic and units of the index: those of the first block in mode 0;
`DEPT` and the units of depth in mode 1. -/
theorem c61_index (r : RawDfsr) (m : Value) (hm : r.value .depthMode = some m) :
    (number m = some 0 → ∀ b bs, r.blocks = b :: bs →
      r.dfsr.indexMnem = some (some (slice b 0 4)) ∧
      r.dfsr.indexUnits = some (.string (slice b 18 4))) ∧
    (number m = some 1 → r.dfsr.indexMnem = some (some [0x44, 0x45, 0x50, 0x54]) ∧
      r.dfsr.indexUnits = r.value .depthUnits) := by
  have h1 : r.dfsr.depthMode = some m := (get_raw r .depthMode (by decide)).trans hm
  have h2 : r.dfsr.depthUnits = r.value .depthUnits := get_raw r .depthUnits (by decide)
  have e0 : m.is 0 = true ↔ number m = some 0 := by simpa using is_number m 0
  have e1 : m.is 1 = true ↔ number m = some 1 := by simpa using is_number m 1
  unfold Dfsr.indexMnem Dfsr.indexUnits
  rw [h1, h2]
  simp only
  constructor
  · intro h b bs hb
    rw [if_pos (e0.2 h), if_pos (e0.2 h)]
    unfold RawDfsr.dfsr
    simp only [hb, List.map_cons, List.head?_cons, Option.map_some, common_block, Option.getD_some,
      Spec.common]
    trivial
  · intro h
    have hne : ¬ m.is 0 = true := by rw [e0, h]; norm_num
    rw [if_neg hne, if_neg hne, if_pos (e1.2 h), if_pos (e1.2 h)]
    trivial

/-- **C61** (format).  `curves` reads the frames in the format that the record describes. -/
theorem c61_format (r : RawDfsr) (f : Format) : r.dfsr.format = some f ↔ r.Describes f := by
  have h1 : r.dfsr.depthMode = r.value .depthMode := get_raw r .depthMode (by decide)
  have h2 : r.dfsr.depthReprc = r.value .depthReprc := get_raw r .depthReprc (by decide)
  have hw : Value.int = whole? := funext int_whole
  unfold Dfsr.format
  rw [h1, h2, specs_common, hw]
  constructor
  · intro h
    split at h
    · cases h
    · rename_i mode hm
      split at h
      · rename_i hm1
        split at h
        · cases h
        · rename_i hv
          cases h
          exact ⟨hm, fun _ => ⟨_, hv, .inl ⟨rfl, rfl⟩⟩, fun hne => absurd hm1 hne, rfl⟩
        · rename_i v hv0 hv
          split at h
          · cases h
          · rename_i n hn
            split at h
            · rename_i hr
              cases h
              refine ⟨hm, fun _ => ⟨_, hv, .inr ⟨n.toNat, by omega, ?_, rfl⟩⟩, fun hne => absurd hm1 hne, rfl⟩
              rw [hn, Int.toNat_of_nonneg hr.1]
            · cases h
      · rename_i hm1
        cases h
        exact ⟨hm, fun he => absurd he hm1, fun _ => rfl, rfl⟩
  · rintro ⟨h3, h4, h5, h6⟩
    obtain ⟨mode, dr, specs⟩ := f
    simp only at h3 h4 h5 h6
    subst h6
    rw [h3]
    simp only
    split
    · rename_i hm1
      obtain ⟨v, hv, ⟨rfl, rfl⟩ | ⟨n, hn, hnv, rfl⟩⟩ := h4 hm1
      · rw [hv]
      · rw [hv]
        split
        · rename_i he; cases he
        · rename_i he; cases he; cases hnv
        · rename_i v' _ he
          cases he
          rw [hnv]
          simp only
          rw [if_pos (by omega)]
          rfl
    · rename_i hm1
      rw [h5 hm1]

/-- **C61** (rates).  `sample_rates` are the rates of the channels beside the index: reading
the curves with each of them gives each channel that is not suppressed, in exactly one
array. -/
theorem c61_rates (r : RawDfsr) (f : Format) (h : r.Describes f) :
    ∃ rates, r.dfsr.sampleRates = some rates ∧
      (∀ n, n ∈ rates ↔ ∃ s ∈ channels f, s.samples = n) ∧
      ∀ s ∈ channels f, 0 < s.reservedSize →
        s.samples ∈ rates ∧ (s.mnemonic, columnBytes s) ∈ (columns f s.samples).tail ∧
        ∀ n, Selected n s ↔ n = s.samples := by
  have h1 : r.dfsr.depthMode = r.value .depthMode := get_raw r .depthMode (by decide)
  obtain ⟨m, hv, hwm⟩ := Option.bind_eq_some_iff.1 h.mode
  have hn : number m = some (f.mode : ℚ) := by
    cases m <;> simp_all [whole?, number]
    rw [← hwm]
    simp
  have e0 : m.is 0 = true ↔ f.mode = 0 := by
    rw [is_number, hn]; simp
  have hrates : r.dfsr.sampleRates = some ((channels f).map SpecCommon.samples) := by
    unfold Dfsr.sampleRates
    rw [h1, hv]
    simp only [Option.some.injEq]
    rw [show (fun s : SpecBlock => s.common.samples) = SpecCommon.samples ∘ SpecBlock.common from rfl,
      ← List.map_map, List.map_drop, specs_common, ← h.specs]
    unfold channels
    by_cases hf : f.mode = 0
    · rw [if_pos (e0.2 hf), if_pos hf, List.drop_one]
    · rw [if_neg (by rwa [e0]), if_neg hf, List.drop_zero]
  refine ⟨_, hrates, by simp, fun s hs hp => ⟨by simpa using ⟨s, hs, rfl⟩, ?_, ?_⟩⟩
  · simp only [columns, List.tail_cons, List.mem_map, List.mem_filter, decide_eq_true_eq]
    exact ⟨s, ⟨hs, hp, rfl⟩, rfl⟩
  · intro n
    exact ⟨fun h => h.2.symm, fun h => ⟨hp, h.symm⟩⟩

/-- A record with the mode 1: going down, spacing 60, index in 32-bit integers, and one channel
with two samples of two bytes. -/
def exDown : RawDfsr where
  entries := [⟨4, 66, [255]⟩, ⟨8, 79, [0, 60]⟩, ⟨13, 66, [1]⟩, ⟨15, 66, [73]⟩, ⟨2, 66, [1]⟩]
  terminator := ⟨0, 66, []⟩
  blocks := [[0x47, 0x52, 0x20, 0x20] ++ List.replicate 18 0x20 ++ [0, 0, 0, 0, 0, 1, 0, 4, 0, 0, 0,
    2, 79, 0, 0, 0, 0, 0]]

example : exDown.Ok := by
  refine ⟨?_, by decide, by decide, by decide⟩
  intro e he
  simp only [RawDfsr.all, exDown, List.cons_append, List.nil_append, List.mem_cons,
    List.not_mem_nil, or_false] at he
  rcases he with rfl | rfl | rfl | rfl | rfl | rfl <;>
    first
      | exact ⟨by decide, by decide, 1, by decide, by decide⟩
      | exact ⟨by decide, by decide, 2, by decide, by decide⟩

example : exDown.dfsr.directionalSpacing = some (.num 60) ∧
    exDown.dfsr.indexMnem = some (some [0x44, 0x45, 0x50, 0x54]) ∧
    exDown.dfsr.indexUnits = some tenthInch ∧ exDown.dfsr.sampleRates = some [2] ∧
    exDown.dfsr.maxFrames = some .none ∧
    exDown.dfsr.format.map (fun f => (f.mode, f.depthReprc)) = some (1, some 73) := by decide +kernel

/-- The spacing twice. -/
example : ({ exDown with entries := ⟨8, 79, [0, 60]⟩ :: exDown.entries } : RawDfsr).dfsr.spacing = none := by
  decide +kernel

/-- **C61** (defect).  `spec_block_type` is the value of another entry block: here the type
of the blocks is recorded as 1, but `spec_block_type` is 0. -/
theorem c61_block_type_defect : exDown.value .blockType = some (.byte 1) ∧
    exDown.dfsr.specBlockType = some (.i32 0) := by decide +kernel

end Dlisio.Lis
