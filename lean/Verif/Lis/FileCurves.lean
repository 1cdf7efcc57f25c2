import Verif.Lis.Accessors
import Verif.Lis.EndToEnd
import Verif.Lis.TapeImage
/-
C76: from a LIS file on disk, with tape marks or without, to the curves of each logical file.
-/
namespace Dlisio.Lis

open _root_.Dlisio.Lis.Spec

/-! ### Model -/

/-- What a user does: `load`, python/dlisio/lis/load.py:5-95, then for the `i`-th logical file
`data_format_specs`, lis/file.py:197-216, and for the `j`-th of them `curves`,
lis/curves.py:103-281.  Nothing if one of the steps raises or the numbers are too large. -/
def fileCurves (dec : Bytes → Text) (stale : RecordInfo → Bytes) (d : Disk) (isTif raises : Bool)
    (n i j : Nat) (rate : Option Nat) (strict : Bool) : Option (List Text × Rows) :=
  match load d raises n with
  | some (false, s) =>
    match s.files[i]? with
    | some f =>
      match d.lis isTif f.offset with
      | .stream dev _ =>
        match dataFormatSpecs dev f.index with
        | .ok specs =>
          match specs[j]? with
          | some (.dfsr ltell d) =>
            match curves dec stale dev f.index ltell d rate strict with
            | .ok r => some r
            | _ => none
          | _ => none
        | _ => none
      | _ => none
    | none => none
  | _ => none

/-! ### Specification -/

namespace Spec

/-- A log: the `k`-th record of a logical file is a data format specification, all such records in
the file are well-formed, and the data records that follow it hold whole frames of the format that
it describes.  (Labels are unique and not empty, and the rate is at most 127.) -/
structure Log (dec : Bytes → Text) (its : List Item) (k : Nat) (f : Format) (rate : Nat)
    (spacing : ℚ) (recs : List DataRecord) : Prop where
  specs : ∀ it ∈ its, it.record.type = 64 → ∃ r : RawDfsr, r.Ok ∧ it.record.data = r.bytes
  spec : ∃ it, its[k]? = some it ∧ it.record.type = 64 ∧ ∃ r : RawDfsr, r.Ok ∧
    it.record.data = r.bytes ∧ r.Describes f ∧ (f.mode = 1 → r.Step spacing)
  still : f.mode ≠ 1 → spacing = 0
  valid : validFormat f = true
  bound : 0 < rate ∧ rate ≤ 127
  labels : [] ∉ ((columns f rate).map fun c => dec c.1) ∧ ((columns f rate).map fun c => dec c.1).Nodup
  data : List.Forall₂ (fun it r => it.record.data = r.data)
    (dataOf (fun it : Item => it.record.type.toNat) k its) recs
  frames : ∀ r ∈ recs, r.Ok f rate
  writable : Writable f rate none (recs.flatMap (·.items f (.num spacing)))

/-- The position of a specification among the specifications of the file. -/
def specNumber (its : List Item) (k : Nat) : Nat :=
  ((its.take k).filter fun it => it.record.type = 64).length

/-- The result is the array of these frames: `rate` rows for each, one column for the index and for
each channel of that rate, every byte of every row the one of its value. -/
def IsArrayOf (dec : Bytes → Text) (f : Format) (rate : Nat) (spacing : ℚ) (recs : List DataRecord)
    (res : List Text × Rows) : Prop :=
  res.1 = ((columns f rate).map fun c => dec c.1) ∧
  res.2.rows = (recs.map fun r => r.frames.length).sum * rate ∧
  (rowsOf f rate none (recs.flatMap (·.items f (.num spacing)))).length = res.2.rows ∧
  ∀ i outs, (rowsOf f rate none (recs.flatMap (·.items f (.num spacing))))[i]? = some outs →
    outBytes outs = itemsize (columns f rate) ∧ Holds res.2 (i * itemsize (columns f rate)) outs

end Spec

/-! ### Proofs -/

theorem record_length (r : Record) : r.bytes.length = r.size := by
  unfold Record.bytes Record.size
  cases r.chunks with
  | nil => rfl
  | cons c cs =>
    have : ∀ cs : List Chunk, ((cs.map (Chunk.bytes [])).flatten).length = (cs.map (Chunk.size [])).sum := by
      intro cs
      induction cs with
      | nil => rfl
      | cons d cs ih => simp [chunk_bytes_length, ih]
    simp [chunk_bytes_length, this]

theorem filter_zip_nth {α β : Type} (p : α → Bool) : ∀ (l : List α) (m : List β) (k : Nat) (a : α) (b : β),
    l.length = m.length → l[k]? = some a → m[k]? = some b → p a = true →
    ((l.zip m).filter fun x => p x.1)[((l.take k).filter p).length]? = some (a, b) := by
  intro l
  induction l with
  | nil => intro m k a b _ h; simp at h
  | cons x l ih =>
    intro m k a b hl ha hb hp
    cases m with
    | nil => simp at hl
    | cons y m =>
      cases k with
      | zero =>
        obtain rfl : x = a := by simpa using ha
        obtain rfl : y = b := by simpa using hb
        simp [hp]
      | succ k =>
        have := ih m k a b (by simpa using hl) (by simpa using ha) (by simpa using hb) hp
        rw [List.zip_cons_cons, List.filter_cons, List.take_succ_cons, List.filter_cons]
        split <;> simpa using this

/-- The specifications and the curves of a logical file with an index of its records. -/
theorem listed_curves {dec : Bytes → Text} {dev : Device} {ix : Index} {its : List Item}
    {infos : List RecordInfo} (h : Listed dev ix its infos) {k : Nat} {f : Format} {rate : Nat}
    {spacing : ℚ} {recs : List DataRecord} (hlog : Log dec its k f rate spacing recs)
    (stale : RecordInfo → Bytes) (strict : Bool) :
    ∃ specs ltell d res, dataFormatSpecs dev ix = .ok specs ∧
      specs[specNumber its k]? = some (.dfsr ltell d) ∧
      curves dec stale dev ix ltell d (some rate) strict = .ok res ∧
      IsArrayOf dec f rate spacing recs res := by
  obtain ⟨it, hk, h64, r, hr, hdata, hdesc, hstep⟩ := hlog.spec
  have hlen := h.found.length_eq
  have hkl : k < its.length := (List.getElem?_eq_some_iff.1 hk).1
  obtain ⟨d, hd⟩ : ∃ d, infos[k]? = some d := ⟨_, List.getElem?_eq_getElem (by omega)⟩
  obtain ⟨hm, a, h1, h2, h3, h4⟩ := c63_curves_partial h hk hd h64 r hr hdata f hdesc hlog.valid spacing
    hstep hlog.still rate hlog.bound.1 hlog.bound.2 dec hlog.labels.1 hlog.labels.2 recs hlog.data
    hlog.frames hlog.writable stale strict
  have hmem : (dataFormatSpecs, 64) ∈ listMethods := by simp [listMethods]
  -- all specifications
  obtain ⟨specs, hs⟩ : ∃ specs, List.Forall₂
      (fun p c => Means p.2.ltell 64 p.1.record.data c) (ofType 64 its infos) specs := by
    have : ∀ l : List (Item × RecordInfo), (∀ p ∈ l, p.1 ∈ its ∧ p.1.record.type = 64) → ∃ specs,
        List.Forall₂ (fun (p : Item × RecordInfo) c => Means p.2.ltell 64 p.1.record.data c) l specs := by
      intro l
      induction l with
      | nil => intro _; exact ⟨[], .nil⟩
      | cons p l ih =>
        intro hl
        obtain ⟨specs, hs⟩ := ih fun q hq => hl q (by simp [hq])
        obtain ⟨hp1, hp2⟩ := hl p (by simp)
        obtain ⟨r', hr', e⟩ := hlog.specs p.1 hp1 hp2
        exact ⟨.dfsr p.2.ltell r'.dfsr :: specs, .cons (by rw [e]; exact .dfsr r' hr') hs⟩
    refine this _ fun p hp => ?_
    obtain ⟨hp1, hp2⟩ := List.mem_filter.1 hp
    refine ⟨(List.of_mem_zip hp1).1, BitVec.eq_of_toNat_eq ?_⟩
    simpa using hp2
  have hnth : (ofType 64 its infos)[specNumber its k]? = some (it, d) := by
    have := filter_zip_nth (fun it : Item => decide (it.record.type.toNat = 64)) its infos k it d hlen hk hd
      (by rw [h64]; rfl)
    have e : ∀ x : Item, decide (x.record.type.toNat = 64) = decide (x.record.type = 64) := by
      intro x
      rw [Bool.eq_iff_iff, decide_eq_true_eq, decide_eq_true_eq]
      exact ⟨fun h => BitVec.eq_of_toNat_eq h, fun h => by rw [h]; rfl⟩
    unfold specNumber ofType
    simpa only [e] using this
  have hsl := hs.length_eq
  have hn := (List.getElem?_eq_some_iff.1 hnth).1
  have hc : specs[specNumber its k]? = some (.dfsr d.ltell r.dfsr) := by
    have hb := (List.forall₂_iff_get.1 hs).2 (specNumber its k) hn (by omega)
    rw [List.get_eq_getElem, List.get_eq_getElem, (List.getElem?_eq_some_iff.1 hnth).2] at hb
    rw [List.getElem?_eq_getElem (by omega)]
    have e1 := ((c62_parse ⟨64, 0, d.ltell⟩ it.record.data).1 _).2 hb
    have e2 := ((c62_parse ⟨64, 0, d.ltell⟩ it.record.data).1 _).2 hm
    rw [e1] at e2
    rw [← List.get_eq_getElem (l := specs) (i := ⟨specNumber its k, by omega⟩)]
    exact congrArg some (Parsed.ok.inj e2)
  exact ⟨specs, d.ltell, r.dfsr, _, ((c75_lists h hmem).1 _).2 hs, hc, h1, rfl, h2, h3, h4⟩

/-- **C76** (tape images).  Let the file be a tape image as in `c74_load_partial`, let the `i`-th
logical file in it be the records `its`, and let there be a log at its `k`-th record.  Then loading
the file, asking the `i`-th logical file for its specifications and reading the curves of the one in
question gives the array of exactly these frames, in the order of the file, wherever tape records
begin and end. -/
theorem c76_tape_partial (file junk : Bytes) (lead : Nat) (ss : List Stretch)
    (fin : List Dlis.Spec.Block) (hne : ss ≠ []) (hok : AllOk (12 * lead) ss)
    (hfin : TapeEnd fin junk) (hl : file.length < 2 ^ 32)
    (hf : file = Dlis.Spec.tapeBytes 0 0
      (List.replicate lead .mark ++ (stretchBlocks ss ++ fin)) ++ junk)
    (raises : Bool) (n : Nat) (hn : (ss.flatMap (·.parts)).length < n)
    (i k : Nat) (its : List Item) (hi : (fileParts (ss.flatMap (·.parts)))[i]? = some its)
    (dec : Bytes → Text) (f : Format) (rate : Nat) (spacing : ℚ) (recs : List DataRecord)
    (hlog : Log dec its k f rate spacing recs) (stale : RecordInfo → Bytes) (strict : Bool) :
    ∃ res, fileCurves dec stale (fileDisk file) true raises n i (specNumber its k) (some rate) strict =
        some res ∧ IsArrayOf dec f rate spacing recs res := by
  obtain ⟨s, h1, -, h2, -⟩ := c74_load_partial file junk lead ss fin hne hok hfin hl hf raises n hn
  have hil := (List.getElem?_eq_some_iff.1 hi).1
  have hsl := h2.length_eq
  obtain ⟨dev, eof, infos, h3, h4⟩ := (List.forall₂_iff_get.1 h2).2 i hil (by omega)
  rw [List.get_eq_getElem, List.get_eq_getElem, (List.getElem?_eq_some_iff.1 hi).2] at h4
  rw [List.get_eq_getElem] at h3
  obtain ⟨specs, ltell, d, res, h5, h6, h7, h8⟩ := listed_curves h4 hlog stale strict
  refine ⟨res, ?_, h8⟩
  unfold fileCurves
  rw [h1]
  simp only [List.getElem?_eq_getElem (show i < s.files.length by omega)]
  rw [h3]
  simp only [h5, h6, h7]

/-- **C76** (files without tape marks).  The same for a file without tape marks, under the
conditions of `c54_load_partial`. -/
theorem c76_plain_partial (data : Bytes) (ps : List Part) (e l : Nat) (x : Byte) (hx : Blank x)
    (hd : data.drop e = List.replicate l x) (hps : ps ≠ []) (hpr : Proper ps)
    (hpl : Placed (whole data) 0 (itemsOf ps) e) (h12 : 12 ≤ data.length)
    (htm : ∀ tm, parseTapemark data = some tm → validTapemark tm = false)
    (raises : Bool) (n : Nat) (hn : ps.length < n)
    (i k : Nat) (its : List Item) (hi : (fileParts ps)[i]? = some its)
    (dec : Bytes → Text) (f : Format) (rate : Nat) (spacing : ℚ) (recs : List DataRecord)
    (hlog : Log dec its k f rate spacing recs) (stale : RecordInfo → Bytes) (strict : Bool) :
    ∃ res, fileCurves dec stale (plainDisk data) false raises n i (specNumber its k) (some rate) strict =
        some res ∧ IsArrayOf dec f rate spacing recs res := by
  obtain ⟨s, h1, h2⟩ := c62_loaded_partial data ps e l x hx hd hps hpr hpl h12 htm raises n hn
  have hil := (List.getElem?_eq_some_iff.1 hi).1
  have hsl := h2.length_eq
  obtain ⟨infos, h4⟩ := (List.forall₂_iff_get.1 h2).2 i hil (by omega)
  rw [List.get_eq_getElem, List.get_eq_getElem, (List.getElem?_eq_some_iff.1 hi).2] at h4
  obtain ⟨it, hk, -⟩ := hlog.spec
  have hlt : s.files[i].offset < data.length := by
    by_contra hc
    have hkl := (List.getElem?_eq_some_iff.1 hk).1
    have hlen := h4.found.length_eq
    have hfound := (List.forall₂_iff_get.1 h4.found).2 k hkl (by omega)
    have h5 := hfound.here
    have h6 := c45_sum (its[k]).record hfound.ok.2.1
    have h7 := h5.length_le
    have h8 : ((fromOffset data s.files[i].offset).src.data.drop (infos.get ⟨k, by omega⟩).ltell).length = 0 := by
      simp only [fromOffset, List.length_drop]
      omega
    have h9 : its[k].record.bytes.length = its[k].record.size := record_length _
    simp only [List.get_eq_getElem] at h7 h8
    omega
  obtain ⟨specs, ltell, d, res, h5, h6, h7, h8⟩ := listed_curves h4 hlog stale strict
  refine ⟨res, ?_, h8⟩
  unfold fileCurves
  rw [h1]
  simp only [List.getElem?_eq_getElem (show i < s.files.length by omega), plainDisk, hlt, if_true]
  have h9 : (⟨⟨data.drop s.files[i].offset, .eof⟩, fun p => s.files[i].offset + p⟩ : Device) =
    fromOffset data s.files[i].offset := rfl
  rw [h9]
  simp only [h5, h6, h7]

/-! ### Cases -/

/-- The format that the first specification of `exLog` describes. -/
def Spec.exLogFormat : Format := ⟨0, none, exFirst.blocks.map Spec.common⟩

/-- The three frames of `exLog` in two records. -/
def Spec.exLogRecs : List DataRecord := [⟨[], [[1, 0, 7], [1, 1, 8]], []⟩, ⟨[], [[1, 2, 9]], []⟩]

theorem exFirst_ok : exFirst.Ok := by
  refine ⟨?_, by decide, rfl, by decide⟩
  intro e he
  simp only [RawDfsr.all, exFirst, List.nil_append, List.mem_singleton] at he
  subst he
  exact ⟨by decide, by decide, 1, by decide, by decide⟩

theorem exSecond_ok : exSecond.Ok := by
  refine ⟨?_, by decide, rfl, by decide⟩
  intro e he
  simp only [RawDfsr.all, exSecond, List.cons_append, List.nil_append, List.mem_cons,
    List.not_mem_nil, or_false] at he
  rcases he with rfl | rfl <;> exact ⟨by decide, by decide, 1, by decide, by decide⟩

theorem exLog_log : Log ascii exLog 1 exLogFormat 1 0 exLogRecs where
  specs := by
    intro it hit h64
    simp only [exLog, List.mem_cons, List.not_mem_nil, or_false] at hit
    rcases hit with rfl | rfl | rfl | rfl | rfl | rfl | rfl | rfl <;> first
      | exact ⟨exFirst, exFirst_ok, by decide +kernel⟩
      | exact ⟨exSecond, exSecond_ok, by decide +kernel⟩
      | exact absurd h64 (by decide)
  spec := ⟨_, rfl, rfl, exFirst, exFirst_ok, by decide +kernel,
    ⟨by decide +kernel, fun h => absurd h (by decide), fun _ => rfl, by simp only [exLogFormat]⟩,
    fun h => absurd h (by decide)⟩
  still := by simp
  valid := by decide +kernel
  bound := by decide
  labels := by decide +kernel
  data := by
    have h : dataOf (fun it : Item => it.record.type.toNat) 1 exLog =
        [exPlain 0 0 [1, 0, 7, 1, 1, 8], exPlain 0 0 [1, 2, 9]] := rfl
    rw [h]
    exact .cons rfl (.cons rfl .nil)
  frames := by
    intro r hr
    have hc : channels exLogFormat = [Spec.common (exBlock [0x47, 0x52, 0x20, 0x20] 1 66)] := by
      simp only [channels, exLogFormat, exFirst, if_true, List.map_cons, List.map_nil, List.tail_cons]
    simp only [exLogRecs, List.mem_cons, List.not_mem_nil, or_false] at hr
    rcases hr with rfl | rfl <;> refine ⟨by decide +kernel, fun b hb => ?_, by decide⟩ <;>
      refine ⟨?_, by rw [hc]; exact ⟨fun _ h => absurd h (by decide +kernel), trivial⟩⟩ <;>
      (revert b; decide +kernel)
  writable := by
    have hc : ∀ x b, indexCell? exLogFormat 1 none x b 0 ≠ none := by
      intro x b; simp [indexCell?, exLogFormat]
    have hc' : ∀ p x b, ∀ k < 1, indexCell? exLogFormat 1 p x b k ≠ none := by
      intro p x b k _; simp [indexCell?, exLogFormat]
    exact ⟨hc' _ _ _, hc' _ _ _, hc' _ _ _, trivial⟩

/-- `exLog` on a tape, in three tape records; the second one begins within the specification, the
third one within a frame. -/
def Spec.exLogStretch : Stretch :=
  ⟨[.file exLog], [(fileBytes exLog).take 70, ((fileBytes exLog).drop 70).take 84, (fileBytes exLog).drop 154]⟩

def Spec.exLogTape : Bytes :=
  Dlis.Spec.tapeBytes 0 0 (List.replicate 0 .mark ++ (stretchBlocks [exLogStretch] ++ [.mark])) ++ []

theorem exLogStretch_ok : exLogStretch.Ok 0 := by
  have hc : ∀ l, Consistent l ↔ Chain false l := consistent_chain
  refine ⟨by simp [exLogStretch], ⟨.inl ⟨exLog.take 7, exPlain 0 129 (List.replicate 56 0x41), rfl,
    ⟨.inl rfl, ?_⟩, .inl rfl⟩, trivial⟩,
    by decide +kernel, ⟨(fileBytes exLog).length, 0, 0, .inl rfl, ?_, by decide +kernel⟩, ?_⟩
  · intro it hit
    simp only [List.take_succ_cons, List.take_zero, List.mem_cons, List.not_mem_nil, or_false] at hit
    rcases hit with rfl | rfl | rfl | rfl | rfl | rfl <;> decide
  · have hok : ∀ it ∈ exLog, it.record.Ok := by
      intro it hit
      simp only [exLog, List.mem_cons, List.not_mem_nil, or_false] at hit
      simp only [Record.Ok, hc]
      rcases hit with rfl | rfl | rfl | rfl | rfl | rfl | rfl | rfl <;>
        refine ⟨by decide, by decide, ?_, ?_⟩ <;> simp only [exPlain] <;>
        simp [Chunk.Ok, Chunk.size, trailer, Chain] <;> decide +kernel
    simp only [exLogStretch, itemsOf, Part.items, List.append_nil]
    simp only [exLog, List.mem_cons, List.not_mem_nil, or_false, forall_eq_or_imp, forall_eq] at hok
    obtain ⟨h1, h2, h3, h4, h5, h6, h7, h8⟩ := hok
    refine ⟨h1, .inl rfl, by unfold At; decide +kernel, h2, .inl rfl, by unfold At; decide +kernel, h3, .inl rfl, by unfold At; decide +kernel,
      h4, .inl rfl, by unfold At; decide +kernel, h5, .inl rfl, by unfold At; decide +kernel, h6, .inl rfl, by unfold At; decide +kernel,
      h7, .inl rfl, by unfold At; decide +kernel, h8, .inl rfl, by unfold At; decide +kernel, by unfold Placed; decide +kernel⟩
  · intro a b hab ha it hit
    match a, ha with
    | [p], _ =>
      simp only [exLogStretch, List.cons_append, List.nil_append, List.cons.injEq] at hab
      obtain ⟨rfl, rfl⟩ := hab
      cases hit
    | p :: q :: a, _ => simp [exLogStretch] at hab

/-- Case for `c76_tape_partial`. -/
example : fileCurves ascii (fun _ => []) (fileDisk exLogTape) true true 3 0 0 (some 1) true = some
    ([text "DEPT", text "GR  "], ⟨3, [(0, .cell (.i16 256)), (2, .cell (.u8 7)),
      (3, .cell (.i16 257)), (5, .cell (.u8 8)), (6, .cell (.i16 258)), (8, .cell (.u8 9))]⟩) ∧
    fileCurves ascii (fun _ => []) (fileDisk exLogTape) true true 3 0 1 (some 1) true = some
    ([text "TIME"], ⟨2, [(0, .cell (.u8 3)), (1, .cell (.u8 4))]⟩) ∧
    fileCurves ascii (fun _ => []) (fileDisk exLogTape) true true 3 0 2 (some 1) true = none := by
  decide +kernel

example : ∃ res, fileCurves ascii (fun _ => []) (fileDisk exLogTape) true true 3 0 0 (some 1) true =
    some res ∧ IsArrayOf ascii exLogFormat 1 0 exLogRecs res :=
  c76_tape_partial exLogTape [] 0 [exLogStretch] [.mark] (by simp) ⟨exLogStretch_ok, trivial⟩
    (.inr (.inl ⟨rfl, rfl⟩)) (by decide +kernel) rfl true 3 (by decide) 0 1 exLog rfl ascii exLogFormat 1 0
    exLogRecs exLog_log _ true

end Dlisio.Lis
