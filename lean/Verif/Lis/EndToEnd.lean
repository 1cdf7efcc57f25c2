import Verif.Lis.LogicalFile
import Verif.Lis.CurvesRows
import Verif.Lis.Implicits
/-
C63: from the bytes of a LIS file to the arrays of `lis.curves`, python/dlisio/lis/curves.py.
-/
namespace Dlisio.Lis

open _root_.Dlisio.Lis.Spec

/-! ### Model -/

/-- `curves`, curves.py:257-281, with `read_data_records`, ext/lis.cpp:492-565: the names of the
columns and the array.  `stale` is what is in memory behind the data of a record. -/
def curves (dec : Bytes → Text) (stale : RecordInfo → Bytes) (dev : Device) (ix : Index)
    (ltell : Nat) (d : Dfsr) (rate : Option Nat) (strict : Bool) : Parsed (List Text × Rows) :=
  match d.config dec rate strict with
  | none => .throws
  | some (conf, names) =>
    match implicitsOf ix ltell with
    | none => .throws
    | some infos =>
      (readDataRecords conf (infos.map fun i =>
        match recordData dev i with
        | .ok data => some (data, stale i)
        | _ => none)).bind fun a => .ok (names, a)

/-! ### Specification -/

namespace Spec

/-- The data records that follow the `j`-th record of a file, up to the next specification. -/
def dataOf {α : Type} (type : α → Nat) (j : Nat) (its : List α) : List α :=
  ((its.drop (j + 1)).takeWhile fun it => type it ≠ 64).filter fun it => type it = 0 || type it = 1

/-- The signed distance between frames: negative if the direction is up (1), positive if it is
down (255). -/
def RawDfsr.Step (r : RawDfsr) (q : ℚ) : Prop :=
  ∃ v w p, r.value .spacing = some v ∧ number v = some p ∧ r.value .direction = some w ∧
    (number w = some 1 ∧ q = -p ∨ number w = some 255 ∧ q = p)

end Spec

/-! ### Proofs -/

theorem dataOf_filter (j : Nat) (infos : List RecordInfo) (d : RecordInfo)
    (ho : infos.Pairwise fun a b => a.ltell < b.ltell) (hd : infos[j]? = some d) :
    (infos.filter implicit).filter
        (fun r => decide (Belongs (infos.filter (! implicit ·)) d r)) =
      dataOf RecordInfo.type j infos := by
  have hj : j < infos.length := (List.getElem?_eq_some_iff.1 hd).1
  have hsplit : infos = infos.take j ++ d :: infos.drop (j + 1) := by
    conv_lhs => rw [← List.take_append_drop j infos]
    rw [List.drop_eq_getElem_cons hj, (List.getElem?_eq_some_iff.1 hd).2]
  unfold dataOf
  generalize hpre : infos.take j = pre at hsplit
  generalize hpost : infos.drop (j + 1) = post at hsplit
  subst hsplit
  rw [List.pairwise_append, List.pairwise_cons] at ho
  obtain ⟨-, ⟨hdp, hpo⟩, hpre'⟩ := ho
  set ex := (pre ++ d :: post).filter (! implicit ·) with hex
  have h1 : (pre.filter implicit).filter (fun r => decide (Belongs ex d r)) = [] := by
    rw [List.filter_eq_nil_iff]
    intro a ha
    have := hpre' a (List.mem_of_mem_filter ha) d (by simp)
    rw [decide_eq_true_eq]
    rintro ⟨h, -⟩
    omega
  have h2 : ([d].filter implicit).filter (fun r => decide (Belongs ex d r)) = [] := by
    rw [List.filter_eq_nil_iff]
    intro a ha
    have := List.mem_singleton.1 (List.mem_of_mem_filter ha)
    subst this
    simp [Belongs]
  rw [List.append_cons, List.filter_append, List.filter_append, List.filter_append,
    List.filter_append, h1, h2, List.nil_append, List.nil_append]
  have himp : implicit = fun it : RecordInfo => it.type = 0 || it.type = 1 := by
    funext a; simp [implicit]
  rw [← himp]
  obtain ⟨tw, dw, htw, hdw, hpost', hh⟩ : ∃ tw dw, tw = post.takeWhile (fun it => it.type ≠ 64) ∧
      dw = post.dropWhile (fun it => it.type ≠ 64) ∧ post = tw ++ dw ∧
      (∀ a ∈ tw, a.type ≠ 64) :=
    ⟨_, _, rfl, rfl, (List.takeWhile_append_dropWhile).symm, fun a ha => by
      simpa using List.all_eq_true.1 (List.all_takeWhile (l := post)) a ha⟩
  rw [← htw]
  rw [hpost', List.pairwise_append] at hpo
  have hmem : ∀ e ∈ ex, e.type = 64 → d.ltell < e.ltell → e ∈ dw := by
    intro e he he64 hlt
    rw [hex] at he
    have := List.mem_of_mem_filter he
    rcases List.mem_append.1 this with h | h
    · have := hpre' e h d (by simp); omega
    · rcases List.mem_cons.1 h with rfl | h
      · omega
      · rw [hpost'] at h
        rcases List.mem_append.1 h with h | h
        · exact absurd he64 (hh e h)
        · exact h
  rw [show List.filter implicit post = tw.filter implicit ++ dw.filter implicit by
    rw [hpost', List.filter_append], List.filter_append]
  rw [show (dw.filter implicit).filter (fun r => decide (Belongs ex d r)) = [] from ?_,
    List.append_nil, List.filter_eq_self]
  · intro a ha
    have ha' := List.mem_of_mem_filter ha
    have : a ∈ post := by rw [hpost']; exact List.mem_append_left _ ha'
    simp only [decide_eq_true_eq]
    exact ⟨hdp a this, fun e he h64 hlt => hpo.2.2 a ha' e (hmem e he h64 hlt)⟩
  · rw [List.filter_eq_nil_iff]
    intro a ha
    obtain ⟨ha1, ha2⟩ := List.mem_filter.1 ha
    match hdw' : dw with
    | [] => cases ha1
    | e :: rest =>
      have he64 : e.type = 64 := by
        have := List.head?_dropWhile_not (fun it : RecordInfo => decide (it.type ≠ 64)) post
        rw [← hdw] at this
        simpa using this
      have hepost : e ∈ post := by rw [hpost']; simp
      have hne : ¬ a.ltell < e.ltell := by
        rcases List.mem_cons.1 ha1 with rfl | h
        · omega
        · have := (List.pairwise_cons.1 hpo.2.1).1 a h
          omega
      simp only [decide_eq_true_eq]
      rintro ⟨-, h⟩
      refine hne (h e ?_ he64 (hdp e hepost))
      rw [hex]
      refine List.mem_filter.2 ⟨by simp [hepost], by simp [implicit, he64]⟩

theorem listed_ordered {dev : Device} {ix : Index} {its : List Item} {infos : List RecordInfo}
    (h : Listed dev ix its infos) : Ordered ix := by
  refine ⟨?_, ?_, ?_⟩
  · rw [h.explicits]; exact h.order.filter _
  · rw [h.implicits]; exact h.order.filter _
  · rw [h.explicits, h.implicits]
    intro a ha b hb hab
    obtain ⟨ha1, ha2⟩ := List.mem_filter.1 ha
    obtain ⟨hb1, hb2⟩ := List.mem_filter.1 hb
    obtain ⟨i, hi, rfl⟩ := List.getElem_of_mem ha1
    obtain ⟨k, hk, rfl⟩ := List.getElem_of_mem hb1
    have := List.pairwise_iff_getElem.1 h.order
    rcases lt_trichotomy i k with h' | rfl | h'
    · have := this i k hi hk h'; omega
    · simp [hb2] at ha2
    · have := this k i hk hi h'; omega

/-- The data records of the index are those of the file. -/
theorem dataOf_found {dev : Device} : ∀ {its : List Item} {infos : List RecordInfo},
    List.Forall₂ (Found dev) its infos → ∀ j,
    List.Forall₂ (Found dev) (dataOf (fun it : Item => it.record.type.toNat) j its)
      (dataOf RecordInfo.type j infos) := by
  intro its infos h j
  unfold dataOf
  have hd : List.Forall₂ (Found dev) (its.drop (j + 1)) (infos.drop (j + 1)) :=
    List.forall₂_drop (j + 1) h
  generalize its.drop (j + 1) = a at hd
  generalize infos.drop (j + 1) = b at hd
  induction hd with
  | nil => exact .nil
  | @cons it info a b hf _ ih =>
    have ht := hf.type
    rw [List.takeWhile_cons, List.takeWhile_cons, ht]
    split
    · rw [List.filter_cons, List.filter_cons, ht]
      split
      · exact .cons hf ih
      · exact ih
    · exact .nil

/-- **C63** (data records).  The data records of a specification are those that follow it in
the file, up to the next specification. -/
theorem c63_data {dev : Device} {ix : Index} {its : List Item} {infos : List RecordInfo}
    (h : Listed dev ix its infos) {j : Nat} {it : Item} {d : RecordInfo} (hj : its[j]? = some it)
    (hd : infos[j]? = some d) (h64 : it.record.type = 64) :
    ∃ l, implicitsOf ix d.ltell = some l ∧ List.Forall₂ (Found dev)
      (dataOf (fun it : Item => it.record.type.toNat) j its) l := by
  have hf : Found dev it d := by
    have := (List.forall₂_iff_get.1 h.found).2 j (List.getElem?_eq_some_iff.1 hj).1
      (List.getElem?_eq_some_iff.1 hd).1
    rw [List.get_eq_getElem, List.get_eq_getElem, (List.getElem?_eq_some_iff.1 hj).2,
      (List.getElem?_eq_some_iff.1 hd).2] at this
    exact this
  have ht := hf.type
  rw [h64] at ht
  have hex : d ∈ ix.explicits := by
    rw [h.explicits]
    exact List.mem_filter.2 ⟨List.mem_of_getElem? hd, by simp [implicit, ht]⟩
  refine ⟨_, c46_implicits ix (listed_ordered h) d hex, ?_⟩
  rw [h.explicits, h.implicits, dataOf_filter j infos d h.order hd]
  exact dataOf_found h.found j

theorem step_spacing {r : RawDfsr} {q : ℚ} (h : r.Step q) :
    r.dfsr.directionalSpacing = some (.num q) := by
  obtain ⟨v, w, p, h1, h2, h3, ⟨h4, rfl⟩ | ⟨h4, rfl⟩⟩ := h
  · exact (c61_spacing r v w p h1 h2 h3).1 h4
  · exact (c61_spacing r v w q h1 h2 h3).2.1 h4

/-- Other bytes behind the data do not matter. -/
theorem with_stale (stale : RecordInfo → Bytes) {dev : Device} : ∀ {its : List Item}
    {l : List RecordInfo} {recs : List DataRecord}, List.Forall₂ (Found dev) its l →
    List.Forall₂ (fun (it : Item) (r : DataRecord) => it.record.data = r.data) its recs →
    ∃ recs' : List DataRecord,
      (l.map fun i => match recordData dev i with
        | .ok data => some (data, stale i)
        | _ => none) = recs'.map (fun r => some (r.data, r.stale)) ∧
      List.Forall₂ (fun r' r : DataRecord => r'.start = r.start ∧ r'.frames = r.frames) recs' recs := by
  intro its l recs h1
  induction h1 generalizing recs with
  | nil => intro h2; cases h2; exact ⟨[], rfl, .nil⟩
  | @cons it i its l hf _ ih =>
    intro h2
    cases h2 with
    | @cons _ r _ recs hr h2 =>
      obtain ⟨recs', h3, h4⟩ := ih h2
      refine ⟨⟨r.start, r.frames, stale i⟩ :: recs', ?_, .cons ⟨rfl, rfl⟩ h4⟩
      rw [List.map_cons, List.map_cons, h3, found_data hf, hr]
      rfl

theorem same_frames {recs' recs : List DataRecord}
    (h : List.Forall₂ (fun r' r : DataRecord => r'.start = r.start ∧ r'.frames = r.frames) recs' recs)
    (f : Format) (rate : Nat) (spacing : Flt) :
    recs'.flatMap (·.items f spacing) = recs.flatMap (·.items f spacing) ∧
    (recs'.map fun r => r.frames.length) = recs.map (fun r => r.frames.length) ∧
    ((∀ r ∈ recs, r.Ok f rate) → ∀ r ∈ recs', r.Ok f rate) := by
  induction h with
  | nil => simp
  | @cons r' r recs' recs hr _ ih =>
    obtain ⟨h1, h2, h3⟩ := ih
    refine ⟨?_, ?_, ?_⟩
    · rw [List.flatMap_cons, List.flatMap_cons, h1]
      congr 1
      unfold DataRecord.items
      rw [hr.1, hr.2]
    · rw [List.map_cons, List.map_cons, h2, hr.2]
    · intro h s hs
      rcases List.mem_cons.1 hs with rfl | hs
      · have := h r (by simp)
        exact ⟨by rw [hr.1]; exact this.start, by rw [hr.2]; exact this.frames,
          by rw [hr.2]; exact this.some⟩
      · exact h3 (fun t ht => h t (by simp [ht])) s hs

/-- **C63** (end to end).  A logical file has a data format specification as its `j`-th
record; the records are at the places that the index has for them, and the data records that
follow hold whole frames of the format that the specification describes.  Then
`data_format_specs` has the specification, and `curves` gives the array of exactly these
frames in the order of the file: `rate` rows for each, one column for the index and for each
channel of that rate, every byte of every row the one of its value, whatever is in memory
behind the data.  (Conditions: labels are unique and not empty, and the rate is at most 127,
see `c52_rate_defect`.) -/
theorem c63_curves_partial {dev : Device} {ix : Index} {its : List Item} {infos : List RecordInfo}
    (h : Listed dev ix its infos) {j : Nat} {it : Item} {d : RecordInfo} (hj : its[j]? = some it)
    (hd : infos[j]? = some d) (h64 : it.record.type = 64)
    (r : RawDfsr) (hr : r.Ok) (hdata : it.record.data = r.bytes)
    (f : Format) (hf : r.Describes f) (hv : validFormat f = true)
    (spacing : ℚ) (hsp : f.mode = 1 → r.Step spacing) (h0 : f.mode ≠ 1 → spacing = 0)
    (rate : Nat) (hr0 : 0 < rate) (hr1 : rate ≤ 127)
    (dec : Bytes → Text) (hne : [] ∉ (columns f rate).map fun c => dec c.1)
    (hnd : ((columns f rate).map fun c => dec c.1).Nodup)
    (recs : List DataRecord) (hrec : List.Forall₂ (fun it r => it.record.data = r.data)
      (dataOf (fun it : Item => it.record.type.toNat) j its) recs)
    (hok : ∀ r ∈ recs, r.Ok f rate)
    (hw : Writable f rate none (recs.flatMap (·.items f (.num spacing))))
    (stale : RecordInfo → Bytes) (strict : Bool) :
    Means d.ltell 64 it.record.data (.dfsr d.ltell r.dfsr) ∧
    ∃ a, curves dec stale dev ix d.ltell r.dfsr (some rate) strict =
        .ok ((columns f rate).map (fun c => dec c.1), a) ∧
      a.rows = (recs.map fun r => r.frames.length).sum * rate ∧
      (rowsOf f rate none (recs.flatMap (·.items f (.num spacing)))).length = a.rows ∧
      ∀ i outs, (rowsOf f rate none (recs.flatMap (·.items f (.num spacing))))[i]? = some outs →
        outBytes outs = itemsize (columns f rate) ∧ Holds a (i * itemsize (columns f rate)) outs := by
  refine ⟨by rw [hdata]; exact .dfsr r hr, ?_⟩
  obtain ⟨l, hl1, hl2⟩ := c63_data h hj hd h64
  obtain ⟨recs', hs1, hs2⟩ := with_stale stale hl2 hrec
  obtain ⟨hi, hlen, hoks⟩ := same_frames hs2 f rate (.num spacing)
  obtain ⟨conf, hc⟩ := c51_accepted hv rate (by omega) (.num spacing)
  have hsp' : (if f.mode = 1 then r.dfsr.directionalSpacing else some (.num 0)) =
      some (.num spacing) := by
    split
    · rename_i hm; exact step_spacing (hsp hm)
    · rename_i hm; rw [h0 hm]
  have hrate : curvesRate f (some rate) = some rate := by simp [curvesRate]
  have hnames : curvesNames dec f (some rate) strict = some ((columns f rate).map fun c => dec c.1) := by
    unfold curvesNames
    rw [hrate]
    simp only [hv, Bool.not_true, Bool.false_eq_true, if_false, c51_columns hv, dtypeNames,
      npNames_of_nodup hne hnd]
  have hconf : r.dfsr.config dec (some rate) strict =
      some (conf, (columns f rate).map fun c => dec c.1) := by
    unfold Dfsr.config
    rw [(c61_format r f).2 hf]
    simp only [hrate, hnames, hsp', hc, Option.map_some]
  obtain ⟨a, ha1, ha2, ha3, ha4⟩ := c52_rows_partial hc hr0 hr1 recs' (hoks hok) (by rw [hi]; exact hw)
  rw [hi] at ha3 ha4
  rw [hlen] at ha2
  refine ⟨a, ?_, ha2, ha3, ha4⟩
  unfold curves
  rw [hconf]
  simp only [hl1]
  rw [hs1, ha1]
  rfl

/-! ### Cases -/

/-- A specification block of sub type 0: mnemonic, size, representation code; one sample. -/
def Spec.exBlock (mnem : Bytes) (size code : Byte) : Bytes :=
  mnem ++ List.replicate 18 0x20 ++ [0, 0, 0, 0, 0, 1, 0, size, 0, 0, 0, 1, code, 0, 0, 0, 0, 0]

/-- An index of two bytes and a channel of one byte. -/
def Spec.exFirst : RawDfsr where
  entries := []
  terminator := ⟨0, 66, []⟩
  blocks := [exBlock [0x44, 0x45, 0x50, 0x54] 2 79, exBlock [0x47, 0x52, 0x20, 0x20] 1 66]

/-- An index of one byte alone. -/
def Spec.exSecond : RawDfsr where
  entries := [⟨4, 66, [255]⟩]
  terminator := ⟨0, 66, []⟩
  blocks := [exBlock [0x54, 0x49, 0x4d, 0x45] 1 66]

/-- A logical file with two specifications; the data records of the first are apart. -/
def Spec.exLog : List Item :=
  [exPlain 0 128 (List.replicate 56 0x41), exPlain 0 64 exFirst.bytes,
   exPlain 0 0 [1, 0, 7, 1, 1, 8], exPlain 0 232 [0x68, 0x69], exPlain 0 0 [1, 2, 9],
   exPlain 0 64 exSecond.bytes, exPlain 0 0 [3, 4], exPlain 0 129 (List.replicate 56 0x41)]

example :
    let dev := whole (fileBytes exLog)
    let ix := indexRecords dev 0
    parseRecords dev ix 64 = .ok [.dfsr 62 exFirst.dfsr, .dfsr 180 exSecond.dfsr] ∧
    curves ascii (fun _ => []) dev ix 62 exFirst.dfsr none true = .ok
      ([text "DEPT", text "GR  "], ⟨3, [(0, .cell (.i16 256)), (2, .cell (.u8 7)),
        (3, .cell (.i16 257)), (5, .cell (.u8 8)), (6, .cell (.i16 258)), (8, .cell (.u8 9))]⟩) ∧
    curves ascii (fun _ => []) dev ix 180 exSecond.dfsr none true = .ok
      ([text "TIME"], ⟨2, [(0, .cell (.u8 3)), (1, .cell (.u8 4))]⟩) := by
  decide +kernel

end Dlisio.Lis
