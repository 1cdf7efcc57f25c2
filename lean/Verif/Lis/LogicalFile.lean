import Verif.Lis.DataFormat
import Verif.Lis.InfoProps
import Verif.Lis.HeaderRecords
import Verif.Lis.LoadFiles
/-
C62: the records of a logical file, python/dlisio/lis/file.py.
-/
namespace Dlisio.Lis

open _root_.Dlisio.Lis.Spec

/-! ### Model -/

/-- What `parse_record` returns, by the class of the object; `ltell` and `type` are those of
`info`. -/
inductive Content where
  | dfsr (ltell : Nat) (d : Dfsr)
  | file (type : Nat) (r : FileRecord)
  | tape (type : Nat) (r : TapeRecord)
  | info (type : Nat) (components : List Component)
  | text (type : Nat) (message : Bytes)
deriving DecidableEq

/-- `parse_record`, file.py:370-411.  The C++ functions for headers and trailers differ in
the class of the result only. -/
def parseRecord (info : RecordInfo) (data : Bytes) : Parsed Content :=
  let type := info.type
  if type = 64 then (parseDfsr data).bind fun d => .ok (.dfsr info.ltell d)
  else if type = 128 then (parseFileRecord type data).bind fun r => .ok (.file 128 r)
  else if type = 129 then (parseFileRecord type data).bind fun r => .ok (.file 129 r)
  else if type = 132 then (parseTapeRecord type data).bind fun r => .ok (.tape 132 r)
  else if type = 133 then (parseTapeRecord type data).bind fun r => .ok (.tape 133 r)
  else if type = 130 then (parseTapeRecord type data).bind fun r => .ok (.tape 130 r)
  else if type = 131 then (parseTapeRecord type data).bind fun r => .ok (.tape 131 r)
  else if type = 34 then (parseInfo data).bind fun cs => .ok (.info type cs)
  else if type = 39 then (parseInfo data).bind fun cs => .ok (.info type cs)
  else if type = 32 then (parseInfo data).bind fun cs => .ok (.info type cs)
  else if type = 224 then (parseText type data).bind fun p => .ok (.text p.1 p.2)
  else if type = 225 then (parseText type data).bind fun p => .ok (.text p.1 p.2)
  else if type = 227 then (parseText type data).bind fun p => .ok (.text p.1 p.2)
  else if type = 232 then (parseText type data).bind fun p => .ok (.text p.1 p.2)
  else .throws

/-- `io.read_record`, the data: all errors are exceptions. -/
def recordData (dev : Device) (info : RecordInfo) : Parsed Bytes :=
  match readRecord dev info with
  | .ok (data, _) => .ok data
  | .error _ => .throws

/-- The loop of `iodevice::read_records`, io.cpp:568-572. -/
def readAll (dev : Device) : List RecordInfo → Parsed (List (RecordInfo × Bytes))
  | [] => .ok []
  | i :: is => (recordData dev i).bind fun data => (readAll dev is).bind fun rs => .ok ((i, data) :: rs)

/-- The list comprehension of `parse_records`, file.py:295. -/
def parseAll : List (RecordInfo × Bytes) → Parsed (List Content)
  | [] => .ok []
  | (i, data) :: rs => (parseRecord i data).bind fun c => (parseAll rs).bind fun cs => .ok (c :: cs)

/-- `LogicalFile.parse_records`, file.py:292-295, with `iodevice::read_records`,
io.cpp:564-574. -/
def parseRecords (dev : Device) (ix : Index) (type : Nat) : Parsed (List Content) :=
  (readAll dev (ix.explicits.filter fun x => x.type = type)).bind parseAll

/-- `LogicalFile.header`, file.py:142-166, and `LogicalFile.trailer`, file.py:168-192, for
the types 128 and 129. -/
def onlyRecord (dev : Device) (ix : Index) (type : Nat) : Parsed (Option Content) :=
  match ix.explicits.filter fun x => x.type = type with
  | [] => .ok none
  | [info] => (recordData dev info).bind fun data => (parseRecord info data).bind fun c => .ok (some c)
  | _ => .throws

/-- `HeaderTrailer.header` and `trailer`, file.py:23-57: the raw record of this type, or
`None`. -/
def parseRaw (type : Nat) (raw : Option Bytes) : Parsed (Option Content) :=
  match raw with
  | none => .ok none
  | some data => (parseRecord ⟨type, 0, 0⟩ data).bind fun c => .ok (some c)

/-! ### Specification -/

namespace Spec

/-- What the data of a record of a type stands for. -/
inductive Means (ltell : Nat) : Nat → Bytes → Content → Prop
  | dfsr (r : RawDfsr) (h : r.Ok) : Means ltell 64 r.bytes (.dfsr ltell r.dfsr)
  | file (type : Nat) (ht : type ∈ [128, 129]) (data : Bytes) (h : 56 ≤ data.length) :
      Means ltell type data (.file type (fileRecord data))
  | tape (type : Nat) (ht : type ∈ [130, 131, 132, 133]) (data : Bytes) (h : 126 ≤ data.length) :
      Means ltell type data (.tape type (tapeRecord data))
  | info (type : Nat) (ht : type ∈ [32, 34, 39]) (rs : List RawComponent) (h : ∀ c ∈ rs, c.Ok) :
      Means ltell type (componentBytes rs) (.info type (rs.map RawComponent.component))
  | text (type : Nat) (ht : type ∈ [224, 225, 227, 232]) (data : Bytes) :
      Means ltell type data (.text type data)

/-- The record is in the stream, where the index says it is. -/
structure Found (dev : Device) (it : Item) (info : RecordInfo) : Prop where
  ok : it.record.Ok
  here : At dev info.ltell it.record.bytes
  type : info.type = it.record.type.toNat

/-- The index is one of these records: `infos` in the order of the file, the frame data
apart. -/
structure Listed (dev : Device) (ix : Index) (its : List Item) (infos : List RecordInfo) : Prop where
  found : List.Forall₂ (Found dev) its infos
  order : infos.Pairwise fun a b => a.ltell < b.ltell
  explicits : ix.explicits = infos.filter (! implicit ·)
  implicits : ix.implicits = infos.filter implicit

/-- The records of a type, and what the index has for them. -/
def ofType (t : Nat) (its : List Item) (infos : List RecordInfo) : List (Item × RecordInfo) :=
  (its.zip infos).filter fun p => p.1.record.type.toNat = t

end Spec

/-! ### Proofs -/

theorem bind_eq_ok {α β : Type} {a : Parsed α} {k : α → Parsed β} {b : β} :
    a.bind k = .ok b ↔ ∃ x, a = .ok x ∧ k x = .ok b := by
  cases a <;> simp [Parsed.bind]

theorem bind_overrun {α β : Type} {a : Parsed α} {k : α → Parsed β} (ha : a ≠ .overrun)
    (hk : ∀ x, a = .ok x → k x ≠ .overrun) : a.bind k ≠ .overrun := by
  cases a with
  | ok x => exact hk x rfl
  | throws => simp [Parsed.bind]
  | overrun => exact absurd rfl ha

theorem parseFile_safe (type : Nat) (data : Bytes) : parseFileRecord type data ≠ .overrun := by
  rw [c49_file]; split <;> simp

theorem parseTape_safe (type : Nat) (data : Bytes) : parseTapeRecord type data ≠ .overrun := by
  rw [c49_tape]; split <;> simp

theorem parseText_safe (type : Nat) (data : Bytes) : parseText type data ≠ .overrun := by
  rw [c50_text]; split <;> simp

theorem means_type {ltell type : Nat} {data : Bytes} {c : Content} (h : Means ltell type data c) :
    type ∈ [64, 128, 129, 130, 131, 132, 133, 32, 34, 39, 224, 225, 227, 232] := by
  cases h with
  | dfsr => simp
  | file _ ht => simp at ht ⊢; omega
  | tape _ ht => simp at ht ⊢; omega
  | info _ ht => simp at ht ⊢; omega
  | text _ ht => simp at ht ⊢; omega

/-- **C62** (dispatch).  A record is parsed by the rules for its type, and nothing behind it
is read: the result is what the data stands for, and there is an exception if it stands for
nothing. -/
theorem c62_parse (info : RecordInfo) (data : Bytes) :
    (∀ c, parseRecord info data = .ok c ↔ Means info.ltell info.type data c) ∧
    parseRecord info data ≠ .overrun := by
  obtain ⟨type, size, ltell⟩ := info
  simp only
  have hfile : ∀ t, t ∈ [128, 129] → ∀ c,
      (parseFileRecord t data).bind (fun r => .ok (Content.file t r)) = .ok c ↔
        56 ≤ data.length ∧ c = .file t (Spec.fileRecord data) := by
    intro t ht c
    rw [c49_file, bind_eq_ok]
    by_cases hl : 56 ≤ data.length
    · simp [ht, hl, eq_comm]
    · simp [hl]
  have htape : ∀ t, t ∈ [130, 131, 132, 133] → ∀ c,
      (parseTapeRecord t data).bind (fun r => .ok (Content.tape t r)) = .ok c ↔
        126 ≤ data.length ∧ c = .tape t (Spec.tapeRecord data) := by
    intro t ht c
    rw [c49_tape, bind_eq_ok]
    by_cases hl : 126 ≤ data.length
    · simp [ht, hl, eq_comm]
    · simp [hl]
  have hinfo : ∀ t c, (parseInfo data).bind (fun cs => .ok (Content.info t cs)) = .ok c ↔
      ∃ rs : List RawComponent, (∀ c ∈ rs, c.Ok) ∧ data = componentBytes rs ∧
        c = .info t (rs.map RawComponent.component) := by
    intro t c
    rw [bind_eq_ok]
    constructor
    · rintro ⟨cs, h, h'⟩
      obtain ⟨rs, h1, h2, rfl⟩ := (c48_parse _ _).1 h
      cases h'
      exact ⟨rs, h1, h2, rfl⟩
    · rintro ⟨rs, h1, h2, rfl⟩
      exact ⟨_, (c48_parse _ _).2 ⟨rs, h1, h2, rfl⟩, rfl⟩
  have htext : ∀ t, t ∈ [224, 225, 227, 232] → ∀ c,
      (parseText t data).bind (fun p => .ok (Content.text p.1 p.2)) = .ok c ↔ c = .text t data := by
    intro t ht c
    rw [c50_text, bind_eq_ok]
    simp [ht, eq_comm]
  have hmfile : ∀ t, t ∈ [128, 129] → ∀ c,
      (56 ≤ data.length ∧ c = .file t (Spec.fileRecord data)) ↔ Means ltell t data c := by
    intro t ht c
    constructor
    · rintro ⟨h, rfl⟩; exact .file _ ht data h
    · intro h
      cases h with
      | file _ _ _ h => exact ⟨h, rfl⟩
      | dfsr => simp at ht
      | tape _ ht' => simp at ht ht'; omega
      | info _ ht' => simp at ht ht'; omega
      | text _ ht' => simp at ht ht'; omega
  have hmtape : ∀ t, t ∈ [130, 131, 132, 133] → ∀ c,
      (126 ≤ data.length ∧ c = .tape t (Spec.tapeRecord data)) ↔ Means ltell t data c := by
    intro t ht c
    constructor
    · rintro ⟨h, rfl⟩; exact .tape _ ht data h
    · intro h
      cases h with
      | tape _ _ _ h => exact ⟨h, rfl⟩
      | dfsr => simp at ht
      | file _ ht' => simp at ht ht'; omega
      | info _ ht' => simp at ht ht'; omega
      | text _ ht' => simp at ht ht'; omega
  have hminfo : ∀ t, t ∈ [32, 34, 39] → ∀ c,
      (∃ rs : List RawComponent, (∀ c ∈ rs, c.Ok) ∧ data = componentBytes rs ∧
        c = .info t (rs.map RawComponent.component)) ↔ Means ltell t data c := by
    intro t ht c
    constructor
    · rintro ⟨rs, h, rfl, rfl⟩; exact .info _ ht rs h
    · intro h
      cases h with
      | info _ _ rs h => exact ⟨rs, h, rfl, rfl⟩
      | dfsr => simp at ht
      | file _ ht' => simp at ht ht'; omega
      | tape _ ht' => simp at ht ht'; omega
      | text _ ht' => simp at ht ht'; omega
  have hmtext : ∀ t, t ∈ [224, 225, 227, 232] → ∀ c,
      c = .text t data ↔ Means ltell t data c := by
    intro t ht c
    constructor
    · rintro rfl; exact .text _ ht data
    · intro h
      cases h with
      | text => rfl
      | dfsr => simp at ht
      | file _ ht' => simp at ht ht'; omega
      | tape _ ht' => simp at ht ht'; omega
      | info _ ht' => simp at ht ht'; omega
  by_cases hm : type ∈ [64, 128, 129, 130, 131, 132, 133, 32, 34, 39, 224, 225, 227, 232]
  · simp only [List.mem_cons, List.not_mem_nil, or_false] at hm
    rcases hm with rfl | rfl | rfl | rfl | rfl | rfl | rfl | rfl | rfl | rfl | rfl | rfl | rfl | rfl
    · refine ⟨fun c => ?_, bind_overrun (c47_safe _) (by simp)⟩
      change (parseDfsr data).bind (fun d => .ok (.dfsr ltell d)) = .ok c ↔ _
      rw [bind_eq_ok]
      constructor
      · rintro ⟨d, h, h'⟩
        obtain ⟨r, h1, rfl, rfl⟩ := (c47_parse _ _).1 h
        cases h'
        exact .dfsr r h1
      · intro h
        cases h with
        | dfsr r h => exact ⟨_, (c47_parse _ _).2 ⟨r, h, rfl, rfl⟩, rfl⟩
        | file _ ht => simp at ht
        | tape _ ht => simp at ht
        | info _ ht => simp at ht
        | text _ ht => simp at ht
    · exact ⟨fun c => (hfile _ (by simp) c).trans (hmfile _ (by simp) c),
        bind_overrun (parseFile_safe _ _) (by simp)⟩
    · exact ⟨fun c => (hfile _ (by simp) c).trans (hmfile _ (by simp) c),
        bind_overrun (parseFile_safe _ _) (by simp)⟩
    · exact ⟨fun c => (htape _ (by simp) c).trans (hmtape _ (by simp) c),
        bind_overrun (parseTape_safe _ _) (by simp)⟩
    · exact ⟨fun c => (htape _ (by simp) c).trans (hmtape _ (by simp) c),
        bind_overrun (parseTape_safe _ _) (by simp)⟩
    · exact ⟨fun c => (htape _ (by simp) c).trans (hmtape _ (by simp) c),
        bind_overrun (parseTape_safe _ _) (by simp)⟩
    · exact ⟨fun c => (htape _ (by simp) c).trans (hmtape _ (by simp) c),
        bind_overrun (parseTape_safe _ _) (by simp)⟩
    · exact ⟨fun c => (hinfo _ c).trans (hminfo _ (by simp) c), bind_overrun (c48_safe _) (by simp)⟩
    · exact ⟨fun c => (hinfo _ c).trans (hminfo _ (by simp) c), bind_overrun (c48_safe _) (by simp)⟩
    · exact ⟨fun c => (hinfo _ c).trans (hminfo _ (by simp) c), bind_overrun (c48_safe _) (by simp)⟩
    · exact ⟨fun c => (htext _ (by simp) c).trans (hmtext _ (by simp) c),
        bind_overrun (parseText_safe _ _) (by simp)⟩
    · exact ⟨fun c => (htext _ (by simp) c).trans (hmtext _ (by simp) c),
        bind_overrun (parseText_safe _ _) (by simp)⟩
    · exact ⟨fun c => (htext _ (by simp) c).trans (hmtext _ (by simp) c),
        bind_overrun (parseText_safe _ _) (by simp)⟩
    · exact ⟨fun c => (htext _ (by simp) c).trans (hmtext _ (by simp) c),
        bind_overrun (parseText_safe _ _) (by simp)⟩
  · have ht : parseRecord ⟨type, size, ltell⟩ data = .throws := by
      simp only [List.mem_cons, List.not_mem_nil, or_false, not_or] at hm
      unfold parseRecord
      simp only
      rw [if_neg (by omega), if_neg (by omega), if_neg (by omega), if_neg (by omega),
        if_neg (by omega), if_neg (by omega), if_neg (by omega), if_neg (by omega),
        if_neg (by omega), if_neg (by omega), if_neg (by omega), if_neg (by omega),
        if_neg (by omega), if_neg (by omega)]
    rw [ht]
    refine ⟨fun c => ⟨fun h => (by cases h), fun h => ?_⟩, by simp⟩
    exact absurd (means_type h) hm

theorem found_data {dev : Device} {it : Item} {info : RecordInfo} (h : Found dev it info) :
    recordData dev info = .ok it.record.data := by
  unfold recordData
  rw [c45_read dev info.ltell 0 0 it.record h.ok (.inl rfl) (by simpa using h.here) info rfl]

theorem readAll_ok (dev : Device) : ∀ (l : List (Item × RecordInfo)), (∀ p ∈ l, Found dev p.1 p.2) →
    readAll dev (l.map (·.2)) = .ok (l.map fun p => (p.2, p.1.record.data))
  | [], _ => rfl
  | p :: l, h => by
    rw [List.map_cons, readAll, found_data (h p (by simp)), Parsed.bind,
      readAll_ok dev l fun q hq => h q (by simp [hq])]
    rfl

theorem parseAll_ok : ∀ (l : List (RecordInfo × Bytes)) (cs : List Content),
    parseAll l = .ok cs ↔ List.Forall₂ (fun p c => Means p.1.ltell p.1.type p.2 c) l cs
  | [], cs => by
    rw [parseAll]
    simp [eq_comm]
  | (i, data) :: l, cs => by
    rw [parseAll, bind_eq_ok]
    simp only [bind_eq_ok, List.forall₂_cons_left_iff]
    constructor
    · rintro ⟨c, h, cs', h', h''⟩
      cases h''
      exact ⟨c, cs', ((c62_parse i data).1 c).1 h, (parseAll_ok l cs').1 h', rfl⟩
    · rintro ⟨c, cs', h, h', rfl⟩
      exact ⟨c, ((c62_parse i data).1 c).2 h, cs', (parseAll_ok l cs').2 h', rfl⟩

theorem parseAll_safe : ∀ l : List (RecordInfo × Bytes), parseAll l ≠ .overrun
  | [] => by simp [parseAll]
  | (i, data) :: l => by
    rw [parseAll]
    exact bind_overrun (c62_parse i data).2 fun _ _ => bind_overrun (parseAll_safe l) (by simp)

theorem explicits_ofType {dev : Device} {ix : Index} {its : List Item} {infos : List RecordInfo}
    (h : Listed dev ix its infos) (t : Nat) (ht : t ≠ 0 ∧ t ≠ 1) :
    ix.explicits.filter (fun x => x.type = t) = (ofType t its infos).map (·.2) ∧
    ∀ p ∈ ofType t its infos, Found dev p.1 p.2 ∧ p.2.type = t := by
  rw [h.explicits, List.filter_filter]
  have hf := h.found
  clear h
  unfold ofType
  induction hf with
  | nil => simp
  | @cons it info its infos hfound hrest ih =>
    have htype := hfound.type
    rw [List.zip_cons_cons, List.filter_cons, List.filter_cons]
    by_cases hit : it.record.type.toNat = t
    · have h1 : (decide (info.type = t) && !implicit info) = true := by
        simp [implicit]; omega
      rw [if_pos h1, if_pos (by simpa using hit)]
      refine ⟨by rw [List.map_cons, ih.1], fun p hp => ?_⟩
      rcases List.mem_cons.1 hp with rfl | hp
      · exact ⟨hfound, by simp only; omega⟩
      · exact ih.2 p hp
    · have h1 : ¬ (decide (info.type = t) && !implicit info) = true := by
        simp; omega
      rw [if_neg h1, if_neg (by simpa using hit)]
      exact ih

/-- **C62** (records of a type).  `parse_records` gives what the records of the type stand
for, each of them once and in the order of the file; there is an exception if one of them
stands for nothing. -/
theorem c62_records {dev : Device} {ix : Index} {its : List Item} {infos : List RecordInfo}
    (h : Listed dev ix its infos) (t : Nat) (ht : t ≠ 0 ∧ t ≠ 1) :
    (∀ cs, parseRecords dev ix t = .ok cs ↔ List.Forall₂
      (fun p c => Means p.2.ltell t p.1.record.data c) (ofType t its infos) cs) ∧
    parseRecords dev ix t ≠ .overrun := by
  obtain ⟨h1, h2⟩ := explicits_ofType h t ht
  unfold parseRecords
  rw [h1, readAll_ok dev _ fun p hp => (h2 p hp).1, Parsed.bind]
  refine ⟨fun cs => ?_, parseAll_safe _⟩
  rw [parseAll_ok, List.forall₂_map_left_iff]
  have : ∀ (l : List (Item × RecordInfo)) (cs : List Content), (∀ p ∈ l, p.2.type = t) →
      (List.Forall₂ (fun p c => Means p.2.ltell p.2.type p.1.record.data c) l cs ↔
        List.Forall₂ (fun p c => Means p.2.ltell t p.1.record.data c) l cs) := by
    intro l
    induction l with
    | nil => intro cs _; simp
    | cons p l ih =>
      intro cs hp
      rw [List.forall₂_cons_left_iff, List.forall₂_cons_left_iff]
      simp only [hp p (by simp), ih _ fun q hq => hp q (by simp [hq])]
  exact this _ cs fun p hp => (h2 p hp).2

/-- **C62** (data records).  There are no parsing rules for frame data: `parse_records`
finds nothing. -/
theorem c62_no_data_records {dev : Device} {ix : Index} {its : List Item}
    {infos : List RecordInfo} (h : Listed dev ix its infos) (t : Nat) (ht : t = 0 ∨ t = 1) :
    parseRecords dev ix t = .ok [] := by
  have : ix.explicits.filter (fun x => x.type = t) = [] := by
    rw [h.explicits, List.filter_filter, List.filter_eq_nil_iff]
    intro a _
    simp [implicit]
    omega
  unfold parseRecords
  rw [this]
  rfl

/-- **C62** (header and trailer).  Without such a record the result is `None`; with one it
is what the record stands for; with several there is an exception. -/
theorem c62_only {dev : Device} {ix : Index} {its : List Item} {infos : List RecordInfo}
    (h : Listed dev ix its infos) (t : Nat) (ht : t ≠ 0 ∧ t ≠ 1) :
    (ofType t its infos = [] → onlyRecord dev ix t = .ok none) ∧
    (∀ p, ofType t its infos = [p] → ∀ c, onlyRecord dev ix t = .ok c ↔
      ∃ c', c = some c' ∧ Means p.2.ltell t p.1.record.data c') ∧
    (1 < (ofType t its infos).length → onlyRecord dev ix t = .throws) := by
  obtain ⟨h1, h2⟩ := explicits_ofType h t ht
  unfold onlyRecord
  rw [h1]
  refine ⟨fun he => by rw [he]; rfl, fun p he c => ?_, fun hl => ?_⟩
  · obtain ⟨h3, h4⟩ := h2 p (by rw [he]; simp)
    rw [he]
    simp only [List.map_cons, List.map_nil]
    rw [found_data h3, Parsed.bind, bind_eq_ok]
    simp only [(c62_parse p.2 _).1, h4, Parsed.ok.injEq]
    constructor
    · rintro ⟨x, hx, rfl⟩; exact ⟨x, rfl, hx⟩
    · rintro ⟨x, rfl, hx⟩; exact ⟨x, hx, rfl⟩
  · match he : ofType t its infos with
    | [] => rw [he] at hl; simp at hl
    | [_] => rw [he] at hl; simp at hl
    | _ :: _ :: _ => rfl

theorem tail_append {ex : List RecordInfo} {x : RecordInfo} (h1 : ∀ i ∈ ex.tail, i.type ≠ 128)
    (hx : x.type = 128 → ex = []) : ∀ i ∈ (ex ++ [x]).tail, i.type ≠ 128 := by
  intro i hi
  cases ex with
  | nil => simp at hi
  | cons e ex =>
    simp only [List.cons_append, List.tail_cons, List.mem_append, List.mem_singleton] at hi h1
    rcases hi with hi | rfl
    · exact h1 i hi
    · intro h; simpa using hx h

theorem indexFrom_only (dev : Device) (ex im : List RecordInfo) (pos : Nat)
    (h1 : ∀ i ∈ ex.tail, i.type ≠ 128) (h2 : ∀ i ∈ ex, i.type ≠ 129) :
    (∀ i ∈ (indexFrom dev ex im pos).explicits.tail, i.type ≠ 128) ∧
    (∀ i ∈ (indexFrom dev ex im pos).explicits.dropLast, i.type ≠ 129) := by
  have app : ∀ (l : List RecordInfo) (x : RecordInfo), (∀ i ∈ l, i.type ≠ 129) → x.type ≠ 129 →
      ∀ i ∈ l ++ [x], i.type ≠ 129 := by
    intro l x hl hx i hi
    rcases List.mem_append.1 hi with hi | hi
    · exact hl i hi
    · rw [List.mem_singleton.1 hi]; exact hx
  fun_induction indexFrom dev ex im pos with
  | case1 ex im pos p h => exact ⟨h1, fun i hi => h2 i (List.dropLast_subset _ hi)⟩
  | case2 ex im pos e p h _ => exact ⟨h1, fun i hi => h2 i (List.dropLast_subset _ hi)⟩
  | case3 ex im pos info p h ht ih => exact ih h1 h2
  | case4 ex im pos info p h h3 h4 h5 => exact ⟨h1, fun i hi => h2 i (List.dropLast_subset _ hi)⟩
  | case5 ex im pos info p h h3 h4 h5 =>
    refine ⟨tail_append h1 (by omega), ?_⟩
    rw [List.dropLast_concat]
    exact h2
  | case6 ex im pos info p h h3 h4 h5 h6 ih =>
    exact ih (tail_append h1 fun _ => by simpa using h6) (app _ _ h2 (by omega))
  | case7 ex im pos info p h h3 h4 h5 h6 => exact ⟨h1, fun i hi => h2 i (List.dropLast_subset _ hi)⟩
  | case8 ex im pos info p h h3 h4 h5 h6 =>
    refine ⟨tail_append h1 (by omega), ?_⟩
    rw [List.dropLast_concat]
    exact h2
  | case9 ex im pos info p h h3 h4 h5 h6 ih =>
    exact ih (tail_append h1 (by omega)) (app _ _ h2 (by omega))

/-- **C62** (one header, one trailer).  Whatever the bytes: an index has a file header
nowhere but in its first place, and a trailer nowhere but in its last, so that `header` and
`trailer` never meet several of them. -/
theorem c62_one (dev : Device) (pos : Nat) :
    (∀ i ∈ (indexRecords dev pos).explicits.tail, i.type ≠ 128) ∧
    (∀ i ∈ (indexRecords dev pos).explicits.dropLast, i.type ≠ 129) :=
  indexFrom_only dev [] [] pos (by simp) (by simp)

/-- **C62** (reel and tape headers and trailers).  The result is what the data of the
delimiter stands for, or `None` if there is no such delimiter. -/
theorem c62_delimiter (type : Nat) (ht : type ∈ [130, 131, 132, 133]) (raw : Option Bytes) :
    parseRaw type raw =
      match raw with
      | none => .ok none
      | some data =>
        if 126 ≤ data.length then .ok (some (.tape type (tapeRecord data))) else .throws := by
  cases raw with
  | none => rfl
  | some data =>
    simp only [parseRaw]
    split
    · rename_i h
      rw [((c62_parse ⟨type, 0, 0⟩ data).1 _).2 (.tape type ht data h)]
      rfl
    · rename_i h
      cases hp : parseRecord ⟨type, 0, 0⟩ data with
      | throws => rfl
      | overrun => exact absurd hp (c62_parse ⟨type, 0, 0⟩ data).2
      | ok c =>
        have := ((c62_parse ⟨type, 0, 0⟩ data).1 c).1 hp
        simp only [List.mem_cons, List.not_mem_nil, or_false] at ht
        cases this with
        | dfsr => simp at ht
        | file _ h' => simp at h'; omega
        | tape _ _ _ h' => exact absurd h' h
        | info _ h' => simp at h'; omega
        | text _ h' => simp at h'; omega

/-! ### Indices of files -/

theorem found_placed {dev : Device} (its : List Item) : ∀ {pos e : Nat}, Placed dev pos its e →
    List.Forall₂ (Found dev) its (located pos its) := by
  induction its with
  | nil => intro pos e _; exact .nil
  | cons it its ih =>
    intro pos e h
    rw [located]
    refine .cons ⟨h.1, ?_, rfl⟩ (ih h.2.2.2)
    have := (at_split h.2.2.1).2
    rwa [List.length_replicate] at this

theorem located_ge (its : List Item) : ∀ (pos : Nat), ∀ i ∈ located pos its, pos ≤ i.ltell := by
  induction its with
  | nil => intro pos i h; cases h
  | cons it its ih =>
    intro pos i h
    rw [located] at h
    rcases List.mem_cons.1 h with rfl | h
    · simp
    · have := ih _ i h; omega

theorem located_order {dev : Device} (its : List Item) : ∀ {pos e : Nat}, Placed dev pos its e →
    (located pos its).Pairwise fun a b => a.ltell < b.ltell := by
  induction its with
  | nil => intro pos e _; exact .nil
  | cons it its ih =>
    intro pos e h
    rw [located]
    refine .cons (fun i hi => ?_) (ih h.2.2.2)
    have h1 := located_ge _ _ i hi
    have h2 := c45_sum it.record h.1.2.1
    simp only
    omega

theorem found_shift {data : Bytes} {off : Nat} {it : Item} {info : RecordInfo}
    (h : Found (whole data) it info) (ho : off ≤ info.ltell) :
    Found (fromOffset data off) it { info with ltell := info.ltell - off } := by
  refine ⟨h.ok, ?_, h.type⟩
  have := h.here
  unfold At at this ⊢
  simp only [whole, fromOffset] at this ⊢
  rw [List.drop_drop, Nat.add_sub_cancel' ho]
  exact this

/-- The records of a file in the whole, and an index of them relative to an offset. -/
theorem listed_shift {data : Bytes} {off pos e : Nat} {its : List Item} {ix : Index}
    (h : Placed (whole data) pos its e)
    (hp : places (off, ix) = ((located pos its).filter (! implicit ·), (located pos its).filter implicit)) :
    Listed (fromOffset data off) ix its
      ((located pos its).map fun i => { i with ltell := i.ltell - off }) := by
  simp only [places, Prod.mk.injEq] at hp
  have hle : ∀ i ∈ located pos its, off ≤ i.ltell := by
    intro i hi
    by_cases him : implicit i
    · have : i ∈ (located pos its).filter implicit := List.mem_filter.2 ⟨hi, him⟩
      rw [← hp.2] at this
      obtain ⟨a, _, rfl⟩ := List.mem_map.1 this
      simp [shift]
    · have : i ∈ (located pos its).filter (! implicit ·) := List.mem_filter.2 ⟨hi, by simpa using him⟩
      rw [← hp.1] at this
      obtain ⟨a, _, rfl⟩ := List.mem_map.1 this
      simp [shift]
  have hback : ∀ l : List RecordInfo, (l.map (shift off)).map
      (fun i : RecordInfo => { i with ltell := i.ltell - off }) = l := by
    intro l
    rw [List.map_map]
    conv_rhs => rw [← List.map_id l]
    refine List.map_congr_left fun a _ => ?_
    simp [shift]
  have himp : ∀ i : RecordInfo, implicit { i with ltell := i.ltell - off } = implicit i := fun _ => rfl
  refine ⟨?_, ?_, ?_, ?_⟩
  · rw [List.forall₂_map_right_iff]
    have hf := found_placed its h
    rw [List.forall₂_iff_get] at hf ⊢
    refine ⟨hf.1, fun i h1 h2 => found_shift (hf.2 i h1 h2) (hle _ (List.get_mem _ _))⟩
  · rw [List.pairwise_map]
    refine (located_order its h).imp_of_mem fun {a b} ha hb hab => ?_
    have := hle a ha
    have := hle b hb
    simp only
    omega
  · rw [← hback ix.explicits, hp.1, List.filter_map]
    rfl
  · rw [← hback ix.implicits, hp.2, List.filter_map]
    rfl

namespace Spec

/-- The logical files. -/
def fileParts : List Part → List (List Item)
  | [] => []
  | .mark _ :: ps => fileParts ps
  | .file its :: ps => its :: fileParts ps

end Spec

theorem placed_split {dev : Device} (a b : List Item) : ∀ {pos e : Nat}, Placed dev pos (a ++ b) e →
    Placed dev pos a (pos + extent a) ∧ Placed dev (pos + extent a) b e := by
  induction a with
  | nil => intro pos e h; exact ⟨rfl, by simpa [extent] using h⟩
  | cons it a ih =>
    intro pos e h
    obtain ⟨h1, h2, h3, h4⟩ := h
    obtain ⟨h5, h6⟩ := ih h4
    rw [extent, show pos + (it.pad + it.record.size + extent a) =
      pos + it.pad + it.record.size + extent a by omega]
    exact ⟨⟨h1, h2, h3, h5⟩, h6⟩

theorem listed_files {data : Bytes} (ps : List Part) : ∀ {pos e : Nat} (files : List LogFile),
    Placed (whole data) pos (itemsOf ps) e →
    files.map (fun f => places (f.offset, f.index)) = filesOf (eventsOf pos ps) →
    List.Forall₂ (fun its f => ∃ infos, Listed (fromOffset data f.offset) f.index its infos)
      (fileParts ps) files := by
  induction ps with
  | nil =>
    intro pos e files _ h
    have : files = [] := by simpa [eventsOf, filesOf] using h
    subst this
    exact .nil
  | cons p ps ih =>
    intro pos e files hp h
    rw [itemsOf] at hp
    obtain ⟨h1, h2⟩ := placed_split _ _ hp
    cases p with
    | mark it => exact ih files h2 h
    | file its =>
      cases files with
      | nil => simp [eventsOf, filesOf] at h
      | cons f files =>
        simp only [eventsOf, filesOf, List.map_cons, List.cons.injEq] at h
        exact .cons ⟨_, listed_shift h1 h.1⟩ (ih files h2 h.2)

/-- **C62** (loaded files).  The logical files that `load` returns are those in the file, one
by one; in each, the index is one of exactly its records, so that the theorems above say what
`parse_records`, `header` and `trailer` return.  (Under the conditions of `c54_load_partial`.) -/
theorem c62_loaded_partial (data : Bytes) (ps : List Part) (e k : Nat) (x : Byte) (hx : Blank x)
    (hd : data.drop e = List.replicate k x) (hps : ps ≠ []) (hpr : Proper ps)
    (hpl : Placed (whole data) 0 (itemsOf ps) e) (h12 : 12 ≤ data.length)
    (htm : ∀ tm, parseTapemark data = some tm → validTapemark tm = false)
    (raises : Bool) (n : Nat) (hn : ps.length < n) :
    ∃ s, load (plainDisk data) raises n = some (false, s) ∧
      List.Forall₂ (fun its f => ∃ infos, Listed (fromOffset data f.offset) f.index its infos)
        (fileParts ps) s.files := by
  obtain ⟨s, h1, h2, -⟩ := c54_load_partial data ps e k x hx hd hps hpr hpl h12 htm raises n hn
  exact ⟨s, h1, listed_files ps s.files hpl h2⟩

/-! ### Cases -/

/-- A file header, two comments, a data record between them, an operator command, and a
trailer that is too short. -/
def Spec.exNotes : List Item :=
  [exPlain 0 128 (List.replicate 56 0x41), exPlain 0 232 [0x68, 0x69], exPlain 0 0 [5],
   exPlain 0 224 [0x67, 0x6f], exPlain 7 232 [0x62, 0x79, 0x65], exPlain 0 129 [1]]

example :
    let dev := whole (fileBytes exNotes)
    let ix := indexRecords dev 0
    parseRecords dev ix 232 = .ok [.text 232 [0x68, 0x69], .text 232 [0x62, 0x79, 0x65]] ∧
    parseRecords dev ix 224 = .ok [.text 224 [0x67, 0x6f]] ∧
    parseRecords dev ix 225 = .ok [] ∧ parseRecords dev ix 0 = .ok [] ∧
    onlyRecord dev ix 128 = .ok (some (.file 128 (fileRecord (List.replicate 56 0x41)))) ∧
    onlyRecord dev ix 129 = .throws := by
  decide +kernel

example : (ofType 232 exNotes (located 0 exNotes)).map (fun p => (p.1.record.data, p.2.ltell)) =
    [([0x68, 0x69], 62), ([0x62, 0x79, 0x65], 92)] := by decide +kernel

/-- A file with three logical files. -/
example : fileParts exParts = [[exPlain 0 128 [3], exPlain 0 64 [4], exPlain 0 0 [5]],
    [exPlain 5 128 [6], exPlain 0 129 []], [exPlain 0 34 [10, 10], exPlain 0 137 []]] := rfl

example : parseRaw 130 (some (List.replicate 126 0x20)) =
    .ok (some (.tape 130 (tapeRecord (List.replicate 126 0x20)))) ∧
    parseRaw 131 (some (List.replicate 125 0x20)) = .throws ∧ parseRaw 133 none = .ok none := by
  decide +kernel

end Dlisio.Lis
