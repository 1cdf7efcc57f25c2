import Verif.Lis.LogicalFile
/-
C75: the methods of a LIS logical file that return its records, python/dlisio/lis/file.py, and
`InformationRecord.table_name`, python/dlisio/lis/information_record.py.

Simplification: `DataFormatSpec(r)` and `InformationRecord(r)` hold the parsed record `r` and
nothing else that was read (dataformatspec.py:39-41, information_record.py:37-38), they are
modelled by it.  What is logged when there is no header or trailer is left out.
-/
namespace Dlisio.Lis

open _root_.Dlisio.Lis.Spec

/-! ### Model -/

/-- `lis::record_type`, lis/protocol.hpp:90-123, as far as there are parsing rules. -/
inductive RecordType where
  | jobIdentification | wellsiteData | toolStringInfo | dataFormatSpec | fileHeader | fileTrailer
  | opCommandInputs | opResponseInputs | systemOutputs | flicComment
deriving DecidableEq

/-- The values of `lis::record_type`, lis/protocol.hpp:93-119. -/
def RecordType.value : RecordType → Nat
  | .jobIdentification => 32
  | .wellsiteData => 34
  | .toolStringInfo => 39
  | .dataFormatSpec => 64
  | .fileHeader => 128
  | .fileTrailer => 129
  | .opCommandInputs => 224
  | .opResponseInputs => 225
  | .systemOutputs => 227
  | .flicComment => 232

/-- `record_type_str`, lis/protocol.cpp:128-167. -/
def recordTypeStr (type : Nat) : String :=
  match type with
  | 0 => "Normal Data"
  | 1 => "Alternate Data"
  | 32 => "Job Identification"
  | 34 => "Wellsite Data"
  | 39 => "Tool String Info"
  | 42 => "Encrypted Table Dump"
  | 47 => "Table Dump"
  | 64 => "Data Format Specification"
  | 65 => "Data Descriptor"
  | 95 => "TU10 Software Boot"
  | 96 => "Bootstrap Loader"
  | 97 => "CP-Kernel Loader Boot"
  | 100 => "Program File Header"
  | 101 => "Program Overlay Header"
  | 102 => "Program Overlay Load"
  | 128 => "File Header"
  | 129 => "File Trailer"
  | 130 => "Tape Header"
  | 131 => "Tape Trailer"
  | 132 => "Reel Header"
  | 133 => "Reel Trailer"
  | 137 => "Logical EOF"
  | 138 => "Logical BOT"
  | 139 => "Logical EOT"
  | 141 => "Logical EOM"
  | 224 => "Operator Command Inputs"
  | 225 => "Operator Response Inputs"
  | 227 => "System Outputs to Operator"
  | 232 => "FLIC Comment"
  | 234 => "Blank Record/CSU Comment"
  | 85 => "Picture"
  | 86 => "Image"
  | _ => "Invalid LIS79 Record Type"

/-- `LogicalFile.data_format_specs`, file.py:197-216. -/
def dataFormatSpecs (dev : Device) (ix : Index) : Parsed (List Content) :=
  parseRecords dev ix RecordType.dataFormatSpec.value

/-- `LogicalFile.job_identification`, file.py:218-227. -/
def jobIdentification (dev : Device) (ix : Index) : Parsed (List Content) :=
  parseRecords dev ix RecordType.jobIdentification.value

/-- `LogicalFile.wellsite_data`, file.py:229-238. -/
def wellsiteData (dev : Device) (ix : Index) : Parsed (List Content) :=
  parseRecords dev ix RecordType.wellsiteData.value

/-- `LogicalFile.tool_string_info`, file.py:240-249. -/
def toolStringInfo (dev : Device) (ix : Index) : Parsed (List Content) :=
  parseRecords dev ix RecordType.toolStringInfo.value

/-- `LogicalFile.operator_command_inputs`, file.py:251-259. -/
def operatorCommandInputs (dev : Device) (ix : Index) : Parsed (List Content) :=
  parseRecords dev ix RecordType.opCommandInputs.value

/-- `LogicalFile.operator_response_inputs`, file.py:261-269. -/
def operatorResponseInputs (dev : Device) (ix : Index) : Parsed (List Content) :=
  parseRecords dev ix RecordType.opResponseInputs.value

/-- `LogicalFile.system_outputs_to_operator`, file.py:271-279. -/
def systemOutputsToOperator (dev : Device) (ix : Index) : Parsed (List Content) :=
  parseRecords dev ix RecordType.systemOutputs.value

/-- `LogicalFile.flic_comment`, file.py:281-289. -/
def flicComment (dev : Device) (ix : Index) : Parsed (List Content) :=
  parseRecords dev ix RecordType.flicComment.value

/-- `LogicalFile.header`, file.py:142-166. -/
def fileHeader (dev : Device) (ix : Index) : Parsed (Option Content) :=
  onlyRecord dev ix RecordType.fileHeader.value

/-- `LogicalFile.trailer`, file.py:168-192. -/
def fileTrailer (dev : Device) (ix : Index) : Parsed (Option Content) :=
  onlyRecord dev ix RecordType.fileTrailer.value

/-- `InformationRecord.table_name`, information_record.py:73-96; `none` is the `ValueError`. -/
def tableName (cs : List Component) : Option Value :=
  if !isStructured cs then none else cs.head?.map (·.value)

/-! ### Specification -/

namespace Spec

/-- The methods that return a list, with the number that LIS79 has for the records. -/
def listMethods : List ((Device → Index → Parsed (List Content)) × Nat) :=
  [(jobIdentification, 32), (wellsiteData, 34), (toolStringInfo, 39), (dataFormatSpecs, 64),
   (operatorCommandInputs, 224), (operatorResponseInputs, 225), (systemOutputsToOperator, 227),
   (flicComment, 232)]

/-- The numbers of the records that can be parsed. -/
def parsedTypes : List Nat := [32, 34, 39, 64, 128, 129, 224, 225, 227, 232]

end Spec

/-! ### Proofs -/

/-- **C75** (record types).  The names of the types, which are in the messages of exceptions, tell
the types of LIS79 apart, and no other number has one of them. -/
theorem c75_names (a b : Nat) :
    (recordTypeStr a = "Invalid LIS79 Record Type" ↔ a ∉ types) ∧
    (a ∈ types → recordTypeStr a = recordTypeStr b → a = b) := by
  have h1 : ∀ t, t ∉ types → recordTypeStr t = "Invalid LIS79 Record Type" := by
    intro t ht
    unfold recordTypeStr
    split <;> first | rfl | exact absurd (by decide) ht
  have h2 : ∀ t ∈ types, recordTypeStr t ≠ "Invalid LIS79 Record Type" := by decide
  have h3 : ∀ t ∈ types, ∀ u ∈ types, recordTypeStr t = recordTypeStr u → t = u := by decide
  refine ⟨⟨fun h ha => h2 a ha h, h1 a⟩, fun ha h => ?_⟩
  by_cases hb : b ∈ types
  · exact h3 a ha b hb h
  · exact absurd (h.trans (h1 b hb)) (h2 a ha)

/-- **C75** (lists).  Each method that returns a list gives what the records with its number in
LIS79 stand for, each once and in the order of the file, and no others; if one of them stands for
nothing there is an exception. -/
theorem c75_lists {dev : Device} {ix : Index} {its : List Item} {infos : List RecordInfo}
    (h : Listed dev ix its infos) {m : Device → Index → Parsed (List Content)} {t : Nat}
    (hm : (m, t) ∈ listMethods) :
    (∀ cs, m dev ix = .ok cs ↔ List.Forall₂
      (fun p c => Means p.2.ltell t p.1.record.data c) (ofType t its infos) cs) ∧
    m dev ix ≠ .overrun := by
  have key : m dev ix = parseRecords dev ix t ∧ t ≠ 0 ∧ t ≠ 1 := by
    simp only [listMethods, List.mem_cons, Prod.mk.injEq, List.not_mem_nil, or_false] at hm
    rcases hm with ⟨rfl, rfl⟩ | ⟨rfl, rfl⟩ | ⟨rfl, rfl⟩ | ⟨rfl, rfl⟩ | ⟨rfl, rfl⟩ | ⟨rfl, rfl⟩ |
      ⟨rfl, rfl⟩ | ⟨rfl, rfl⟩ <;> exact ⟨rfl, by decide, by decide⟩
  rw [key.1]
  exact c62_records h t key.2

/-- **C75** (header and trailer).  They are what the only record with the number 128, or 129, stands
for; `None` if there is none; an exception if there are several. -/
theorem c75_ends {dev : Device} {ix : Index} {its : List Item} {infos : List RecordInfo}
    (h : Listed dev ix its infos) :
    ∀ m t, (m, t) ∈ [(fileHeader, 128), (fileTrailer, 129)] →
    (ofType t its infos = [] → m dev ix = .ok none) ∧
    (∀ p, ofType t its infos = [p] → ∀ c, m dev ix = .ok c ↔
      ∃ c', c = some c' ∧ Means p.2.ltell t p.1.record.data c') ∧
    (1 < (ofType t its infos).length → m dev ix = .throws) := by
  intro m t hm
  simp only [List.mem_cons, Prod.mk.injEq, List.not_mem_nil, or_false] at hm
  rcases hm with ⟨rfl, rfl⟩ | ⟨rfl, rfl⟩
  · exact c62_only h 128 (by decide)
  · exact c62_only h 129 (by decide)

/-- the elements with the keys of a list, key by key -/
theorem perm_by_key {α : Type} (key : α → Nat) (l : List α) : ∀ ts : List Nat, ts.Nodup →
    (ts.flatMap fun t => l.filter fun a => key a = t).Perm (l.filter fun a => key a ∈ ts) := by
  intro ts
  induction ts with
  | nil => intro _; simp
  | cons t ts ih =>
    intro hn
    rw [List.nodup_cons] at hn
    rw [List.flatMap_cons]
    refine ((ih hn.2).append_left _).trans ?_
    clear ih
    induction l with
    | nil => simp
    | cons a l ih =>
      simp only [List.filter_cons]
      by_cases h1 : key a = t
      · have h2 : key a ∉ ts := by rw [h1]; exact hn.1
        simpa [h1, h2, hn.1] using ih
      · by_cases h2 : key a ∈ ts
        · simp only [h1, h2, decide_false, Bool.false_eq_true, if_false, decide_true, if_true,
            List.mem_cons, or_true]
          refine List.perm_middle.trans ?_
          simpa using ih
        · simpa [h1, h2] using ih

/-- **C75** (all records).  Let all records with one of the numbers of `parsedTypes` stand for
something, and let there be at most one header and one trailer.  Then the methods raise no exception,
and what they return taken together is what these records stand for: none is missed, none is returned
twice or by two of the methods, and nothing else is returned. -/
theorem c75_all {dev : Device} {ix : Index} {its : List Item} {infos : List RecordInfo}
    (h : Listed dev ix its infos)
    (hmeans : ∀ p ∈ its.zip infos, p.1.record.type.toNat ∈ parsedTypes →
      ∃ c, Means p.2.ltell p.1.record.type.toNat p.1.record.data c)
    (hh : (ofType 128 its infos).length ≤ 1) (ht : (ofType 129 its infos).length ≤ 1) :
    ∃ (lists : List (List Content)) (hdr trl : Option Content) (cs : List Content),
      (listMethods.map fun m => m.1 dev ix) = lists.map Parsed.ok ∧
      fileHeader dev ix = .ok hdr ∧ fileTrailer dev ix = .ok trl ∧
      List.Forall₂ (fun p c => Means p.2.ltell p.1.record.type.toNat p.1.record.data c)
        ((its.zip infos).filter fun p => p.1.record.type.toNat ∈ parsedTypes) cs ∧
      (lists.flatten ++ hdr.toList ++ trl.toList).Perm cs := by
  classical
  -- what a record stands for
  have hg : ∃ g : Item × RecordInfo → Content, ∀ p ∈ its.zip infos,
      p.1.record.type.toNat ∈ parsedTypes →
      Means p.2.ltell p.1.record.type.toNat p.1.record.data (g p) := by
    refine ⟨fun p => if h : ∃ c, Means p.2.ltell p.1.record.type.toNat p.1.record.data c then
      h.choose else .text 0 [], fun p hp ht => ?_⟩
    have := hmeans p hp ht
    simp only [this, dif_pos]
    exact this.choose_spec
  obtain ⟨g, hg⟩ := hg
  have hmap : ∀ (l : List (Item × RecordInfo)), (∀ p ∈ l, p ∈ its.zip infos ∧
      p.1.record.type.toNat ∈ parsedTypes) →
      List.Forall₂ (fun p c => Means p.2.ltell p.1.record.type.toNat p.1.record.data c) l (l.map g) := by
    intro l hl
    induction l with
    | nil => exact .nil
    | cons a l ih =>
      exact .cons (hg a (hl a (by simp)).1 (hl a (by simp)).2) (ih fun p hp => hl p (by simp [hp]))
  have hof : ∀ t ∈ parsedTypes, ∀ p ∈ ofType t its infos, p ∈ its.zip infos ∧
      p.1.record.type.toNat = t := by
    intro t _ p hp
    have := List.mem_filter.1 hp
    exact ⟨this.1, by simpa using this.2⟩
  have hlist : ∀ m t, (m, t) ∈ listMethods → t ∈ parsedTypes →
      m dev ix = .ok ((ofType t its infos).map g) := by
    intro m t hm htp
    refine ((c75_lists h hm).1 _).2 ?_
    have := hmap (ofType t its infos) fun p hp => by
      obtain ⟨h1, h2⟩ := hof t htp p hp
      exact ⟨h1, by rw [h2]; exact htp⟩
    rw [List.forall₂_map_right_iff] at this ⊢
    rw [List.forall₂_same] at this ⊢
    intro p hp
    have h3 := this p hp
    rwa [(hof t htp p hp).2] at h3
  have hend : ∀ m t, (m, t) ∈ [(fileHeader, 128), (fileTrailer, 129)] → t ∈ parsedTypes →
      (ofType t its infos).length ≤ 1 →
      ∃ c, m dev ix = .ok c ∧ c.toList = (ofType t its infos).map g := by
    intro m t hm htp hl
    obtain ⟨h1, h2, -⟩ := c75_ends h m t hm
    match ho : ofType t its infos, hl with
    | [], _ => exact ⟨none, h1 ho, rfl⟩
    | [p], _ =>
      refine ⟨some (g p), (h2 p ho _).2 ⟨_, rfl, ?_⟩, rfl⟩
      obtain ⟨h3, h4⟩ := hof t htp p (by rw [ho]; simp)
      have := hg p h3 (by rw [h4]; exact htp)
      rwa [h4] at this
  obtain ⟨hdr, e1, e2⟩ := hend fileHeader 128 (by simp) (by decide) hh
  obtain ⟨trl, e3, e4⟩ := hend fileTrailer 129 (by simp) (by decide) ht
  refine ⟨listMethods.map fun m => (ofType m.2 its infos).map g, hdr, trl, _, ?_, e1, e3,
    hmap _ fun p hp => ?_, ?_⟩
  · rw [List.map_map]
    refine List.map_congr_left fun m hm => hlist m.1 m.2 hm ?_
    have : ∀ t ∈ listMethods.map (·.2), t ∈ parsedTypes := by decide
    exact this _ (List.mem_map_of_mem hm)
  · have := List.mem_filter.1 hp
    exact ⟨this.1, by simpa using this.2⟩
  · rw [e2, e4]
    have hp := (perm_by_key (fun p : Item × RecordInfo => p.1.record.type.toNat) (its.zip infos)
      (listMethods.map (·.2) ++ [128, 129]) (by decide)).map g
    have hts : ∀ n, n ∈ listMethods.map (·.2) ++ [128, 129] ↔ n ∈ parsedTypes := by
      intro n
      simp only [listMethods, parsedTypes, List.map_cons, List.map_nil, List.cons_append,
        List.nil_append, List.mem_cons, List.not_mem_nil, or_false]
      omega
    simp only [hts] at hp
    refine List.Perm.trans (List.Perm.of_eq ?_) hp
    rw [List.flatMap_append, List.map_append, List.append_assoc]
    congr 1
    · rw [List.flatMap_def, List.map_flatten, List.map_map, List.map_map]
      rfl
    · simp [ofType]

/-- **C75** (name of the table).  In a record of component blocks `table_name` raises unless the
first block has the type 73, and else it gives the value of this block; it raises for the same
records as `table` does for not being structured. -/
theorem c75_table_name (rs : List RawComponent) (label : Bytes → Option Text) :
    (∀ v, tableName (rs.map RawComponent.component) = some v ↔
      ∃ c rest, rs = c :: rest ∧ c.type = 73 ∧ v = content c.code.toNat c.payload) ∧
    (tableName (rs.map RawComponent.component) = none ↔
      table label (rs.map RawComponent.component) = .error .unstructured) := by
  have h73 : ∀ b : Byte, b.toNat = 73 ↔ b = 73 := fun b =>
    ⟨fun h => BitVec.eq_of_toNat_eq h, fun h => by rw [h]; rfl⟩
  cases rs with
  | nil => exact ⟨fun v => by simp [tableName, isStructured], by simp [tableName, table, isStructured]⟩
  | cons c rest =>
    by_cases hc : c.type = 73
    · have hs : isStructured ((c :: rest).map RawComponent.component) = true := by
        simp [isStructured, RawComponent.component, hc]
      refine ⟨fun v => ?_, ?_⟩
      · unfold tableName
        rw [hs]
        simp only [Bool.not_true, Bool.false_eq_true, if_false, List.map_cons,
          List.head?_cons, Option.map_some, Option.some.injEq, RawComponent.component]
        constructor
        · rintro rfl; exact ⟨c, rest, rfl, hc, rfl⟩
        · rintro ⟨c', rest', h, -, rfl⟩
          obtain ⟨rfl, rfl⟩ := List.cons.inj h
          rfl
      · rw [List.map_cons] at hs ⊢
        constructor
        · intro h; simp [tableName, hs] at h
        · intro h
          exfalso
          unfold table at h
          rw [hs] at h
          simp only [Bool.not_true, Bool.false_eq_true, if_false] at h
          split at h
          · rename_i h'; cases h'
          · cases h
          · split at h
            · cases h
            · split at h <;> cases h
    · have hs : isStructured ((c :: rest).map RawComponent.component) = false := by
        simp only [List.map_cons, isStructured, RawComponent.component, decide_eq_false_iff_not, h73]
        exact hc
      refine ⟨fun v => ?_, by unfold tableName table; rw [hs]; simp⟩
      simp only [tableName, hs, Bool.not_false, if_true, reduceCtorEq, false_iff]
      rintro ⟨c', rest', h, h', -⟩
      obtain ⟨rfl, rfl⟩ := List.cons.inj h
      exact hc h'

/-! ### Cases -/

/-- A record of each kind, and a record that none of the methods returns. -/
def Spec.exKinds : List Item :=
  [exPlain 0 128 (List.replicate 56 0x41), exPlain 0 232 [0x68, 0x69], exPlain 0 34 (componentBytes exRecord),
   exPlain 0 47 [1, 2], exPlain 0 224 [0x67, 0x6f], exPlain 0 225 [0x6f, 0x6b], exPlain 0 32 [],
   exPlain 0 227 [0x62], exPlain 0 39 [], exPlain 0 0 [1], exPlain 3 232 [],
   exPlain 0 129 (List.replicate 56 0x42)]

example :
    let dev := whole (fileBytes exKinds)
    let ix := indexRecords dev 0
    flicComment dev ix = .ok [.text 232 [0x68, 0x69], .text 232 []] ∧
    wellsiteData dev ix = .ok [.info 34 (exRecord.map RawComponent.component)] ∧
    jobIdentification dev ix = .ok [.info 32 []] ∧ toolStringInfo dev ix = .ok [.info 39 []] ∧
    operatorCommandInputs dev ix = .ok [.text 224 [0x67, 0x6f]] ∧
    operatorResponseInputs dev ix = .ok [.text 225 [0x6f, 0x6b]] ∧
    systemOutputsToOperator dev ix = .ok [.text 227 [0x62]] ∧ dataFormatSpecs dev ix = .ok [] ∧
    fileHeader dev ix = .ok (some (.file 128 (fileRecord (List.replicate 56 0x41)))) ∧
    fileTrailer dev ix = .ok (some (.file 129 (fileRecord (List.replicate 56 0x42)))) := by
  decide +kernel

example : tableName (exRecord.map RawComponent.component) = some (.string [67, 79, 78, 83]) ∧
    tableName ((exRecord.drop 1).map RawComponent.component) = none := by decide +kernel

example : recordTypeStr 34 = "Wellsite Data" ∧ recordTypeStr 33 = "Invalid LIS79 Record Type" := by
  decide

end Dlisio.Lis
