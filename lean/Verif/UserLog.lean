import Verif.Dlis.LookupLog
import Verif.Dlis.Label
import Verif.Lis.Accessors
/-
What is said about storage labels (`LogicalFile.storage_label`, python/dlisio/dlis/file.py:670-673, and
python/dlisio/ext/dlis.cpp:188-245), fingerprints (ext/dlis.cpp:247-267, lib/include/dlisio/dlis/types.hpp:176-207)
and tables (python/dlisio/lis/information_record.py:40-42, 91-96 and 143-156).  C96.
-/
namespace Dlisio.Dlis

open _root_.Dlisio.Dlis.Spec
open _root_.Dlisio.Lis (literalChars)

/-! ## Model -/

/-- What is said about a label: in the log, or as a `RuntimeWarning`. -/
inductive LabelNote where
  | log (t : Text)
  | warning (t : Text)
deriving DecidableEq

/-- The exceptions of `storage_label`: `ValueError`, a warning that was made an exception, and that of the
conversion of the identifier. -/
inductive LabelError where
  | value (t : Text)
  | warning (t : Text)
  | unicode
deriving DecidableEq

/-- The text of ext/dlis.cpp:191-195. -/
def smallText (n : Nat) : Text :=
  text "buffer to small: buffer.size (which is " ++ Text.ofNat n ++ text ") < " ++ text "n (which is " ++
    Text.ofNat 80 ++ text ")"

/-- The text of ext/dlis.cpp:225-226. -/
def inconsistentText : Text :=
  text "storage unit label inconsistent with " ++ text "specification. Inconsistent values defaulted"

/-- `LogicalFile.storage_label`, file.py:662-673, with ext/dlis.cpp:188-245; `strict` is as in
`LogFile.storageLabel`. -/
def LogFile.explainLabel (strict : Bool) (g : LogFile) : List LabelNote × Except LabelError PyLabel :=
  match g.sul with
  | none => ([.log (text "file has no storage unit label")], .ok .nothing)
  | some sul =>
    if sul = [] then ([.log (text "file has no storage unit label")], .ok .nothing)
    else
      match Dlis.storageLabel sul with
      | .tooSmall => ([], .error (.value (smallText sul.length)))
      | .unparsable => ([], .error (.value (text "unable to parse storage label")))
      | .label warned seq major minor layout maxlen id =>
        if warned && strict then ([], .error (.warning inconsistentText))
        else
          let ns := if warned then [.warning inconsistentText] else []
          match utf8Decode id with
          | none => (ns, .error .unicode)
          | some t => (ns, .ok (.dict warned seq (intText major ++ text "." ++ intText minor)
              (if layout then text "record" else text "unknown") maxlen t))

/-- `fingerprint` of the extension, ext/dlis.cpp:247-267, with the texts of its exceptions and of those of
`obname::fingerprint`, types.hpp:191-192 and 203-204. -/
def explainFingerprint (type id : Bytes) (origin copy : Int) : Except Text Bytes :=
  if copy > 255 then .error (text "Invalid argument, copy out of range")
  else if copy < 0 then .error (text "Invalid argument, copy out of range")
  else
    match fingerprintSize type id origin copy.toNat with
    | none => .error (text "invalid argument")
    | some size =>
      match fingerprintBytes type id origin copy.toNat with
      | none => .error (text "fingerprint: something went wrong")
      | some bs => .ok ((bs ++ List.replicate (size - bs.length) 0).take size)

/-! ## Specification -/

/-- A label that is written as the standard says, apart from its identifier. -/
def Spec.LabelConsistent (f1 f2 f3 f4 : Bytes) : Prop :=
  (∃ k, 0 < k ∧ Spec.Number f1 k) ∧ Spec.Version f2 1 0 ∧ f3 = Spec.RECORD ∧ ∃ k, Spec.Number f4 k

/-- There is an exception exactly if the identifier, up to the first NUL, is not UTF-8. -/
def Spec.IdentTold (f5 : Bytes) (r : Option LabelError) : Prop :=
  ∃ raw, Spec.UptoNul raw f5 ∧ ((r = none ∧ ∃ t, Spec.Utf8 t raw) ∨ (r = some .unicode ∧ ∀ t, ¬ Spec.Utf8 t raw))

/-- What is said about a label, and whether there is an exception with a text. -/
inductive Spec.LabelTold (strict : Bool) (sul : Bytes) : List LabelNote → Option LabelError → Prop
  | absent : sul = [] → LabelTold strict sul [.log (text "file has no storage unit label")] none
  | short : sul ≠ [] → sul.length < 80 → LabelTold strict sul [] (some (.value
      (text "buffer to small: buffer.size (which is " ++ Text.ofNat sul.length ++ text ") < n (which is 80)")))
  | version {f1 f2 f3 f4 f5} (M m : Nat) : Spec.Label sul f1 f2 f3 f4 f5 →
      Spec.Version f2 M m → ¬ (M = 1 ∧ m = 0) →
      LabelTold strict sul [] (some (.value (text "unable to parse storage label")))
  | refused {f1 f2 f3 f4 f5} : Spec.Label sul f1 f2 f3 f4 f5 → (∀ M m, Spec.Version f2 M m → M = 1 ∧ m = 0) →
      ¬ Spec.LabelConsistent f1 f2 f3 f4 → strict = true →
      LabelTold strict sul [] (some (.warning
        (text "storage unit label inconsistent with specification. Inconsistent values defaulted")))
  | warned {f1 f2 f3 f4 f5} (r : Option LabelError) : Spec.Label sul f1 f2 f3 f4 f5 →
      (∀ M m, Spec.Version f2 M m → M = 1 ∧ m = 0) → ¬ Spec.LabelConsistent f1 f2 f3 f4 → strict = false →
      Spec.IdentTold f5 r → LabelTold strict sul
        [.warning (text "storage unit label inconsistent with specification. Inconsistent values defaulted")] r
  | fine {f1 f2 f3 f4 f5} (r : Option LabelError) : Spec.Label sul f1 f2 f3 f4 f5 →
      Spec.LabelConsistent f1 f2 f3 f4 →
      Spec.IdentTold f5 r → LabelTold strict sul [] r

/-- The exception, if there is one. -/
def failureOf {ε α : Type} : Except ε α → Option ε
  | .error x => some x
  | .ok _ => none

/-! ## Theorems -/

/-- C96.  With or without texts, `storage_label` gives the same. -/
theorem c96_label_plain (strict : Bool) (g : LogFile) :
    (match (g.explainLabel strict).2 with | .ok l => l | .error _ => .raises) = g.storageLabel strict := by
  unfold LogFile.explainLabel LogFile.storageLabel
  cases g.sul with
  | none => rfl
  | some sul =>
    dsimp only
    by_cases h : sul = []
    · rw [if_pos h, if_pos h]
    · rw [if_neg h, if_neg h]
      cases Dlis.storageLabel sul with
      | tooSmall => rfl
      | unparsable => rfl
      | label w q M m lay l id =>
        dsimp only
        by_cases hw : (w && strict) = true
        · rw [if_pos hw, if_pos hw]
        · rw [if_neg hw, if_neg hw]
          cases utf8Decode id <;> rfl

/-- C96.  What is said about a storage label is true, and exactly what is wrong with it is said: that
there is none, that it is too short, that it is of another version, or that it is inconsistent.  (A
label that was not read is as good as an empty one.) -/
theorem c96_label (strict : Bool) (g : LogFile) :
    Spec.LabelTold strict (g.sul.getD []) (g.explainLabel strict).1 (failureOf (g.explainLabel strict).2) := by
  have hinc : inconsistentText =
      text "storage unit label inconsistent with specification. Inconsistent values defaulted" := by
    unfold inconsistentText; simp only [text, literalChars]; rfl
  have hsmall : ∀ n, smallText n =
      text "buffer to small: buffer.size (which is " ++ Text.ofNat n ++ text ") < n (which is 80)" := by
    intro n
    unfold smallText
    rw [show Text.ofNat 80 = text "80" by decide +kernel]
    generalize Text.ofNat n = a
    simp only [text, literalChars, List.append_assoc]; rfl
  unfold LogFile.explainLabel
  cases hg : g.sul with
  | none => exact .absent rfl
  | some sul =>
    dsimp only [Option.getD]
    by_cases hne : sul = []
    · rw [if_pos hne]; exact .absent hne
    · rw [if_neg hne]
      by_cases hlen : sul.length < 80
      · rw [(c13_too_small sul).2 hlen, hsmall]
        exact .short hne hlen
      · obtain ⟨f1, f2, f3, f4, f5, hl⟩ := c13_label_exists sul (by omega)
        rcases hs : Dlis.storageLabel sul with _ | _ | ⟨w, q, M, m, lay, l, s⟩
        · exact absurd ((c13_too_small sul).1 hs) hlen
        · obtain ⟨M, m, h1, h2⟩ := (c13_rejected hl).1 hs
          exact .version M m hl h1 h2
        · have hu := (c13_defaulted hl hs).2.2.2.2.2.2.2.1
          have hd := (c13_defaulted hl hs).2.2.2.2.2.2.2.2
          have hv : ∀ M m, Spec.Version f2 M m → M = 1 ∧ m = 0 := by
            intro M m hM
            by_contra hn
            have := (c13_rejected hl).2 ⟨M, m, hM, hn⟩
            rw [hs] at this; cases this
          have hi : Spec.IdentTold f5 (match utf8Decode s with | none => some .unicode | some _ => none) := by
            refine ⟨s, hu, ?_⟩
            cases hx : utf8Decode s with
            | none => exact .inr ⟨rfl, fun t ht => by rw [(utf8Decode_iff s t).2 ht] at hx; cases hx⟩
            | some t => exact .inl ⟨rfl, t, (utf8Decode_iff s t).1 hx⟩
          dsimp only
          rw [hinc]
          cases w with
          | true =>
            have hc : ¬ Spec.LabelConsistent f1 f2 f3 f4 := hd.1 rfl
            cases strict with
            | true => exact .refused hl hv hc rfl
            | false =>
              simp only [Bool.and_false, Bool.false_eq_true, if_false, if_true]
              revert hi
              cases utf8Decode s with
              | none => exact fun hi => .warned _ hl hv hc rfl hi
              | some t => exact fun hi => .warned _ hl hv hc rfl hi
          | false =>
            have hc : Spec.LabelConsistent f1 f2 f3 f4 := by
              by_contra hn
              have := hd.2 hn
              cases this
            simp only [Bool.false_and, Bool.false_eq_true, if_false]
            revert hi
            cases utf8Decode s with
            | none => exact fun hi => .fine _ hl hc hi
            | some t => exact fun hi => .fine _ hl hc hi

/-- C96.  With or without texts, `fingerprint` gives the same. -/
theorem c96_fingerprint_plain (type id : Bytes) (origin copy : Int) :
    (explainFingerprint type id origin copy).toOption = pyFingerprint type id origin copy := by
  unfold explainFingerprint pyFingerprint fingerprint
  split
  · rfl
  · split
    · rfl
    · cases fingerprintSize type id origin copy.toNat with
      | none => rfl
      | some n =>
        cases fingerprintBytes type id origin copy.toNat <;> rfl

/-- C96.  That a copy number is out of range is said exactly if it does not fit a byte, that the arguments
are invalid exactly if it does, and there is no type or the origin is negative; nothing else is said. -/
theorem c96_fingerprint (type id : Bytes) (origin copy : Int) (t : Text) :
    explainFingerprint type id origin copy = .error t ↔
      (t = text "Invalid argument, copy out of range" ∧ ¬ (0 ≤ copy ∧ copy ≤ 255)) ∨
      (t = text "invalid argument" ∧ (0 ≤ copy ∧ copy ≤ 255) ∧ (type = [] ∨ origin < 0)) := by
  unfold explainFingerprint
  by_cases h1 : copy > 255
  · rw [if_pos h1]
    have hn : ¬ (0 ≤ copy ∧ copy ≤ 255) := by omega
    simp only [Except.error.injEq, hn, not_false_eq_true, and_true, false_and, and_false, or_false]
    exact eq_comm
  rw [if_neg h1]
  by_cases h2 : copy < 0
  · rw [if_pos h2]
    have hn : ¬ (0 ≤ copy ∧ copy ≤ 255) := by omega
    simp only [Except.error.injEq, hn, not_false_eq_true, and_true, false_and, and_false, or_false]
    exact eq_comm
  rw [if_neg h2]
  have hy : 0 ≤ copy ∧ copy ≤ 255 := by omega
  simp only [hy, and_self, not_true, and_false, true_and, false_or]
  by_cases ht : type = []
  · have : fingerprintSize type id origin copy.toNat = none := by simp [fingerprintSize, ht]
    rw [this]
    simp [ht, eq_comm]
  by_cases ho : origin < 0
  · have : fingerprintSize type id origin copy.toNat = none := by simp [fingerprintSize, ho]
    rw [this]
    simp [ho, eq_comm]
  have hl : type.length ≠ 0 := by simpa using ht
  obtain ⟨n, hn⟩ : ∃ n, fingerprintSize type id origin copy.toNat = some n := by simp [fingerprintSize, hl, ho]
  obtain ⟨bs, hb⟩ : ∃ bs, fingerprintBytes type id origin copy.toNat = some bs := by simp [fingerprintBytes, hl]
  rw [hn]
  dsimp only
  rw [hb]
  simp [ht, ho]

/-- C96.  Of the logical files of a file that was loaded, those that follow a label and no others have one: that
there is none is said of a file exactly if none precedes it.  Partial: see `Spec.Medium`, and errors of severity
minor are not to be raised. -/
theorem c96_loaded_partial (policy : Policy) (stale : Nat → Bytes) (hst : ∀ t, 262 ≤ (stale t).length)
    (hp : policy .minor = false) (disk : Disk) (fs : List (Option Bytes × Stored))
    (hm : Spec.Medium policy disk fs) (hl : ∀ x ∈ fs, x.1 ≠ some []) (strict : Bool) :
    ∃ n₀, ∀ n, n₀ ≤ n → ∃ y, load disk policy stale n = (y, .files) ∧
      List.Forall₂ (fun x g =>
        .log (text "file has no storage unit label") ∈ (LogFile.explainLabel strict g).1 ↔ x.1 = none)
        fs y.files := by
  obtain ⟨n₀, h⟩ := c77_load_partial policy stale hst hp disk fs hm
  refine ⟨n₀, fun n hn => ?_⟩
  obtain ⟨y, h1, h2⟩ := h n hn
  refine ⟨y, h1, ?_⟩
  have h3 := List.forall₂_iff_get.1 h2
  refine List.forall₂_iff_get.2 ⟨h3.1, fun i hi hj => ?_⟩
  have hlab := (h3.2 i hi hj).label
  have hx := hl _ (List.get_mem fs ⟨i, hi⟩)
  generalize fs.get ⟨i, hi⟩ = x at hlab hx
  generalize y.files.get ⟨i, hj⟩ = g at hlab
  have hc := c96_label strict g
  rw [hlab] at hc
  cases hs : x.1 with
  | none =>
    unfold LogFile.explainLabel
    rw [hlab, hs]
    simp
  | some sul =>
    rw [hs, Option.getD] at hc
    generalize (LogFile.explainLabel strict g).1 = ns at hc
    generalize failureOf _ = r at hc
    cases hc with
    | absent he => exact absurd (by rw [hs, he]) hx
    | _ => simp

/-! ### Cases -/

open LabelCase

/-- Cases for `c96_label`: no label, one of two bytes, one of version 2, one without a number in the first field,
one whose identifier is not UTF-8, and one that is correct. -/
example :
    (fileWith none).explainLabel true = ([.log (text "file has no storage unit label")], .ok .nothing) ∧
    (fileWith (some [0x20, 0x20])).explainLabel false = ([], .error (.value
      (text "buffer to small: buffer.size (which is 2) < n (which is 80)"))) ∧
    (fileWith (some ([0x20, 0x20, 0x20, 0x31, 0x56, 0x32] ++ (labelWith [0x20, 0x20, 0x20, 0x31] [0x41]).drop 6))
      ).explainLabel false = ([], .error (.value (text "unable to parse storage label"))) ∧
    (fileWith (some (labelWith [0x20, 0x20, 0x41, 0x32] [0x41]))).explainLabel true = ([], .error (.warning
      (text "storage unit label inconsistent with specification. Inconsistent values defaulted"))) ∧
    (fileWith (some (labelWith [0x20, 0x20, 0x41, 0x32] [0xe6]))).explainLabel false = ([.warning
      (text "storage unit label inconsistent with specification. Inconsistent values defaulted")],
      .error .unicode) ∧
    (fileWith (some (labelWith [0x20, 0x20, 0x31, 0x32] [0xc3, 0xa6]))).explainLabel true =
      ([], .ok (.dict false 12 (text "1.0") (text "record") 8192 [0xe6])) := by
  refine ⟨?_, ?_, ?_, ?_, ?_, ?_⟩ <;> decide +kernel

open FromDiskCase EndToEndCase StoreCase in
/-- Case for `c96_loaded_partial`: the file of FromDisk.lean behind a label. -/
example : ∃ n₀, ∀ n, n₀ ≤ n → ∃ y,
    load (rawDisk (labelWith [0x20, 0x20, 0x31, 0x32] [0xc3, 0xa6] ++ [fileOn].flatMap Stored.bytes))
      env.policy exStale n = (y, .files) ∧
      List.Forall₂ (fun (x : Option Bytes × Stored) g =>
        .log (text "file has no storage unit label") ∈ (LogFile.explainLabel true g).1 ↔ x.1 = none)
        [(some (labelWith [0x20, 0x20, 0x31, 0x32] [0xc3, 0xa6]), fileOn)] y.files := by
  have hlab : Spec.StorageLabel (labelWith [0x20, 0x20, 0x31, 0x32] [0xc3, 0xa6]) := by
    refine ⟨by decide, ⟨by rw [occurs_bytes]; decide, ?_⟩, ?_⟩
    · intro j hj
      rw [occurs_bytes]
      revert j
      decide
    · intro b hb
      cases hb
      decide
  exact c96_loaded_partial env.policy exStale
    (fun _ => by rw [exStale, List.length_replicate]) (by decide) _ _
    (.labelled hlab (fs := [fileOn]) (by simpa using loadable_case) (by decide +kernel)) (by
      intro x hx
      simp only [List.map_cons, List.map_nil, List.mem_singleton] at hx
      subst hx
      decide) true

/-- Cases for `c96_fingerprint`. -/
example : explainFingerprint [0x54] [0x49] 1 256 = .error (text "Invalid argument, copy out of range") ∧
    explainFingerprint [] [0x49] 1 2 = .error (text "invalid argument") ∧
    explainFingerprint [0x54] [0x49] (-1) 2 = .error (text "invalid argument") ∧
    (explainFingerprint [0x54] [0x49] 1 2).toOption ≠ none := by
  refine ⟨?_, ?_, ?_, ?_⟩ <;> decide +kernel

end Dlisio.Dlis

namespace Dlisio.Lis

open _root_.Dlisio.Lis.Spec
open _root_.Dlisio.Dlis (pyFormat)

/-! ## Model: tables -/

/-- `InformationRecord.__repr__`, information_record.py:40-42.  How the type is written is arbitrary. -/
def infoText (rectype : Nat → Text) (info : RecordInfo) : Text :=
  pyFormat (text "InformationRecord(type={}, ltell={})") [rectype info.type, Text.ofNat info.ltell]

/-- information_record.py:92-94 and 144-146 -/
def unstructuredText (who : Text) : Text :=
  pyFormat (text "{}: Record is not structured as a table. " ++
    text "Call components() to read CBs from unstructured records") [who]

/-- information_record.py:154-156 -/
def illFormedText (who : Text) : Text :=
  pyFormat (text "{}: Ill-formed record, cannot create table. " ++
    text "Call components() to read content without table-formatting") [who]

/-- `InformationRecord.table_name`, information_record.py:72-96, with the text of the exception. -/
def explainTableName (who : Text) (cs : List Component) : Except Text Value :=
  if !isStructured cs then .error (unstructuredText who)
  else
    match cs with
    | [] => .error (unstructuredText who)
    | c :: _ => .ok c.value

/-- `InformationRecord.table`, information_record.py:98-186, with the text of the exception; `none` for those
of Python and NumPy. -/
def explainTable (who : Text) (label : Bytes → Option Text) (cs : List Component) : Except (Option Text) Table :=
  if !isStructured cs then .error (some (unstructuredText who))
  else
    match cs with
    | [] => .error (some (unstructuredText who))
    | [_] => .ok ⟨0, [], fun _ _ => none⟩
    | _ :: second :: rest =>
      if second.type ≠ 0 then .error (some (illFormedText who))
      else
        let rows := (cs.filter fun c => c.type = 0).length
        match (second :: rest).mapM (fun c => label c.mnemonic) with
        | none => .error none
        | some labels => .ok ⟨rows, columnLoop labels [],
            cellLoop rows (labels.zip (second :: rest)) (-1) fun _ _ => none⟩

/-! ## Specification -/

/-- How a record is named. -/
def Spec.recordNamed (rectype : Nat → Text) (info : RecordInfo) : Text :=
  text "InformationRecord(type=" ++ rectype info.type ++ text ", ltell=" ++ Text.ofNat info.ltell ++ text ")"

/-- What is wrong with a record of which a table is asked for. -/
inductive Spec.TableFault (who : Text) : Bytes → Text → Prop
  | plain (data : Bytes) : data.head? ≠ some 73 → TableFault who data
      (who ++ text ": Record is not structured as a table. Call components() to read CBs from unstructured records")
  | first (title second : RawComponent) (rest : List RawComponent) : (∀ c ∈ title :: second :: rest, c.Ok) →
      title.type = 73 → second.type ≠ 0 → TableFault who (componentBytes (title :: second :: rest))
        (who ++ text ": Ill-formed record, cannot create table. " ++
          text "Call components() to read content without table-formatting")

/-! ## Theorems -/

theorem infoText_eq (rectype : Nat → Text) (info : RecordInfo) :
    infoText rectype info = Spec.recordNamed rectype info := by
  unfold infoText Spec.recordNamed
  generalize rectype info.type = a
  generalize Text.ofNat info.ltell = b
  formatted

theorem unstructuredText_eq (who : Text) : unstructuredText who = who ++
    text ": Record is not structured as a table. Call components() to read CBs from unstructured records" := by
  unfold unstructuredText; formatted

theorem illFormedText_eq (who : Text) : illFormedText who = who ++ text ": Ill-formed record, cannot create table. " ++
    text "Call components() to read content without table-formatting" := by
  unfold illFormedText; formatted

/-- C96.  With or without texts, `table` and `table_name` give the same. -/
theorem c96_table_plain (who : Text) (label : Bytes → Option Text) (cs : List Component) :
    (explainTable who label cs).toOption = (table label cs).toOption ∧
    (explainTableName who cs).toOption = tableName cs := by
  constructor
  · unfold explainTable table
    split
    · rfl
    · match cs with
      | [] => rfl
      | [_] => rfl
      | _ :: second :: rest =>
        dsimp only
        split
        · rfl
        · cases (second :: rest).mapM (fun c => label c.mnemonic) <;> rfl
  · unfold explainTableName tableName
    split
    · rfl
    · match cs with
      | [] => rfl
      | _ :: _ => rfl

/-- C96.  Of a record that was read, it is said that it is not structured exactly if its first block is not
of type 73, and that it is ill-formed exactly if there is a second block and this is not of type 0; the
record is named by its type and position.  That it is not structured is said for its name too. -/
theorem c96_table (rectype : Nat → Text) (info : RecordInfo) (label : Bytes → Option Text) (data : Bytes)
    (cs : List Component) (h : parseInfo data = .ok cs) (t : Text) :
    (explainTable (infoText rectype info) label cs = .error (some t) ↔
      Spec.TableFault (Spec.recordNamed rectype info) data t) ∧
    (explainTableName (infoText rectype info) cs = .error t ↔
      data.head? ≠ some 73 ∧ Spec.TableFault (Spec.recordNamed rectype info) data t) := by
  rw [infoText_eq]
  generalize Spec.recordNamed rectype info = who
  have hs := (c48_structured data cs h).1
  obtain ⟨rs, hok, hdata, hcs⟩ := (c48_parse _ _).1 h
  have h73 : ∀ b : Byte, b.toNat = 73 ↔ b = 73 := fun b =>
    ⟨fun h => BitVec.eq_of_toNat_eq h, fun h => by rw [h]; rfl⟩
  have h0 : ∀ b : Byte, b.toNat = 0 ↔ b = 0 := fun b =>
    ⟨fun h => BitVec.eq_of_toNat_eq h, fun h => by rw [h]; rfl⟩
  by_cases hst : isStructured cs = true
  · have hh := hs.1 hst
    have hname : explainTableName who cs ≠ .error t := by
      unfold explainTableName
      rw [hst]
      cases cs with
      | nil => simp [isStructured] at hst
      | cons c cs => simp
    refine ⟨⟨fun he => ?_, fun hf => ?_⟩, ⟨fun he => absurd he hname, fun ⟨hn, _⟩ => absurd hh hn⟩⟩
    · unfold explainTable at he
      rw [hst] at he
      simp only [Bool.not_true, Bool.false_eq_true, if_false] at he
      match rs, hok, hdata, hcs with
      | [], _, _, hcs => subst hcs; simp [isStructured] at hst
      | [_], _, _, hcs => subst hcs; simp at he
      | title :: second :: rest, hok, hdata, hcs =>
        subst hcs
        simp only [List.map_cons] at he hst
        have ht : title.type = 73 := by
          simpa [isStructured, Spec.RawComponent.component, h73] using hst
        split at he
        · rename_i h2
          simp only [Except.error.injEq, Option.some.injEq, illFormedText_eq] at he
          rw [hdata, ← he]
          exact .first title second rest hok ht fun e => h2 ((h0 _).2 e)
        · split at he
          · simp at he
          · cases he
    · cases hf with
      | plain _ hp => exact absurd hh hp
      | first title second rest hok ht h2 =>
        have := (c48_parse _ _).2 ⟨title :: second :: rest, hok, rfl, rfl⟩
        rw [h] at this
        cases this
        unfold explainTable
        rw [hst]
        have h2' : (Spec.RawComponent.component second).type ≠ 0 := fun e => h2 ((h0 _).1 e)
        simp only [Bool.not_true, Bool.false_eq_true, if_false, List.map_cons]
        rw [if_pos h2', illFormedText_eq]
  · have hh : data.head? ≠ some 73 := fun e => hst (hs.2 e)
    have hf : isStructured cs = false := by simpa using hst
    have key : Spec.TableFault who data t ↔ unstructuredText who = t := by
      rw [unstructuredText_eq]
      constructor
      · intro hx
        cases hx with
        | plain => rfl
        | first title second rest hok ht h2 =>
          exact absurd (by simp [Spec.componentBytes, Spec.RawComponent.bytes, ht]) hh
      · rintro rfl
        exact .plain data hh
    rw [key]
    refine ⟨?_, ?_⟩
    · unfold explainTable; simp [hf]
    · unfold explainTableName
      rw [hf]
      exact ⟨fun e => ⟨hh, by simpa using e⟩, fun ⟨_, e⟩ => by simpa using e⟩

/-! ### Cases -/

/-- Cases for `c96_table`: a block of type 0 first, a name with a block of type 69 after it, and a table. -/
example :
    let who := infoText (fun _ => text "wellsite_data") ⟨34, 30, 80⟩
    let told := fun rs => match parseInfo (Spec.componentBytes rs) with
      | .ok cs => some (_root_.Dlisio.Dlis.failureOf (explainTable who (mnemonicLabel [] false) cs))
      | _ => none
    told [exCell 0 65 1] = some (some (some (text "InformationRecord(type=wellsite_data, ltell=80): " ++
      text "Record is not structured as a table. Call components() to read CBs from unstructured records"))) ∧
    told [exName, exCell 69 65 1] = some (some (some (text "InformationRecord(type=wellsite_data, ltell=80): " ++
      text "Ill-formed record, cannot create table. Call components() to read content without table-formatting"))) ∧
    told exRecord = some none := by
  refine ⟨?_, ?_, ?_⟩ <;> decide +kernel

end Dlisio.Lis
