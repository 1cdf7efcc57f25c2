import Verif.Lis.Accessors
import Verif.Lis.Labels
import Verif.Dlis.FingerprintProps
/-
C92: what is said when a LIS record cannot be parsed, lib/src/lis/protocol.cpp and
python/dlisio/lis/file.py.

The parsers of Verif/Lis/Protocol.lean and Verif/Lis/LogicalFile.lean, with the texts of the
exceptions.  The text of a C++ exception is a sequence of bytes, as it quotes mnemonics as they are
in the file.

Simplifications: of the exceptions of the C++ parsers only the text is kept.  pybind11 makes a
`RuntimeError` of them with `PyErr_SetString( PyExc_RuntimeError, what() )`, which takes a C string
in UTF-8.  If it is not UTF-8, what becomes of the exception depends on the version of CPython
(`UnicodeDecodeError`, or a `RuntimeError` without a text); here that is "not shown".
`str( LogicalFile )` in what is logged by `header` and `trailer` is arbitrary.
-/
namespace Dlisio.Lis

open _root_.Dlisio.Lis.Spec

open Lean Meta Simp in
/-- The characters of a literal, for proofs: `String.toList_ofList`, as a literal is `String.ofList`
of them. -/
simproc_decl literalChars (String.toList _) := fun e => do
  let .lit (.strVal s) := e.appArg! | return .continue
  let l := toExpr s.toList
  return .done { expr := l, proof? := some (mkApp (mkConst ``String.toList_ofList) l) }

/-! ### Model -/

/-- The exceptions: `std::runtime_error` with its text, `NotImplementedError` and `ValueError` of
file.py, or that of `read_record`. -/
inductive ParseError where
  | runtime (what : Bytes)
  | notImplemented (t : Text)
  | value (t : Text)
  | io
deriving DecidableEq

/-- The text that a user sees; `none` if the one of the exception is lost. -/
def ParseError.shown : ParseError → Option Text
  | .runtime what => utf8Decode (cStr what)
  | .notImplemented t => some t
  | .value t => some t
  | .io => some []

/-- `Parsed` with the exception. -/
inductive ParseOutcome (α : Type) where
  | ok (a : α)
  | raises (e : ParseError)
  | overrun
deriving DecidableEq

/-- The outcome without the exception. -/
def ParseOutcome.plain {α : Type} : ParseOutcome α → Parsed α
  | .ok a => .ok a
  | .raises _ => .throws
  | .overrun => .overrun

/-- On with the result. -/
def ParseOutcome.bind {α β : Type} (x : ParseOutcome α) (f : α → ParseOutcome β) : ParseOutcome β :=
  match x with
  | .ok a => f a
  | .raises e => .raises e
  | .overrun => .overrun

/-- A literal of the C++ code. -/
def cText (s : String) : Bytes := (text s).map (BitVec.ofNat 8)

/-- `fmt::format( "{}", n )`. -/
def cNum (n : Nat) : Bytes := Dlis.toDecimal n

/-- `throw std::runtime_error( what )`. -/
def complain {α : Type} (what : Bytes) : ParseOutcome α := .raises (.runtime what)

/-- As `get`, `cur = cast( cur, field )`, protocol.cpp:171-269. -/
def fetch {α β : Type} (d : Decoder α) (cur : Bytes) (k : α → Bytes → ParseOutcome β) : ParseOutcome β :=
  match d cur with
  | none => .overrun
  | some (a, cur) => k a cur

/-- `element`, protocol.cpp:291-319: the only exception is that of lines 310-315. -/
def explainElement (cur : Bytes) (size reprc : Nat) : ParseOutcome Value :=
  match element cur size reprc with
  | .ok v => .ok v
  | .throws => complain (cText "unable to interpret attribute: unknown representation code " ++ cNum reprc)
  | .overrun => .overrun

/-- `validate_entry`, protocol.cpp:321-349: the text of the exception, or none. -/
def validateEntry (type size reprc : Nat) : Option Bytes :=
  if 16 < type then some (cText "lis::validate_entry: unknown entry type " ++ cNum type)
  else
    let reprcSize := sizeofType reprc
    if reprcSize < 0 then
      some (cText "lis::validate_entry: unknown representation code " ++ cNum reprc ++
        cText " for entry (type: " ++ cNum type ++ cText ")")
    else if (size : Int) ≠ reprcSize ∧ 0 < size ∧ reprcSize ≠ 0 then
      some (cText "lis::validate_entry: invalid entry (type: " ++ cNum type ++
        cText "). Expected size for reprc " ++ cNum reprc ++ cText " is " ++ cNum reprcSize.toNat ++
        cText ", was " ++ cNum size)
    else none

/-- `"{}: {} bytes left in record, expected at least {}"`, protocol.cpp:359-363, 375-378, 426-429,
607-611 and 626-629. -/
def saysLeft (who : String) (left expected : Nat) : Bytes :=
  cText who ++ cText ": " ++ cNum left ++ cText " bytes left in record, expected at least " ++ cNum expected

/-- `read_entry_block`, protocol.cpp:353-385. -/
def explainEntry (cur : Bytes) : ParseOutcome (Entry × Bytes) :=
  if cur.length < 3 then complain (saysLeft "lis::entry_block" cur.length 3)
  else fetch byte cur fun type cur => fetch byte cur fun size cur => fetch byte cur fun reprc cur =>
    match validateEntry type size reprc with
    | some what => complain what
    | none =>
      if cur.length < size then complain (saysLeft "lis::entry_block" cur.length size)
      else if size ≠ 0 then
        (explainElement cur size reprc).bind fun v => .ok (⟨type, size, reprc, v⟩, cur.drop size)
      else .ok (⟨type, size, reprc, .none⟩, cur)

theorem validateEntry_none (type size reprc : Nat) :
    validateEntry type size reprc = none ↔ validEntry type size reprc = true := by
  unfold validateEntry validEntry validSize
  by_cases h : 16 < type
  · simp [h]
  · by_cases h1 : sizeofType reprc < 0
    · simp [h, h1]
    · by_cases h2 : (size : Int) ≠ sizeofType reprc ∧ 0 < size ∧ sizeofType reprc ≠ 0
      · simp [h, h1, h2]
      · simp only [h, h1, h2, if_false, decide_false, Bool.not_false, Bool.and_self]

theorem explainElement_plain (cur : Bytes) (size reprc : Nat) :
    (explainElement cur size reprc).plain = element cur size reprc := by
  unfold explainElement
  cases element cur size reprc <;> rfl

/-- The same but for the exception. -/
theorem explainEntry_plain (cur : Bytes) : (explainEntry cur).plain = readEntry cur := by
  match cur with
  | [] => rfl
  | [_] => rfl
  | [_, _] => rfl
  | t :: z :: c :: cur =>
    unfold explainEntry readEntry
    rw [if_neg (by simp), if_neg (by simp)]
    simp only [fetch, get, byte]
    cases hv : validateEntry t.toNat z.toNat c.toNat with
    | some w =>
      have : ¬ validEntry t.toNat z.toNat c.toNat = true := fun h => by
        rw [(validateEntry_none _ _ _).2 h] at hv; cases hv
      simp [this, complain, ParseOutcome.plain]
    | none =>
      have := (validateEntry_none _ _ _).1 hv
      simp only [this, Bool.not_true, Bool.false_eq_true, if_false]
      by_cases hl : cur.length < z.toNat
      · simp only [if_pos hl]; rfl
      · simp only [if_neg hl]
        by_cases h0 : z.toNat ≠ 0
        · rw [if_pos h0, if_pos h0, ← explainElement_plain]
          cases explainElement cur z.toNat c.toNat <;> rfl
        · rw [if_neg h0, if_neg h0]; rfl

theorem explained_ok {α : Type} {x : ParseOutcome α} {a : α} (h : x = .ok a) : x.plain = .ok a := by
  rw [h]; rfl

/-- The loop over entry blocks in `parse_dfsr`, protocol.cpp:495-510. -/
def explainEntryLoop (cur : Bytes) (entries : List Entry) (subtype : Nat) :
    ParseOutcome (List Entry × Nat × Bytes) :=
  match _h : explainEntry cur with
  | .raises e => .raises e
  | .overrun => .overrun
  | .ok (e, rest) =>
    let subtype := if e.type = 16 ∧ e.value.isOne then 1 else subtype
    if e.type = 0 then .ok (entries ++ [e], subtype, rest)
    else explainEntryLoop rest (entries ++ [e]) subtype
termination_by cur.length
decreasing_by
  have h := explained_ok _h
  rw [explainEntry_plain] at h
  have := readEntry_length h; omega

/-- `read_spec_block0` and `read_spec_block1`, protocol.cpp:421-486: the only exception is that of
`read_spec_block`, lines 425-430; both sizes are 40. -/
def explainSpec (subtype : Nat) (cur : Bytes) : ParseOutcome SpecBlock :=
  match if subtype = 0 then readSpec0 cur else readSpec1 cur with
  | .ok s => .ok s
  | .throws => complain (saysLeft "lis::spec_block" cur.length 40)
  | .overrun => .overrun

/-- The loop over specification blocks in `parse_dfsr`, protocol.cpp:512-520. -/
def explainSpecLoop (subtype : Nat) (cur : Bytes) (specs : List SpecBlock) : ParseOutcome (List SpecBlock) :=
  if _h : 0 < cur.length then
    match explainSpec subtype cur with
    | .raises e => .raises e
    | .overrun => .overrun
    | .ok s => explainSpecLoop subtype (cur.drop 40) (specs ++ [s])
  else .ok specs
termination_by cur.length
decreasing_by simp only [List.length_drop]; omega

/-- `parse_dfsr`, protocol.cpp:488-523. -/
def explainDfsr (data : Bytes) : ParseOutcome Dfsr :=
  (explainEntryLoop data [] 0).bind fun (entries, subtype, rest) =>
    (explainSpecLoop subtype rest []).bind fun specs => .ok ⟨entries, specs⟩

/-- `validate_component`, protocol.cpp:557-597: the text of the exception, or none. -/
def validateComponent (type size reprc : Nat) (mnemonic : Bytes) : Option Bytes :=
  if !(type = 0 || type = 69 || type = 73) then
    some (cText "lis::validate_component: unknown component type " ++ cNum type ++
      cText " in component " ++ mnemonic)
  else
    let reprcSize := sizeofType reprc
    if reprcSize < 0 then
      some (cText "lis::validate_component: unknown representation code " ++ cNum reprc ++
        cText " in component " ++ mnemonic)
    else if (size : Int) ≠ reprcSize ∧ 0 < size ∧ reprcSize ≠ 0 then
      some (cText "lis::validate_component: invalid component (mnem: " ++ mnemonic ++
        cText "). Expected size for reprc " ++ cNum reprc ++ cText " is " ++ cNum reprcSize.toNat ++
        cText ", was " ++ cNum size)
    else none

/-- `read_component_block`, protocol.cpp:601-636. -/
def explainComponent (cur : Bytes) : ParseOutcome (Component × Bytes) :=
  if cur.length < 12 then complain (saysLeft "lis::component_block" cur.length 12)
  else
    fetch byte cur fun type cur => fetch byte cur fun reprc cur => fetch byte cur fun size cur =>
    fetch byte cur fun category cur => fetch (lisString 4) cur fun mnemonic cur =>
    fetch (lisString 4) cur fun units cur =>
    match validateComponent type size reprc mnemonic with
    | some what => complain what
    | none =>
      if cur.length < size then complain (saysLeft "lis::component_block" cur.length size)
      else if size ≠ 0 then
        (explainElement cur size reprc).bind fun v =>
          .ok (⟨type, reprc, size, category, mnemonic, units, v⟩, cur.drop size)
      else .ok (⟨type, reprc, size, category, mnemonic, units, .none⟩, cur)

theorem validateComponent_none (type size reprc : Nat) (m : Bytes) :
    validateComponent type size reprc m = none ↔ validComponent type size reprc = true := by
  unfold validateComponent validComponent validSize
  by_cases h : (type = 0 || type = 69 || type = 73) = true
  · by_cases h1 : sizeofType reprc < 0
    · simp [h, h1]
    · by_cases h2 : (size : Int) ≠ sizeofType reprc ∧ 0 < size ∧ sizeofType reprc ≠ 0
      · simp [h, h1, h2]
      · simp only [h, Bool.not_true, Bool.false_eq_true, if_false, h1, h2, decide_false, Bool.not_false, Bool.and_self]
  · simp [h]

/-- The parts of a component block in place. -/
theorem explainComponent_parts (t r z c : Byte) (m u : Bytes) (hm : m.length = 4)
    (hu : u.length = 4) (cur : Bytes) :
    explainComponent (t :: r :: z :: c :: (m ++ (u ++ cur))) =
      match validateComponent t.toNat z.toNat r.toNat m with
      | some what => complain what
      | none =>
        if cur.length < z.toNat then complain (saysLeft "lis::component_block" cur.length z.toNat)
        else if z.toNat ≠ 0 then
          (explainElement cur z.toNat r.toNat).bind fun v =>
            .ok (⟨t.toNat, r.toNat, z.toNat, c.toNat, m, u, v⟩, cur.drop z.toNat)
        else .ok (⟨t.toNat, r.toNat, z.toNat, c.toNat, m, u, .none⟩, cur) := by
  have h1 : lisString 4 (m ++ (u ++ cur)) = some (m, u ++ cur) := by
    simp [lisString, takeN, ← hm]
  have h2 : lisString 4 (u ++ cur) = some (u, cur) := by
    simp [lisString, takeN, ← hu]
  unfold explainComponent
  rw [if_neg (by simp only [List.length_cons, List.length_append]; omega)]
  simp only [fetch, byte, h1, h2]

/-- The same but for the exception. -/
theorem explainComponent_plain (cur : Bytes) : (explainComponent cur).plain = readComponent cur := by
  by_cases h12 : cur.length < 12
  · unfold explainComponent readComponent
    rw [if_pos h12, if_pos h12]; rfl
  · obtain ⟨t, r, z, c, m, u, cur, rfl, hm, hu⟩ := twelve (Nat.le_of_not_lt h12)
    rw [readComponent_parts _ _ _ _ _ _ hm hu, explainComponent_parts _ _ _ _ _ _ hm hu]
    cases hv : validateComponent t.toNat z.toNat r.toNat m with
    | some w =>
      have : ¬ validComponent t.toNat z.toNat r.toNat = true := fun h => by
        rw [(validateComponent_none _ _ _ _).2 h] at hv; cases hv
      simp [this, complain, ParseOutcome.plain]
    | none =>
      have := (validateComponent_none _ _ _ _).1 hv
      simp only [this, Bool.not_true, Bool.false_eq_true, if_false]
      by_cases hl : cur.length < z.toNat
      · simp only [if_pos hl]; rfl
      · simp only [if_neg hl]
        by_cases h0 : z.toNat ≠ 0
        · rw [if_pos h0, if_pos h0, ← explainElement_plain]
          cases explainElement cur z.toNat r.toNat <;> rfl
        · rw [if_neg h0, if_neg h0]; rfl

/-- The loop of `parse_info_record`, protocol.cpp:643-648. -/
def explainComponentLoop (cur : Bytes) (components : List Component) : ParseOutcome (List Component) :=
  if 0 < cur.length then
    match _h : explainComponent cur with
    | .raises e => .raises e
    | .overrun => .overrun
    | .ok (c, rest) => explainComponentLoop rest (components ++ [c])
  else .ok components
termination_by cur.length
decreasing_by
  have h := explained_ok _h
  rw [explainComponent_plain] at h
  have := readComponent_length h; omega

/-- `parse_info_record`, protocol.cpp:638-651. -/
def explainInfo (data : Bytes) : ParseOutcome (List Component) := explainComponentLoop data []

/-- `"{}: Invalid record type, {} ({})"`, protocol.cpp:661-664, 688-691 and 759-762. -/
def saysWrongType (who : String) (type : Nat) : Bytes :=
  cText who ++ cText ": Invalid record type, " ++ cNum type ++ cText " (" ++ cText (recordTypeStr type) ++
    cText ")"

/-- `parse_text_record`, protocol.cpp:653-671. -/
def explainText (type : Nat) (data : Bytes) : ParseOutcome (Nat × Bytes) :=
  if !(type = 227 || type = 224 || type = 225 || type = 232) then
    complain (saysWrongType "parse_text_record" type)
  else match parseText type data with
    | .ok x => .ok x
    | _ => .overrun

/-- `parse_file_record`, protocol.cpp:683-717; the fields as in `parseFileRecord`. -/
def explainFile (type : Nat) (data : Bytes) : ParseOutcome FileRecord :=
  if !(type = 128 || type = 129) then complain (saysWrongType "parse_file_record" type)
  else if data.length < 56 then
    complain (cText "parse_file_record: Unable to parse record, " ++ cText (recordTypeStr type) ++
      cText " Records are " ++ cNum 56 ++ cText " bytes, raw record is only " ++ cNum data.length)
  else match parseFileRecord type data with
    | .ok x => .ok x
    | _ => .overrun

/-- `parse_reel_tape_record`, protocol.cpp:751-788; the fields as in `parseTapeRecord`. -/
def explainTape (type : Nat) (data : Bytes) : ParseOutcome TapeRecord :=
  if !(type = 132 || type = 133 || type = 130 || type = 131) then
    complain (saysWrongType "parse_reel_tape_record" type)
  else if data.length < 126 then
    complain (cText "Unable to parse record. Expected " ++ cNum 126 ++
      cText " bytes, raw record is only " ++ cNum data.length)
  else match parseTapeRecord type data with
    | .ok x => .ok x
    | _ => .overrun

/-- `parse_record`, file.py:370-411. -/
def explainRecord (info : RecordInfo) (data : Bytes) : ParseOutcome Content :=
  let type := info.type
  if type = 64 then (explainDfsr data).bind fun d => .ok (.dfsr info.ltell d)
  else if type = 128 then (explainFile type data).bind fun r => .ok (.file 128 r)
  else if type = 129 then (explainFile type data).bind fun r => .ok (.file 129 r)
  else if type = 132 then (explainTape type data).bind fun r => .ok (.tape 132 r)
  else if type = 133 then (explainTape type data).bind fun r => .ok (.tape 133 r)
  else if type = 130 then (explainTape type data).bind fun r => .ok (.tape 130 r)
  else if type = 131 then (explainTape type data).bind fun r => .ok (.tape 131 r)
  else if type = 34 then (explainInfo data).bind fun cs => .ok (.info type cs)
  else if type = 39 then (explainInfo data).bind fun cs => .ok (.info type cs)
  else if type = 32 then (explainInfo data).bind fun cs => .ok (.info type cs)
  else if type = 224 then (explainText type data).bind fun p => .ok (.text p.1 p.2)
  else if type = 225 then (explainText type data).bind fun p => .ok (.text p.1 p.2)
  else if type = 227 then (explainText type data).bind fun p => .ok (.text p.1 p.2)
  else if type = 232 then (explainText type data).bind fun p => .ok (.text p.1 p.2)
  else .raises (.notImplemented (text "No parsing rule for " ++ text (recordTypeStr type) ++ text " Records"))

/-- What is logged: `log.warning` and `log.info`. -/
inductive LisLogEntry where
  | warning (t : Text)
  | info (t : Text)
deriving DecidableEq

/-- `io.read_record( info )` and `parse_record` of it, file.py:165-166 and 191-192. -/
def explainRead (dev : Device) (info : RecordInfo) : ParseOutcome (Option Content) :=
  match readRecord dev info with
  | .ok (data, _) => (explainRecord info data).bind fun c => .ok (some c)
  | .error _ => .raises .io

/-- `LogicalFile.header`, file.py:152-166; `self` is `str(self)`. -/
def explainHeader (self : Text) (dev : Device) (ix : Index) :
    ParseOutcome (Option Content) × List LisLogEntry :=
  match ix.explicits.filter fun x => x.type = 128 with
  | [] => (.ok none, [.warning (text "No " ++ text (recordTypeStr 128) ++ text " Logical Record in " ++ self)])
  | [info] => (explainRead dev info, [])
  | _ => (.raises (.value (text "Multiple " ++ text (recordTypeStr 128) ++
      text " Logical Records, should only be one. " ++ text "Use parse_record to read them all")), [])

/-- `LogicalFile.trailer`, file.py:178-192; `self` is `str(self)`. -/
def explainTrailer (self : Text) (dev : Device) (ix : Index) :
    ParseOutcome (Option Content) × List LisLogEntry :=
  match ix.explicits.filter fun x => x.type = 129 with
  | [] => (.ok none, [.info (text "No " ++ text (recordTypeStr 129) ++ text " Logical Record in " ++ self)])
  | [info] => (explainRead dev info, [])
  | _ => (.raises (.value (text "Multiple " ++ text (recordTypeStr 129) ++
      text " Records, should only be one. " ++ text "Use parse_record to read them all")), [])

/-- `HeaderTrailer.header`, file.py:35-39: the raw record of this type, or `None`. -/
def explainRawHeader (type : Nat) (raw : Option Bytes) : ParseOutcome (Option Content) × List LisLogEntry :=
  match raw with
  | none => (.ok none, [.warning (text "Missing Header Record - File structure is broken")])
  | some data => ((explainRecord ⟨type, 0, 0⟩ data).bind fun c => .ok (some c), [])

/-- `HeaderTrailer.trailer`, file.py:53-57. -/
def explainRawTrailer (type : Nat) (raw : Option Bytes) : ParseOutcome (Option Content) × List LisLogEntry :=
  match raw with
  | none => (.ok none, [.info (text "No (optional) Trailer Record present")])
  | some data => ((explainRecord ⟨type, 0, 0⟩ data).bind fun c => .ok (some c), [])

/-! ### Specification -/

namespace Spec

/-- ASCII text as bytes. -/
def quoted (s : String) : Bytes := s.toList.map fun c => BitVec.ofNat 8 c.toNat

/-- What is wrong with the entry block at the beginning, and what is said about it. -/
inductive EntryFault : Bytes → Bytes → Prop where
  /-- There is no room for type, size and code. -/
  | short (b : Bytes) (h : b.length < 3) : EntryFault b
      (quoted "lis::entry_block: " ++ Dlis.toDecimal b.length ++
        quoted " bytes left in record, expected at least 3")
  /-- The type is not one of the standard. -/
  | type (t z c : Byte) (rest : Bytes) (h : 16 < t.toNat) : EntryFault (t :: z :: c :: rest)
      (quoted "lis::validate_entry: unknown entry type " ++ Dlis.toDecimal t.toNat)
  /-- The representation code is not one of the standard. -/
  | code (t z c : Byte) (rest : Bytes) (ht : t.toNat ≤ 16) (h : width c.toNat = none) :
      EntryFault (t :: z :: c :: rest)
        (quoted "lis::validate_entry: unknown representation code " ++ Dlis.toDecimal c.toNat ++
          quoted " for entry (type: " ++ Dlis.toDecimal t.toNat ++ quoted ")")
  /-- Values of this code take `w` bytes. -/
  | size (t z c : Byte) (rest : Bytes) (w : ℕ) (ht : t.toNat ≤ 16) (hw : width c.toNat = some w)
      (hw0 : w ≠ 0) (hz : z.toNat ≠ 0) (h : z.toNat ≠ w) : EntryFault (t :: z :: c :: rest)
        (quoted "lis::validate_entry: invalid entry (type: " ++ Dlis.toDecimal t.toNat ++
          quoted "). Expected size for reprc " ++ Dlis.toDecimal c.toNat ++ quoted " is " ++
          Dlis.toDecimal w ++ quoted ", was " ++ Dlis.toDecimal z.toNat)
  /-- There is no room for the value. -/
  | left (t z c : Byte) (rest : Bytes) (ht : t.toNat ≤ 16) (hf : Fits c.toNat z.toNat)
      (h : rest.length < z.toNat) : EntryFault (t :: z :: c :: rest)
        (quoted "lis::entry_block: " ++ Dlis.toDecimal rest.length ++
          quoted " bytes left in record, expected at least " ++ Dlis.toDecimal z.toNat)

/-- What is wrong with the component block at the beginning, and what is said about it. -/
inductive ComponentFault : Bytes → Bytes → Prop where
  /-- There is no room for what comes before the value. -/
  | short (b : Bytes) (h : b.length < 12) : ComponentFault b
      (quoted "lis::component_block: " ++ Dlis.toDecimal b.length ++
        quoted " bytes left in record, expected at least 12")
  /-- The type is not one of the standard. -/
  | type (t r z c : Byte) (m u rest : Bytes) (hm : m.length = 4) (hu : u.length = 4)
      (h : t.toNat ∉ [0, 69, 73]) : ComponentFault (t :: r :: z :: c :: (m ++ (u ++ rest)))
        (quoted "lis::validate_component: unknown component type " ++ Dlis.toDecimal t.toNat ++
          quoted " in component " ++ m)
  /-- The representation code is not one of the standard. -/
  | code (t r z c : Byte) (m u rest : Bytes) (hm : m.length = 4) (hu : u.length = 4)
      (ht : t.toNat ∈ [0, 69, 73]) (h : width r.toNat = none) :
      ComponentFault (t :: r :: z :: c :: (m ++ (u ++ rest)))
        (quoted "lis::validate_component: unknown representation code " ++ Dlis.toDecimal r.toNat ++
          quoted " in component " ++ m)
  /-- Values of this code take `w` bytes. -/
  | size (t r z c : Byte) (m u rest : Bytes) (w : ℕ) (hm : m.length = 4) (hu : u.length = 4)
      (ht : t.toNat ∈ [0, 69, 73]) (hw : width r.toNat = some w) (hw0 : w ≠ 0) (hz : z.toNat ≠ 0)
      (h : z.toNat ≠ w) : ComponentFault (t :: r :: z :: c :: (m ++ (u ++ rest)))
        (quoted "lis::validate_component: invalid component (mnem: " ++ m ++
          quoted "). Expected size for reprc " ++ Dlis.toDecimal r.toNat ++ quoted " is " ++
          Dlis.toDecimal w ++ quoted ", was " ++ Dlis.toDecimal z.toNat)
  /-- There is no room for the value. -/
  | left (t r z c : Byte) (m u rest : Bytes) (hm : m.length = 4) (hu : u.length = 4)
      (ht : t.toNat ∈ [0, 69, 73]) (hf : Fits r.toNat z.toNat) (h : rest.length < z.toNat) :
      ComponentFault (t :: r :: z :: c :: (m ++ (u ++ rest)))
        (quoted "lis::component_block: " ++ Dlis.toDecimal rest.length ++
          quoted " bytes left in record, expected at least " ++ Dlis.toDecimal z.toNat)

/-- What is wrong with a data format specification: the entry behind some that are right, or the
last of the specification blocks. -/
inductive DfsrFault : Bytes → Bytes → Prop where
  | entry (es : List RawEntry) (rest what : Bytes) (ok : ∀ e ∈ es, e.Ok) (inner : ∀ e ∈ es, e.type ≠ 0)
      (h : EntryFault rest what) : DfsrFault ((es.map RawEntry.bytes).flatten ++ rest) what
  | spec (es : List RawEntry) (last : RawEntry) (blocks : List Bytes) (rest : Bytes)
      (ok : ∀ e ∈ es ++ [last], e.Ok) (inner : ∀ e ∈ es, e.type ≠ 0) (hl : last.type = 0)
      (hb : ∀ b ∈ blocks, b.length = 40) (h0 : rest ≠ []) (h : rest.length < 40) :
      DfsrFault (((es ++ [last]).map RawEntry.bytes).flatten ++ (blocks.flatten ++ rest))
        (quoted "lis::spec_block: " ++ Dlis.toDecimal rest.length ++
          quoted " bytes left in record, expected at least 40")

/-- What is wrong with an information record: the component behind some that are right. -/
inductive InfoFault : Bytes → Bytes → Prop where
  | mk (cs : List RawComponent) (rest what : Bytes) (ok : ∀ c ∈ cs, c.Ok) (h0 : rest ≠ [])
      (h : ComponentFault rest what) : InfoFault (componentBytes cs ++ rest) what

/-- The names of the types of records, LIS79 and lis/protocol.cpp. -/
def typeNames : List (ℕ × String) :=
  [(0, "Normal Data"), (1, "Alternate Data"), (32, "Job Identification"), (34, "Wellsite Data"),
   (39, "Tool String Info"), (42, "Encrypted Table Dump"), (47, "Table Dump"),
   (64, "Data Format Specification"), (65, "Data Descriptor"), (85, "Picture"), (86, "Image"),
   (95, "TU10 Software Boot"), (96, "Bootstrap Loader"), (97, "CP-Kernel Loader Boot"),
   (100, "Program File Header"), (101, "Program Overlay Header"), (102, "Program Overlay Load"),
   (128, "File Header"), (129, "File Trailer"), (130, "Tape Header"), (131, "Tape Trailer"),
   (132, "Reel Header"), (133, "Reel Trailer"), (137, "Logical EOF"), (138, "Logical BOT"),
   (139, "Logical EOT"), (141, "Logical EOM"), (224, "Operator Command Inputs"),
   (225, "Operator Response Inputs"), (227, "System Outputs to Operator"), (232, "FLIC Comment"),
   (234, "Blank Record/CSU Comment")]

/-- The types of records that there is a parser for. -/
def parseable : List ℕ := [32, 34, 39, 64, 128, 129, 130, 131, 132, 133, 224, 225, 227, 232]

/-- Why a record of this type and with this data cannot be parsed, and the exception. -/
inductive RecordFault : ℕ → Bytes → ParseError → Prop where
  | rule (type : ℕ) (data : Bytes) (h : type ∉ parseable) : RecordFault type data
      (.notImplemented (text "No parsing rule for " ++
        text ((typeNames.lookup type).getD "Invalid LIS79 Record Type") ++ text " Records"))
  | dfsr (data what : Bytes) (h : DfsrFault data what) : RecordFault 64 data (.runtime what)
  | info (type : ℕ) (data what : Bytes) (ht : type ∈ [32, 34, 39]) (h : InfoFault data what) :
      RecordFault type data (.runtime what)
  | header (data : Bytes) (h : data.length < 56) : RecordFault 128 data
      (.runtime (quoted "parse_file_record: Unable to parse record, File Header Records are 56 bytes, " ++
        quoted "raw record is only " ++ Dlis.toDecimal data.length))
  | trailer (data : Bytes) (h : data.length < 56) : RecordFault 129 data
      (.runtime (quoted "parse_file_record: Unable to parse record, File Trailer Records are 56 bytes, " ++
        quoted "raw record is only " ++ Dlis.toDecimal data.length))
  | tape (type : ℕ) (data : Bytes) (ht : type ∈ [130, 131, 132, 133]) (h : data.length < 126) :
      RecordFault type data
        (.runtime (quoted "Unable to parse record. Expected 126 bytes, raw record is only " ++
          Dlis.toDecimal data.length))

end Spec

/-! ### The parsers -/

/-- For equations of texts made of literals. -/
macro "literals" : tactic =>
  `(tactic| (simp only [cText, quoted, text, recordTypeStr, literalChars]; decide +kernel))


theorem cText_eq (s : String) : cText s = quoted s := by
  simp [cText, quoted, text, List.map_map, Function.comp_def]

theorem quoted_append (s t : String) : quoted s ++ quoted t = quoted (s ++ t) := by
  simp [quoted]

theorem saysLeft_eq (who : String) (left expected : Nat) : saysLeft who left expected =
    quoted (who ++ ": ") ++ Dlis.toDecimal left ++ quoted " bytes left in record, expected at least " ++
      Dlis.toDecimal expected := by
  simp only [saysLeft, cText_eq, cNum, quoted_append]

theorem saysLeft_three (left : Nat) : saysLeft "lis::entry_block" left 3 =
    quoted "lis::entry_block: " ++ Dlis.toDecimal left ++
      quoted " bytes left in record, expected at least 3" := by
  have h : quoted " bytes left in record, expected at least " ++ Dlis.toDecimal 3 =
    quoted " bytes left in record, expected at least 3" := by literals
  rw [saysLeft_eq, List.append_assoc, h]; rfl

theorem saysLeft_twelve (left : Nat) : saysLeft "lis::component_block" left 12 =
    quoted "lis::component_block: " ++ Dlis.toDecimal left ++
      quoted " bytes left in record, expected at least 12" := by
  have h : quoted " bytes left in record, expected at least " ++ Dlis.toDecimal 12 =
    quoted " bytes left in record, expected at least 12" := by literals
  rw [saysLeft_eq, List.append_assoc, h]; rfl

theorem saysLeft_forty (left : Nat) : saysLeft "lis::spec_block" left 40 =
    quoted "lis::spec_block: " ++ Dlis.toDecimal left ++
      quoted " bytes left in record, expected at least 40" := by
  have h : quoted " bytes left in record, expected at least " ++ Dlis.toDecimal 40 =
    quoted " bytes left in record, expected at least 40" := by literals
  rw [saysLeft_eq, List.append_assoc, h]; rfl

/-- What `element` is called with. -/
theorem explainElement_ok {cur : Bytes} {z c : Byte} (hf : Fits c.toNat z.toNat)
    (hl : ¬ cur.length < z.toNat) (h0 : z.toNat ≠ 0) : ∃ v, explainElement cur z.toNat c.toNat = .ok v := by
  have := explainElement_plain cur z.toNat c.toNat
  rw [component_element hf hl h0] at this
  cases h : explainElement cur z.toNat c.toNat with
  | ok v => exact ⟨v, rfl⟩
  | raises e => rw [h] at this; cases this
  | overrun => rw [h] at this; cases this

/-- The texts of `validate_entry`. -/
theorem validateEntry_cases (t z c : Byte) (rest what : Bytes)
    (h : validateEntry t.toNat z.toNat c.toNat = some what) : EntryFault (t :: z :: c :: rest) what := by
  unfold validateEntry at h
  by_cases h1 : 16 < t.toNat
  · rw [if_pos h1] at h
    cases h
    rw [cText_eq]
    exact .type t z c rest h1
  · rw [if_neg h1] at h
    rw [sizeofType_width] at h
    cases hw : width c.toNat with
    | none =>
      rw [hw] at h
      simp only [Int.reduceNeg, Int.reduceLT, if_true, Option.some.injEq, cText_eq, cNum] at h
      rw [← h]
      exact .code t z c rest (Nat.le_of_not_lt h1) hw
    | some w =>
      rw [hw] at h
      dsimp only at h
      rw [if_neg (show ¬ ((w : ℤ) < 0) by omega)] at h
      split at h
      · rename_i h2
        simp only [Option.some.injEq, cText_eq, cNum, Int.toNat_natCast] at h
        rw [← h]
        exact .size t z c rest w (Nat.le_of_not_lt h1) hw (by omega) (by omega) (by omega)
      · cases h

/-- Entries of the standard are all that `validate_entry` takes. -/
theorem validateEntry_none_iff (t z c : ℕ) :
    validateEntry t z c = none ↔ t ≤ 16 ∧ Fits c z := by
  rw [validateEntry_none, validEntry, Bool.and_eq_true, validSize_iff]
  simp

/-- What is said about an entry block is what is wrong with it. -/
theorem c92_entry (b : Bytes) (e : ParseError) :
    explainEntry b = .raises e ↔ ∃ what, e = .runtime what ∧ EntryFault b what := by
  constructor
  · intro h
    by_cases h3 : b.length < 3
    · unfold explainEntry at h
      rw [if_pos h3] at h
      cases h
      refine ⟨_, rfl, ?_⟩
      rw [saysLeft_three]
      exact .short b h3
    · match b, h3 with
      | t :: z :: c :: cur, _ =>
        unfold explainEntry at h
        rw [if_neg (by simp)] at h
        simp only [fetch, byte] at h
        cases hv : validateEntry t.toNat z.toNat c.toNat with
        | some what =>
          rw [hv] at h
          cases h
          exact ⟨what, rfl, validateEntry_cases t z c cur what hv⟩
        | none =>
          rw [hv] at h
          obtain ⟨ht, hf⟩ := (validateEntry_none_iff _ _ _).1 hv
          dsimp only at h
          split at h
          · rename_i hl
            cases h
            refine ⟨_, rfl, ?_⟩
            rw [saysLeft_eq]
            exact .left t z c cur ht hf hl
          · rename_i hl
            split at h
            · rename_i h0
              obtain ⟨v, hv⟩ := explainElement_ok hf hl h0
              rw [hv] at h
              cases h
            · cases h
      | [], h3 => exact absurd (by simp) h3
      | [_], h3 => exact absurd (by simp) h3
      | [_, _], h3 => exact absurd (by simp) h3
  · rintro ⟨what, rfl, h⟩
    cases h with
    | short _ h =>
      unfold explainEntry
      rw [if_pos h, saysLeft_three]
      rfl
    | type t z c rest h =>
      unfold explainEntry
      rw [if_neg (by simp)]
      simp only [fetch, byte, validateEntry, if_pos h, cText_eq, cNum, complain]
    | code t z c rest ht h =>
      unfold explainEntry
      rw [if_neg (by simp)]
      simp only [fetch, byte, validateEntry, if_neg (Nat.not_lt.2 ht), sizeofType_width, h,
        Int.reduceNeg, Int.reduceLT, if_true, cText_eq, cNum, complain]
    | size t z c rest w ht hw hw0 hz h =>
      unfold explainEntry
      rw [if_neg (by simp)]
      simp only [fetch, byte, validateEntry, if_neg (Nat.not_lt.2 ht), sizeofType_width, hw]
      rw [if_neg (show ¬ ((w : ℤ) < 0) by omega), if_pos (by omega)]
      simp only [cText_eq, cNum, complain, Int.toNat_natCast]
    | left t z c rest ht hf h =>
      unfold explainEntry
      rw [if_neg (by simp)]
      simp only [fetch, byte, (validateEntry_none_iff _ _ _).2 ⟨ht, hf⟩, if_pos h, saysLeft_eq, complain]
      rfl

theorem componentType_known {t : ℕ} (h : t ∈ [0, 69, 73]) :
    (!(decide (t = 0) || decide (t = 69) || decide (t = 73))) = false := by
  simp only [List.mem_cons, List.not_mem_nil, or_false] at h
  rcases h with rfl | rfl | rfl <;> rfl

theorem componentType_unknown {t : ℕ} (h : t ∉ [0, 69, 73]) :
    (!(decide (t = 0) || decide (t = 69) || decide (t = 73))) = true := by
  simp only [List.mem_cons, List.not_mem_nil, or_false, not_or] at h
  simp [h.1, h.2.1, h.2.2]

/-- The texts of `validate_component`. -/
theorem validateComponent_cases (t r z c : Byte) (m u rest what : Bytes) (hm : m.length = 4)
    (hu : u.length = 4) (h : validateComponent t.toNat z.toNat r.toNat m = some what) :
    ComponentFault (t :: r :: z :: c :: (m ++ (u ++ rest))) what := by
  unfold validateComponent at h
  by_cases h1 : t.toNat ∈ [0, 69, 73]
  · have h1' := componentType_known h1
    rw [h1', if_neg (by simp)] at h
    rw [sizeofType_width] at h
    cases hw : width r.toNat with
    | none =>
      rw [hw] at h
      simp only [Int.reduceNeg, Int.reduceLT, if_true, Option.some.injEq, cText_eq, cNum] at h
      rw [← h]
      exact .code t r z c m u rest hm hu h1 hw
    | some w =>
      rw [hw] at h
      dsimp only at h
      rw [if_neg (show ¬ ((w : ℤ) < 0) by omega)] at h
      split at h
      · rename_i h2
        simp only [Option.some.injEq, cText_eq, cNum, Int.toNat_natCast] at h
        rw [← h]
        exact .size t r z c m u rest w hm hu h1 hw (by omega) (by omega) (by omega)
      · cases h
  · have h1' := componentType_unknown h1
    rw [h1', if_pos rfl] at h
    cases h
    simp only [cText_eq, cNum]
    exact .type t r z c m u rest hm hu h1

/-- Components of the standard are all that `validate_component` takes. -/
theorem validateComponent_none_iff (t z r : ℕ) (m : Bytes) :
    validateComponent t z r m = none ↔ t ∈ [0, 69, 73] ∧ Fits r z := by
  rw [validateComponent_none, validComponent_iff]

/-- What is said about a component block is what is wrong with it. -/
theorem c92_component (b : Bytes) (e : ParseError) :
    explainComponent b = .raises e ↔ ∃ what, e = .runtime what ∧ ComponentFault b what := by
  constructor
  · intro h
    by_cases h12 : b.length < 12
    · unfold explainComponent at h
      rw [if_pos h12] at h
      cases h
      refine ⟨_, rfl, ?_⟩
      rw [saysLeft_twelve]
      exact .short b h12
    · obtain ⟨t, r, z, c, m, u, cur, rfl, hm, hu⟩ := twelve (Nat.le_of_not_lt h12)
      rw [explainComponent_parts _ _ _ _ _ _ hm hu] at h
      cases hv : validateComponent t.toNat z.toNat r.toNat m with
      | some what =>
        rw [hv] at h
        cases h
        exact ⟨what, rfl, validateComponent_cases t r z c m u cur what hm hu hv⟩
      | none =>
        rw [hv] at h
        obtain ⟨ht, hf⟩ := (validateComponent_none_iff _ _ _ _).1 hv
        dsimp only at h
        split at h
        · rename_i hl
          cases h
          refine ⟨_, rfl, ?_⟩
          rw [saysLeft_eq]
          exact .left t r z c m u cur hm hu ht hf hl
        · rename_i hl
          split at h
          · rename_i h0
            obtain ⟨v, hv⟩ := explainElement_ok hf hl h0
            rw [hv] at h
            cases h
          · cases h
  · rintro ⟨what, rfl, h⟩
    cases h with
    | short _ h =>
      unfold explainComponent
      rw [if_pos h, saysLeft_twelve]
      rfl
    | type t r z c m u rest hm hu h =>
      have h1' := componentType_unknown h
      rw [explainComponent_parts _ _ _ _ _ _ hm hu]
      simp only [validateComponent, h1', if_true, cText_eq, cNum, complain]
    | code t r z c m u rest hm hu ht h =>
      have h1' := componentType_known ht
      rw [explainComponent_parts _ _ _ _ _ _ hm hu]
      simp only [validateComponent, h1', Bool.false_eq_true, if_false, sizeofType_width, h,
        Int.reduceNeg, Int.reduceLT, if_true, cText_eq, cNum, complain]
    | size t r z c m u rest w hm hu ht hw hw0 hz h =>
      have h1' := componentType_known ht
      rw [explainComponent_parts _ _ _ _ _ _ hm hu]
      simp only [validateComponent, h1', Bool.false_eq_true, if_false, sizeofType_width, hw]
      rw [if_neg (show ¬ ((w : ℤ) < 0) by omega), if_pos (by omega)]
      simp only [cText_eq, cNum, complain, Int.toNat_natCast]
    | left t r z c m u rest hm hu ht hf h =>
      rw [explainComponent_parts _ _ _ _ _ _ hm hu]
      simp only [(validateComponent_none_iff _ _ _ _).2 ⟨ht, hf⟩, if_pos h, saysLeft_eq, complain]
      rfl

theorem explainEntry_ok (cur : Bytes) (x : Entry × Bytes) :
    explainEntry cur = .ok x ↔ readEntry cur = .ok x := by
  rw [← explainEntry_plain]
  cases explainEntry cur <;> simp [ParseOutcome.plain]

theorem explainComponent_ok (cur : Bytes) (x : Component × Bytes) :
    explainComponent cur = .ok x ↔ readComponent cur = .ok x := by
  rw [← explainComponent_plain]
  cases explainComponent cur <;> simp [ParseOutcome.plain]

theorem explainEntryLoop_eq (cur : Bytes) (entries : List Entry) (subtype : Nat) :
    explainEntryLoop cur entries subtype =
      (explainEntry cur).bind fun x =>
        if x.1.type = 0 then
          .ok (entries ++ [x.1], if x.1.type = 16 ∧ x.1.value.isOne then 1 else subtype, x.2)
        else explainEntryLoop x.2 (entries ++ [x.1])
          (if x.1.type = 16 ∧ x.1.value.isOne then 1 else subtype) := by
  rw [explainEntryLoop]
  split <;> rename_i h <;> simp [h, ParseOutcome.bind]

theorem entryLoop_eq (cur : Bytes) (entries : List Entry) (subtype : Nat) :
    entryLoop cur entries subtype =
      match readEntry cur with
      | .throws => .throws
      | .overrun => .overrun
      | .ok (e, rest) =>
        if e.type = 0 then .ok (entries ++ [e], if e.type = 16 ∧ e.value.isOne then 1 else subtype, rest)
        else entryLoop rest (entries ++ [e]) (if e.type = 16 ∧ e.value.isOne then 1 else subtype) := by
  rw [entryLoop]
  split <;> rename_i h <;> simp [h]

theorem explainEntryLoop_plain (cur : Bytes) (entries : List Entry) (subtype : Nat) :
    (explainEntryLoop cur entries subtype).plain = entryLoop cur entries subtype := by
  induction hn : cur.length using Nat.strongRecOn generalizing cur entries subtype with
  | _ n ih =>
    rw [explainEntryLoop_eq, entryLoop_eq]
    cases he : explainEntry cur with
    | ok x =>
      obtain ⟨e, rest⟩ := x
      have hr := (explainEntry_ok _ _).1 he
      have := readEntry_length hr
      rw [hr]
      simp only [ParseOutcome.bind]
      by_cases h0 : e.type = 0
      · rw [if_pos h0, if_pos h0]; rfl
      · rw [if_neg h0, if_neg h0]
        exact ih rest.length (by omega) _ _ _ rfl
    | raises e =>
      have hr : readEntry cur = .throws := by rw [← explainEntry_plain, he]; rfl
      rw [hr]; rfl
    | overrun =>
      have hr : readEntry cur = .overrun := by rw [← explainEntry_plain, he]; rfl
      rw [hr]; rfl

theorem explainSpecLoop_eq (subtype : Nat) (cur : Bytes) (specs : List SpecBlock) :
    explainSpecLoop subtype cur specs =
      if 0 < cur.length then
        (explainSpec subtype cur).bind fun s => explainSpecLoop subtype (cur.drop 40) (specs ++ [s])
      else .ok specs := by
  rw [explainSpecLoop]
  by_cases h : 0 < cur.length
  · rw [dif_pos h, if_pos h]
    cases explainSpec subtype cur <;> rfl
  · rw [dif_neg h, if_neg h]

theorem specLoop_eq (subtype : Nat) (cur : Bytes) (specs : List SpecBlock) :
    specLoop subtype cur specs =
      if 0 < cur.length then
        match if subtype = 0 then readSpec0 cur else readSpec1 cur with
        | .throws => .throws
        | .overrun => .overrun
        | .ok s => specLoop subtype (cur.drop 40) (specs ++ [s])
      else .ok specs := by
  rw [specLoop]
  by_cases h : 0 < cur.length
  · rw [dif_pos h, if_pos h]
    generalize (if subtype = 0 then readSpec0 cur else readSpec1 cur) = x
    cases x <;> rfl
  · rw [dif_neg h, if_neg h]

theorem explainSpecLoop_plain (subtype : Nat) (cur : Bytes) (specs : List SpecBlock) :
    (explainSpecLoop subtype cur specs).plain = specLoop subtype cur specs := by
  induction hn : cur.length using Nat.strongRecOn generalizing cur specs with
  | _ n ih =>
    rw [explainSpecLoop_eq, specLoop_eq, explainSpec]
    by_cases h : 0 < cur.length
    · rw [if_pos h, if_pos h]
      generalize (if subtype = 0 then readSpec0 cur else readSpec1 cur) = x
      cases x with
      | ok s => exact ih (cur.drop 40).length (by simp only [List.length_drop]; omega) _ _ rfl
      | throws => rfl
      | overrun => rfl
    · rw [if_neg h, if_neg h]; rfl

theorem explainDfsr_plain (data : Bytes) : (explainDfsr data).plain = parseDfsr data := by
  unfold explainDfsr parseDfsr
  rw [← explainEntryLoop_plain]
  cases explainEntryLoop data [] 0 with
  | ok x =>
    obtain ⟨es, sub, rest⟩ := x
    simp only [ParseOutcome.bind, ParseOutcome.plain]
    rw [← explainSpecLoop_plain]
    cases explainSpecLoop sub rest [] <;> rfl
  | raises e => rfl
  | overrun => rfl

theorem explainComponentLoop_eq (cur : Bytes) (cs : List Component) :
    explainComponentLoop cur cs =
      if 0 < cur.length then
        (explainComponent cur).bind fun x => explainComponentLoop x.2 (cs ++ [x.1])
      else .ok cs := by
  rw [explainComponentLoop]
  by_cases h : 0 < cur.length
  · rw [if_pos h, if_pos h]
    split <;> rename_i h <;> simp [h, ParseOutcome.bind]
  · rw [if_neg h, if_neg h]

theorem componentLoop_eq (cur : Bytes) (cs : List Component) :
    componentLoop cur cs =
      if 0 < cur.length then
        match readComponent cur with
        | .throws => .throws
        | .overrun => .overrun
        | .ok (c, rest) => componentLoop rest (cs ++ [c])
      else .ok cs := by
  rw [componentLoop]
  by_cases h : 0 < cur.length
  · rw [if_pos h, if_pos h]
    split <;> rename_i h <;> simp [h]
  · rw [if_neg h, if_neg h]

theorem explainComponentLoop_plain (cur : Bytes) (cs : List Component) :
    (explainComponentLoop cur cs).plain = componentLoop cur cs := by
  induction hn : cur.length using Nat.strongRecOn generalizing cur cs with
  | _ n ih =>
    rw [explainComponentLoop_eq, componentLoop_eq]
    by_cases h : 0 < cur.length
    · rw [if_pos h, if_pos h]
      cases he : explainComponent cur with
      | ok x =>
        obtain ⟨e, rest⟩ := x
        have hr := (explainComponent_ok _ _).1 he
        have := readComponent_length hr
        rw [hr]
        exact ih rest.length (by omega) _ _ rfl
      | raises e =>
        have hr : readComponent cur = .throws := by rw [← explainComponent_plain, he]; rfl
        rw [hr]; rfl
      | overrun =>
        have hr : readComponent cur = .overrun := by rw [← explainComponent_plain, he]; rfl
        rw [hr]; rfl
    · rw [if_neg h, if_neg h]; rfl

theorem explainInfo_plain (data : Bytes) : (explainInfo data).plain = parseInfo data :=
  explainComponentLoop_plain data []

/-! ### Whole records -/

/-- The loop over entries fails where the first faulty one is. -/
theorem explainEntryLoop_raises (cur : Bytes) (acc : List Entry) (sub : ℕ) (e : ParseError) :
    explainEntryLoop cur acc sub = .raises e ↔
      ∃ (es : List RawEntry) (rest what : Bytes), (∀ x ∈ es, x.Ok) ∧ (∀ x ∈ es, x.type ≠ 0) ∧
        EntryFault rest what ∧ cur = (es.map RawEntry.bytes).flatten ++ rest ∧ e = .runtime what := by
  induction hn : cur.length using Nat.strongRecOn generalizing cur acc sub with
  | _ n ih =>
    rw [explainEntryLoop_eq]
    constructor
    · intro h
      cases he : explainEntry cur with
      | ok x =>
        obtain ⟨y, rest⟩ := x
        have hr := (explainEntry_ok _ _).1 he
        have hlen := readEntry_length hr
        obtain ⟨r, hok, rfl, rfl⟩ := (readEntry_iff _ _ _).1 hr
        rw [he] at h
        simp only [ParseOutcome.bind] at h
        split at h
        · cases h
        · rename_i h0
          obtain ⟨es, rest', what, h1, h2, h3, rfl, rfl⟩ := (ih rest.length (by omega) _ _ _ rfl).1 h
          refine ⟨r :: es, rest', what, ?_, ?_, h3, by simp, rfl⟩
          · intro x hx
            rcases List.mem_cons.1 hx with rfl | hx
            · exact hok
            · exact h1 x hx
          · intro x hx
            rcases List.mem_cons.1 hx with rfl | hx
            · exact fun hz => h0 ((type_zero _).2 hz)
            · exact h2 x hx
      | raises e' =>
        rw [he] at h
        simp only [ParseOutcome.bind, ParseOutcome.raises.injEq] at h
        subst h
        obtain ⟨what, rfl, hf⟩ := (c92_entry _ _).1 he
        exact ⟨[], cur, what, by simp, by simp, hf, by simp, rfl⟩
      | overrun =>
        rw [he] at h
        cases h
    · rintro ⟨es, rest, what, h1, h2, h3, rfl, rfl⟩
      cases es with
      | nil =>
        have := (c92_entry rest (.runtime what)).2 ⟨what, rfl, h3⟩
        simp [this, ParseOutcome.bind]
      | cons r es =>
        have hr := (readEntry_iff (r.bytes ++ ((es.map RawEntry.bytes).flatten ++ rest)) r.entry _).2
          ⟨r, h1 r (by simp), rfl, rfl⟩
        have hlen := readEntry_length hr
        have he := (explainEntry_ok _ _).2 hr
        simp only [List.map_cons, List.flatten_cons, List.append_assoc] at hn ⊢
        rw [he]
        simp only [ParseOutcome.bind]
        have hz : ¬ r.entry.type = 0 := fun hz => h2 r (by simp) ((type_zero _).1 hz)
        rw [if_neg hz]
        exact (ih _ (by omega) _ _ _ rfl).2 ⟨es, rest, what, fun x hx => h1 x (by simp [hx]),
          fun x hx => h2 x (by simp [hx]), h3, rfl, rfl⟩

/-- When a specification block is read. -/
theorem explainSpec_cases (sub : ℕ) (cur : Bytes) :
    (cur.length < 40 → explainSpec sub cur = complain (saysLeft "lis::spec_block" cur.length 40)) ∧
    (¬ cur.length < 40 → ∃ s, explainSpec sub cur = .ok s) := by
  constructor
  · intro h
    unfold explainSpec
    rw [readSpec_eq, if_pos h]
  · intro h
    unfold explainSpec
    rw [readSpec_eq, if_neg h]
    exact ⟨_, rfl⟩

/-- The loop over specification blocks fails if the last one is too short. -/
theorem explainSpecLoop_raises (sub : ℕ) (cur : Bytes) (acc : List SpecBlock) (e : ParseError) :
    explainSpecLoop sub cur acc = .raises e ↔
      ∃ (blocks : List Bytes) (rest : Bytes), (∀ b ∈ blocks, b.length = 40) ∧ rest ≠ [] ∧
        rest.length < 40 ∧ cur = blocks.flatten ++ rest ∧
        e = .runtime (saysLeft "lis::spec_block" rest.length 40) := by
  induction hn : cur.length using Nat.strongRecOn generalizing cur acc with
  | _ n ih =>
    rw [explainSpecLoop_eq]
    by_cases h0 : 0 < cur.length
    · rw [if_pos h0]
      by_cases hl : cur.length < 40
      · rw [(explainSpec_cases sub cur).1 hl]
        constructor
        · intro h
          cases h
          exact ⟨[], cur, by simp, List.length_pos_iff.1 h0, hl, by simp, rfl⟩
        · rintro ⟨blocks, rest, h1, -, -, rfl, rfl⟩
          cases blocks with
          | nil => rfl
          | cons b bs =>
            have := h1 b (by simp)
            simp only [List.flatten_cons, List.length_append] at hl
            omega
      · obtain ⟨s, hs⟩ := (explainSpec_cases sub cur).2 hl
        rw [hs]
        simp only [ParseOutcome.bind]
        rw [ih (cur.drop 40).length (by simp only [List.length_drop]; omega) _ _ rfl]
        constructor
        · rintro ⟨blocks, rest, h1, h2, h3, h4, rfl⟩
          refine ⟨cur.take 40 :: blocks, rest, ?_, h2, h3, ?_, rfl⟩
          · intro b hb
            rcases List.mem_cons.1 hb with rfl | hb
            · rw [List.length_take]; omega
            · exact h1 b hb
          · rw [List.flatten_cons, List.append_assoc, ← h4, List.take_append_drop]
        · rintro ⟨blocks, rest, h1, h2, h3, rfl, rfl⟩
          cases blocks with
          | nil => simp at hl; omega
          | cons b bs =>
            have hb := h1 b (by simp)
            exact ⟨bs, rest, fun x hx => h1 x (by simp [hx]), h2, h3, by simp [← hb], rfl⟩
    · rw [if_neg h0]
      constructor
      · intro h; cases h
      · rintro ⟨blocks, rest, -, h2, -, rfl, -⟩
        have := List.length_pos_iff.2 h2
        simp only [List.length_append] at h0
        omega

/-- What is said about a data format specification is what is wrong with it. -/
theorem c92_dfsr (data : Bytes) (e : ParseError) :
    explainDfsr data = .raises e ↔ ∃ what, e = .runtime what ∧ DfsrFault data what := by
  unfold explainDfsr
  constructor
  · intro h
    cases hl : explainEntryLoop data [] 0 with
    | ok x =>
      obtain ⟨es, sub, rest⟩ := x
      have hp := explained_ok hl
      rw [explainEntryLoop_plain] at hp
      obtain ⟨init, term, hc, rfl⟩ := entryLoop_ok _ _ _ hp
      rw [hl] at h
      simp only [ParseOutcome.bind] at h
      cases hs : explainSpecLoop sub rest [] with
      | ok s => rw [hs] at h; cases h
      | overrun => rw [hs] at h; cases h
      | raises e' =>
        rw [hs] at h
        cases h
        obtain ⟨blocks, tail, h1, h2, h3, rfl, rfl⟩ := (explainSpecLoop_raises _ _ _ _).1 hs
        refine ⟨_, rfl, ?_⟩
        rw [saysLeft_forty]
        exact .spec init term blocks tail hc.ok hc.inner hc.last h1 h2 h3
    | overrun => rw [hl] at h; cases h
    | raises e' =>
      rw [hl] at h
      cases h
      obtain ⟨es, rest, what, h1, h2, h3, rfl, rfl⟩ := (explainEntryLoop_raises _ _ _ _).1 hl
      exact ⟨what, rfl, .entry es rest what h1 h2 h3⟩
  · rintro ⟨what, rfl, h⟩
    cases h with
    | entry es rest _ ok inner h =>
      rw [(explainEntryLoop_raises _ _ _ _).2 ⟨es, rest, what, ok, inner, h, rfl, rfl⟩]
      rfl
    | spec es last blocks rest ok inner hl hb h0 h =>
      have hp := entryLoop_closed es last ⟨ok, inner, hl⟩ (blocks.flatten ++ rest) [] 0
      rw [← explainEntryLoop_plain] at hp
      cases hx : explainEntryLoop (((es ++ [last]).map RawEntry.bytes).flatten ++ (blocks.flatten ++ rest)) [] 0 with
      | raises e => rw [hx] at hp; cases hp
      | overrun => rw [hx] at hp; cases hp
      | ok x =>
        rw [hx] at hp
        simp only [ParseOutcome.plain, Parsed.ok.injEq] at hp
        subst hp
        simp only [ParseOutcome.bind]
        rw [(explainSpecLoop_raises _ _ _ _).2 ⟨blocks, rest, hb, h0, h, rfl, rfl⟩, saysLeft_forty]

/-- What is said about an information record is what is wrong with it. -/
theorem c92_info (data : Bytes) (e : ParseError) :
    explainInfo data = .raises e ↔ ∃ what, e = .runtime what ∧ InfoFault data what := by
  unfold explainInfo
  generalize ([] : List Component) = acc
  induction hn : data.length using Nat.strongRecOn generalizing data acc with
  | _ n ih =>
    rw [explainComponentLoop_eq]
    by_cases h0 : 0 < data.length
    · rw [if_pos h0]
      constructor
      · intro h
        cases he : explainComponent data with
        | ok x =>
          obtain ⟨y, rest⟩ := x
          have hr := (explainComponent_ok _ _).1 he
          have hlen := readComponent_length hr
          obtain ⟨r, hok, rfl, rfl⟩ := (readComponent_iff _ _ _).1 hr
          rw [he] at h
          obtain ⟨what, rfl, hi⟩ := (ih rest.length (by omega) _ _ rfl).1 h
          refine ⟨what, rfl, ?_⟩
          obtain ⟨cs, tail, _, h1, h2, h3⟩ := hi
          have : r.bytes ++ (componentBytes cs ++ tail) = componentBytes (r :: cs) ++ tail := by
            simp [componentBytes]
          rw [this]
          refine .mk (r :: cs) tail what ?_ h2 h3
          intro x hx
          rcases List.mem_cons.1 hx with rfl | hx
          · exact hok
          · exact h1 x hx
        | raises e' =>
          rw [he] at h
          cases h
          obtain ⟨what, rfl, hf⟩ := (c92_component _ _).1 he
          refine ⟨what, rfl, ?_⟩
          have := InfoFault.mk [] data what (by simp) (List.length_pos_iff.1 h0) hf
          simpa [componentBytes] using this
        | overrun => rw [he] at h; cases h
      · rintro ⟨what, rfl, ⟨cs, rest, _, h1, h2, h3⟩⟩
        cases cs with
        | nil =>
          have := (c92_component rest (.runtime what)).2 ⟨what, rfl, h3⟩
          simp [componentBytes, this, ParseOutcome.bind]
        | cons r cs =>
          have hb : componentBytes (r :: cs) ++ rest = r.bytes ++ (componentBytes cs ++ rest) := by
            simp [componentBytes]
          rw [hb] at hn ⊢
          have hr := (readComponent_iff (r.bytes ++ (componentBytes cs ++ rest)) r.component _).2
            ⟨r, h1 r (by simp), rfl, rfl⟩
          have hlen := readComponent_length hr
          rw [(explainComponent_ok _ _).2 hr]
          exact (ih (componentBytes cs ++ rest).length (by omega) _ _ rfl).2 ⟨what, rfl, .mk cs rest what (fun x hx => h1 x (by simp [hx])) h2 h3⟩
    · rw [if_neg h0]
      constructor
      · intro h; cases h
      · rintro ⟨what, -, ⟨cs, rest, _, -, h2, -⟩⟩
        have := List.length_pos_iff.2 h2
        simp only [List.length_append] at h0
        omega

/-- The names of the record types. -/
theorem recordTypeStr_names (t : ℕ) :
    recordTypeStr t = (typeNames.lookup t).getD "Invalid LIS79 Record Type" := by
  by_cases h : t ∈ types
  · exact (show ∀ t ∈ types, recordTypeStr t = (typeNames.lookup t).getD "Invalid LIS79 Record Type" by
      decide) t h
  · have hn : typeNames.lookup t = none := by
      rw [List.lookup_eq_none_iff]
      intro x hx
      rw [bne_iff_ne]
      rintro rfl
      exact h ((show ∀ x ∈ typeNames, x.1 ∈ types by decide) x hx)
    rw [hn, ((c75_names t t).1).2 h]
    rfl

theorem bind_raises {α β : Type} (x : ParseOutcome α) (f : α → β) (e : ParseError) :
    (x.bind fun a => .ok (f a)) = .raises e ↔ x = .raises e := by
  cases x <;> simp [ParseOutcome.bind]

theorem outcome_bind_plain {α β : Type} (x : ParseOutcome α) (f : α → ParseOutcome β) :
    (x.bind f).plain = x.plain.bind fun a => (f a).plain := by
  cases x <;> rfl

theorem explainText_eq (type : ℕ) (data : Bytes) : explainText type data =
    if type ∈ [224, 225, 227, 232] then .ok (type, data)
    else complain (saysWrongType "parse_text_record" type) := by
  unfold explainText
  by_cases h : type ∈ [224, 225, 227, 232]
  · rw [if_neg (by simp at h ⊢; tauto), if_pos h, c50_text, if_pos h]
  · rw [if_pos (by simp at h ⊢; tauto), if_neg h]

theorem explainFile_eq (type : ℕ) (data : Bytes) (h : type ∈ [128, 129]) : explainFile type data =
    if data.length < 56 then
      complain (cText "parse_file_record: Unable to parse record, " ++ cText (recordTypeStr type) ++
        cText " Records are " ++ cNum 56 ++ cText " bytes, raw record is only " ++ cNum data.length)
    else .ok (Spec.fileRecord data) := by
  unfold explainFile
  rw [if_neg (by simp at h ⊢; tauto)]
  by_cases hl : data.length < 56
  · rw [if_pos hl, if_pos hl]
  · rw [if_neg hl, if_neg hl, c49_file, if_pos ⟨h, by omega⟩]

theorem explainTape_eq (type : ℕ) (data : Bytes) (h : type ∈ [130, 131, 132, 133]) :
    explainTape type data =
      if data.length < 126 then
        complain (cText "Unable to parse record. Expected " ++ cNum 126 ++
          cText " bytes, raw record is only " ++ cNum data.length)
      else .ok (Spec.tapeRecord data) := by
  unfold explainTape
  rw [if_neg (by simp at h ⊢; tauto)]
  by_cases hl : data.length < 126
  · rw [if_pos hl, if_pos hl]
  · rw [if_neg hl, if_neg hl, c49_tape, if_pos ⟨h, by omega⟩]

theorem explainText_plain (type : ℕ) (data : Bytes) : (explainText type data).plain = parseText type data := by
  rw [explainText_eq, c50_text]
  split <;> rfl

theorem explainFile_plain (type : ℕ) (data : Bytes) :
    (explainFile type data).plain = parseFileRecord type data := by
  by_cases h : type ∈ [128, 129]
  · rw [explainFile_eq _ _ h, c49_file]
    by_cases hl : data.length < 56
    · rw [if_pos hl, if_neg (by omega)]; rfl
    · rw [if_neg hl, if_pos ⟨h, by omega⟩]; rfl
  · unfold explainFile
    rw [if_pos (by simp at h ⊢; tauto), c49_file, if_neg (by tauto)]; rfl

theorem explainTape_plain (type : ℕ) (data : Bytes) :
    (explainTape type data).plain = parseTapeRecord type data := by
  by_cases h : type ∈ [130, 131, 132, 133]
  · rw [explainTape_eq _ _ h, c49_tape]
    by_cases hl : data.length < 126
    · rw [if_pos hl, if_neg (by omega)]; rfl
    · rw [if_neg hl, if_pos ⟨h, by omega⟩]; rfl
  · unfold explainTape
    rw [if_pos (by simp at h ⊢; tauto), c49_tape, if_neg (by tauto)]; rfl

/-- The texts change nothing: results and failures are those of C47 to C50 and C75. -/
theorem c92_plain (info : RecordInfo) (data : Bytes) :
    (explainRecord info data).plain = parseRecord info data := by
  simp only [explainRecord, apply_ite ParseOutcome.plain, outcome_bind_plain, explainDfsr_plain,
    explainInfo_plain, explainText_plain, explainFile_plain, explainTape_plain]
  rfl

theorem recordFault_info {type : ℕ} {data : Bytes} {e : ParseError} (ht : type ∈ [32, 34, 39]) :
    RecordFault type data e ↔ ∃ what, e = .runtime what ∧ InfoFault data what := by
  constructor
  · intro h
    cases h with
    | rule _ _ h =>
      exact absurd (by simp [parseable] at ht ⊢; omega) h
    | info _ _ what _ h => exact ⟨what, rfl, h⟩
    | dfsr _ _ h => simp at ht
    | header _ h => simp at ht
    | trailer _ h => simp at ht
    | tape _ _ h _ => simp at ht h; omega
  · rintro ⟨what, rfl, h⟩
    exact .info type data what ht h

theorem recordFault_tape {type : ℕ} {data : Bytes} {e : ParseError} (ht : type ∈ [130, 131, 132, 133]) :
    RecordFault type data e ↔ data.length < 126 ∧
      e = .runtime (quoted "Unable to parse record. Expected 126 bytes, raw record is only " ++
        Dlis.toDecimal data.length) := by
  constructor
  · intro h
    cases h with
    | rule _ _ h => exact absurd (by simp [parseable] at ht ⊢; omega) h
    | info _ _ what h _ => simp at ht h; omega
    | dfsr _ _ h => simp at ht
    | header _ h => simp at ht
    | trailer _ h => simp at ht
    | tape _ _ _ h => exact ⟨h, rfl⟩
  · rintro ⟨h, rfl⟩
    exact .tape type data ht h

/-- An exception is raised exactly for faulty records, and its text says what is wrong. -/
theorem c92_record (info : RecordInfo) (data : Bytes) (e : ParseError) :
    explainRecord info data = .raises e ↔ RecordFault info.type data e := by
  have hinfo : ∀ t, t ∈ [32, 34, 39] →
      (((explainInfo data).bind fun cs => .ok (Content.info t cs)) = .raises e ↔ RecordFault t data e) := by
    intro t ht
    rw [bind_raises (f := fun cs => Content.info t cs), c92_info, recordFault_info ht]
  have htape : ∀ t, t ∈ [130, 131, 132, 133] →
      (((explainTape t data).bind fun r => .ok (Content.tape t r)) = .raises e ↔ RecordFault t data e) := by
    intro t ht
    rw [bind_raises (f := fun r => Content.tape t r), explainTape_eq _ _ ht, recordFault_tape ht]
    have h : cText "Unable to parse record. Expected " ++ cNum 126 ++ cText " bytes, raw record is only " =
      quoted "Unable to parse record. Expected 126 bytes, raw record is only " := by literals
    rw [h]
    by_cases hl : data.length < 126
    · rw [if_pos hl]
      simp only [complain, cNum, ParseOutcome.raises.injEq, hl, true_and]
      exact eq_comm
    · rw [if_neg hl]
      simp [hl]
  have htext : ∀ t, t ∈ [224, 225, 227, 232] →
      (((explainText t data).bind fun p => .ok (Content.text p.1 p.2)) = .raises e ↔ RecordFault t data e) := by
    intro t ht
    rw [bind_raises (f := fun p : ℕ × Bytes => Content.text p.1 p.2), explainText_eq, if_pos ht]
    constructor
    · intro h; cases h
    · intro h
      cases h with
      | rule _ _ h => exact absurd (by simp [parseable] at ht ⊢; omega) h
      | info _ _ what h _ => simp at ht h; omega
      | dfsr _ _ h => simp at ht
      | header _ h => simp at ht
      | trailer _ h => simp at ht
      | tape _ _ h _ => simp at ht h; omega
  obtain ⟨type, addr, ltell⟩ := info
  by_cases hp : type ∈ parseable
  · simp only [parseable, List.mem_cons, List.not_mem_nil, or_false] at hp
    rcases hp with rfl | rfl | rfl | rfl | rfl | rfl | rfl | rfl | rfl | rfl | rfl | rfl | rfl | rfl
    · exact hinfo 32 (by simp)
    · exact hinfo 34 (by simp)
    · exact hinfo 39 (by simp)
    · show ((explainDfsr data).bind fun d => .ok (Content.dfsr _ d)) = .raises e ↔ _
      rw [bind_raises, c92_dfsr]
      constructor
      · rintro ⟨what, rfl, h⟩
        exact .dfsr data what h
      · intro h
        cases h with
        | rule _ _ h => exact absurd (by simp [parseable]) h
        | info _ _ what h _ => simp at h
        | dfsr _ what h => exact ⟨what, rfl, h⟩
        | tape _ _ h _ => simp at h
    · show ((explainFile 128 data).bind fun r => .ok (Content.file 128 r)) = .raises e ↔ _
      rw [bind_raises, explainFile_eq _ _ (by simp)]
      have h : cText "parse_file_record: Unable to parse record, " ++ cText (recordTypeStr 128) ++
          cText " Records are " ++ cNum 56 ++ cText " bytes, raw record is only " =
        quoted "parse_file_record: Unable to parse record, File Header Records are 56 bytes, " ++
          quoted "raw record is only " := by literals
      rw [h]
      constructor
      · intro h
        split at h
        · rename_i hl
          cases h
          exact .header data hl
        · cases h
      · intro h
        cases h with
        | rule _ _ h => exact absurd (by simp [parseable]) h
        | info _ _ what h _ => simp at h
        | header _ hl => rw [if_pos hl]; rfl
        | tape _ _ h _ => simp at h
    · show ((explainFile 129 data).bind fun r => .ok (Content.file 129 r)) = .raises e ↔ _
      rw [bind_raises, explainFile_eq _ _ (by simp)]
      have h : cText "parse_file_record: Unable to parse record, " ++ cText (recordTypeStr 129) ++
          cText " Records are " ++ cNum 56 ++ cText " bytes, raw record is only " =
        quoted "parse_file_record: Unable to parse record, File Trailer Records are 56 bytes, " ++
          quoted "raw record is only " := by literals
      rw [h]
      constructor
      · intro h
        split at h
        · rename_i hl
          cases h
          exact .trailer data hl
        · cases h
      · intro h
        cases h with
        | rule _ _ h => exact absurd (by simp [parseable]) h
        | info _ _ what h _ => simp at h
        | trailer _ hl => rw [if_pos hl]; rfl
        | tape _ _ h _ => simp at h
    · exact htape 130 (by simp)
    · exact htape 131 (by simp)
    · exact htape 132 (by simp)
    · exact htape 133 (by simp)
    · exact htext 224 (by simp)
    · exact htext 225 (by simp)
    · exact htext 227 (by simp)
    · exact htext 232 (by simp)
  · have hn := hp
    simp only [parseable, List.mem_cons, List.not_mem_nil, or_false, not_or] at hn
    unfold explainRecord
    dsimp only
    repeat rw [if_neg (by omega)]
    rw [recordTypeStr_names]
    constructor
    · intro h
      cases h
      exact .rule type data hp
    · intro h
      cases h with
      | rule _ _ h => rfl
      | info _ _ what h _ => exact absurd (by simp [parseable] at h ⊢; omega) hp
      | dfsr _ _ h => exact absurd (by decide) hp
      | header _ h => exact absurd (by decide) hp
      | trailer _ h => exact absurd (by decide) hp
      | tape _ _ h _ => exact absurd (by simp [parseable] at h ⊢; omega) hp

/-- One record, one reason. -/
theorem c92_one_reason {type : ℕ} {data : Bytes} {e e' : ParseError} (h : RecordFault type data e)
    (h' : RecordFault type data e') : e = e' := by
  have a := (c92_record ⟨type, 0, 0⟩ data e).2 h
  have b := (c92_record ⟨type, 0, 0⟩ data e').2 h'
  rw [a] at b
  exact ParseOutcome.raises.inj b

/-- Records without a reason are parsed. -/
theorem c92_no_alarm (info : RecordInfo) (data : Bytes) :
    (∃ c, explainRecord info data = .ok c) ↔ ∀ e, ¬ RecordFault info.type data e := by
  constructor
  · rintro ⟨c, h⟩ e hf
    rw [(c92_record info data e).2 hf] at h
    cases h
  · intro h
    cases hx : explainRecord info data with
    | ok c => exact ⟨c, rfl⟩
    | raises e => exact absurd ((c92_record _ _ _).1 hx) (h e)
    | overrun =>
      have := c92_plain info data
      rw [hx] at this
      exact absurd this.symm (c62_parse info data).2

/-! ### Headers and trailers -/

theorem explainRead_plain (dev : Device) (info : RecordInfo) : (explainRead dev info).plain =
    (recordData dev info).bind fun data => (parseRecord info data).bind fun c => .ok (some c) := by
  unfold explainRead recordData
  cases readRecord dev info with
  | ok x =>
    obtain ⟨data, p⟩ := x
    simp only [outcome_bind_plain, c92_plain]
    rfl
  | error x => rfl

/-- The texts change nothing in `header` and `trailer`. -/
theorem c92_methods_plain (self : Text) (dev : Device) (ix : Index) :
    (explainHeader self dev ix).1.plain = fileHeader dev ix ∧
    (explainTrailer self dev ix).1.plain = fileTrailer dev ix := by
  have h1 : fileHeader dev ix = onlyRecord dev ix 128 := rfl
  have h2 : fileTrailer dev ix = onlyRecord dev ix 129 := rfl
  rw [h1, h2]
  unfold explainHeader explainTrailer onlyRecord
  constructor
  · cases ix.explicits.filter fun x => decide (x.type = 128) with
    | nil => rfl
    | cons i is =>
      cases is with
      | nil => exact explainRead_plain dev i
      | cons j js => rfl
  · cases ix.explicits.filter fun x => decide (x.type = 129) with
    | nil => rfl
    | cons i is =>
      cases is with
      | nil => exact explainRead_plain dev i
      | cons j js => rfl

/-- What `header` says: that there is none exactly if there is none, that there are several exactly
if there are several, and otherwise nothing but what is wrong with the only one. -/
theorem c92_header (self : Text) (dev : Device) (ix : Index) :
    ((∀ i ∈ ix.explicits, i.type ≠ 128) → explainHeader self dev ix =
      (.ok none, [.warning (text "No File Header Logical Record in " ++ self)])) ∧
    (∀ i, (ix.explicits.filter fun x => x.type = 128) = [i] → (explainHeader self dev ix).2 = [] ∧
      ∀ e, (explainHeader self dev ix).1 = .raises e ↔
        match readRecord dev i with
        | .ok (data, _) => RecordFault 128 data e
        | .error _ => e = .io) ∧
    (2 ≤ (ix.explicits.filter fun x => x.type = 128).length → explainHeader self dev ix =
      (.raises (.value (text "Multiple File Header Logical Records, should only be one. " ++
        text "Use parse_record to read them all")), [])) := by
  refine ⟨?_, ?_, ?_⟩
  · intro h
    have : (ix.explicits.filter fun x => decide (x.type = 128)) = [] := by
      rw [List.filter_eq_nil_iff]; simpa using h
    unfold explainHeader
    rw [this]
    have ht : text "No " ++ text (recordTypeStr 128) ++ text " Logical Record in " =
      text "No File Header Logical Record in " := by literals
    dsimp only
    rw [ht]
  · intro i h
    have hi : i.type = 128 := by
      have : i ∈ ix.explicits.filter fun x => decide (x.type = 128) := by rw [h]; simp
      simpa using (List.mem_filter.1 this).2
    unfold explainHeader
    rw [h]
    refine ⟨rfl, fun e => ?_⟩
    dsimp only
    unfold explainRead
    cases readRecord dev i with
    | ok x =>
      obtain ⟨data, p⟩ := x
      dsimp only
      rw [bind_raises, c92_record, hi]
    | error x => exact ⟨fun h => (ParseOutcome.raises.inj h).symm, fun h => by rw [h]⟩
  · intro h
    unfold explainHeader
    cases hf : ix.explicits.filter fun x => decide (x.type = 128) with
    | nil => rw [hf] at h; simp at h
    | cons i is =>
      cases is with
      | nil => rw [hf] at h; simp at h
      | cons j js =>
        have ht : text "Multiple " ++ text (recordTypeStr 128) ++ text " Logical Records, should only be one. " =
          text "Multiple File Header Logical Records, should only be one. " := by literals
        dsimp only
        rw [ht]

/-- What `trailer` says: as `header`, but that there is none is no warning. -/
theorem c92_trailer (self : Text) (dev : Device) (ix : Index) :
    ((∀ i ∈ ix.explicits, i.type ≠ 129) → explainTrailer self dev ix =
      (.ok none, [.info (text "No File Trailer Logical Record in " ++ self)])) ∧
    (∀ i, (ix.explicits.filter fun x => x.type = 129) = [i] → (explainTrailer self dev ix).2 = [] ∧
      ∀ e, (explainTrailer self dev ix).1 = .raises e ↔
        match readRecord dev i with
        | .ok (data, _) => RecordFault 129 data e
        | .error _ => e = .io) ∧
    (2 ≤ (ix.explicits.filter fun x => x.type = 129).length → explainTrailer self dev ix =
      (.raises (.value (text "Multiple File Trailer Records, should only be one. " ++
        text "Use parse_record to read them all")), [])) := by
  refine ⟨?_, ?_, ?_⟩
  · intro h
    have : (ix.explicits.filter fun x => decide (x.type = 129)) = [] := by
      rw [List.filter_eq_nil_iff]; simpa using h
    unfold explainTrailer
    rw [this]
    have ht : text "No " ++ text (recordTypeStr 129) ++ text " Logical Record in " =
      text "No File Trailer Logical Record in " := by literals
    dsimp only
    rw [ht]
  · intro i h
    have hi : i.type = 129 := by
      have : i ∈ ix.explicits.filter fun x => decide (x.type = 129) := by rw [h]; simp
      simpa using (List.mem_filter.1 this).2
    unfold explainTrailer
    rw [h]
    refine ⟨rfl, fun e => ?_⟩
    dsimp only
    unfold explainRead
    cases readRecord dev i with
    | ok x =>
      obtain ⟨data, p⟩ := x
      dsimp only
      rw [bind_raises, c92_record, hi]
    | error x => exact ⟨fun h => (ParseOutcome.raises.inj h).symm, fun h => by rw [h]⟩
  · intro h
    unfold explainTrailer
    cases hf : ix.explicits.filter fun x => decide (x.type = 129) with
    | nil => rw [hf] at h; simp at h
    | cons i is =>
      cases is with
      | nil => rw [hf] at h; simp at h
      | cons j js =>
        have ht : text "Multiple " ++ text (recordTypeStr 129) ++ text " Records, should only be one. " =
          text "Multiple File Trailer Records, should only be one. " := by literals
        dsimp only
        rw [ht]

/-- What `HeaderTrailer.header` and `trailer` say about reels and tapes. -/
theorem c92_reel_tape (type : ℕ) (ht : type ∈ [130, 131, 132, 133]) :
    explainRawHeader type none =
      (.ok none, [.warning (text "Missing Header Record - File structure is broken")]) ∧
    explainRawTrailer type none = (.ok none, [.info (text "No (optional) Trailer Record present")]) ∧
    ∀ data, ((explainRawHeader type (some data)).1.plain = parseRaw type (some data) ∧
        (explainRawTrailer type (some data)).1.plain = parseRaw type (some data)) ∧
      (explainRawHeader type (some data)).2 = [] ∧ (explainRawTrailer type (some data)).2 = [] ∧
      (∀ e, (explainRawHeader type (some data)).1 = .raises e ↔ data.length < 126 ∧
        e = .runtime (quoted "Unable to parse record. Expected 126 bytes, raw record is only " ++
          Dlis.toDecimal data.length)) ∧
      (∀ e, (explainRawTrailer type (some data)).1 = .raises e ↔ data.length < 126 ∧
        e = .runtime (quoted "Unable to parse record. Expected 126 bytes, raw record is only " ++
          Dlis.toDecimal data.length)) := by
  refine ⟨rfl, rfl, fun data => ⟨⟨?_, ?_⟩, rfl, rfl, fun e => ?_, fun e => ?_⟩⟩
  · simp only [explainRawHeader, outcome_bind_plain, c92_plain]; rfl
  · simp only [explainRawTrailer, outcome_bind_plain, c92_plain]; rfl
  · simp only [explainRawHeader]
    rw [bind_raises, c92_record]
    exact recordFault_tape ht
  · simp only [explainRawTrailer]
    rw [bind_raises, c92_record]
    exact recordFault_tape ht

/-! ### What the user sees -/

/-- ASCII without NUL. -/
def Plain (b : Bytes) : Prop := ∀ x ∈ b, x ≠ 0 ∧ x.toNat < 0x80

instance (b : Bytes) : Decidable (Plain b) := by unfold Plain; infer_instance

theorem plain_append {a b : Bytes} (ha : Plain a) (hb : Plain b) : Plain (a ++ b) := by
  intro x hx
  rcases List.mem_append.1 hx with h | h
  · exact ha x h
  · exact hb x h

theorem plain_num (n : ℕ) : Plain (Dlis.toDecimal n) := by
  intro x hx
  have := (Dlis.toDecimal_spec n).1 x hx
  constructor
  · rintro rfl
    simp at this
  · omega

theorem plain_quoted {s : String} (h : s.toList.all fun c => decide (c.toNat ≠ 0 ∧ c.toNat < 0x80)) :
    Plain (quoted s) := by
  intro x hx
  obtain ⟨c, hc, rfl⟩ := List.mem_map.1 hx
  have hc' := List.all_eq_true.1 h c hc
  simp only [decide_eq_true_eq] at hc'
  have ht : (BitVec.ofNat 8 c.toNat).toNat = c.toNat := by
    rw [BitVec.toNat_ofNat]; omega
  refine ⟨fun h0 => hc'.1 ?_, by omega⟩
  rw [← ht, h0]; rfl

/-- For texts made of literals and numbers. -/
macro "plain_text" : tactic => `(tactic| repeat' first
  | with_reducible apply plain_append
  | exact plain_num _
  | exact plain_quoted (by simp only [literalChars]; decide +kernel))

theorem utf8Decode_plain_append {a : Bytes} (ha : Plain a) (b : Bytes) :
    utf8Decode (a ++ b) = (utf8Decode b).map fun t => a.map BitVec.toNat ++ t := by
  induction a with
  | nil => simp
  | cons x a ih =>
    have hx := ha x (by simp)
    have := utf8Decode_split [] hx.2 (a ++ b)
    rw [List.nil_append] at this
    have h0 : utf8Decode [] = some [] := by decide +kernel
    rw [List.cons_append, this, h0, ih (fun y hy => ha y (by simp [hy]))]
    cases utf8Decode b <;> simp

theorem utf8Decode_plain {a : Bytes} (ha : Plain a) : utf8Decode a = some (a.map BitVec.toNat) := by
  have h0 : utf8Decode [] = some [] := by decide +kernel
  have := utf8Decode_plain_append ha []
  rw [List.append_nil, h0] at this
  simpa using this

theorem utf8Decode_append_plain {b : Bytes} (hb : Plain b) (a : Bytes) :
    utf8Decode (a ++ b) = (utf8Decode a).map fun t => t ++ b.map BitVec.toNat := by
  cases b with
  | nil => simp
  | cons x b =>
    have hx := hb x (by simp)
    rw [utf8Decode_split a hx.2 b, utf8Decode_plain (a := b) (fun y hy => hb y (by simp [hy]))]
    cases utf8Decode a <;> simp

theorem cStr_eq_self {a : Bytes} (ha : ∀ x ∈ a, x ≠ 0) : cStr a = a := by
  unfold cStr
  induction a with
  | nil => rfl
  | cons x a ih =>
    rw [List.takeWhile_cons_of_pos (by simpa using ha x (by simp)), ih (fun y hy => ha y (by simp [hy]))]

theorem shown_plain {a : Bytes} (ha : Plain a) : (ParseError.runtime a).shown = some (a.map BitVec.toNat) := by
  show utf8Decode (cStr a) = _
  rw [cStr_eq_self (fun x hx => (ha x hx).1), utf8Decode_plain ha]

theorem entryFault_plain {b what : Bytes} (h : EntryFault b what) : Plain what := by
  cases h <;> plain_text

theorem dfsrFault_plain {b what : Bytes} (h : DfsrFault b what) : Plain what := by
  cases h with
  | entry _ _ _ _ _ h => exact entryFault_plain h
  | spec => plain_text

/-- But for information records, all of the text is seen. -/
theorem c92_shown (info : RecordInfo) (data what : Bytes) (ht : info.type ∉ [32, 34, 39])
    (h : explainRecord info data = .raises (.runtime what)) :
    (ParseError.runtime what).shown = some (what.map BitVec.toNat) := by
  apply shown_plain
  rw [c92_record] at h
  generalize info.type = t at h ht
  generalize he : ParseError.runtime what = e at h
  cases h with
  | rule => cases he
  | dfsr _ _ h => cases he; exact dfsrFault_plain h
  | info _ _ _ h _ => exact absurd h ht
  | header _ h => cases he; plain_text
  | trailer _ h => cases he; plain_text
  | tape _ _ _ h => cases he; plain_text

/-- What is said about a component is ASCII, but for its mnemonic, which is quoted at most once. -/
theorem componentFault_parts {b what : Bytes} (h : ComponentFault b what) :
    Plain what ∨ ∃ pre post, Plain pre ∧ Plain post ∧ what = pre ++ slice b 4 4 ++ post := by
  have hs : ∀ (t r z c : Byte) (m u rest : Bytes), m.length = 4 →
      slice (t :: r :: z :: c :: (m ++ (u ++ rest))) 4 4 = m := by
    intro t r z c m u rest hm
    show List.take 4 (m ++ (u ++ rest)) = m
    rw [← hm, List.take_left]
  cases h with
  | short => left; plain_text
  | type t r z c m u rest hm hu h =>
    right
    rw [hs _ _ _ _ _ _ _ hm]
    refine ⟨quoted "lis::validate_component: unknown component type " ++ Dlis.toDecimal t.toNat ++
      quoted " in component ", [], ?_, by decide, by simp⟩
    plain_text
  | code t r z c m u rest hm hu ht h =>
    right
    rw [hs _ _ _ _ _ _ _ hm]
    refine ⟨quoted "lis::validate_component: unknown representation code " ++ Dlis.toDecimal r.toNat ++
      quoted " in component ", [], ?_, by decide, by simp⟩
    plain_text
  | size t r z c m u rest w hm hu ht hw hw0 hz h =>
    right
    rw [hs _ _ _ _ _ _ _ hm]
    refine ⟨quoted "lis::validate_component: invalid component (mnem: ",
      quoted "). Expected size for reprc " ++ Dlis.toDecimal r.toNat ++ quoted " is " ++
        Dlis.toDecimal w ++ quoted ", was " ++ Dlis.toDecimal z.toNat, by plain_text, ?_, by simp⟩
    plain_text
  | left => left; plain_text

/-- All of the text about a component is seen if its mnemonic is UTF-8 without NUL. -/
theorem c92_shown_component (b what : Bytes) (h : explainComponent b = .raises (.runtime what))
    (hn : ∀ x ∈ slice b 4 4, x ≠ 0) (hu : utf8Decode (slice b 4 4) ≠ none) :
    ∃ t, (ParseError.runtime what).shown = some t ∧ utf8Decode what = some t := by
  obtain ⟨w, hw, hf⟩ := (c92_component _ _).1 h
  cases hw
  rcases componentFault_parts hf with hp | ⟨pre, post, hpre, hpost, rfl⟩
  · exact ⟨_, shown_plain hp, utf8Decode_plain hp⟩
  · have hz : ∀ x ∈ pre ++ slice b 4 4 ++ post, x ≠ 0 := by
      intro x hx
      simp only [List.mem_append] at hx
      rcases hx with (hx | hx) | hx
      · exact (hpre x hx).1
      · exact hn x hx
      · exact (hpost x hx).1
    have he : (ParseError.runtime (pre ++ slice b 4 4 ++ post)).shown =
        utf8Decode (pre ++ slice b 4 4 ++ post) := by
      show utf8Decode (cStr _) = _
      rw [cStr_eq_self hz]
    rw [he, utf8Decode_append_plain hpost, utf8Decode_plain_append hpre]
    cases hx : utf8Decode (slice b 4 4) with
    | none => exact absurd hx hu
    | some t => exact ⟨_, rfl, rfl⟩

/-! ### Defects -/

/-- A component with type 1 and these four bytes as mnemonic. -/
def strange (m : Bytes) : Bytes := [1, 65, 0, 0] ++ m ++ [0x20, 0x20, 0x20, 0x20]

/-- Defect: the user is not told what is wrong if the mnemonic of the component is not UTF-8, which
LIS79 does not ask for; the rest of the text would do no harm. -/
theorem c92_mnemonic_defect (m : Bytes) (hm : m.length = 4) (hn : ∀ x ∈ m, x ≠ 0) (hu : utf8Decode m = none) :
    ∃ e, explainRecord ⟨34, 0, 0⟩ (strange m) = .raises e ∧ e.shown = none := by
  have hf : ComponentFault (strange m) (quoted "lis::validate_component: unknown component type " ++
      Dlis.toDecimal 1 ++ quoted " in component " ++ m) := by
    have := ComponentFault.type 1 65 0 0 m [0x20, 0x20, 0x20, 0x20] [] hm rfl (by decide)
    simpa [strange] using this
  refine ⟨_, (c92_record ⟨34, 0, 0⟩ _ _).2 (.info 34 (strange m) _ (by simp)
    (InfoFault.mk [] (strange m) _ (by simp) (by simp [strange]) hf)), ?_⟩
  have hp : Plain (quoted "lis::validate_component: unknown component type " ++
      Dlis.toDecimal 1 ++ quoted " in component ") := by plain_text
  show utf8Decode (cStr _) = _
  rw [cStr_eq_self, utf8Decode_plain_append hp, hu]
  · rfl
  · intro x hx
    rcases List.mem_append.1 hx with h | h
    · exact (hp x h).1
    · exact hn x h

example : ∃ e, explainRecord ⟨34, 0, 0⟩ (strange [0x44, 0xB0, 0x20, 0x20]) = .raises e ∧ e.shown = none :=
  c92_mnemonic_defect _ rfl (by decide) (by decide +kernel)

/-- Defect: a mnemonic of NULs cuts the text off, so the user is told neither what the size is nor
what it ought to be. -/
theorem c92_nul_defect : ∃ data e, explainRecord ⟨34, 0, 0⟩ data = .raises e ∧
    e.shown = some (text "lis::validate_component: invalid component (mnem: ") ∧
    ∃ what, e = .runtime what ∧ what.map BitVec.toNat =
      text "lis::validate_component: invalid component (mnem: " ++ [0, 0, 0, 0] ++
        text "). Expected size for reprc 66 is 1, was 2" := by
  have hf := ComponentFault.size 73 66 2 0 [0, 0, 0, 0] [0x20, 0x20, 0x20, 0x20] [7, 7] 1 rfl rfl
    (by decide) (by decide) (by decide) (by decide) (by decide)
  refine ⟨_, _, (c92_record ⟨34, 0, 0⟩ _ _).2 (.info 34 _ _ (by simp)
    (InfoFault.mk [] _ _ (by simp) (by simp) hf)), by decide +kernel, _, rfl, by decide +kernel⟩

/-- Defect: a record of a reel or tape that is too short is not named, as it is for files. -/
theorem c92_unnamed_defect (data : Bytes) (h : data.length < 56) (size ltell : ℕ) :
    (∃ e, ∀ t ∈ [130, 131, 132, 133], explainRecord ⟨t, size, ltell⟩ data = .raises e) ∧
    (∃ e e', explainRecord ⟨128, size, ltell⟩ data = .raises e ∧
      explainRecord ⟨129, size, ltell⟩ data = .raises e' ∧ e ≠ e') := by
  refine ⟨⟨_, fun t ht => (c92_record ⟨t, size, ltell⟩ _ _).2 (.tape t data ht (by omega))⟩, _, _,
    (c92_record ⟨128, size, ltell⟩ _ _).2 (.header data h),
    (c92_record ⟨129, size, ltell⟩ _ _).2 (.trailer data h), ?_⟩
  intro he
  simp only [ParseError.runtime.injEq] at he
  have := congrArg (fun x => x[48]?) he
  simp only [List.append_assoc] at this
  rw [List.getElem?_append_left (by decide +kernel), List.getElem?_append_left (by decide +kernel)] at this
  exact absurd this (by decide +kernel)

/-- Defect: the text does not say which entry is wrong. -/
theorem c92_which_defect (es : List RawEntry) (ok : ∀ e ∈ es, e.Ok) (inner : ∀ e ∈ es, e.type ≠ 0)
    (rest what : Bytes) (h : EntryFault rest what) (size ltell : ℕ) :
    explainRecord ⟨64, size, ltell⟩ ((es.map RawEntry.bytes).flatten ++ rest) = .raises (.runtime what) :=
  (c92_record ⟨64, size, ltell⟩ _ _).2 (.dfsr _ what (.entry es rest what ok inner h))

/-! ### Cases -/

/-- An entry with one byte too few. -/
example : explainEntry [4, 1, 66, 0] = .ok (⟨4, 1, 66, .byte 0⟩, []) ∧
    explainEntry [4, 1, 66] = complain (latin "lis::entry_block: 0 bytes left in record, expected at least 1") ∧
    explainEntry [4, 1] = complain (latin "lis::entry_block: 2 bytes left in record, expected at least 3") ∧
    explainEntry [17, 1, 66, 0] = complain (latin "lis::validate_entry: unknown entry type 17") ∧
    explainEntry [4, 1, 67, 0] =
      complain (latin "lis::validate_entry: unknown representation code 67 for entry (type: 4)") ∧
    explainEntry [4, 1, 73, 0] =
      complain (latin "lis::validate_entry: invalid entry (type: 4). Expected size for reprc 73 is 4, was 1") := by
  simp only [latin, text, literalChars]
  decide +kernel

/-- A good entry before a faulty one. -/
example : explainRecord ⟨64, 0, 0⟩ [4, 1, 66, 0, 17, 1, 66, 0] =
    .raises (.runtime (latin "lis::validate_entry: unknown entry type 17")) := by
  have h := c92_which_defect [⟨4, 66, [0]⟩] (by
    intro e he
    simp only [List.mem_singleton] at he
    subst he
    exact ⟨by decide, by decide, ⟨1, by decide, by decide⟩⟩) (by simp) _ _
    (EntryFault.type 17 1 66 [0] (by decide)) 0 0
  have e : quoted "lis::validate_entry: unknown entry type " ++ Dlis.toDecimal (17 : Byte).toNat =
    latin "lis::validate_entry: unknown entry type 17" := by decide +kernel
  rw [e] at h
  exact h

/-- A faulty specification block. -/
example : DfsrFault [0, 0, 66, 1, 2, 3]
    (quoted "lis::spec_block: " ++ Dlis.toDecimal 3 ++ quoted " bytes left in record, expected at least 40") :=
  .spec [] ⟨0, 66, []⟩ [] [1, 2, 3] (by
    intro e he
    simp only [List.nil_append, List.mem_singleton] at he
    subst he
    exact ⟨by decide, by decide, ⟨1, by decide, by decide⟩⟩) (by simp) rfl (by simp) (by simp) (by simp)

/-- Components. -/
example : explainComponent ([73, 65, 2, 0] ++ latin "TYPE    CONS") =
      .ok (⟨73, 65, 2, 0, latin "TYPE", latin "    ", .string (latin "CO")⟩, latin "NS") ∧
    explainComponent ([73, 65, 5, 0] ++ latin "TYPE    CONS") =
      complain (latin "lis::component_block: 4 bytes left in record, expected at least 5") ∧
    explainComponent ([73, 65, 5, 0] ++ latin "TYPE   ") =
      complain (latin "lis::component_block: 11 bytes left in record, expected at least 12") ∧
    explainComponent ([74, 65, 4, 0] ++ latin "TYPE    CONS") =
      complain (latin "lis::validate_component: unknown component type 74 in component TYPE") ∧
    explainComponent ([73, 64, 4, 0] ++ latin "TYPE    CONS") =
      complain (latin "lis::validate_component: unknown representation code 64 in component TYPE") ∧
    explainComponent ([73, 79, 4, 0] ++ latin "TYPE    CONS") =
      complain (latin ("lis::validate_component: invalid component (mnem: TYPE). Expected size for reprc 79 is 2, was 4")) := by
  simp only [latin, text, literalChars]
  decide +kernel

/-- Other records. -/
example : explainRecord ⟨42, 0, 0⟩ [1] =
      .raises (.notImplemented (text "No parsing rule for Encrypted Table Dump Records")) ∧
    explainRecord ⟨128, 0, 0⟩ [1] = .raises (.runtime (latin ("parse_file_record: Unable to parse record, " ++
      "File Header Records are 56 bytes, raw record is only 1"))) ∧
    explainRecord ⟨131, 0, 0⟩ [1, 2] =
      .raises (.runtime (latin "Unable to parse record. Expected 126 bytes, raw record is only 2")) ∧
    explainRecord ⟨232, 0, 0⟩ [1, 2] = .ok (.text 232 [1, 2]) ∧
    explainText 64 [] = complain (latin "parse_text_record: Invalid record type, 64 (Data Format Specification)") := by
  simp only [latin, text, literalChars]
  decide +kernel

/-- The text of an exception is shown if the mnemonic is readable. -/
example : (ParseError.runtime (latin "in component GR  ")).shown = some (text "in component GR  ") ∧
    (ParseError.runtime (latin "in component " ++ [0xB0])).shown = none := by
  decide +kernel

end Dlisio.Lis
