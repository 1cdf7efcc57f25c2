import Verif.Lis.Pack
/-
Model of the record parsers of lib/src/lis/protocol.cpp: data format specifications,
information records, text records, and headers and trailers of files, tapes and reels.

The cursor is the rest of the data of the record.
-/
namespace Dlisio.Lis

/-- Outcome of a parser: a value, an exception, or a read past the end of the record
(undefined behaviour). -/
inductive Parsed (α : Type) where
  | ok (a : α)
  | throws
  | overrun
deriving DecidableEq

/-- `cur = cast( cur, field )`, protocol.cpp:171-269, and on with the rest. -/
def get {α β : Type} (d : Decoder α) (cur : Bytes) (k : α → Bytes → Parsed β) : Parsed β :=
  match d cur with
  | none => .overrun
  | some (a, cur) => k a cur

/-- `lis::value_type`, protocol.hpp:176-188; `none` is `mpark::monostate`. -/
inductive Value where
  | none
  | i8 (x : Int)
  | i16 (x : Int)
  | i32 (x : Int)
  | f16 (x : Flt)
  | f32 (x : Flt)
  | f32low (x : Flt)
  | f32fix (x : Flt)
  | string (s : Bytes)
  | byte (x : Nat)
  | mask (s : Bytes)
deriving DecidableEq

/-- `element`, protocol.cpp:291-319. -/
def element (cur : Bytes) (size reprc : Nat) : Parsed Value :=
  match Reprc.ofCode reprc with
  | some .i8 => get Lis.i8 cur fun x _ => .ok (.i8 x)
  | some .i16 => get Lis.i16 cur fun x _ => .ok (.i16 x)
  | some .i32 => get Lis.i32 cur fun x _ => .ok (.i32 x)
  | some .f16 => get Lis.f16 cur fun x _ => .ok (.f16 x)
  | some .f32 => get Lis.f32 cur fun x _ => .ok (.f32 x)
  | some .f32low => get Lis.f32low cur fun x _ => .ok (.f32low x)
  | some .f32fix => get Lis.f32fix cur fun x _ => .ok (.f32fix x)
  | some .string => get (lisString size) cur fun x _ => .ok (.string x)
  | some .byte => get Lis.byte cur fun x _ => .ok (.byte x)
  | some .mask => get (Lis.mask size) cur fun x _ => .ok (.mask x)
  | none => .throws

/-- The checks of `validate_entry` and `validate_component` on size and representation
code, protocol.cpp:328-347 and 575-596. -/
def validSize (reprc size : Nat) : Bool :=
  let reprcSize := sizeofType reprc
  !(reprcSize < 0) && !((size : Int) ≠ reprcSize ∧ 0 < size ∧ reprcSize ≠ 0)

/-- `lis::entry_block`, protocol.hpp:223-231. -/
structure Entry where
  type : Nat
  size : Nat
  reprc : Nat
  value : Value
deriving DecidableEq

/-- `validate_entry`, protocol.cpp:321-349. -/
def validEntry (type size reprc : Nat) : Bool := !(16 < type) && validSize reprc size

/-- `read_entry_block`, protocol.cpp:353-385, and the rest behind the block. -/
def readEntry (cur : Bytes) : Parsed (Entry × Bytes) :=
  if cur.length < 3 then .throws
  else get byte cur fun type cur => get byte cur fun size cur => get byte cur fun reprc cur =>
    if !validEntry type size reprc then .throws
    else if cur.length < size then .throws
    else if size ≠ 0 then
      match element cur size reprc with
      | .ok v => .ok (⟨type, size, reprc, v⟩, cur.drop size)
      | .throws => .throws
      | .overrun => .overrun
    else .ok (⟨type, size, reprc, .none⟩, cur)

/-- `contains_numeric( value, 1 )`, protocol.cpp:389-419. An integer compared with `1.0f` is
first converted to float; that is one exactly for the integer one. -/
def Value.isOne : Value → Bool
  | .i8 x => x = 1
  | .i16 x => x = 1
  | .i32 x => x = 1
  | .f16 x => x = .num 1
  | .f32 x => x = .num 1
  | .f32low x => x = .num 1
  | .f32fix x => x = .num 1
  | .byte x => x = 1
  | .none => false
  | .string _ => false
  | .mask _ => false

/-- `lis::detail::spec_block`, protocol.hpp:237-246. -/
structure SpecCommon where
  mnemonic : Bytes
  serviceId : Bytes
  serviceOrderNr : Bytes
  units : Bytes
  filenr : Int
  reservedSize : Int
  samples : Nat
  reprc : Nat
deriving DecidableEq

/-- `lis::spec_block_type`, protocol.hpp:252-269 and 296-299. -/
inductive SpecBlock where
  /-- `spec_block0` -/
  | sub0 (c : SpecCommon) (apiLogType apiCurveType apiCurveClass apiModifier processLevel : Nat)
  /-- `spec_block1` -/
  | sub1 (c : SpecCommon) (apiCodes : Int) (processIndicators : Bytes)
deriving DecidableEq

/-- `read_spec_block`, protocol.cpp:421-445. -/
def readSpecCommon (cur : Bytes) : Parsed SpecCommon :=
  if cur.length < 40 then .throws
  else
    get (lisString 4) cur fun mnemonic cur => get (lisString 6) cur fun serviceId cur =>
    get (lisString 8) cur fun serviceOrderNr cur => get (lisString 4) cur fun units cur =>
    get i16 (cur.drop 4) fun filenr cur => get i16 cur fun reservedSize cur =>
    get byte ((cur.drop 2).drop 1) fun samples cur => get byte cur fun reprc _ =>
    .ok ⟨mnemonic, serviceId, serviceOrderNr, units, filenr, reservedSize, samples, reprc⟩

/-- `read_spec_block0`, protocol.cpp:449-468. -/
def readSpec0 (cur : Bytes) : Parsed SpecBlock :=
  match readSpecCommon cur with
  | .throws => .throws
  | .overrun => .overrun
  | .ok c =>
    get byte (cur.drop 22) fun a cur => get byte cur fun b cur => get byte cur fun d cur =>
    get byte cur fun e cur => get byte (cur.drop 6) fun p _ => .ok (.sub0 c a b d e p)

/-- `read_spec_block1`, protocol.cpp:470-486. -/
def readSpec1 (cur : Bytes) : Parsed SpecBlock :=
  match readSpecCommon cur with
  | .throws => .throws
  | .overrun => .overrun
  | .ok c =>
    get i32 (cur.drop 22) fun a cur => get (Lis.mask 5) (cur.drop 9) fun p _ => .ok (.sub1 c a p)

/-- What follows an entry is shorter. -/
theorem readEntry_length {cur : Bytes} {e : Entry} {rest : Bytes}
    (h : readEntry cur = .ok (e, rest)) : rest.length + 3 + e.size = cur.length := by
  unfold readEntry at h
  split at h
  · cases h
  · match cur with
    | a :: b :: c :: cur =>
      simp only [get, byte] at h
      split at h
      · cases h
      · split at h
        · cases h
        · rename_i hlen
          split at h
          · split at h
            · cases h
              simp only [List.length_drop, List.length_cons]
              omega
            · cases h
            · cases h
          · rename_i h0
            cases h
            simp only [List.length_cons]
            omega
    | [] => simp_all
    | [_] => simp_all
    | [_, _] => simp_all

/-- The loop over entry blocks in `parse_dfsr`, protocol.cpp:495-510; result: entries,
subtype and rest. -/
def entryLoop (cur : Bytes) (entries : List Entry) (subtype : Nat) :
    Parsed (List Entry × Nat × Bytes) :=
  match _h : readEntry cur with
  | .throws => .throws
  | .overrun => .overrun
  | .ok (e, rest) =>
    let subtype := if e.type = 16 ∧ e.value.isOne then 1 else subtype
    if e.type = 0 then .ok (entries ++ [e], subtype, rest)
    else entryLoop rest (entries ++ [e]) subtype
termination_by cur.length
decreasing_by have := readEntry_length _h; omega

/-- The loop over specification blocks in `parse_dfsr`, protocol.cpp:512-520. -/
def specLoop (subtype : Nat) (cur : Bytes) (specs : List SpecBlock) : Parsed (List SpecBlock) :=
  if _h : 0 < cur.length then
    match if subtype = 0 then readSpec0 cur else readSpec1 cur with
    | .throws => .throws
    | .overrun => .overrun
    | .ok s => specLoop subtype (cur.drop 40) (specs ++ [s])
  else .ok specs
termination_by cur.length
decreasing_by simp only [List.length_drop]; omega

/-- `lis::dfsr`, protocol.hpp:314-318, without the position. -/
structure Dfsr where
  entries : List Entry
  specs : List SpecBlock
deriving DecidableEq

/-- `parse_dfsr`, protocol.cpp:488-523. -/
def parseDfsr (data : Bytes) : Parsed Dfsr :=
  match entryLoop data [] 0 with
  | .throws => .throws
  | .overrun => .overrun
  | .ok (entries, subtype, rest) =>
    match specLoop subtype rest [] with
    | .throws => .throws
    | .overrun => .overrun
    | .ok specs => .ok ⟨entries, specs⟩

/-- `lis::component_block`, protocol.hpp:324-335. -/
structure Component where
  type : Nat
  reprc : Nat
  size : Nat
  category : Nat
  mnemonic : Bytes
  units : Bytes
  value : Value
deriving DecidableEq

/-- `validate_component`, protocol.cpp:557-597. -/
def validComponent (type size reprc : Nat) : Bool :=
  (type = 0 || type = 69 || type = 73) && validSize reprc size

/-- `read_component_block`, protocol.cpp:601-636, and the rest behind the block. -/
def readComponent (cur : Bytes) : Parsed (Component × Bytes) :=
  if cur.length < 12 then .throws
  else
    get byte cur fun type cur => get byte cur fun reprc cur => get byte cur fun size cur =>
    get byte cur fun category cur => get (lisString 4) cur fun mnemonic cur =>
    get (lisString 4) cur fun units cur =>
    if !validComponent type size reprc then .throws
    else if cur.length < size then .throws
    else if size ≠ 0 then
      match element cur size reprc with
      | .ok v => .ok (⟨type, reprc, size, category, mnemonic, units, v⟩, cur.drop size)
      | .throws => .throws
      | .overrun => .overrun
    else .ok (⟨type, reprc, size, category, mnemonic, units, .none⟩, cur)

/-- The parts of a component block in place. -/
theorem readComponent_parts (t r z c : Byte) (m u : Bytes) (hm : m.length = 4)
    (hu : u.length = 4) (cur : Bytes) :
    readComponent (t :: r :: z :: c :: (m ++ (u ++ cur))) =
      if !validComponent t.toNat z.toNat r.toNat then .throws
      else if cur.length < z.toNat then .throws
      else if z.toNat ≠ 0 then
        match element cur z.toNat r.toNat with
        | .ok v => .ok (⟨t.toNat, r.toNat, z.toNat, c.toNat, m, u, v⟩, cur.drop z.toNat)
        | .throws => .throws
        | .overrun => .overrun
      else .ok (⟨t.toNat, r.toNat, z.toNat, c.toNat, m, u, .none⟩, cur) := by
  have h1 : lisString 4 (m ++ (u ++ cur)) = some (m, u ++ cur) := by
    simp [lisString, takeN, ← hm]
  have h2 : lisString 4 (u ++ cur) = some (u, cur) := by
    simp [lisString, takeN, ← hu]
  unfold readComponent
  rw [if_neg (by simp only [List.length_cons, List.length_append]; omega)]
  simp only [get, byte, h1, h2]

/-- Twelve bytes have these parts. -/
theorem twelve {cur : Bytes} (h : 12 ≤ cur.length) : ∃ t r z c m u rest,
    cur = t :: r :: z :: c :: (m ++ (u ++ rest)) ∧ m.length = 4 ∧ u.length = 4 := by
  match cur, h with
  | t :: r :: z :: c :: cur, h =>
    simp only [List.length_cons] at h
    refine ⟨t, r, z, c, cur.take 4, (cur.drop 4).take 4, (cur.drop 4).drop 4, ?_, ?_, ?_⟩
    · simp only [List.take_append_drop]
    · simp only [List.length_take]; omega
    · simp only [List.length_take, List.length_drop]; omega

/-- What follows a component is shorter. -/
theorem readComponent_length {cur : Bytes} {c : Component} {rest : Bytes}
    (h : readComponent cur = .ok (c, rest)) : rest.length + 12 + c.size = cur.length := by
  by_cases h12 : cur.length < 12
  · unfold readComponent at h
    rw [if_pos h12] at h
    cases h
  · obtain ⟨t, r, z, d, m, u, tail, rfl, hm, hu⟩ := twelve (Nat.le_of_not_lt h12)
    rw [readComponent_parts _ _ _ _ _ _ hm hu] at h
    split at h
    · cases h
    · split at h
      · cases h
      · split at h
        · split at h
          · cases h
            simp only [List.length_drop, List.length_cons, List.length_append]
            omega
          · cases h
          · cases h
        · cases h
          simp only [List.length_cons, List.length_append]
          omega

/-- The loop of `parse_info_record`, protocol.cpp:643-648. -/
def componentLoop (cur : Bytes) (components : List Component) : Parsed (List Component) :=
  if 0 < cur.length then
    match _h : readComponent cur with
    | .throws => .throws
    | .overrun => .overrun
    | .ok (c, rest) => componentLoop rest (components ++ [c])
  else .ok components
termination_by cur.length
decreasing_by have := readComponent_length _h; omega

/-- `parse_info_record`, protocol.cpp:638-651. -/
def parseInfo (data : Bytes) : Parsed (List Component) := componentLoop data []

/-- `parse_text_record`, protocol.cpp:653-671. The record type is that of the header;
the message is all data. -/
def parseText (type : Nat) (data : Bytes) : Parsed (Nat × Bytes) :=
  if !(type = 227 || type = 224 || type = 225 || type = 232) then .throws
  else get (lisString data.length) data fun message _ => .ok (type, message)

/-- `lis::file_header` and `lis::file_trailer`, protocol.hpp:365-387; `name` is
`prev_file_name` or `next_file_name`. `optional_file_name` is never set and left out. -/
structure FileRecord where
  fileName : Bytes
  sublevel : Bytes
  version : Bytes
  date : Bytes
  maxPrLength : Bytes
  fileType : Bytes
  name : Bytes
deriving DecidableEq

/-- `parse_file_record`, protocol.cpp:675-731: one for header and trailer. -/
def parseFileRecord (type : Nat) (data : Bytes) : Parsed FileRecord :=
  if !(type = 128 || type = 129) then .throws
  else if data.length < 56 then .throws
  else
    get (lisString 10) data fun fileName cur => get (lisString 6) (cur.drop 2) fun sublevel cur =>
    get (lisString 8) cur fun version cur => get (lisString 8) cur fun date cur =>
    get (lisString 5) (cur.drop 1) fun maxPrLength cur =>
    get (lisString 2) (cur.drop 2) fun fileType cur =>
    get (lisString 10) (cur.drop 2) fun name _ =>
    .ok ⟨fileName, sublevel, version, date, maxPrLength, fileType, name⟩

/-- `lis::reel_header`, `reel_trailer`, `tape_header` and `tape_trailer`,
protocol.hpp:395-424; `other` is the previous or next name. -/
structure TapeRecord where
  serviceName : Bytes
  date : Bytes
  origin : Bytes
  name : Bytes
  continuation : Bytes
  other : Bytes
  comment : Bytes
deriving DecidableEq

/-- `parse_reel_tape_record`, protocol.cpp:735-814: one for all four records. -/
def parseTapeRecord (type : Nat) (data : Bytes) : Parsed TapeRecord :=
  if !(type = 132 || type = 133 || type = 130 || type = 131) then .throws
  else if data.length < 126 then .throws
  else
    get (lisString 6) data fun serviceName cur => get (lisString 8) (cur.drop 6) fun date cur =>
    get (lisString 4) (cur.drop 2) fun origin cur => get (lisString 8) (cur.drop 2) fun name cur =>
    get (lisString 2) (cur.drop 2) fun continuation cur =>
    get (lisString 8) (cur.drop 2) fun other cur =>
    get (lisString 74) (cur.drop 2) fun comment _ =>
    .ok ⟨serviceName, date, origin, name, continuation, other, comment⟩

/-- `lis::process_indicators`, protocol.hpp:271-291. -/
structure Indicators where
  direction : Nat
  trueVerticalDepth : Bool
  notOnDepth : Bool
  filtered : Bool
  calibrated : Bool
  computed : Bool
  derived : Bool
  tool2 : Bool
  tool1 : Bool
  mudcake : Bool
  lithology : Bool
  inclinometry : Bool
  pressure : Bool
  holeSize : Bool
  temperature : Bool
  auxiliary : Bool
  proprietary : Bool
deriving DecidableEq

/-- `b & 1 << n` converted to bool, as in protocol.cpp:535-550. -/
def flag (b : Byte) (n : Nat) : Bool := b &&& (1#8 <<< n) != 0

/-- `process_indicators::process_indicators`, protocol.cpp:524-553. -/
def processIndicators (mask : Bytes) : Parsed Indicators :=
  match mask with
  | [b0, b1, b2, _, _] =>
    .ok {
      direction := ((b0 &&& (1#8 <<< 7 ||| 1#8 <<< 6)) >>> 6).toNat
      trueVerticalDepth := flag b0 5, notOnDepth := flag b0 4, filtered := flag b0 3
      calibrated := flag b0 2, computed := flag b0 1, derived := flag b0 0
      tool2 := flag b1 7, tool1 := flag b1 6, mudcake := flag b1 5, lithology := flag b1 4
      inclinometry := flag b1 3, pressure := flag b1 2, holeSize := flag b1 1
      temperature := flag b1 0, auxiliary := flag b2 1, proprietary := flag b2 0 }
  | _ => .throws

end Dlisio.Lis
