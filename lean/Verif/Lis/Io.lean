import Verif.Stream
import Verif.Dlis.Types
/-
Model of lib/src/lis/io.cpp and of the header functions of lib/src/lis/protocol.cpp.

A function returns its value or an exception, with the position of the stream
afterwards in both cases.  After a read that throws the position is unknown; the model
leaves it where it was, and no theorem depends on it.
-/
namespace Dlisio.Lis

open _root_.Dlisio.Dlis (load16)

/-- `lis::iodevice`, io.hpp:147-218, over `dlisio::stream`: the bytes of the stream and the
physical position (`ptell`) of each logical one (`ltell`). -/
structure Device where
  src : Source
  ptell : Nat → Nat

/-- Exceptions: `dlisio::eof_error`, `truncation_error` (exception.hpp:10-16), and the
`std::runtime_error`s for a bad length, a bad record type, inconsistent attributes, a
truncated record in `read_record` (`io_error`) and failures of the stream itself. -/
inductive IoErr where
  | eof | truncation | shortLength | rectype | inconsistent | readTruncated | stream
deriving DecidableEq, Repr

/-- Value or exception, and the position afterwards. -/
abbrev Res (α : Type) := Except (IoErr × Nat) (α × Nat)

deriving instance DecidableEq for Except

/-- `lis::prheader`, protocol.hpp:51-65. -/
structure Prh where
  length : BitVec 16
  attributes : BitVec 16
deriving DecidableEq, Repr

/-- `prheader::chcksum`, protocol.hpp:58. -/
def CHCKSUM : BitVec 16 := (1 <<< 13) ||| (1 <<< 12)
/-- `prheader::filenum`, protocol.hpp:59. -/
def FILENUM : BitVec 16 := 1 <<< 10
/-- `prheader::reconum`, protocol.hpp:60. -/
def RECONUM : BitVec 16 := 1 <<< 9
/-- `prheader::predces`, protocol.hpp:63. -/
def PREDCES : BitVec 16 := 1 <<< 1
/-- `prheader::succses`, protocol.hpp:64. -/
def SUCCSES : BitVec 16 := 1 <<< 0

/-- `attributes & flag` as a condition. -/
def has (attrs flag : BitVec 16) : Bool := attrs &&& flag ≠ 0

/-- `is_padbytes`, protocol.cpp:38-59. -/
def isPadbytes : Bytes → Bool
  | [] => false
  | b :: bs => (b == 0x00 || b == 0x20) && bs.all (· == b)

/-- `read_prh`, protocol.cpp:61-74, on a little-endian host: the two halves are reversed
and copied. -/
def parsePrh : Bytes → Prh
  | [a, b, c, d] => ⟨load16 b a, load16 d c⟩
  | _ => ⟨0, 0⟩

/-- Size of the trailer, io.cpp:531-534. -/
def trlen (attrs : BitVec 16) : Nat :=
  (if has attrs RECONUM then 2 else 0) + (if has attrs FILENUM then 2 else 0) +
  (if has attrs CHCKSUM then 2 else 0)

/-- Minimum length of a physical record, io.cpp:235-239. -/
def minLength (attrs : BitVec 16) : Nat :=
  (if has attrs PREDCES then 4 else 6) + (if has attrs RECONUM then 2 else 0) +
  (if has attrs FILENUM then 2 else 0) + (if has attrs CHCKSUM then 2 else 0)

/-- The lambda `error` of `read_physical_header` at the end of the file, io.cpp:172-190:
`buf` is all that is in the buffer, `nread` what the last read gave. -/
def shortErr (buf : Bytes) (nread : Nat) : IoErr :=
  if nread = 0 ∨ isPadbytes buf then .eof else .truncation

/-- The loop over padding, io.cpp:216-222: `buf` has been read up to `pos`. -/
def skipPad (dev : Device) (buf : Bytes) (pos : Nat) : Res Bytes :=
  if !isPadbytes buf then .ok (buf, pos)
  else match _h : readAt dev.src pos 4 with
    | .ok buf => skipPad dev buf (pos + 4)
    | .eof bs => .error (shortErr bs bs.length, pos + bs.length)
    | .error => .error (.stream, pos)
termination_by dev.src.data.length - pos
decreasing_by have := (readAt_ok _h (by omega)).1; omega

/-- Realignment of the buffer, io.cpp:200-213, and the loop; `buf` was read up to
`pos`. -/
def realign (dev : Device) (buf : Bytes) (pos : Nat) : Res Bytes :=
  let alignment := dev.ptell pos % 4
  if alignment = 0 then skipPad dev buf pos
  else
    let padbytes := 4 - alignment
    match readAt dev.src pos padbytes with
    | .ok bs => skipPad dev (buf.drop padbytes ++ bs) (pos + padbytes)
    | .eof bs => .error (shortErr (buf.drop padbytes ++ bs) bs.length, pos + bs.length)
    | .error => .error (.stream, pos)

/-- The check of the length, io.cpp:225-247. -/
def checkPrh (buf : Bytes) (pos : Nat) : Res Prh :=
  let head := parsePrh buf
  if head.length.toNat < minLength head.attributes then .error (.shortLength, pos)
  else .ok (head, pos)

/-- `iodevice::read_physical_header`, io.cpp:106-248, from position `pos`. -/
def readPrh (dev : Device) (pos : Nat) : Res Prh :=
  match readAt dev.src pos 4 with
  | .eof bs => .error (shortErr bs bs.length, pos + bs.length)
  | .error => .error (.stream, pos)
  | .ok buf =>
    if isPadbytes (buf.take 2) then
      match realign dev buf (pos + 4) with
      | .error e => .error e
      | .ok (buf, pos) => checkPrh buf pos
    else checkPrh buf (pos + 4)

/-- `lis::lrheader`, protocol.hpp:22-27. -/
structure Lrh where
  type : Byte
  attributes : Byte
deriving DecidableEq, Repr

/-- `iodevice::read_logical_header`, io.cpp:250-263.  An incomplete header is an
`eof_error` or an `io_error`; both become a `truncation_error` in the only caller
(io.cpp:347-356), and are that here. -/
def readLrh (dev : Device) (pos : Nat) : Res Lrh :=
  match readAt dev.src pos 2 with
  | .ok [t, a] => .ok (⟨t, a⟩, pos + 2)
  | .ok _ => .error (.truncation, pos)
  | .eof bs => .error (.truncation, pos + bs.length)
  | .error => .error (.stream, pos)

/-- The record types of `lis::record_type`, protocol.hpp:90-123, all of them accepted
by `valid_rectype`, protocol.cpp:85-126. -/
def rectypes : List Nat :=
  [0, 1, 32, 34, 39, 42, 47, 64, 65, 95, 96, 97, 100, 101, 102, 128, 129, 130, 131, 132, 133,
   137, 138, 139, 141, 224, 225, 227, 232, 234, 85, 86]

/-- `valid_rectype`, protocol.cpp:85-126. -/
def validRectype (t : Byte) : Bool := rectypes.contains t.toNat

/-- The predicate `inconsistent` inside `std::adjacent_find` in `attr_consistent`,
io.cpp:310-321; `pos` counts the pairs seen before. -/
def inconsistentFrom (size : Nat) : Nat → List (BitVec 16) → Bool
  | pos, n :: n1 :: rest =>
    if (pos == 0 && has n PREDCES) || (pos + 1 == size && has n1 SUCCSES) ||
        (!has n SUCCSES || !has n1 PREDCES) then true
    else inconsistentFrom size (pos + 1) (n1 :: rest)
  | _, _ => false

/-- `attr_consistent`, io.cpp:275-324. -/
def attrConsistent (attrs : List (BitVec 16)) : Bool :=
  match attrs with
  | [] => true
  | [a] => !has a SUCCSES && !has a PREDCES
  | _ => !inconsistentFrom (attrs.length - 1) 0 attrs

/-- `lis::record_info`, protocol.hpp:144-150 (`consistent` is never changed). -/
structure RecordInfo where
  type : Nat
  size : Nat
  ltell : Nat
deriving DecidableEq, Repr

/-- What a successful `read_physical_header` reads lies inside the file. -/
theorem skipPad_pos {dev : Device} {buf : Bytes} {pos : Nat} {r : Bytes} {p : Nat}
    (h : skipPad dev buf pos = .ok (r, p)) (hp : pos ≤ dev.src.data.length) :
    pos ≤ p ∧ p ≤ dev.src.data.length := by
  fun_induction skipPad dev buf pos with
  | case1 => cases h; exact ⟨Nat.le_refl _, hp⟩
  | case2 buf pos hb buf' hr ih =>
    have hle := (readAt_ok hr (by omega)).1
    obtain ⟨h1, h2⟩ := ih h hle; omega
  | case3 => cases h
  | case4 => cases h

theorem realign_pos {dev : Device} {buf : Bytes} {pos : Nat} {r : Bytes} {p : Nat}
    (h : realign dev buf pos = .ok (r, p)) (hp : pos ≤ dev.src.data.length) :
    pos ≤ p ∧ p ≤ dev.src.data.length := by
  unfold realign at h
  simp only at h
  split at h
  · exact skipPad_pos h hp
  · split at h
    · rename_i hne _ bs hr
      obtain ⟨h1, -⟩ := readAt_ok hr (by omega)
      obtain ⟨h2, h3⟩ := skipPad_pos h h1
      omega
    · cases h
    · cases h

theorem checkPrh_pos {buf : Bytes} {pos : Nat} {h : Prh} {p : Nat}
    (hc : checkPrh buf pos = .ok (h, p)) :
    p = pos ∧ h = parsePrh buf ∧ minLength h.attributes ≤ h.length.toNat := by
  unfold checkPrh at hc
  simp only at hc
  split at hc
  · cases hc
  · cases hc; exact ⟨rfl, rfl, by omega⟩

theorem readPrh_pos {dev : Device} {pos : Nat} {h : Prh} {p : Nat}
    (hr : readPrh dev pos = .ok (h, p)) :
    pos + 4 ≤ p ∧ p ≤ dev.src.data.length ∧ 4 ≤ h.length.toNat := by
  have hmin : 4 ≤ minLength h.attributes := by unfold minLength; split <;> omega
  unfold readPrh at hr
  split at hr
  · cases hr
  · cases hr
  · rename_i buf hb
    obtain ⟨h1, -⟩ := readAt_ok hb (by omega)
    split at hr
    · split at hr
      · cases hr
      · rename_i buf' pos' hra
        obtain ⟨h2, h3⟩ := realign_pos hra h1
        obtain ⟨rfl, -, hlen⟩ := checkPrh_pos hr
        omega
    · obtain ⟨rfl, -, hlen⟩ := checkPrh_pos hr
      omega

/-- The loop of `index_record` over the physical records of a logical record,
io.cpp:371-401; `attrs` are the attributes so far, `length` the sum of lengths.  Result:
all attributes and the total length. -/
def indexLoop (dev : Device) (ltell length : Nat) (prh : Prh) (attrs : List (BitVec 16))
    (pos : Nat) : Res (List (BitVec 16) × Nat) :=
  if !has prh.attributes SUCCSES then
    if !seekOk dev.src (ltell + length - 1) then .error (.stream, pos)
    else match readAt dev.src (ltell + length - 1) 1 with
      | .ok _ => .ok ((attrs, length), ltell + length)
      | .eof bs => .error (.truncation, ltell + length - 1 + bs.length)
      | .error => .error (.stream, ltell + length - 1)
  else if !seekOk dev.src (ltell + length) then .error (.stream, pos)
  else match _h : readPrh dev (ltell + length) with
    | .ok (prh, p) => indexLoop dev ltell (length + prh.length.toNat) prh (attrs ++ [prh.attributes]) p
    | .error (.eof, p) => .error (.truncation, p)
    | .error e => .error e
termination_by dev.src.data.length - (ltell + length)
decreasing_by
  have := readPrh_pos _h
  omega

/-- `iodevice::index_record`, io.cpp:328-415, from position `pos`. -/
def indexRecord (dev : Device) (pos : Nat) : Res RecordInfo :=
  match readPrh dev pos with
  | .error e => .error e
  | .ok (prh, p) =>
    let ltell := p - 4
    match readLrh dev p with
    | .error e => .error e
    | .ok (lrh, p) =>
      if !validRectype lrh.type then .error (.rectype, p)
      else match indexLoop dev ltell prh.length.toNat prh [prh.attributes] p with
        | .error e => .error e
        | .ok ((attrs, length), p) =>
          if !attrConsistent attrs then .error (.inconsistent, p)
          else .ok (⟨lrh.type.toNat, length, ltell⟩, p)

theorem indexLoop_pos {dev : Device} {ltell length : Nat} {prh : Prh} {attrs : List (BitVec 16)}
    {pos : Nat} {r : List (BitVec 16) × Nat} {p : Nat}
    (h : indexLoop dev ltell length prh attrs pos = .ok (r, p)) (hl : 0 < length) :
    length ≤ r.2 ∧ p = ltell + r.2 ∧ p ≤ dev.src.data.length := by
  fun_induction indexLoop dev ltell length prh attrs pos with
  | case1 => cases h
  | case2 length prh attrs pos hs hk bs hr =>
    cases h
    obtain ⟨h1, -⟩ := readAt_ok hr (by omega)
    refine ⟨Nat.le_refl _, rfl, ?_⟩
    omega
  | case3 => cases h
  | case4 => cases h
  | case5 => cases h
  | case6 length prh attrs pos hs hk prh' p' hr ih =>
    obtain ⟨h1, h2, h3⟩ := ih h (by omega)
    exact ⟨by omega, h2, h3⟩
  | case7 => cases h
  | case8 => cases h

theorem indexRecord_pos {dev : Device} {pos : Nat} {info : RecordInfo} {p : Nat}
    (h : indexRecord dev pos = .ok (info, p)) :
    pos ≤ info.ltell ∧ info.ltell + 4 ≤ p ∧ p = info.ltell + info.size ∧
      p ≤ dev.src.data.length := by
  unfold indexRecord at h
  split at h
  · cases h
  · rename_i prh p1 hp
    have hpos := readPrh_pos hp
    simp only at h
    split at h
    · cases h
    · split at h
      · cases h
      · split at h
        · cases h
        · rename_i attrs length p2 hl
          split at h
          · cases h
          · cases h
            have := indexLoop_pos hl (by omega)
            simp only
            omega

/-- `lis::record_index`, io.hpp:43-114, with the position of the stream afterwards. -/
structure Index where
  explicits : List RecordInfo
  implicits : List RecordInfo
  incomplete : Bool
  pos : Nat
deriving DecidableEq, Repr

/-- The lambda `reposition_tell`, io.cpp:440-451. -/
def repositionTell (dev : Device) (pos : Nat) : Nat :=
  match indexRecord dev pos with
  | .ok (info, _) => info.ltell
  | .error (_, p) => p

/-- The loop of `index_records`, io.cpp:453-516.  `seek` to a record just indexed does
not fail. -/
def indexFrom (dev : Device) (ex im : List RecordInfo) (pos : Nat) : Index :=
  match _h : indexRecord dev pos with
  | .error (.eof, p) => ⟨ex, im, false, p⟩
  | .error (_, p) => ⟨ex, im, true, p⟩
  | .ok (info, p) =>
    if info.type = 0 ∨ info.type = 1 then indexFrom dev ex (im ++ [info]) p
    else if info.type = 132 ∨ info.type = 133 ∨ info.type = 130 ∨ info.type = 131 then
      if 1 < (ex ++ [info]).length then ⟨ex, im, false, info.ltell⟩
      else ⟨ex ++ [info], im, false, repositionTell dev p⟩
    else if info.type = 128 then
      if (ex ++ [info]).length = 1 then indexFrom dev (ex ++ [info]) im p
      else ⟨ex, im, false, info.ltell⟩
    else if info.type = 137 ∨ info.type = 129 then
      ⟨ex ++ [info], im, false, repositionTell dev p⟩
    else indexFrom dev (ex ++ [info]) im p
termination_by dev.src.data.length - pos
decreasing_by all_goals (have := indexRecord_pos _h; omega)

/-- `iodevice::index_records`, io.cpp:422-519, from position `pos`. -/
def indexRecords (dev : Device) (pos : Nat) : Index := indexFrom dev [] [] pos

/-- The loop of `read_record`, io.cpp:528-560; `data` is what has been read so far. -/
def readLoop (dev : Device) (data : Bytes) (pos : Nat) : Res Bytes :=
  match _h : readPrh dev pos with
  | .error e => .error e
  | .ok (prh, p) =>
    let tr := trlen prh.attributes
    let lrh := if has prh.attributes PREDCES then 0 else 2
    let toread := prh.length.toNat - 4 - tr - lrh
    if !seekOk dev.src (p + lrh) then .error (.stream, p)
    else match readAt dev.src (p + lrh) toread with
      | .error => .error (.stream, p + lrh)
      | .eof bs => .error (.readTruncated, p + lrh + bs.length)
      | .ok bs =>
        if !seekOk dev.src (p + lrh + toread + tr) then .error (.stream, p + lrh + toread)
        else if !has prh.attributes SUCCSES then .ok (data ++ bs, p + lrh + toread + tr)
        else readLoop dev (data ++ bs) (p + lrh + toread + tr)
termination_by dev.src.data.length - pos
decreasing_by have := readPrh_pos _h; omega

/-- `iodevice::read_record`, io.cpp:521-562: the data of the record. -/
def readRecord (dev : Device) (info : RecordInfo) : Res Bytes :=
  if !seekOk dev.src info.ltell then .error (.stream, info.ltell)
  else readLoop dev [] info.ltell

end Dlisio.Lis
