/-
Storage unit label, search for label and first visible record, visible record and
segment headers, encryption packets, component descriptors and segment trimming.
Models `lib/src/dlis/dlisio.cpp` lines 15-537 and `storage_label` in
`python/dlisio/ext/dlis.cpp`.
-/
import Verif.Dlis.Types
import Verif.Dlis.Pack

namespace Dlisio.Dlis

/-! ### Storage unit label -/

/-- `std::isspace` in the "C" locale (used in dlisio.cpp:33, 43).  For a negative
`char` the C++ call is formally undefined; it is taken to be false as in glibc. -/
def isSpace (b : Byte) : Bool := b = 0x20 || (0x09 ≤ b && b ≤ 0x0d)

/-- `std::isdigit` in the "C" locale (dlisio.cpp:56, 87-90). -/
def isDigit (b : Byte) : Bool := 0x30 ≤ b && b ≤ 0x39

/-- The C string stored in a buffer: the bytes up to the first NUL.  (The local
buffers of `sulv1`, dlisio.cpp:134, are zero terminated.) -/
def cstr (bs : Bytes) : Bytes := bs.takeWhile (· ≠ 0)

/-- `do { if( !f( *xs ) ) break; } while( *++xs );` - advance over the bytes that
satisfy `f` (dlisio.cpp:32-34, 38-40). -/
def skipWhile (f : Byte → Bool) : Bytes → Bytes
  | [] => []
  | b :: bs => if f b then skipWhile f bs else b :: bs

/-- `is_sul_number_field_valid`, dlisio.cpp:17-48.  The argument is the C string
without its NUL. -/
def isSulNumberFieldValid (f : Byte → Bool) (xs : Bytes) : Bool :=
  match xs with
  | [] => false
  | _ =>
    match skipWhile isSpace xs with
    | [] => false
    | ys => (skipWhile f ys).all isSpace

/-- `is_zero_string`, dlisio.cpp:50-53. -/
def isZeroString (xs : Bytes) : Bool := isSulNumberFieldValid (fun c => c = 0x30) xs

/-- `is_number_string`, dlisio.cpp:55-58. -/
def isNumberString (xs : Bytes) : Bool := isSulNumberFieldValid isDigit xs

/-- The digit loop of `std::atoi`/`std::atol`. -/
def atoiDigits (acc : Int) : Bytes → Int
  | [] => acc
  | b :: bs => if isDigit b then atoiDigits (10 * acc + (b.toNat - 48 : Int)) bs else acc

/-- `std::atoi`/`std::atol` (dlisio.cpp:144, 157): skip white space, then read
digits.  The optional sign is left out: it is only called on strings that
`is_number_string` accepts. No overflow: at most 5 digits. -/
def atoi (xs : Bytes) : Int := atoiDigits 0 (skipWhile isSpace xs)

/-- `parse_revision`, dlisio.cpp:60-104, on the five bytes of the version field:
`some (major, minor)` for `DLIS_OK`, `none` for `DLIS_UNEXPECTED_VALUE`. -/
def parseRevision (v : Bytes) : Option (Nat × Nat) :=
  if v = [0x56, 0x31, 0x2e, 0x30, 0x30] then some (1, 0)
  else
    match v with
    | [a, b, c, d, e] =>
      if a = 0x56 && isDigit b && c = 0x2e && isDigit d && isDigit e then
        some (b.toNat - 48, (d.toNat - 48) * 10 + (e.toNat - 48))
      else none
    | _ => none

/-- The output variables of `dlis_sul`, dlisio.cpp:215-221.  `layout` is true for
`DLIS_STRUCTURE_RECORD`. All output pointers are given (as its only caller does). -/
structure Sul where
  seqnum : Int
  major : Int
  minor : Int
  layout : Bool
  maxlen : Int
  id : Bytes
deriving DecidableEq, Repr

/-- `sulv1`, dlisio.cpp:123-211; the 80 bytes are given, `out` holds the values of
the output variables before the call. -/
def sulv1 (xs : Bytes) (out : Sul) : Err × Sul :=
  let seqs := cstr (xs.take 4)
  let seq : Int := if isNumberString seqs then atoi seqs else -1
  let lens := cstr ((xs.drop 15).take 5)
  let len : Int := if isNumberString lens then atoi lens else -1
  let rec_ : Bool := (xs.drop 9).take 6 = [0x52, 0x45, 0x43, 0x4f, 0x52, 0x44]
  let out := if seq > 0 then { out with seqnum := seq } else out
  let out := if len > 0 then { out with maxlen := len } else out
  let out := if rec_ then { out with layout := true } else out
  let out := { out with id := (xs.drop 20).take 60 }
  if seq > 0 && len > 0 && rec_ then (.ok, out)
  else if seq ≤ 0 then (.inconsistent, out)
  else if len < 0 then (.inconsistent, out)
  else if !rec_ then (.inconsistent, out)
  else if len = 0 then
    if !isZeroString lens then (.inconsistent, out)
    else (.ok, { out with maxlen := 0 })
  else (.ok, out)

/-- `dlis_sul`, dlisio.cpp:215-260. -/
def dlisSul (xs : Bytes) (out : Sul) : Err × Sul :=
  let err := parseRevision ((xs.drop 4).take 5)
  let v := err.getD (1, 0)
  if v = (1, 0) then
    let (errv1, out) := sulv1 xs { out with major := 1, minor := 0 }
    if errv1 = .ok && err.isSome then (.ok, out) else (.inconsistent, out)
  else (.unexpectedValue, out)

/-- What `storage_label` returns to Python: the dictionary, together with whether a
`RuntimeWarning` was issued, or the exception raised. -/
inductive LabelResult where
  /-- `std::invalid_argument` (ext/dlis.cpp:190-197): fewer than 80 bytes -/
  | tooSmall
  /-- `ValueError` (ext/dlis.cpp:220-221) -/
  | unparsable
  /-- the dictionary; `warned` when a warning was issued (ext/dlis.cpp:223-228) -/
  | label (warned : Bool) (seqnum : Int) (major minor : Int) (layout : Bool)
      (maxlen : Int) (id : Bytes)
deriving DecidableEq, Repr

/-- `storage_label`, python/dlisio/ext/dlis.cpp:188-245.  The version string
`"{major}.{minor}"` is kept as its two numbers, the layout string as a Boolean
(`"record"`/`"unknown"`); the identifier is the bytes handed to Python (the char
array up to its NUL), their UTF-8 decoding is done by pybind11. -/
def storageLabel (xs : Bytes) : LabelResult :=
  if xs.length < 80 then .tooSmall
  else
    let init : Sul := { seqnum := -1, major := -1, minor := -1, layout := false,
                        maxlen := 0, id := [] }
    match dlisSul xs init with
    | (.ok, o) => .label false o.seqnum o.major o.minor o.layout o.maxlen (cstr o.id)
    | (.inconsistent, o) => .label true o.seqnum o.major o.minor o.layout o.maxlen (cstr o.id)
    | (_, _) => .unparsable

/-! ### Searches -/

/-- Does the buffer start with the needle? (inner loop of `std::search`) -/
def startsWith : Bytes → Bytes → Bool
  | [], _ => true
  | _ :: _, [] => false
  | n :: ns, h :: hs => if n = h then startsWith ns hs else false

/-- `std::search` for a non-empty needle: distance of the first match, `none` when
it returns the end (dlisio.cpp:268, 311). -/
def search (needle : Bytes) : Bytes → Option Nat
  | [] => none
  | h :: hs => if startsWith needle (h :: hs) then some 0 else (search needle hs).map (· + 1)

/-- `dlis_find_sul`, dlisio.cpp:262-283, on the `search_limit` bytes from `from`;
the offset is only written for `DLIS_OK`. -/
def findSul (win : Bytes) : Err × Option Nat :=
  match search [0x52, 0x45, 0x43, 0x4f, 0x52, 0x44] win with
  | none => (.notFound, none)
  | some i => if i < 9 then (.inconsistent, none) else (.ok, some (i - 9))

/-- `dlis_find_vrl`, dlisio.cpp:285-324. -/
def findVrl (win : Bytes) : Err × Option Nat :=
  match search [0xff, 0x01] win with
  | none => (.notFound, none)
  | some i => if i < 2 then (.inconsistent, none) else (.ok, some (i - 2))

/-! ### Headers -/

/-- `dlis_vrl`, dlisio.cpp:345-365: length and version; the FF byte is not
looked at. -/
def vrl (xs : Bytes) : Option (Nat × Nat) := do
  let (len, xs) ← unorm xs
  let (_, xs) ← takeN 1 xs
  let (major, _) ← ushort xs
  return (len, major)

/-- A logical record segment header (output of `dlis_lrsh`). -/
structure Lrsh where
  length : Nat
  attrs : Byte
  type : Nat
deriving DecidableEq, Repr

/-- `dlis_lrsh`, dlisio.cpp:382-398. The attribute byte is kept as a bit vector. -/
def lrsh (xs : Bytes) : Option Lrsh := do
  let (len, xs) ← unorm xs
  let (attr, xs) ← ushort xs
  let (typ, _) ← ushort xs
  return { length := len, attrs := BitVec.ofNat 8 attr, type := typ }

/-! `DLIS_SEGATTR_*`, lib/include/dlisio/dlis/dlisio.h:372-381. -/

/-- dlisio.h:373 -/ def SEGATTR_EXFMTLR : Byte := 0x80  -- 1 << 7
/-- dlisio.h:374 -/ def SEGATTR_PREDSEG : Byte := 0x40  -- 1 << 6
/-- dlisio.h:375 -/ def SEGATTR_SUCCSEG : Byte := 0x20  -- 1 << 5
/-- dlisio.h:376 -/ def SEGATTR_ENCRYPT : Byte := 0x10  -- 1 << 4
/-- dlisio.h:377 -/ def SEGATTR_ENCRPKT : Byte := 0x08  -- 1 << 3
/-- dlisio.h:378 -/ def SEGATTR_CHCKSUM : Byte := 0x04  -- 1 << 2
/-- dlisio.h:379 -/ def SEGATTR_TRAILEN : Byte := 0x02  -- 1 << 1
/-- dlisio.h:380 -/ def SEGATTR_PADDING : Byte := 0x01  -- 1 << 0

/-- `attrs & FLAG` used as a condition. -/
def flag (attrs f : Byte) : Bool := attrs &&& f ≠ 0

/-- The output of `dlis_segment_attributes`, as truth values. -/
structure SegAttrs where
  explicit : Bool
  predecessor : Bool
  successor : Bool
  encrypted : Bool
  encryptionPacket : Bool
  checksum : Bool
  trailingLength : Bool
  padding : Bool
deriving DecidableEq, Repr

/-- `dlis_segment_attributes`, dlisio.cpp:400-418. -/
def segmentAttributes (a : Byte) : SegAttrs :=
  { explicit := flag a SEGATTR_EXFMTLR
    predecessor := flag a SEGATTR_PREDSEG
    successor := flag a SEGATTR_SUCCSEG
    encrypted := flag a SEGATTR_ENCRYPT
    encryptionPacket := flag a SEGATTR_ENCRPKT
    checksum := flag a SEGATTR_CHCKSUM
    trailingLength := flag a SEGATTR_TRAILEN
    padding := flag a SEGATTR_PADDING }

/-- `dlis_encryption_packet_info`, dlisio.cpp:420-438: outer `none` when fewer than
four bytes are available; length of the packet without its header and company
code, written only on success. -/
def encryptionPacketInfo (xs : Bytes) : Option (Err × Option (Nat × Nat)) := do
  let (ln, xs) ← unorm xs
  let (cc, _) ← unorm xs
  if (ln : Int) - 4 < 0 then return (.inconsistent, none)
  else if ln % 2 ≠ 0 then return (.unexpectedValue, none)
  else return (.ok, some (ln - 4, cc))

/-! ### Component descriptors -/

/-- `DLIS_ROLE_*`, dlisio.h:435-444. -/
inductive Role where
  | absatr | attrib | invatr | object | reserv | rdset | rset | set
deriving DecidableEq, Repr

/-- `dlis_component`, dlisio.cpp:440-444; the constants of dlisio.h:435-444 are
`0x00, 0x20, ..., 0xE0`. -/
def component (desc : Byte) : Role :=
  let r := desc &&& 0xE0
  if r = 0x00 then .absatr
  else if r = 0x20 then .attrib
  else if r = 0x40 then .invatr
  else if r = 0x60 then .object
  else if r = 0x80 then .reserv
  else if r = 0xA0 then .rdset
  else if r = 0xC0 then .rset
  else .set

/-- `dlis_component_set`, dlisio.cpp:446-461: (type, name). -/
def componentSet (desc : Byte) (role : Role) : Option (Bool × Bool) :=
  match role with
  | .rdset | .rset | .set => some (flag desc 0x10, flag desc 0x08)
  | _ => none

/-- `dlis_component_object`, dlisio.cpp:463-469. -/
def componentObject (desc : Byte) (role : Role) : Option Bool :=
  match role with
  | .object => some (flag desc 0x10)
  | _ => none

/-- The five flags of an attribute component. -/
structure AttribFlags where
  label : Bool
  count : Bool
  reprc : Bool
  units : Bool
  value : Bool
deriving DecidableEq, Repr

/-- `dlis_component_attrib`, dlisio.cpp:471-494. -/
def componentAttrib (desc : Byte) (role : Role) : Option AttribFlags :=
  match role with
  | .attrib | .invatr => some
    { label := flag desc 0x10, count := flag desc 0x08,
      reprc := flag desc 0x04, units := flag desc 0x02,
      value := flag desc 0x01 }
  | _ => none

/-! ### Segment trimming -/

/-- Size of checksum and trailing length according to the attribute bits
(dlisio.cpp:520-521). -/
def trailerSize (desc : Byte) : Nat :=
  (if flag desc SEGATTR_CHCKSUM then 2 else 0) + (if flag desc SEGATTR_TRAILEN then 2 else 0)

/-- The last check of `dlis_trim_record_segment` (dlisio.cpp:529-535). -/
def trimVerdict (trim size : Nat) : Err × Nat :=
  if trim > size then (.badSize, trim) else (.ok, trim)

/-- `dlis_trim_record_segment`, dlisio.cpp:510-536.  `before` are the bytes of the
buffer in front of the segment, `seg` is the segment.  The padding length is read at
`(end - 1) - trim`, which may lie in front of the segment; the result `none` means
it lies in front of the whole buffer.  Returns the error code and the size to trim
(`dist < 0` cannot occur for a list). -/
def trimRecordSegment (desc : Byte) (before seg : Bytes) : Option (Err × Nat) :=
  if flag desc SEGATTR_ENCRYPT then some (trimVerdict 0 seg.length)
  else if flag desc SEGATTR_PADDING then
    let all := before ++ seg
    if all.length < trailerSize desc + 1 then none
    else (ushort (all.drop (all.length - 1 - trailerSize desc))).map fun (pad, _) =>
      trimVerdict (trailerSize desc + pad) seg.length
  else some (trimVerdict (trailerSize desc) seg.length)

end Dlisio.Dlis
