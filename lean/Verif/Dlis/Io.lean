/-
Record extraction and indexing: lib/src/dlis/io.cpp.
-/
import Verif.Stream
import Verif.Dlis.Sul
import Verif.Dlis.Fingerprint

namespace Dlisio.Dlis

/-! ### Error handler -/

/-- `dl::error_severity`, lib/include/dlisio/exception.hpp; one call of
`errorhandler.log` is recorded by its severity. -/
inductive Severity where
  | info | minor | major | critical
deriving DecidableEq, Repr

/-- Which severities the (user supplied) error handler turns into an exception. -/
abbrev Policy := Severity → Bool

/-! ### Searching for label and first visible record -/

/-- Outcome of the public `findsul`/`findvrl`: the position of the stream afterwards
and the logged problems, or the exception (`notFound` for `dlisio::not_found`,
`runtime` for `std::runtime_error`, `generic` for the `std::exception` made by the
slicing `throw e` of io.cpp:156, `escalated` when the error handler raised). -/
inductive FindResult where
  | found (pos : Nat) (logs : List Severity)
  | notFound
  | runtime
  | generic
  | escalated
deriving DecidableEq, Repr

/-- One attempt: read `toread` bytes at `from` and search them (static `findsul` and
`findvrl`, io.cpp:70-137); `find` is `dlis_find_sul` or `dlis_find_vrl`. -/
def findOnce (find : Bytes → Err × Option Nat) (src : Source) (pos toread : Nat) : FindResult :=
  let win := match readAt src pos toread with
    | .ok bs => some bs
    | .eof bs => some bs
    | .error => none
  match win with
  | none => .runtime
  | some bs =>
    match find bs with
    | (.ok, some o) => .found (pos + o) []
    | (.notFound, _) => .notFound
    | (_, _) => .runtime

/-- `findsul`, io.cpp:141-179 (asserts are not active in release builds). -/
def findsul (policy : Policy) (expected : Bool) (src : Source) (pos : Nat) : FindResult :=
  match findOnce findSul src pos 15 with
  | .found p l => .found p l
  | _ =>
    if !expected then .generic
    else match findOnce findSul src pos 1700 with
      | .found p _ => if policy .minor then .escalated else .found p [.minor]
      | e => e

/-- `findvrl`, io.cpp:181-212. -/
def findvrl (policy : Policy) (src : Source) (pos : Nat) : FindResult :=
  match findOnce findVrl src pos 4 with
  | .found p l => .found p l
  | _ =>
    match findOnce findVrl src pos 200 with
      | .found p _ => if policy .minor then .escalated else .found p [.minor]
      | e => e

/-! ### Extraction -/

/-- A logical record as extracted (`dl::record`, lib/include/dlisio/dlis/io.hpp). The
field `consistent` is always true (io.cpp:224-237) and left out. -/
structure Record where
  type : Nat
  attributes : Byte
  data : Bytes
deriving DecidableEq, Repr

/-- Ways in which `extract` fails. -/
inductive ExtractErr where
  /-- "unable to read LRSH, file truncated" (io.cpp:313-314) -/
  | header
  /-- "unable to read LRS, file truncated" (io.cpp:345-346) -/
  | body
  /-- a segment length below 4 makes the size to read negative; `resize` or `read`
  throws (io.cpp:342-345) -/
  | length
  /-- "bad segment trim" (io.cpp:255-260) -/
  | trim
  /-- the stream throws -/
  | stream
  /-- the error handler raised -/
  | escalated
  /-- not an exception: the padding length is read in front of the buffer
  (undefined behaviour, see C16) -/
  | outOfBounds
deriving DecidableEq, Repr

/-- `trim_segment`, io.cpp:239-279: what is kept of the segment `seg` read after
`acc`, and the number of problems logged.  For a partially read segment the code
passes the full segment size; there is then no trailer and nothing is trimmed. -/
def trimSegment (policy : Policy) (attrs : Byte) (acc seg : Bytes) :
    Except ExtractErr (Bytes × Nat) :=
  match trimRecordSegment attrs acc seg with
  | none => .error .outOfBounds
  | some (.ok, trim) => .ok (seg.take (seg.length - trim), 0)
  | some (.badSize, trim) =>
    if trim - seg.length ≠ 4 then .error .trim
    else if policy .minor then .error .escalated
    else .ok ([], 1)
  | some (_, _) => .error .trim

/-- `DLIS_SEGATTR_EXFMTLR | DLIS_SEGATTR_ENCRYPT` (io.cpp:373). -/
def fmtenc : Byte := SEGATTR_EXFMTLR ||| SEGATTR_ENCRYPT

/-- Number of bytes to read of a segment body of `len` bytes when `remaining` more bytes
are wanted (io.cpp:328-340). -/
def toRead (attrs : Byte) (remaining len : Nat) : Nat :=
  if !flag attrs SEGATTR_PADDING && !flag attrs SEGATTR_TRAILEN && !flag attrs SEGATTR_CHCKSUM
      && decide (remaining < len) then remaining
  else len

/-- The loop of `extract`, io.cpp:303-382: `pos` is the position of the stream, `acc`
the data so far, `first` attributes and type of the first segment.  Besides the record
the number of logged (minor) problems is returned. -/
def extractLoop (policy : Policy) (src : Source) (limit : Nat) (pos : Nat) (acc : Bytes)
    (first : Option (Byte × Nat)) (logs : Nat) : Except ExtractErr (Record × Nat) :=
  match h : readAt src pos 4 with
  | .error => .error .stream
  | .eof _ => .error .header
  | .ok buf =>
    match lrsh buf with
    | none => .error .header
    | some hd =>
      if hd.length < 4 then .error .length
      else
        let len := hd.length - 4
        match readAt src (pos + 4) (toRead hd.attrs (limit - acc.length) len) with
        | .error => .error .stream
        | .eof _ => .error .body
        | .ok seg =>
          match trimSegment policy hd.attrs acc seg with
          | .error e => .error e
          | .ok (body, l) =>
            let acc := acc ++ body
            let first := first.getD (hd.attrs, hd.type)
            if flag hd.attrs SEGATTR_SUCCSEG && decide (acc.length < limit) then
              extractLoop policy src limit (pos + 4 + len) acc (some first) (logs + l)
            else
              .ok ({ type := first.2, attributes := first.1 &&& fmtenc,
                     data := acc.take limit }, logs + l)
termination_by src.data.length - pos
decreasing_by
  have := (readAt_ok h (by omega)).1
  omega

/-- `extract(file, tell, bytes, rec, errorhandler)`, io.cpp:301-382. -/
def extractN (policy : Policy) (src : Source) (tell bytes : Nat) :
    Except ExtractErr (Record × Nat) :=
  if !seekOk src tell then .error .stream
  else extractLoop policy src bytes tell [] none 0

/-- `extract(file, tell, errorhandler)`, io.cpp:293-299: the limit is
`std::numeric_limits<std::int64_t>::max()`. -/
def extract (policy : Policy) (src : Source) (tell : Nat) : Except ExtractErr (Record × Nat) :=
  extractN policy src tell (2 ^ 63 - 1)

/-- `record::isencrypted`, io.cpp:218-220. -/
def Record.isencrypted (r : Record) : Bool := flag r.attributes SEGATTR_ENCRYPT

/-- `record::isexplicit`, io.cpp:214-216. -/
def Record.isexplicit (r : Record) : Bool := flag r.attributes SEGATTR_EXFMTLR

/-! ### Index of logical records -/

/-- `stream_offsets`, lib/include/dlisio/dlis/io.hpp. -/
structure Offsets where
  explicits : List Nat
  implicits : List Nat
  broken : List Nat
deriving DecidableEq, Repr

/-- Result of `findoffsets`: the index and the position of the stream afterwards when
the end was not reached (used by the caller to open the next logical file), `none` if
the stream is at its end or indexing was suspended. -/
structure IndexResult where
  ofs : Offsets
  next : Option Nat
deriving DecidableEq, Repr

/-- `handle` of `findoffsets` without the call of the error handler (io.cpp:394-407). -/
def Offsets.addBroken (o : Offsets) (lr : Nat) : Offsets := { o with broken := o.broken ++ [lr] }

/-- The loop of `findoffsets`, io.cpp:414-533. -/
def findoffsetsLoop (src : Source) (ofs : Offsets) (lr lrs : Nat) (hasSucc : Bool) :
    IndexResult :=
  match h : readAt src lrs 4 with
  | .error => ⟨ofs.addBroken lr, none⟩
  | .eof bs =>
    if bs.length = 0 then
      if hasSucc then ⟨ofs.addBroken lr, none⟩ else ⟨ofs, none⟩
    else ⟨ofs.addBroken lr, none⟩
  | .ok buf =>
    match lrsh buf with
    | none => ⟨ofs.addBroken lr, none⟩
    | some hd =>
      if hlen : hd.length < 4 then ⟨ofs.addBroken lr, none⟩
      else
        let isexplicit := flag hd.attrs SEGATTR_EXFMTLR
        let hasPred := flag hd.attrs SEGATTR_PREDSEG
        if !hasPred && isexplicit && decide (hd.type = 0) && decide (ofs.explicits.length ≠ 0) then
          if hasSucc then ⟨ofs.addBroken lr, none⟩
          else ⟨ofs, some lrs⟩
        else
          let hasSucc := flag hd.attrs SEGATTR_SUCCSEG
          if !seekOk src (lrs + hd.length - 1) then ⟨ofs.addBroken lr, none⟩
          else match readAt src (lrs + hd.length - 1) 1 with
            | .error => ⟨ofs.addBroken lr, none⟩
            | _ =>
              if !hasSucc then
                let ofs := if isexplicit then { ofs with explicits := ofs.explicits ++ [lr] }
                  else { ofs with implicits := ofs.implicits ++ [lr] }
                findoffsetsLoop src ofs (lrs + hd.length) (lrs + hd.length) hasSucc
              else findoffsetsLoop src ofs lr (lrs + hd.length) hasSucc
termination_by src.data.length - lrs
decreasing_by
  all_goals
    have := (readAt_ok h (by omega)).1
    omega

/-- `findoffsets`, io.cpp:384-535, without the calls of the error handler. -/
def findoffsetsRaw (src : Source) : IndexResult := findoffsetsLoop src ⟨[], [], []⟩ 0 0 false

/-- `findoffsets`: every problem is logged as critical when it is found, which ends the
loop; `none` when the error handler raises. -/
def findoffsets (policy : Policy) (src : Source) : Option IndexResult :=
  let r := findoffsetsRaw src
  if r.ofs.broken ≠ [] && policy .critical then none else some r

/-! ### Index of frame data -/

/-- What one implicit record contributes to the frame data index. -/
inductive FdataStep where
  /-- fingerprint under which the offset is filed -/
  | file (key : Bytes)
  /-- the record is passed over silently -/
  | skip
  /-- a critical problem is logged and the record is skipped -/
  | problem
  /-- undefined behaviour -/
  | undefined
deriving DecidableEq, Repr

/-- The body of the loop of `findfdata`, io.cpp:555-588. `stale` is the content of the
buffer of the reused record object behind the current data: at least 262 bytes are
reserved (io.cpp:544), of which the object name decoder may look at bytes past the
current data. The fingerprints cannot fail: types are not empty, origins not negative. -/
def fdataStep (policy : Policy) (src : Source) (stale : Bytes) (tell : Nat) : FdataStep × Nat :=
  match extractN policy src tell 262 with
  | .error .outOfBounds => (.undefined, 0)
  | .error _ => (.problem, 0)
  | .ok (rec, logs) =>
    if rec.isencrypted then (.skip, logs)
    else if rec.type ≠ 0 ∧ rec.type ≠ 1 then (.skip, logs)
    else if rec.data.length = 0 then (.skip, logs)
    else
      match obname (rec.data ++ stale) with
      | none => (.undefined, logs)
      | some (o, rest) =>
        if (rec.data ++ stale).length - rest.length > rec.data.length then (.problem, logs)
        else
          let type : Bytes := if rec.type = 0 then [0x46, 0x52, 0x41, 0x4d, 0x45]
            else [0x4e, 0x4f, 0x2d, 0x46, 0x4f, 0x52, 0x4d, 0x41, 0x54]
          match fingerprint type o.id o.origin o.copy with
          | none => (.undefined, logs)
          | some fp => (.file fp, logs)

/-- `xs[key].push_back(tell)` on a `std::map` (io.cpp:585, 587): the map is an
association list with one entry per key. -/
def mapPush (m : List (Bytes × List Nat)) (key : Bytes) (tell : Nat) : List (Bytes × List Nat) :=
  match m with
  | [] => [(key, [tell])]
  | (k, v) :: m => if k = key then (k, v ++ [tell]) :: m else (k, v) :: mapPush m key tell

/-- Lookup in the map; absent keys have no offsets. -/
def mapGet (m : List (Bytes × List Nat)) (key : Bytes) : List Nat :=
  match m with
  | [] => []
  | (k, v) :: m => if k = key then v else mapGet m key

/-- `findfdata`, io.cpp:537-590: index and severities logged; `none` when the error
handler raises on a critical problem.  `stale tell` is the buffer content behind the
data at that iteration. -/
def findfdataLoop (policy : Policy) (src : Source) (stale : Nat → Bytes)
    (m : List (Bytes × List Nat)) (logs : List Severity) :
    List Nat → Option (List (Bytes × List Nat) × List Severity)
  | [] => some (m, logs)
  | tell :: tells =>
    match fdataStep policy src (stale tell) tell with
    | (.file fp, l) => findfdataLoop policy src stale (mapPush m fp tell)
        (logs ++ List.replicate l .minor) tells
    | (.skip, l) => findfdataLoop policy src stale m (logs ++ List.replicate l .minor) tells
    | (.problem, l) =>
      if policy .critical then none
      else findfdataLoop policy src stale m
        (logs ++ List.replicate l .minor ++ [.critical]) tells
    | (.undefined, _) => none

/-- `findfdata`, io.cpp:537-590. -/
def findfdata (policy : Policy) (src : Source) (stale : Nat → Bytes) (tells : List Nat) :
    Option (List (Bytes × List Nat) × List Severity) :=
  findfdataLoop policy src stale [] [] tells

end Dlisio.Dlis
