/-
Reading curves and unformatted data: `read_fdata`, `read_noform` and their helpers,
python/dlisio/ext/dlis.cpp:269-733.

The cursor `ptr` is the list of bytes from it to the end of what is known of the memory:
first the rest of the record, then `behind` more bytes that do not belong to the record
(`end - ptr` is the length minus `behind`).  A decoder that runs out of these bytes as
well is undefined behaviour.

The array that is filled is a memory of bytes, each of which is a certain byte of a
certain item.  `Dst.overrun` is not part of the code: it is set when something is written
outside the rows that are allocated.
-/
import Verif.Dlis.Value
import Verif.Dlis.Pack
import Verif.Dlis.Io
import Verif.Utf8

namespace Dlisio.Dlis

/-! ### Samples -/

/-- What the unpacking writes to the array: a pointer to a Python object, the 255 code
units of a bounded-length text, or a number. `dangling` is a pointer to an object that
has been released. -/
inductive Item where
  | obj (v : Val)
  | text (units : List (BitVec 32))
  | host (c : Cell)
  | dangling
deriving DecidableEq

/-- Bytes taken by an item: pointers have 8 bytes, texts `255 * sizeof(uint32_t)`
(ext/dlis.cpp:386-387). -/
def Item.size : Item → Nat
  | .obj _ => 8
  | .text _ => 1020
  | .host c => c.size
  | .dangling => 8

/-- Why a sample is not read: an exception; an exception after the object in the array
has been released; or undefined behaviour. -/
inductive SampleErr where
  | threw | released | undefined
deriving DecidableEq, Repr

/-- Number of days in a month, as in CPython's `days_in_month`. -/
def daysInMonth (y m : Nat) : Nat :=
  if m = 2 then (if y % 4 = 0 ∧ (y % 100 ≠ 0 ∨ y % 400 = 0) then 29 else 28)
  else if m = 4 ∨ m = 6 ∨ m = 9 ∨ m = 11 then 30 else 31

/-- Does `PyDateTime_FromDateAndTime` accept the date (`to_pydatetime`,
ext/dlis.cpp:36-43)?  The checks are CPython's `check_date_args` and
`check_time_args`. The year is between 1900 and 2155. -/
def dateOk (t : DTime) : Bool :=
  let y := (year t.Y).toNat
  decide (1 ≤ y ∧ y ≤ 9999) && decide (1 ≤ t.M ∧ t.M ≤ 12) &&
  decide (1 ≤ t.D ∧ t.D ≤ daysInMonth y t.M) && decide (t.H < 24) && decide (t.MN < 60) &&
  decide (t.S < 60) && decide (t.MS * 1000 ≤ 999999)

/-- The code units of an identifier, ext/dlis.cpp:389-403: `tmp[i]` is a (signed) `char`
that is converted to `std::uint32_t`; the rest is zero. -/
def textUnits (s : Bytes) : List (BitVec 32) :=
  s.map (·.signExtend 32) ++ List.replicate (255 - s.length) 0

/-- The branches of `read_curve_sample` that build an object from the decoded value,
ext/dlis.cpp:343-383, 429-505. -/
def readObject (c : Reprc) (xs : Bytes) : Except SampleErr (List Item × Bytes) :=
  match decodeVal c xs with
  | none => .error .undefined
  | some (v, xs) => .ok ([.obj v], xs)

/-- The branch for IDENT and UNITS, ext/dlis.cpp:385-406. -/
def readText (xs : Bytes) : Except SampleErr (List Item × Bytes) :=
  match ident xs with
  | none => .error .undefined
  | some (s, xs) => .ok ([.text (textUnits s)], xs)

/-- The branch for ASCII, ext/dlis.cpp:408-427; the constructor of `py::str` throws if
the text is not UTF-8. -/
def readAscii (xs : Bytes) : Except SampleErr (List Item × Bytes) :=
  match ascii xs with
  | none => .error .undefined
  | some (s, xs) => if (utf8Decode s).isSome then .ok ([.obj (.str s)], xs) else .error .threw

/-- The branch for DTIME, ext/dlis.cpp:507-519: the old object is released before
`to_pydatetime`, which throws for an invalid date. -/
def readDtime (xs : Bytes) : Except SampleErr (List Item × Bytes) :=
  match dtime xs with
  | none => .error .undefined
  | some (t, xs) => if dateOk t then .ok ([.obj (.dtime t)], xs) else .error .released

/-- The end of `read_curve_sample` with `assert_overflow`, ext/dlis.cpp:521-527 and
269-274. -/
def readHost (behind : Nat) (ch : Char) (xs : Bytes) : Except SampleErr (List Item × Bytes) :=
  match packflen [ch] xs with
  | none => .error .undefined
  | some (_, skip, _) =>
    if xs.length < skip + behind then .error .threw
    else match packf [ch] xs with
      | none => .error .undefined
      | some (_, cells) => .ok (cells.map .host, xs.drop skip)

/-- `read_curve_sample`, ext/dlis.cpp:276-528.  For a character that is no format
character the sizes at 521 are not initialised. -/
def readCurveSample (behind : Nat) (ch : Char) (xs : Bytes) :
    Except SampleErr (List Item × Bytes) :=
  match Reprc.ofFmtChar ch with
  | none => .error .undefined
  | some .fsing1 => readObject .fsing1 xs
  | some .fsing2 => readObject .fsing2 xs
  | some .fdoub1 => readObject .fdoub1 xs
  | some .fdoub2 => readObject .fdoub2 xs
  | some .ident => readText xs
  | some .units => readText xs
  | some .ascii => readAscii xs
  | some .obname => readObject .obname xs
  | some .objref => readObject .objref xs
  | some .attref => readObject .attref xs
  | some .dtime => readDtime xs
  | some _ => readHost behind ch xs

/-! ### Rows -/

/-- The array under construction, ext/dlis.cpp:608-641: contents, `dst - info.ptr`,
`frames` and `allocated_rows`. -/
structure Dst where
  mem : Nat → Option (Item × Nat)
  pos : Nat
  frames : Nat
  allocated : Nat
  overrun : Bool

/-- Write an item at `dst` without advancing it. -/
def Dst.poke (itemsize : Nat) (d : Dst) (it : Item) : Dst :=
  { d with
    mem := fun k => if d.pos ≤ k ∧ k < d.pos + it.size then some (it, k - d.pos) else d.mem k
    overrun := d.overrun || decide (d.allocated * itemsize < d.pos + it.size) }

/-- Write an item and advance `dst`. -/
def Dst.put (itemsize : Nat) (d : Dst) (it : Item) : Dst :=
  { d.poke itemsize it with pos := d.pos + it.size }

/-- `read_fdata_frame`, ext/dlis.cpp:530-535. -/
def readFdataFrame (itemsize behind : Nat) :
    List Char → Bytes → Dst → Dst × Except SampleErr Bytes
  | [], xs, d => (d, .ok xs)
  | ch :: fmt, xs, d =>
    match readCurveSample behind ch xs with
    | .error .released => (d.poke itemsize .dangling, .error .released)
    | .error e => (d, .error e)
    | .ok (its, xs) => readFdataFrame itemsize behind fmt xs (its.foldl (Dst.put itemsize) d)

/-- `if (frames == allocated_rows)`, ext/dlis.cpp:551-554 with `resize` at 620-628: `dst`
is set to the begin of the new buffer and advanced by the rows that are filled. -/
def Dst.grow (itemsize : Nat) (d : Dst) : Dst :=
  if d.frames = d.allocated then
    { d with allocated := d.frames * 2, pos := d.frames * itemsize }
  else d

/-- `read_fdata_record`, ext/dlis.cpp:537-570, with empty `pre_fmt` and `post_fmt`, the
only value they have (asserted at 638-639).  A format that consumes nothing would make
the loop endless; the number of bytes bounds the number of rounds of any other format
(`c29_rounds`). -/
def readFdataRecord (itemsize behind : Nat) (fmt : List Char) :
    Nat → Bytes → Dst → Dst × Except SampleErr Unit
  | 0, _, d => (d, .error .undefined)
  | n + 1, xs, d =>
    if xs.length ≤ behind then (d, .ok ())
    else
      match readFdataFrame itemsize behind fmt xs (d.grow itemsize) with
      | (d, .error e) => (d, .error e)
      | (d, .ok xs) => readFdataRecord itemsize behind fmt n xs { d with frames := d.frames + 1 }

/-- Result of `read_fdata`: the array (its number of rows is `Dst.allocated`) and the
severities that were logged, an exception, or undefined behaviour. -/
inductive FdataResult where
  | array (d : Dst) (logs : List Severity)
  | raised
  | undefined

/-- `if (allocated_rows > frames) resize(frames)`, ext/dlis.cpp:693-694. -/
def Dst.shrink (d : Dst) : Dst :=
  if d.allocated > d.frames then { d with allocated := d.frames } else d

/-- The rewind after an exception, ext/dlis.cpp:688. -/
def Dst.rewind (itemsize : Nat) (d : Dst) : Dst := { d with pos := d.frames * itemsize }

/-- The loop over the records of `read_fdata`, ext/dlis.cpp:654-691; `stale tell` is the
memory behind the data of the record at `tell`. -/
def readFdataLoop (policy : Policy) (src : Source) (stale : Nat → Bytes) (itemsize : Nat)
    (fmt : List Char) : List Nat → Dst → List Severity → FdataResult
  | [], d, logs => .array d.shrink logs
  | tell :: tells, d, logs =>
    match extract policy src tell with
    | .error .outOfBounds => .undefined
    | .error _ =>
      if policy .critical then .raised
      else readFdataLoop policy src stale itemsize fmt tells d (logs ++ [.critical])
    | .ok (rec, l) =>
      let logs := logs ++ List.replicate l .minor
      if rec.isencrypted then
        if policy .critical then .raised
        else readFdataLoop policy src stale itemsize fmt tells d (logs ++ [.critical])
      else
        let xs := rec.data ++ stale tell
        match obname xs with
        | none => .undefined
        | some (_, ptr) =>
          match readFdataRecord itemsize (stale tell).length fmt (xs.length + 1) ptr d with
          | (d, .ok ()) => readFdataLoop policy src stale itemsize fmt tells d logs
          | (_, .error .undefined) => .undefined
          | (d, .error _) =>
            if policy .critical then .raised
            else readFdataLoop policy src stale itemsize fmt tells (d.rewind itemsize)
              (logs ++ [.critical])

/-- `read_fdata`, ext/dlis.cpp:572-697. -/
def readFdata (policy : Policy) (src : Source) (stale : Nat → Bytes) (itemsize : Nat)
    (fmt : List Char) (tells : List Nat) : FdataResult :=
  readFdataLoop policy src stale itemsize fmt tells
    { mem := fun _ => none, pos := 0, frames := 0, allocated := tells.length, overrun := false } []

/-! ### Unformatted data -/

/-- Result of `read_noform`. -/
inductive NoformResult where
  | bytes (bs : Bytes) (logs : List Severity)
  | raised
  | undefined
deriving DecidableEq, Repr

/-- `read_noform`, ext/dlis.cpp:699-733.  For an object name that does not end inside the
record the size at 726 wraps around. -/
def readNoformLoop (policy : Policy) (src : Source) (stale : Nat → Bytes) :
    List Nat → Bytes → List Severity → NoformResult
  | [], acc, logs => .bytes acc logs
  | tell :: tells, acc, logs =>
    match extract policy src tell with
    | .error .outOfBounds => .undefined
    | .error _ =>
      if policy .critical then .raised
      else readNoformLoop policy src stale tells acc (logs ++ [.critical])
    | .ok (rec, l) =>
      match obname (rec.data ++ stale tell) with
      | none => .undefined
      | some (_, ptr) =>
        if ptr.length < (stale tell).length then .undefined
        else readNoformLoop policy src stale tells
          (acc ++ ptr.take (ptr.length - (stale tell).length))
          (logs ++ List.replicate l .minor)

/-- `read_noform`, ext/dlis.cpp:699-733. -/
def readNoform (policy : Policy) (src : Source) (stale : Nat → Bytes) (tells : List Nat) :
    NoformResult :=
  readNoformLoop policy src stale tells [] []

end Dlisio.Dlis
