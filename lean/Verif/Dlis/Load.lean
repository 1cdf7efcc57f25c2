/-
Loading a file: python/dlisio/dlis/load.py.

The library lfp, which takes away tape marks and visible envelopes, is not part of the
repository.  What it does to one file is the parameter `Disk`; `rawDisk` below is a `Disk`
for files without tape marks.
-/
import Verif.Dlis.Io
import Verif.Dlis.Eflr
import Verif.Tapemark

namespace Dlisio.Dlis

/-- An open stream: its logical bytes, the physical tell for a logical position, the physical
tell once the end was met, and whether this is the end of the file on disk, too. -/
structure Layer where
  src : Source
  ptell : Nat → Nat
  endTell : Nat
  peof : Bool

/-- What lfp makes of a file that does not change while it is loaded. -/
structure Disk where
  /-- `read_tapemark` at the start, load.py:73-74 -/
  mark : TapemarkResult
  /-- does `common.open(path, offset)` succeed, io.cpp:27-43? -/
  opens : Nat → Bool
  /-- does `open_tif` succeed on the stream opened at this offset, io.cpp:57-66? -/
  tif : Nat → Bool
  /-- the stream opened at this offset, on top of `open_tif` if there are tape marks -/
  layer : Nat → Layer
  /-- `open_rp66` on that stream at a logical position, io.cpp:45-55; `none` if it throws -/
  rp66 : Nat → Nat → Option Layer

/-- `is_tif`, load.py:74-75. -/
def Disk.isTif (d : Disk) : Bool :=
  match d.mark with
  | .ok tm => validTapemark tm
  | _ => false

/-- A `LogicalFile` as made by `parse_logical_file`, load.py:180-192.  Handles are numbered
in the order in which files are opened. -/
structure LogFile where
  src : Source
  handle : Nat
  sul : Option Bytes
  explicits : List Nat
  implicits : List Nat
  sets : List ObjectSet
  fdata : List (Bytes × List Nat)
deriving DecidableEq

/-- The state of `FileIndexer`, load.py:112-122, together with the number of handles opened
so far and the handles that were closed, in order. -/
structure Indexer where
  next : Nat
  dataEnd : Bool
  sul : Option Bytes
  stream : Option Nat
  files : List LogFile
  opened : Nat
  closed : List Nat
deriving DecidableEq

/-- How a part of the work ends: with a value, with an exception, or with undefined
behaviour. -/
inductive Work (α : Type) where
  | done (a : α)
  | raised
  | undefined
deriving DecidableEq

/-- `core.extract`, ext/dlis.cpp:1009-1032.  Whatever is thrown, also by the error handler, is
reported as critical, and the record is skipped. -/
def extractAll (policy : Policy) (src : Source) : List Nat → Work (List Record)
  | [] => .done []
  | tell :: tells =>
    match extract policy src tell with
    | .error .outOfBounds => .undefined
    | .error _ => if policy .critical then .raised else extractAll policy src tells
    | .ok (rec, _) =>
      match extractAll policy src tells with
      | .done recs => .done (if rec.data.length > 0 then rec :: recs else recs)
      | r => r

/-- `core.parse_objects`, ext/dlis.cpp:1034-1051. -/
def objectSets (policy : Policy) : List Record → Work (List ObjectSet)
  | [] => .done []
  | rec :: recs =>
    if rec.isencrypted then objectSets policy recs
    else
      match ObjectSet.new rec.data with
      | .error .outOfBounds => .undefined
      | .error .threw => if policy .critical then .raised else objectSets policy recs
      | .ok s =>
        match objectSets policy recs with
        | .done ss => .done (s :: ss)
        | r => r

/-- Does `findfdata` (io.cpp:537-590) come to its end, or is it stopped by the error handler or by
undefined behaviour? -/
def fdataStop (policy : Policy) (src : Source) (stale : Nat → Bytes) : List Nat → Work Unit
  | [] => .done ()
  | tell :: tells =>
    match (fdataStep policy src (stale tell) tell).1 with
    | .undefined => .undefined
    | .problem => if policy .critical then .raised else fdataStop policy src stale tells
    | _ => fdataStop policy src stale tells

/-- `findfdata` as called by `parse_logical_file`, load.py:189. -/
def fdataOf (policy : Policy) (src : Source) (stale : Nat → Bytes) (tells : List Nat) :
    Work (List (Bytes × List Nat)) :=
  match fdataStop policy src stale tells with
  | .raised => .raised
  | .undefined => .undefined
  | .done () => .done (((findfdata policy src stale tells).map (·.1)).getD [])

/-- The contents of a logical file, load.py:186-189. -/
def contents (policy : Policy) (src : Source) (stale : Nat → Bytes) (ofs : Offsets) :
    Work (List ObjectSet × List (Bytes × List Nat)) :=
  match extractAll policy src ofs.explicits with
  | .raised => .raised
  | .undefined => .undefined
  | .done recs =>
    match objectSets policy recs with
    | .raised => .raised
    | .undefined => .undefined
    | .done sets =>
      match fdataOf policy src stale ofs.implicits with
      | .raised => .raised
      | .undefined => .undefined
      | .done fdata => .done (sets, fdata)

/-- `close_stream`, load.py:137-142. -/
def Indexer.closeStream (x : Indexer) : Indexer :=
  { x with closed := x.closed ++ x.stream.toList, stream := none }

/-- `close`, load.py:202-209. -/
def Indexer.close (x : Indexer) : Indexer :=
  let x := x.closeStream
  { x with closed := x.closed ++ x.files.map (·.handle) }

/-- `logical_eof`, load.py:211-247, at a position of the stream; exceptions of `peof` are left
out. -/
def logicalEof (policy : Policy) (l : Layer) (pos : Nat) (x : Indexer) : Indexer × Work Bool :=
  match (if seekOk l.src pos then readAt l.src pos 1 else .error) with
  | .error =>
    if policy .critical then (x, .raised) else ({ x with dataEnd := true }, .done true)
  | .eof _ =>
    if l.peof then ({ x with dataEnd := true }, .done true)
    else ({ x with next := l.endTell }, .done true)
  | .ok _ => (x, .done false)

/-- `find_sul` and `read_sul`, load.py:249-308: the position afterwards.  If the error handler
raises inside `findsul`, a label was expected; the exception is either passed on, or (if it is a
`RuntimeError`) reported again with the same severity, so that the handler raises again.  If it raises
because of a label that was not expected (262-271), then the exception is caught at 274 and the label
is not read.  Actions that raise something else than a `RuntimeError` are left out: with those,
loading ends. -/
def findReadSul (policy : Policy) (l : Layer) (x : Indexer) : Indexer × Work Nat :=
  let expected := decide (x.sul.getD [] = []) && decide (x.files = [])
  match findsul policy expected l.src 0 with
  | .found p _ =>
    if !expected && policy .minor then (x, .done 0)
    else
      match readAt l.src p 80 with
      | .error => (x, .raised)
      | .eof bs =>
        if policy .major then (x, .raised)
        else ({ x with sul := some bs }, .done (p + bs.length))
      | .ok bs => ({ x with sul := some bs }, .done (p + bs.length))
  | .escalated => (x, .raised)
  | _ => if expected && policy .minor then (x, .raised) else (x, .done 0)

/-- `index_logical_file` and `parse_logical_file`, load.py:152-192, on the stream on top of
which `open_rp66` was called.  If records are broken, the tell for the next logical file is not
used any more. -/
def parseLogicalFile (policy : Policy) (stale : Nat → Bytes) (isTif : Bool) (l : Layer)
    (x : Indexer) : Indexer × Work Unit :=
  match findoffsets policy l.src with
  | none => (x, .raised)
  | some ix =>
    let x := { x with
      dataEnd := x.dataEnd || decide (ix.ofs.broken ≠ [])
      next := match ix.next with
        | none => l.endTell
        | some p => l.ptell p - 4 - (if isTif then 12 else 0) }
    match contents policy l.src stale ix.ofs with
    | .raised => (x, .raised)
    | .undefined => (x, .undefined)
    | .done (sets, fdata) =>
      ({ x with files := x.files ++ [{
          src := l.src, handle := x.stream.getD 0, sul := x.sul, explicits := ix.ofs.explicits,
          implicits := ix.ofs.implicits, sets := sets, fdata := fdata }] }, .done ())

/-- The part of the body of the loop that follows `find_sul`, load.py:93-98. -/
def afterSul (d : Disk) (policy : Policy) (stale : Nat → Bytes) (l : Layer) (pos : Nat)
    (x : Indexer) : Indexer × Work Unit :=
  match logicalEof policy l pos x with
  | (x, .raised) => (x, .raised)
  | (x, .undefined) => (x, .undefined)
  | (x, .done true) => (x.closeStream, .done ())
  | (x, .done false) =>
    match findvrl policy l.src pos with
    | .found q _ =>
      match d.rp66 x.next q with
      | none => (x, .raised)
      | some r => parseLogicalFile policy stale d.isTif r x
    | _ => (x, .raised)

/-- The body of the loop of `load`, load.py:81-98. -/
def iteration (d : Disk) (policy : Policy) (stale : Nat → Bytes) (x : Indexer) :
    Indexer × Work Unit :=
  if !d.opens x.next then (x, .raised)
  else
    let l := d.layer x.next
    let tifOk := !d.isTif || d.tif x.next
    let x := { x with stream := some x.opened, opened := x.opened + 1 }
    if !tifOk then (x, .raised)
    else
      match logicalEof policy l 0 x with
      | (x, .raised) => (x, .raised)
      | (x, .undefined) => (x, .undefined)
      | (x, .done true) => (x.closeStream, .done ())
      | (x, .done false) =>
        match findReadSul policy l x with
        | (x, .raised) => (x, .raised)
        | (x, .undefined) => (x, .undefined)
        | (x, .done pos) => afterSul d policy stale l pos x

/-- How `load` ends, if it does within the given number of rounds. -/
inductive Loaded where
  | running | files | raised | undefined
deriving DecidableEq

/-- The loop of `load`, load.py:79-103. -/
def loadLoop (d : Disk) (policy : Policy) (stale : Nat → Bytes) : Nat → Indexer → Indexer × Loaded
  | 0, x => (x, .running)
  | n + 1, x =>
    if x.dataEnd then (x, .files)
    else
      match iteration d policy stale x with
      | (x, .done ()) => loadLoop d policy stale n x
      | (x, .raised) => (x.close, .raised)
      | (x, .undefined) => (x, .undefined)

/-- A new `FileIndexer`, after the stream for the tape mark was opened. -/
def Indexer.new : Indexer :=
  { next := 0, dataEnd := false, sul := none, stream := none, files := [], opened := 1,
    closed := [] }

/-- `load`, load.py:8-103, for a regular file the first opening of which succeeds. -/
def load (d : Disk) (policy : Policy) (stale : Nat → Bytes) (n : Nat) : Indexer × Loaded :=
  match d.mark with
  | .ok _ => loadLoop d policy stale n { Indexer.new with closed := [0] }
  | _ => (Indexer.new, .raised)

/-! ### Files without tape marks -/

/-- The visible records from a position of the file on: the physical position of the body of
each, and the body, as lfp reads them.  A header that is cut off or not correct, and a body that
is cut off, is damage. -/
def visible (pos : Nat) (bs : Bytes) : List (Nat × Bytes) × Ending :=
  match bs with
  | [] => ([], .eof)
  | l1 :: l0 :: ff :: v :: rest =>
    let len := l1.toNat * 256 + l0.toNat
    if ff ≠ 0xFF ∨ v ≠ 0x01 ∨ len < 4 then ([], .broken true)
    else if rest.length < len - 4 then ([(pos + 4, rest)], .broken true)
    else
      let (vs, e) := visible (pos + len) (rest.drop (len - 4))
      ((pos + 4, rest.take (len - 4)) :: vs, e)
  | _ => ([], .broken true)
termination_by bs.length
decreasing_by simp only [List.length_cons, List.length_drop]; omega

/-- The physical tell for a logical position: within the body of the record that contains the
byte at the position. -/
def tellIn (endTell : Nat) : List (Nat × Bytes) → Nat → Nat
  | [], _ => endTell
  | (p, b) :: vs, pos => if pos < b.length then p + pos else tellIn endTell vs (pos - b.length)

/-- `open_rp66` at a physical position of a file without tape marks. -/
def rawRp66 (file : Bytes) (pos : Nat) : Layer :=
  let v := visible pos (file.drop pos)
  { src := ⟨v.1.flatMap (·.2), v.2⟩, ptell := tellIn file.length v.1, endTell := file.length,
    peof := true }

/-- A file without tape marks. -/
def rawDisk (file : Bytes) : Disk where
  mark := readTapemark ⟨file, .eof⟩ 0
  opens := fun _ => true
  tif := fun _ => true
  layer := fun k =>
    { src := ⟨file.drop k, .eof⟩, ptell := fun l => k + l, endTell := file.length, peof := true }
  rp66 := fun k pos => some (rawRp66 file (k + pos))

end Dlisio.Dlis
