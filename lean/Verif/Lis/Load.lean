import Verif.Lis.ReadProps
import Verif.Tapemark
import Verif.ErrorHandler
/-
C54: loading, python/dlisio/lis/load.py.

What lfp makes of the file is a parameter.  Of the error handler only counts whether it
raises on a critical issue; all issues reported here are critical ones.
-/
namespace Dlisio.Lis

/-! ### Model -/

/-- How `core.openlis` ends, io.cpp:577-632: `EOFError`, `OSError`, or a device at position 0
with `eof()` as it is when indexing stops at a position. -/
inductive Opened where
  | eof
  | osError
  | stream (dev : Device) (eof : Nat → Bool)

/-- What lfp makes of a file that does not change while it is loaded. -/
structure Disk where
  /-- `core.open(path, 0)`, load.py:113; `none` if it raises -/
  raw : Option Source
  /-- `core.openlis(path, offset, is_tif)`, load.py:144 -/
  lis : Bool → Nat → Opened

/-- The loop in `check_for_tapemarks`, load.py:133-136, from the mark at `pos`: the offset of
the first mark of type 0, `none` if reading fails. -/
def firstMark (src : Source) (pos : Nat) : Option Nat :=
  match _h : readTapemark src pos with
  | .ok tm => if tm.type = 0 then some pos else firstMark src (pos + 12)
  | _ => none
termination_by src.data.length - pos
decreasing_by
  unfold readTapemark at _h
  split at _h
  · rename_i bs hb
    have := (readAt_ok hb (by omega)).1
    omega
  · cases _h
  · cases _h

/-- `check_for_tapemarks`, load.py:109-139: `is_tif` and the first offset; `none` if it
raises. -/
def checkForTapemarks (src : Source) : Option (Bool × Nat) :=
  match readTapemark src 0 with
  | .ok tm =>
    if validTapemark tm then
      match firstMark src 0 with
      | some p => some (true, p)
      | none => none
    else some (false, 0)
  | _ => none

/-- `HeaderTrailer`, file.py:9-21. -/
structure HeaderTrailer where
  header : Option Bytes
  trailer : Option Bytes
deriving DecidableEq, Repr

/-- The objects that `self.reel` (or `self.tape`) has ever referred to, and the one it
refers to now; logical files refer to them by number, load.py:104-105. -/
structure Track where
  objs : List HeaderTrailer
  cur : Nat
deriving DecidableEq, Repr

/-- `HeaderTrailer()`, load.py:104-105. -/
def Track.start : Track := ⟨[⟨none, none⟩], 0⟩

/-- `self.reel = HeaderTrailer(record)`, load.py:240 and 250. -/
def Track.header (t : Track) (record : Bytes) : Track :=
  ⟨t.objs ++ [⟨some record, none⟩], t.objs.length⟩

/-- `self.reel.rawtrailer = record; self.reel = HeaderTrailer()`, load.py:246-247 and
256-257. -/
def Track.trailer (t : Track) (record : Bytes) : Track :=
  ⟨t.objs.modify t.cur (fun o => { o with trailer := some record }) ++ [⟨none, none⟩],
    t.objs.length⟩

/-- `LogicalFile`, file.py:117-122, as made in load.py:220-222: the handle with its device,
the index, the numbers of reel and tape; `offset` is where the handle was opened. -/
structure LogFile where
  handle : Nat
  offset : Nat
  index : Index
  reel : Nat
  tape : Nat
deriving DecidableEq

/-- The state of `FileIndexer`, load.py:98-107, with the number of handles opened so far and
the handles closed, in order. -/
structure Indexer where
  offset : Nat
  complete : Bool
  reel : Track
  tape : Track
  files : List LogFile
  opened : Nat
  closed : List Nat
deriving DecidableEq

/-- `is_delimiter`, load.py:268-276. -/
def isDelimiter (info : RecordInfo) : Bool :=
  info.type = 132 || info.type = 133 || info.type = 130 || info.type = 131 || info.type = 137

/-- `adjust_reel_tape`, load.py:238-257. -/
def Indexer.adjust (s : Indexer) (type : Nat) (record : Bytes) : Indexer :=
  if type = 132 then { s with reel := s.reel.header record }
  else if type = 133 then { s with reel := s.reel.trailer record }
  else if type = 130 then { s with tape := s.tape.header record }
  else if type = 131 then { s with tape := s.tape.trailer record }
  else s

/-- Report of a critical issue and `self.complete = True`, load.py:150-159 and others: does
it raise? -/
def Indexer.critical (s : Indexer) (raises : Bool) : Bool × Indexer :=
  if raises then (true, s) else (false, { s with complete := true })

/-- `index.isincomplete()` and what is done about it, load.py:226-235. -/
def Indexer.finish (s : Indexer) (raises : Bool) (index : Index) : Bool × Indexer :=
  if index.incomplete then s.critical raises else (false, s)

/-- `index_logical_file`, load.py:141-235, behind `openlis`: handle number `s.opened` is the
device.  `raises` says whether the error handler raises on critical issues.  Result: was
there an exception, and the state.  (An offset of less than twelve bytes in a file with
tape marks cannot be.) -/
def indexLogical (isTif raises : Bool) (dev : Device) (eof : Nat → Bool) (s : Indexer) :
    Bool × Indexer :=
  let handle := s.opened
  let index := indexRecords dev 0
  let ptell := dev.ptell index.pos
  let s' := { s with
    opened := s.opened + 1
    offset := if isTif && !eof index.pos then ptell - 12 else ptell }
  let plain := if index.explicits.length + index.implicits.length ≠ 0 then
      { s' with files := s'.files ++ [⟨handle, s.offset, index, s'.reel.cur, s'.tape.cur⟩] }
    else { s' with closed := s'.closed ++ [handle] }
  match index.explicits with
  | [] => plain.finish raises index
  | first :: _ =>
    if isDelimiter first then
      if index.explicits.length + index.implicits.length ≠ 1 then
        match s'.critical raises with
        | (true, s) => (true, s)
        | (false, s) => (false, { s with closed := s.closed ++ [handle] })
      else
        match readRecord dev first with
        | .error _ =>
          match s'.critical raises with
          | (r, s) => (r, { s with closed := s.closed ++ [handle] })
        | .ok (record, _) =>
          (({ s' with closed := s'.closed ++ [handle] }).adjust first.type record).finish raises index
    else plain.finish raises index

/-- `index_logical_file`, load.py:141-235. -/
def indexLogicalFile (d : Disk) (isTif raises : Bool) (s : Indexer) : Bool × Indexer :=
  match d.lis isTif s.offset with
  | .eof => (false, { s with complete := true })
  | .osError => s.critical raises
  | .stream dev eof => indexLogical isTif raises dev eof s

/-- The loop in `load`, load.py:83-88, at most `n` times; `none` if that is not enough. -/
def loadLoop (d : Disk) (isTif raises : Bool) : Nat → Indexer → Option (Bool × Indexer)
  | 0, s => if s.complete then some (false, s) else none
  | n + 1, s =>
    if s.complete then some (false, s)
    else match indexLogicalFile d isTif raises s with
      | (true, s) => some (true, { s with closed := s.closed ++ s.files.map (·.handle) })
      | (false, s) => loadLoop d isTif raises n s

/-- `FileIndexer.__init__`, load.py:98-107, when handle 0 has been closed again. -/
def Indexer.start (offset : Nat) : Indexer :=
  ⟨offset, false, Track.start, Track.start, [], 1, [0]⟩

/-- `load`, load.py:79-90, with at most `n` turns of the loop: was there an exception, and
the state. -/
def load (d : Disk) (raises : Bool) (n : Nat) : Option (Bool × Indexer) :=
  match d.raw with
  | none => some (true, { Indexer.start 0 with opened := 0, closed := [] })
  | some src =>
    match checkForTapemarks src with
    | none => some (true, Indexer.start 0)
    | some (isTif, offset) => loadLoop d isTif raises n (Indexer.start offset)

/-- A file without tape marks: `lfp_cfile_open_at_offset`; all its bytes can be read. -/
def plainDisk (data : Bytes) : Disk where
  raw := some ⟨data, .eof⟩
  lis _ offset :=
    if offset < data.length then
      .stream ⟨⟨data.drop offset, .eof⟩, fun p => offset + p⟩ fun _ => false
    else .eof

/-! ### Specification -/

namespace Spec

/-- What happens to reels (or tapes) between the ends of the medium. -/
inductive Sign where
  | header (record : Bytes)
  | trailer (record : Bytes)
  | file
deriving DecidableEq

/-- The trailer that closes what is open at this point: the next one, unless another header
comes before it. -/
def closing : List Sign → Option Bytes
  | [] => none
  | .header _ :: _ => none
  | .trailer r :: _ => some r
  | .file :: ss => closing ss

/-- Header and trailer around each file; `h` is the header that is open. -/
def enclosing (h : Option Bytes) : List Sign → List HeaderTrailer
  | [] => []
  | .header r :: ss => enclosing (some r) ss
  | .trailer _ :: ss => enclosing none ss
  | .file :: ss => ⟨h, closing ss⟩ :: enclosing h ss

/-- What is met on the medium: a delimiter with its type and record, or a logical file. -/
inductive Event (α : Type) where
  | mark (type : Nat) (record : Bytes)
  | file (x : α)
deriving DecidableEq

/-- What an event means for reels (header 132, trailer 133) or tapes (130, 131). -/
def Event.sign {α : Type} (hdr trl : Nat) : Event α → Option Sign
  | .mark t r => if t = hdr then some (.header r) else if t = trl then some (.trailer r) else none
  | .file _ => some .file

/-- The logical files. -/
def filesOf {α : Type} : List (Event α) → List α
  | [] => []
  | .mark _ _ :: es => filesOf es
  | .file x :: es => x :: filesOf es

end Spec

open _root_.Dlisio.Lis.Spec

/-! ### Reels and tapes -/

/-- One event for one track: the track, and the number that a file refers to. -/
def Track.step (t : Track) : Sign → Track
  | .header r => t.header r
  | .trailer r => t.trailer r
  | .file => t

def Track.run (t : Track) : List Sign → Track
  | [] => t
  | s :: ss => (t.step s).run ss

def Track.ids (t : Track) : List Sign → List Nat
  | [] => []
  | .file :: ss => t.cur :: t.ids ss
  | s :: ss => (t.step s).ids ss

theorem modify_snoc {α : Type} (l : List α) (a : α) (f : α → α) :
    (l ++ [a]).modify l.length f = l ++ [f a] := by
  induction l with
  | nil => rfl
  | cons b l ih => simp [ih]

theorem track_run (ss : List Sign) : ∀ (init : List HeaderTrailer) (h : Option Bytes),
    ∃ rest last, (Track.run ⟨init ++ [⟨h, none⟩], init.length⟩ ss) =
        ⟨init ++ ⟨h, closing ss⟩ :: rest, last⟩ ∧
      (Track.ids ⟨init ++ [⟨h, none⟩], init.length⟩ ss).map
        (fun i => (init ++ ⟨h, closing ss⟩ :: rest)[i]?) = (enclosing h ss).map some := by
  induction ss with
  | nil => intro init h; exact ⟨[], init.length, rfl, rfl⟩
  | cons s ss ih =>
    intro init h
    cases s with
    | header r =>
      obtain ⟨rest, last, h1, h2⟩ := ih (init ++ [⟨h, none⟩]) (some r)
      refine ⟨⟨some r, closing ss⟩ :: rest, last, ?_, ?_⟩
      · simp only [Track.run, Track.step, Track.header, closing]
        rw [h1]; simp
      · simp only [Track.ids, Track.step, Track.header, closing, enclosing]
        simpa using h2
    | trailer r =>
      obtain ⟨rest, last, h1, h2⟩ := ih (init ++ [⟨h, some r⟩]) none
      have hm : (init ++ [(⟨h, none⟩ : HeaderTrailer)]).modify init.length
          (fun o => { o with trailer := some r }) = init ++ [⟨h, some r⟩] := by
        exact modify_snoc _ _ _
      refine ⟨⟨none, closing ss⟩ :: rest, last, ?_, ?_⟩
      · simp only [Track.run, Track.step, Track.trailer, closing, hm]
        rw [show (init ++ [(⟨h, none⟩ : HeaderTrailer)]).length = (init ++ [(⟨h, some r⟩ : HeaderTrailer)]).length by simp, h1]
        simp
      · simp only [Track.ids, Track.step, Track.trailer, closing, enclosing, hm]
        rw [show (init ++ [(⟨h, none⟩ : HeaderTrailer)]).length = (init ++ [(⟨h, some r⟩ : HeaderTrailer)]).length by simp]
        simpa using h2
    | file =>
      obtain ⟨rest, last, h1, h2⟩ := ih init h
      refine ⟨rest, last, ?_, ?_⟩
      · simpa only [Track.run, Track.step, closing] using h1
      · simp only [Track.ids, closing, enclosing, List.map_cons, h2]
        simp

/-- Headers on the medium. -/
def Spec.headers : List Sign → List Bytes
  | [] => []
  | .header r :: ss => r :: headers ss
  | _ :: ss => headers ss

/-- Trailers on the medium. -/
def Spec.trailers : List Sign → List Bytes
  | [] => []
  | .trailer r :: ss => r :: trailers ss
  | _ :: ss => trailers ss

theorem track_all (ss : List Sign) : ∀ (init : List HeaderTrailer) (h : Option Bytes),
    (Track.run ⟨init ++ [⟨h, none⟩], init.length⟩ ss).objs.filterMap (·.header) =
        init.filterMap (·.header) ++ h.toList ++ headers ss ∧
    (Track.run ⟨init ++ [⟨h, none⟩], init.length⟩ ss).objs.filterMap (·.trailer) =
        init.filterMap (·.trailer) ++ trailers ss := by
  induction ss with
  | nil => intro init h; cases h <;> simp [Track.run, headers, trailers]
  | cons s ss ih =>
    intro init h
    cases s with
    | header r =>
      have := ih (init ++ [⟨h, none⟩]) (some r)
      simp only [Track.run, Track.step, Track.header, headers, trailers]
      rw [this.1, this.2]
      cases h <;> simp
    | trailer r =>
      have := ih (init ++ [⟨h, some r⟩]) none
      have hm : (init ++ [(⟨h, none⟩ : HeaderTrailer)]).modify init.length
          (fun o => { o with trailer := some r }) = init ++ [⟨h, some r⟩] := by
        exact modify_snoc _ _ _
      simp only [Track.run, Track.step, Track.trailer, headers, trailers, hm]
      rw [show (init ++ [(⟨h, none⟩ : HeaderTrailer)]).length = (init ++ [(⟨h, some r⟩ : HeaderTrailer)]).length by simp,
        this.1, this.2]
      cases h <;> simp
    | file => simpa only [Track.run, Track.step, headers, trailers] using ih init h

/-! ### From opening to opening -/

namespace Spec

/-- Where the next opening is, after indexing has stopped. -/
def nextOffset (isTif : Bool) (dev : Device) (eof : Nat → Bool) (pos : Nat) : Nat :=
  if isTif && !eof pos then dev.ptell pos - 12 else dev.ptell pos

/-- Opening the file at `off` gives a device that has this event, and the next opening is at
`off'`.  A delimiter is alone in its index, and can be read; a logical file has records, the
first explicit one is no delimiter, and the index is complete. -/
def Yields (d : Disk) (isTif : Bool) (off : Nat) (ev : Event (Nat × Index)) (off' : Nat) : Prop :=
  ∃ dev eof, d.lis isTif off = .stream dev eof ∧
    off' = nextOffset isTif dev eof (indexRecords dev 0).pos ∧ (indexRecords dev 0).incomplete = false ∧
    match ev with
    | .mark t r => t ∈ [130, 131, 132, 133, 137] ∧ (indexRecords dev 0).implicits = [] ∧
        ∃ info p, (indexRecords dev 0).explicits = [info] ∧ info.type = t ∧
          readRecord dev info = .ok (r, p)
    | .file x => x = (off, indexRecords dev 0) ∧
        ¬ (x.2.explicits = [] ∧ x.2.implicits = []) ∧
        ∀ info ∈ x.2.explicits.head?, info.type ∉ [130, 131, 132, 133, 137]

/-- The events met on the way from one offset to another. -/
inductive Walk (d : Disk) (isTif : Bool) : Nat → List (Event (Nat × Index)) → Nat → Prop
  | nil (off : Nat) : Walk d isTif off [] off
  | cons {off mid off' : Nat} {ev : Event (Nat × Index)} {evs : List (Event (Nat × Index))} :
      Yields d isTif off ev mid → Walk d isTif mid evs off' → Walk d isTif off (ev :: evs) off'

end Spec

/-- State after an event. -/
def Indexer.after (s : Indexer) (off' : Nat) : Event (Nat × Index) → Indexer
  | .mark t r =>
    ({ s with opened := s.opened + 1, offset := off', closed := s.closed ++ [s.opened] }).adjust t r
  | .file x => { s with
      opened := s.opened + 1
      offset := off'
      files := s.files ++ [⟨s.opened, x.1, x.2, s.reel.cur, s.tape.cur⟩] }

theorem isDelimiter_iff (info : RecordInfo) :
    isDelimiter info = true ↔ info.type ∈ [130, 131, 132, 133, 137] := by
  simp [isDelimiter]; omega

theorem indexLogicalFile_yields {d : Disk} {isTif raises : Bool} {s : Indexer}
    {ev : Event (Nat × Index)} {off' : Nat} (h : Yields d isTif s.offset ev off') :
    indexLogicalFile d isTif raises s = (false, s.after off' ev) := by
  obtain ⟨dev, eof, h1, h2, h3, h4⟩ := h
  unfold indexLogicalFile
  rw [h1]
  simp only
  unfold indexLogical
  generalize indexRecords dev 0 = ix at *
  obtain ⟨ex, im, inc, pos⟩ := ix
  simp only at h2 h3 h4
  subst h3
  cases ev with
  | mark t r =>
    obtain ⟨ht, rfl, info, p, rfl, rfl, hrd⟩ := h4
    have hd : isDelimiter info = true := (isDelimiter_iff info).mpr ht
    simp [hd, hrd, Indexer.finish, Indexer.after, h2, nextOffset]
  | file x =>
    obtain ⟨rfl, hne, hfirst⟩ := h4
    simp only at hne hfirst
    cases ex with
    | nil =>
      have : im ≠ [] := fun h => hne ⟨rfl, h⟩
      simp [this, Indexer.finish, Indexer.after, h2, nextOffset]
    | cons info rest =>
      have hd : ¬ isDelimiter info = true := by
        rw [isDelimiter_iff]
        exact hfirst info rfl
      simp [hd, Indexer.finish, Indexer.after, h2, nextOffset]

/-- State after several events. -/
def Indexer.afterAll (s : Indexer) (off' : Nat) : List (Event (Nat × Index)) → Indexer
  | [] => { s with offset := off' }
  | ev :: evs => (s.after 0 ev).afterAll off' evs

theorem after_offset (s : Indexer) (a b : Nat) (ev : Event (Nat × Index)) :
    { s.after a ev with offset := b } = s.after b ev := by
  cases ev with
  | mark t r => unfold Indexer.after Indexer.adjust; simp only; split_ifs <;> rfl
  | file x => rfl

theorem afterAll_offset (s : Indexer) (a off' : Nat) (evs : List (Event (Nat × Index))) :
    ({ s with offset := a }).afterAll off' evs = s.afterAll off' evs := by
  cases evs with
  | nil => rfl
  | cons ev evs =>
    unfold Indexer.afterAll
    congr 1

theorem after_complete (s : Indexer) (a : Nat) (ev : Event (Nat × Index)) :
    (s.after a ev).complete = s.complete ∧ (s.after a ev).offset = a := by
  cases ev with
  | mark t r => unfold Indexer.after Indexer.adjust; simp only; split_ifs <;> exact ⟨rfl, rfl⟩
  | file x => exact ⟨rfl, rfl⟩

theorem loadLoop_walk {d : Disk} {isTif : Bool} (raises : Bool) {off off' : Nat}
    {evs : List (Event (Nat × Index))} (h : Walk d isTif off evs off') :
    ∀ (s : Indexer) (n : Nat), s.offset = off → s.complete = false →
    loadLoop d isTif raises (n + evs.length) s = loadLoop d isTif raises n (s.afterAll off' evs) := by
  induction h with
  | nil off =>
    intro s n hs _
    subst hs
    rfl
  | cons hy _ ih =>
    rename_i mid off' ev evs _
    intro s n hs hc
    subst hs
    rw [List.length_cons, ← Nat.add_assoc]
    rw [loadLoop, hc, indexLogicalFile_yields hy]
    simp only [Bool.false_eq_true, if_false]
    rw [ih _ n (after_complete s mid ev).2 (by rw [(after_complete s mid ev).1, hc])]
    congr 1
    rw [Indexer.afterAll, ← afterAll_offset (s.after 0 ev) mid, after_offset]

theorem after_reel (s : Indexer) (a : Nat) (ev : Event (Nat × Index)) :
    (s.after a ev).reel = s.reel.run (ev.sign 132 133).toList ∧
    (s.after a ev).tape = s.tape.run (ev.sign 130 131).toList := by
  cases ev with
  | mark t r =>
    unfold Indexer.after Indexer.adjust Event.sign
    simp only
    by_cases h1 : t = 132
    · subst h1; exact ⟨rfl, rfl⟩
    by_cases h2 : t = 133
    · subst h2; exact ⟨rfl, rfl⟩
    by_cases h3 : t = 130
    · subst h3; exact ⟨rfl, rfl⟩
    by_cases h4 : t = 131
    · subst h4; exact ⟨rfl, rfl⟩
    simp only [h1, h2, h3, h4, if_false]
    exact ⟨rfl, rfl⟩
  | file x => exact ⟨rfl, rfl⟩

theorem track_run_append (t : Track) (a b : List Sign) : t.run (a ++ b) = (t.run a).run b := by
  induction a generalizing t with
  | nil => rfl
  | cons x a ih => simp only [List.cons_append, Track.run, ih]

/-- The files that an event adds. -/
def Indexer.added (s : Indexer) : Event (Nat × Index) → List LogFile
  | .mark _ _ => []
  | .file x => [⟨s.opened, x.1, x.2, s.reel.cur, s.tape.cur⟩]

theorem after_files (s : Indexer) (a : Nat) (ev : Event (Nat × Index)) :
    (s.after a ev).files = s.files ++ s.added ev := by
  cases ev with
  | mark t r => unfold Indexer.after Indexer.adjust Indexer.added; simp only; split_ifs <;> simp
  | file x => rfl

theorem ids_append (t : Track) (e : Event (Nat × Index)) (hdr trl : Nat) (ss : List Sign) :
    t.ids ((e.sign hdr trl).toList ++ ss) =
      (match e with | .mark _ _ => [] | .file _ => [t.cur]) ++
        (t.run (e.sign hdr trl).toList).ids ss := by
  cases e with
  | mark t' r =>
    unfold Event.sign
    simp only
    split_ifs <;> rfl
  | file x => rfl

theorem afterAll_state (off' : Nat) (evs : List (Event (Nat × Index))) : ∀ s : Indexer,
    (s.afterAll off' evs).reel = s.reel.run (evs.filterMap (Event.sign 132 133)) ∧
    (s.afterAll off' evs).tape = s.tape.run (evs.filterMap (Event.sign 130 131)) ∧
    (s.afterAll off' evs).complete = s.complete ∧
    (s.afterAll off' evs).offset = off' ∧
    ∃ fs, (s.afterAll off' evs).files = s.files ++ fs ∧
      fs.map (fun f => (f.offset, f.index)) = filesOf evs ∧
      fs.map (·.reel) = s.reel.ids (evs.filterMap (Event.sign 132 133)) ∧
      fs.map (·.tape) = s.tape.ids (evs.filterMap (Event.sign 130 131)) := by
  have hfm : ∀ (hdr trl : Nat) (ev : Event (Nat × Index)) evs,
      (ev :: evs).filterMap (Event.sign hdr trl) =
        (ev.sign hdr trl).toList ++ evs.filterMap (Event.sign hdr trl) := by
    intro hdr trl ev evs
    rw [List.filterMap_cons]
    cases ev.sign hdr trl <;> rfl
  induction evs with
  | nil => intro s; exact ⟨rfl, rfl, rfl, rfl, [], by simp [Indexer.afterAll], rfl, rfl, rfl⟩
  | cons ev evs ih =>
    intro s
    obtain ⟨h1, h2, h3, h4, fs, h5, h6, h7, h8⟩ := ih (s.after 0 ev)
    rw [Indexer.afterAll]
    refine ⟨?_, ?_, ?_, h4, s.added ev ++ fs, ?_, ?_, ?_, ?_⟩
    · rw [h1, hfm, track_run_append, (after_reel s 0 ev).1]
    · rw [h2, hfm, track_run_append, (after_reel s 0 ev).2]
    · rw [h3, (after_complete s 0 ev).1]
    · rw [h5, after_files, List.append_assoc]
    · rw [List.map_append, h6]
      cases ev <;> rfl
    · rw [List.map_append, h7, hfm, ids_append, (after_reel s 0 ev).1]
      cases ev <;> rfl
    · rw [List.map_append, h8, hfm, ids_append, (after_reel s 0 ev).2]
      cases ev <;> rfl

/-- **C54** (assignment).  Whatever delimiters and logical files are met from the first
offset to the end of the file, `load` returns the logical files in order, each with its
index; the reel of each has the header that is open there and the trailer that closes it,
and so has the tape; all headers and trailers are kept, each once and in order. -/
theorem c54_assignment (d : Disk) (src : Source) (isTif raises : Bool) (off off' : Nat)
    (evs : List (Event (Nat × Index))) (hraw : d.raw = some src)
    (hchk : checkForTapemarks src = some (isTif, off)) (hw : Walk d isTif off evs off')
    (hend : d.lis isTif off' = .eof ∨ d.lis isTif off' = .osError ∧ raises = false)
    (n : Nat) (hn : evs.length < n) :
    ∃ s, load d raises n = some (false, s) ∧
      s.files.map (fun f => (f.offset, f.index)) = filesOf evs ∧
      s.files.map (fun f => s.reel.objs[f.reel]?) =
        (enclosing none (evs.filterMap (Event.sign 132 133))).map some ∧
      s.files.map (fun f => s.tape.objs[f.tape]?) =
        (enclosing none (evs.filterMap (Event.sign 130 131))).map some ∧
      s.reel.objs.filterMap (·.header) = headers (evs.filterMap (Event.sign 132 133)) ∧
      s.reel.objs.filterMap (·.trailer) = trailers (evs.filterMap (Event.sign 132 133)) ∧
      s.tape.objs.filterMap (·.header) = headers (evs.filterMap (Event.sign 130 131)) ∧
      s.tape.objs.filterMap (·.trailer) = trailers (evs.filterMap (Event.sign 130 131)) := by
  unfold load
  rw [hraw]
  simp only
  rw [hchk]
  simp only
  obtain ⟨m, rfl⟩ : ∃ m, n = (m + 1) + evs.length := ⟨n - evs.length - 1, by omega⟩
  rw [loadLoop_walk raises hw (Indexer.start off) (m + 1) rfl rfl]
  obtain ⟨h1, h2, h3, h4, fs, h5, h6, h7, h8⟩ := afterAll_state off' evs (Indexer.start off)
  generalize (Indexer.start off).afterAll off' evs = t at *
  rw [loadLoop, h3]
  have hstep : indexLogicalFile d isTif raises t = (false, { t with complete := true }) := by
    unfold indexLogicalFile
    subst h4
    rcases hend with he | ⟨he, rfl⟩
    · rw [he]
    · rw [he]; rfl
  rw [hstep]
  have hstop : ∀ m, loadLoop d isTif raises m { t with complete := true } =
      some (false, { t with complete := true }) := by
    intro m; cases m <;> simp [loadLoop]
  simp only [Indexer.start, Bool.false_eq_true, if_false]
  rw [hstop]
  simp only [Indexer.start, List.nil_append] at h1 h2 h5 h7 h8
  refine ⟨_, rfl, ?_, ?_, ?_, ?_, ?_, ?_, ?_⟩
  · rw [← h6, ← h5]
  · obtain ⟨rest, last, e1, e2⟩ := track_run (evs.filterMap (Event.sign 132 133)) [] none
    rw [← e2]
    change _ = (Track.start.ids _).map _
    rw [← h7, h5, List.map_map]
    apply List.map_congr_left
    intro f _
    simp only [Function.comp]
    rw [h1]
    congr 1
    exact congrArg Track.objs e1
  · obtain ⟨rest, last, e1, e2⟩ := track_run (evs.filterMap (Event.sign 130 131)) [] none
    rw [← e2]
    change _ = (Track.start.ids _).map _
    rw [← h8, h5, List.map_map]
    apply List.map_congr_left
    intro f _
    simp only [Function.comp]
    rw [h2]
    congr 1
    exact congrArg Track.objs e1
  · simp only [h1]; exact (track_all _ [] none).1
  · simp only [h1]; exact (track_all _ [] none).2
  · simp only [h2]; exact (track_all _ [] none).1
  · simp only [h2]; exact (track_all _ [] none).2

/-! ### Streams -/

namespace Spec

/-- No index has a delimiter for its first explicit record and data records as well: what
`load` says should never happen, load.py:179-180. -/
def NoStray (d : Disk) (isTif : Bool) : Prop :=
  ∀ off dev eof, d.lis isTif off = .stream dev eof →
    ∀ info ∈ (indexRecords dev 0).explicits.head?, info.type ∈ [130, 131, 132, 133, 137] →
      (indexRecords dev 0).implicits = []

/-- Each handle opened so far is closed, or that of a logical file; none is both, no two
files have the same. -/
def Accounted (s : Indexer) : Prop :=
  (s.closed ++ s.files.map (·.handle)).Perm (List.range s.opened)

end Spec

theorem accounted_close {s : Indexer} (h : Accounted s) :
    ((s.closed ++ [s.opened]) ++ s.files.map (·.handle)).Perm (List.range (s.opened + 1)) := by
  unfold Accounted at h
  rw [List.range_succ]
  refine List.Perm.trans ?_ (h.append_right [s.opened])
  rw [List.append_assoc, List.append_assoc]
  exact List.Perm.append_left _ List.perm_append_comm

theorem accounted_keep {s : Indexer} (h : Accounted s) :
    (s.closed ++ (s.files.map (·.handle) ++ [s.opened])).Perm (List.range (s.opened + 1)) := by
  unfold Accounted at h
  rw [List.range_succ, ← List.append_assoc]
  exact h.append_right [s.opened]

theorem accounted_adjust {s : Indexer} (h : Accounted s) (t : Nat) (r : Bytes) :
    Accounted (s.adjust t r) := by
  unfold Indexer.adjust
  split_ifs <;> exact h

theorem accounted_critical {s : Indexer} (h : Accounted s) (raises : Bool) :
    Accounted (s.critical raises).2 := by
  unfold Indexer.critical
  split_ifs <;> exact h

theorem accounted_finish {s : Indexer} (h : Accounted s) (raises : Bool) (ix : Index) :
    Accounted (s.finish raises ix).2 := by
  unfold Indexer.finish
  split_ifs
  · exact accounted_critical h raises
  · exact h

/-- An index whose first explicit record is a delimiter has no other explicit record. -/
theorem indexFrom_delimiter (dev : Device) (ex im : List RecordInfo) (pos : Nat) (hex : ex = [])
    (info : RecordInfo) (h : (indexFrom dev ex im pos).explicits.head? = some info)
    (hd : info.type ∈ [130, 131, 132, 133, 137]) :
    (indexFrom dev ex im pos).explicits = [info] := by
  simp only [List.mem_cons, List.not_mem_nil, or_false] at hd
  fun_induction indexFrom dev ex im pos with
  | case1 => subst hex; cases h
  | case2 => subst hex; cases h
  | case3 ex im pos inf p hr hi ih => exact ih hex h
  | case4 => subst hex; cases h
  | case5 => subst hex; simp at h; simp [h]
  | case6 ex im pos inf p hr _ _ _ _ ih =>
    subst hex
    have := (indexFrom_prefix dev ([] ++ [inf]) im p).1
    obtain ⟨t, ht⟩ := this
    rw [← ht] at h
    simp at h
    subst h
    omega
  | case7 => subst hex; cases h
  | case8 => subst hex; simp at h; simp [h]
  | case9 ex im pos inf p hr h1 h2 h3 h4 ih =>
    subst hex
    have := (indexFrom_prefix dev ([] ++ [inf]) im p).1
    obtain ⟨t, ht⟩ := this
    rw [← ht] at h
    simp at h
    subst h
    omega

theorem indexLogicalFile_accounted {d : Disk} {isTif raises : Bool} {s : Indexer}
    (h : Accounted s) :
    (NoStray d isTif → Accounted (indexLogicalFile d isTif raises s).2) ∧
    ((indexLogicalFile d isTif raises s).1 = false → Accounted (indexLogicalFile d isTif raises s).2) := by
  unfold indexLogicalFile
  cases hl : d.lis isTif s.offset with
  | eof => exact ⟨fun _ => h, fun _ => h⟩
  | osError => exact ⟨fun _ => accounted_critical h raises, fun _ => accounted_critical h raises⟩
  | stream dev eof =>
    simp only
    unfold indexLogical
    have hdel := fun info => indexFrom_delimiter dev [] [] 0 rfl info
    have hns : NoStray d isTif → ∀ info ∈ (indexRecords dev 0).explicits.head?,
      info.type ∈ [130, 131, 132, 133, 137] → (indexRecords dev 0).implicits = [] :=
        fun hh => hh _ _ _ hl
    change ∀ info, (indexRecords dev 0).explicits.head? = some info → _ →
      (indexRecords dev 0).explicits = [info] at hdel
    generalize indexRecords dev 0 = ix at *
    obtain ⟨ex, im, inc, pos⟩ := ix
    simp only at hdel hns
    have hkeep := accounted_keep h
    have hclose := accounted_close h
    have hplain : ∀ b : Prop, [Decidable b] → ∀ o ix' ofs, Accounted
        ((if b then
            { s with opened := s.opened + 1, offset := o,
                     files := s.files ++ [⟨s.opened, ofs, ix', s.reel.cur, s.tape.cur⟩] }
          else { s with opened := s.opened + 1, offset := o, closed := s.closed ++ [s.opened] } :
            Indexer)) := by
      intro b _ o ix' ofs
      split_ifs
      · unfold Accounted; simpa using hkeep
      · unfold Accounted; exact hclose
    cases ex with
    | nil =>
      simp only
      exact ⟨fun _ => accounted_finish (hplain _ _ _ _) _ _,
        fun _ => accounted_finish (hplain _ _ _ _) _ _⟩
    | cons first rest =>
      simp only
      by_cases hd : isDelimiter first = true
      · rw [if_pos hd]
        have hd' := (isDelimiter_iff first).mp hd
        obtain ⟨rfl⟩ : rest = [] := by
          have := hdel first rfl hd'
          simpa using this
        by_cases him : im = []
        · subst him
          simp only [List.length_cons, List.length_nil, Nat.add_zero, Nat.zero_add, ne_eq,
            not_true_eq_false, if_false]
          cases hr : readRecord dev first with
          | error e =>
            simp only [Indexer.critical]
            cases raises <;> exact ⟨fun _ => hclose, fun _ => hclose⟩
          | ok v =>
            obtain ⟨r, p⟩ := v
            simp only
            have : Accounted ({ s with
                opened := s.opened + 1
                offset := if isTif && !eof pos then dev.ptell pos - 12 else dev.ptell pos
                closed := s.closed ++ [s.opened] } : Indexer) := hclose
            exact ⟨fun _ => accounted_finish (accounted_adjust this _ _) _ _,
              fun _ => accounted_finish (accounted_adjust this _ _) _ _⟩
        · have hlen : ([first] : List RecordInfo).length + im.length ≠ 1 := by
            have := List.length_pos_of_ne_nil him
            simp only [List.length_cons, List.length_nil]; omega
          rw [if_pos hlen]
          refine ⟨fun hh => absurd (hns hh first rfl hd') him, ?_⟩
          cases raises with
          | true => intro hh; cases hh
          | false => intro _; exact hclose
      · rw [if_neg hd]
        exact ⟨fun _ => accounted_finish (hplain _ _ _ _) _ _,
          fun _ => accounted_finish (hplain _ _ _ _) _ _⟩

theorem loadLoop_accounted (d : Disk) (isTif raises : Bool) (n : Nat) : ∀ (s s' : Indexer) (r : Bool),
    Accounted s → loadLoop d isTif raises n s = some (r, s') →
    (r = false → Accounted s') ∧
    (r = true → NoStray d isTif → s'.closed.Perm (List.range s'.opened)) := by
  induction n with
  | zero =>
    intro s s' r h hl
    rw [loadLoop] at hl
    split_ifs at hl
    cases hl
    exact ⟨fun _ => h, by intro hh; cases hh⟩
  | succ n ih =>
    intro s s' r h hl
    rw [loadLoop] at hl
    split_ifs at hl
    · cases hl
      exact ⟨fun _ => h, by intro hh; cases hh⟩
    · have hacc := indexLogicalFile_accounted (d := d) (isTif := isTif) (raises := raises) h
      split at hl
      · rename_i t ht
        cases hl
        rw [ht] at hacc
        exact ⟨(by intro hh; cases hh), fun _ hh => hacc.1 hh⟩
      · rename_i t ht
        rw [ht] at hacc
        exact ih _ _ _ (hacc.2 rfl) hl

/-- **C54** (streams).  When `load` returns, each stream it has opened is either closed or
that of exactly one logical file.  When it raises — at whatever point — all are closed,
unless there was an index that has a delimiter together with data records
(`c54_leak_defect`). -/
theorem c54_streams_partial (d : Disk) (raises : Bool) (n : Nat) (r : Bool) (s : Indexer)
    (h : load d raises n = some (r, s)) :
    (r = false → Accounted s) ∧
    (r = true → (∀ isTif, NoStray d isTif) → s.closed.Perm (List.range s.opened)) := by
  unfold load at h
  split at h
  · cases h
    exact ⟨(by intro hh; cases hh), fun _ _ => List.Perm.refl _⟩
  · split at h
    · cases h
      exact ⟨(by intro hh; cases hh), fun _ _ => List.Perm.refl _⟩
    · have := loadLoop_accounted _ _ _ _ _ _ _
        (show Accounted (Indexer.start _) from List.Perm.refl _) h
      exact ⟨this.1, fun hr hh => this.2 hr (hh _)⟩

end Dlisio.Lis
