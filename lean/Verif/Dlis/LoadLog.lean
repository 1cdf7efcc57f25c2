/-
The texts of what is reported while a file is loaded: the searches for label and first visible record,
lib/src/dlis/io.cpp, and python/dlisio/dlis/load.py.
-/
import Verif.Dlis.ReadLog
import Verif.Dlis.LoadProps
import Verif.Dlis.FdataProps
import Verif.Dlis.TapeImage

namespace Dlisio.Dlis

/-! ### Label and first visible record -/

/-- Texts and positions that come from elsewhere: those of `Whats`, that of an exception that was cut
down to `std::exception` by `throw e` (io.cpp:160), the texts of the `RuntimeError`s that the error
handler raises, and what the stream tells as its physical position when a read failed, and when
records are reported. -/
structure LoadWhats where
  io : Whats
  sliced : Text
  raised : Report → Text
  tell : Nat → Nat

/-- io.cpp:86-91 and 121-126. -/
def saysSearched (n pfrom : Nat) (lost : String) : Text :=
  text "searched " ++ Text.ofNat n ++ text " bytes from offset " ++ Text.ofNat pfrom ++
    text " (dec), but could not find " ++ text lost

/-- io.cpp:94-95 -/
def saysPartsOfSul : Text := text "found something that could be parts of a SUL, file may be corrupted"

/-- io.cpp:129-130 -/
def saysLengthOfVr : Text := text "found [0xFF 0x01] but len field not intact, file may be corrupted"

/-- The static `findsul` and `findvrl`, io.cpp:70-137: the position, or the text of the exception. -/
def toldOnce (w : LoadWhats) (find : Bytes → Err × Option Nat) (lost : String) (part : Text) (l : Layer)
    (pos toread : Nat) : Except Text Nat :=
  match (match readAt l.src pos toread with
    | .ok bs => some bs
    | .eof bs => some bs
    | .error => none) with
  | none => .error w.io.read
  | some bs =>
    match find bs with
    | (.ok, some o) => .ok (pos + o)
    | (.notFound, _) => .error (saysSearched bs.length (l.ptell pos) lost)
    | (_, _) => .error part

/-- How a search ends. -/
inductive Sought where
  | found (pos : Nat)
  | failed (what : Text)
  | escalated (what : Text)
deriving DecidableEq

/-- The arguments of the error handler, io.cpp:168-176. -/
def lateSul (found expected : Nat) : Report where
  grade := .known .minor
  context := text "dlis::findsul: Searching for SUL"
  problem := text "Unexpected bytes found before SUL"
  spec := text ("2.3.2 Storage Unit Label (SUL): The first 80 bytes of the Visible " ++
    "Envelope ... constitute a Storage Unit Label.")
  action := text "Unexpected bytes are ignored"
  debug := text "SUL found at ptell " ++ Text.ofNat found ++ text " (dec), but expected at " ++
    Text.ofNat expected

/-- The arguments of the error handler, io.cpp:202-209. -/
def lateVr (found expected : Nat) : Report where
  grade := .known .minor
  context := text "dlis::findvrl: Searching for VR"
  problem := text "Unexpected bytes found before VR"
  action := text "Unexpected bytes ignored"
  debug := text "VR found at ptell " ++ Text.ofNat found ++ text " (dec), but expected at " ++
    Text.ofNat expected

/-- `findsul`, io.cpp:141-179. -/
def toldFindsul (w : LoadWhats) (policy : Policy) (expected : Bool) (l : Layer) (pos : Nat) :
    List Report × Sought :=
  match toldOnce w findSul "storage label" saysPartsOfSul l pos 15 with
  | .ok p => ([], .found p)
  | .error _ =>
    if !expected then ([], .failed w.sliced)
    else
      match toldOnce w findSul "storage label" saysPartsOfSul l pos 1700 with
      | .error what => ([], .failed what)
      | .ok p =>
        let r := lateSul (l.ptell pos + (p - pos)) (l.ptell pos)
        ([r], if policy .minor then .escalated (w.raised r) else .found p)

/-- `findvrl`, io.cpp:181-212. -/
def toldFindvrl (w : LoadWhats) (policy : Policy) (l : Layer) (pos : Nat) : List Report × Sought :=
  match toldOnce w findVrl "visible record envelope pattern [0xFF 0x01]" saysLengthOfVr l pos 4 with
  | .ok p => ([], .found p)
  | .error _ =>
    match toldOnce w findVrl "visible record envelope pattern [0xFF 0x01]" saysLengthOfVr l pos 200 with
    | .error what => ([], .failed what)
    | .ok p =>
      let r := lateVr (l.ptell pos + (p - pos)) (l.ptell pos)
      ([r], if policy .minor then .escalated (w.raised r) else .found p)

/-! ### Loading -/

/-- The arguments of the error handler, load.py:228-234. -/
def eofReport (what : Text) (ptell : Nat) : Report where
  grade := .known .critical
  context := text "dlis::load: Testing logical eof"
  problem := what
  action := text "Load is suspended"
  debug := text "Physical tell: " ++ Text.ofNat ptell ++ text " (dec)"

/-- The part of the specification at load.py:267-269 and 281-283. -/
def saysOneSul : Text :=
  text ("2.3.3 Storage Unit Requirements: A Storage Unit must have " ++
    "exactly one Storage Unit Label that must appear " ++ "before any Logical Format data.")

/-- The arguments of the error handler, load.py:263-271. -/
def moreSul : Report where
  grade := .known .minor
  context := text "dlis::load: Looking for SUL"
  problem := text "SUL is expected only at the start of the file"
  spec := saysOneSul
  action := text "New SUL will be read"

/-- The arguments of the error handler, load.py:276-285; `what` is the text of the exception. -/
def noSul (what : Text) : Report where
  grade := .known .minor
  context := text "dlis::load: Looking for SUL"
  problem := text "Exactly one SUL is expected at the start of the file, but found none: " ++ what
  spec := saysOneSul
  action := text "No SUL will be read"

/-- The arguments of the error handler, load.py:298-305. -/
def shortSul (n : Nat) : Report where
  grade := .known .major
  context := text "dlis::load: Reading SUL"
  problem := text "SUL is expected to be 80 bytes, but was " ++ Text.ofNat n
  spec := text ("2.3.2 Storage Unit Label (SUL): The first 80 bytes of the " ++
    "Visible Envelope ... constitute a Storage Unit Label.")
  action := text "Bytes are stored as SUL"

/-- `logical_eof`, load.py:211-247. -/
def toldEof (w : LoadWhats) (policy : Policy) (l : Layer) (pos : Nat) (x : Indexer) :
    List Report × Indexer × Work Bool :=
  if seekOk l.src pos then
    match readAt l.src pos 1 with
    | .error =>
      ([eofReport w.io.read (w.tell pos)],
        if policy .critical then (x, .raised) else ({ x with dataEnd := true }, .done true))
    | .eof _ =>
      ([], if l.peof then ({ x with dataEnd := true }, .done true)
        else ({ x with next := l.endTell }, .done true))
    | .ok _ => ([], x, .done false)
  else
    ([eofReport w.io.seek (w.tell pos)],
      if policy .critical then (x, .raised) else ({ x with dataEnd := true }, .done true))

/-- The `except` of `find_sul`, load.py:274-287; `what` is the text of the exception. -/
def toldNoSul (policy : Policy) (expected : Bool) (what : Text) (x : Indexer) :
    List Report × Indexer × Work Nat :=
  if expected then ([noSul what], if policy .minor then (x, .raised) else (x, .done 0))
  else ([], x, .done 0)

/-- `read_sul`, load.py:289-308. -/
def toldReadSul (policy : Policy) (l : Layer) (p : Nat) (x : Indexer) :
    List Report × Indexer × Work Nat :=
  match readAt l.src p 80 with
  | .error => ([], x, .raised)
  | .eof bs =>
    ([shortSul bs.length], if policy .major then (x, .raised)
      else ({ x with sul := some bs }, .done (p + bs.length)))
  | .ok bs => ([], { x with sul := some bs }, .done (p + bs.length))

/-- `find_sul` and `read_sul`, load.py:249-308. -/
def toldSul (w : LoadWhats) (policy : Policy) (l : Layer) (x : Indexer) :
    List Report × Indexer × Work Nat :=
  let expected := decide (x.sul.getD [] = []) && decide (x.files = [])
  let s := toldFindsul w policy expected l 0
  match s.2 with
  | .found p =>
    if expected then
      let r := toldReadSul policy l p x
      (s.1 ++ r.1, r.2)
    else if policy .minor then
      let r := toldNoSul policy expected (w.raised moreSul) x
      (s.1 ++ moreSul :: r.1, r.2)
    else
      let r := toldReadSul policy l p x
      (s.1 ++ moreSul :: r.1, r.2)
  | .failed what =>
    let r := toldNoSul policy expected what x
    (s.1 ++ r.1, r.2)
  | .escalated what =>
    let r := toldNoSul policy expected what x
    (s.1 ++ r.1, r.2)

/-- The contents of a logical file, load.py:186-189. -/
def toldContents (w : LoadWhats) (policy : Policy) (src : Source) (stale : Nat → Bytes) (ofs : Offsets) :
    List Report × Work (List ObjectSet × List (Bytes × List Nat)) :=
  let r := toldExtractAll w.io policy src w.tell ofs.explicits
  match r.2 with
  | .raised => (r.1, .raised)
  | .undefined => (r.1, .undefined)
  | .done recs =>
    let s := toldSets policy recs
    match s.2 with
    | .raised => (r.1 ++ s.1, .raised)
    | .undefined => (r.1 ++ s.1, .undefined)
    | .done sets =>
      let f := toldFindfdata w.io policy src stale w.tell [] ofs.implicits
      (r.1 ++ s.1 ++ f.1,
        match fdataStop policy src stale ofs.implicits with
        | .raised => .raised
        | .undefined => .undefined
        | .done () => .done (sets, f.2.getD []))

/-- `index_logical_file` and `parse_logical_file`, load.py:152-192. -/
def toldParseFile (w : LoadWhats) (policy : Policy) (stale : Nat → Bytes) (isTif : Bool) (l : Layer)
    (x : Indexer) : List Report × Indexer × Work Unit :=
  let t := toldOffsets w.io l.src
  let logs := t.told.toList.map (·.report (w.tell 0))
  if policy .critical && t.told.isSome then (logs, x, .raised)
  else
    let x := { x with
      dataEnd := x.dataEnd || decide (t.res.ofs.broken ≠ [])
      next := match t.res.next with
        | none => l.endTell
        | some p => l.ptell p - 4 - (if isTif then 12 else 0) }
    let c := toldContents w policy l.src stale t.res.ofs
    (logs ++ c.1,
      match c.2 with
      | .raised => (x, .raised)
      | .undefined => (x, .undefined)
      | .done (sets, fdata) =>
        ({ x with files := x.files ++ [{
            src := l.src, handle := x.stream.getD 0, sul := x.sul, explicits := t.res.ofs.explicits,
            implicits := t.res.ofs.implicits, sets := sets, fdata := fdata }] }, .done ()))

/-- The part of the body of the loop that follows `find_sul`, load.py:93-98. -/
def toldAfter (w : LoadWhats) (d : Disk) (policy : Policy) (stale : Nat → Bytes) (l : Layer) (pos : Nat)
    (x : Indexer) : List Report × Indexer × Work Unit :=
  let e := toldEof w policy l pos x
  match e.2 with
  | (x, .raised) => (e.1, x, .raised)
  | (x, .undefined) => (e.1, x, .undefined)
  | (x, .done true) => (e.1, x.closeStream, .done ())
  | (x, .done false) =>
    let s := toldFindvrl w policy l pos
    match s.2 with
    | .found q =>
      match d.rp66 x.next q with
      | none => (e.1 ++ s.1, x, .raised)
      | some r =>
        let p := toldParseFile w policy stale d.isTif r x
        (e.1 ++ s.1 ++ p.1, p.2)
    | _ => (e.1 ++ s.1, x, .raised)

/-- The body of the loop of `load`, load.py:81-98. -/
def toldRound (w : LoadWhats) (d : Disk) (policy : Policy) (stale : Nat → Bytes) (x : Indexer) :
    List Report × Indexer × Work Unit :=
  if !d.opens x.next then ([], x, .raised)
  else
    let l := d.layer x.next
    let tifOk := !d.isTif || d.tif x.next
    let x := { x with stream := some x.opened, opened := x.opened + 1 }
    if !tifOk then ([], x, .raised)
    else
      let e := toldEof w policy l 0 x
      match e.2 with
      | (x, .raised) => (e.1, x, .raised)
      | (x, .undefined) => (e.1, x, .undefined)
      | (x, .done true) => (e.1, x.closeStream, .done ())
      | (x, .done false) =>
        let s := toldSul w policy l x
        match s.2 with
        | (x, .raised) => (e.1 ++ s.1, x, .raised)
        | (x, .undefined) => (e.1 ++ s.1, x, .undefined)
        | (x, .done pos) =>
          let a := toldAfter w d policy stale l pos x
          (e.1 ++ s.1 ++ a.1, a.2)

/-- The loop of `load`, load.py:79-103. -/
def toldLoop (w : LoadWhats) (d : Disk) (policy : Policy) (stale : Nat → Bytes) :
    Nat → Indexer → List Report × Indexer × Loaded
  | 0, x => ([], x, .running)
  | n + 1, x =>
    if x.dataEnd then ([], x, .files)
    else
      let r := toldRound w d policy stale x
      match r.2 with
      | (x, .done ()) =>
        let s := toldLoop w d policy stale n x
        (r.1 ++ s.1, s.2)
      | (x, .raised) => (r.1, x.close, .raised)
      | (x, .undefined) => (r.1, x, .undefined)

/-- `load`, load.py:8-103. -/
def toldLoad (w : LoadWhats) (d : Disk) (policy : Policy) (stale : Nat → Bytes) (n : Nat) :
    List Report × Indexer × Loaded :=
  match d.mark with
  | .ok _ => toldLoop w d policy stale n { Indexer.new with closed := [0] }
  | _ => ([], Indexer.new, .raised)

/-! ### The searches -/

namespace Spec

/-- The bytes of `src` from `pos` on, at most `n`, can be read, and are `win`. -/
def Window (src : Source) (pos n : Nat) (win : Bytes) : Prop :=
  win = (src.data.drop pos).take n ∧ (src.ending = .eof ∨ pos + n ≤ src.data.length)

/-- What is said when `needle` is not found within `n` bytes, with `before` bytes in front of it, is true:
it is not there, and this is the number of bytes, and the place where they begin; or it is there with
fewer bytes in front of it; or the stream, which does not end regularly, cannot be read that far. -/
inductive NotHere (needle : Bytes) (before n : Nat) (lost part : String) (w : LoadWhats) (l : Layer)
    (pos : Nat) (what : Text) : Prop where
  | absent (win : Bytes)
      (h : what = text "searched " ++ Text.ofNat win.length ++ text " bytes from offset " ++
        Text.ofNat (l.ptell pos) ++ text " (dec), but could not find " ++ text lost)
      (hw : Window l.src pos n win) (ho : ∀ i, ¬ OccursAt needle win i)
  | part (win : Bytes) (i : Nat) (h : what = text part) (hw : Window l.src pos n win)
      (ho : FirstAt needle win i) (hi : i < before)
  | failed (h : what = w.io.read) (hs : l.src.ending ≠ .eof) (he : l.src.data.length < pos + n)

/-- The label is not in the first bytes that can be read. -/
def NoLabel (w : LoadWhats) (l : Layer) (pos : Nat) (what : Text) : Prop :=
  NotHere recordText 9 1700 "storage label"
    "found something that could be parts of a SUL, file may be corrupted" w l pos what

/-- There is no visible record in the first bytes that can be read. -/
def NoVr (w : LoadWhats) (l : Layer) (pos : Nat) (what : Text) : Prop :=
  NotHere ff01 2 200 "visible record envelope pattern [0xFF 0x01]"
    "found [0xFF 0x01] but len field not intact, file may be corrupted" w l pos what

/-- There is a label at the position. -/
def LabelAt (src : Source) (pos : Nat) : Prop := ∃ win, Window src pos 15 win ∧ FirstAt recordText win 9

/-- There is a visible record at the position. -/
def VrAt (src : Source) (pos : Nat) : Prop := ∃ win, Window src pos 4 win ∧ FirstAt ff01 win 2

/-- The first label is at `p`, behind `pos`. -/
def LabelLater (src : Source) (pos p : Nat) : Prop :=
  pos < p ∧ ∃ win, Window src pos 1700 win ∧ FirstAt recordText win (p - pos + 9)

/-- The first visible record is at `p`, behind `pos`. -/
def VrLater (src : Source) (pos p : Nat) : Prop :=
  pos < p ∧ ∃ win, Window src pos 200 win ∧ FirstAt ff01 win (p - pos + 2)

/-- A minor problem: something is at another place than expected, which is `gap` bytes in front of
it. -/
structure Late (what : String) (r : Report) (from_ gap : Nat) : Prop where
  minor : r.grade = .known .minor
  problem : r.problem = text "Unexpected bytes found before " ++ text what
  debug : r.debug = text what ++ text " found at ptell " ++ Text.ofNat (from_ + gap) ++
    text " (dec), but expected at " ++ Text.ofNat from_

/-- How the search for a label ends, and what is reported: nothing if it is in its place or not
expected, and if there is none; else, that it is late. -/
inductive SulSearch (w : LoadWhats) (policy : Policy) (expected : Bool) (l : Layer) (pos : Nat) :
    List Report × Sought → Prop where
  | here (h : LabelAt l.src pos) : SulSearch w policy expected l pos ([], .found pos)
  | unexpected (h : ¬ LabelAt l.src pos) (he : expected = false) :
      SulSearch w policy expected l pos ([], .failed w.sliced)
  | later (p : Nat) (r : Report) (h : ¬ LabelAt l.src pos) (he : expected = true)
      (hl : LabelLater l.src pos p) (hr : Late "SUL" r (l.ptell pos) (p - pos)) :
      SulSearch w policy expected l pos
        ([r], if policy .minor then .escalated (w.raised r) else .found p)
  | missing (what : Text) (h : ¬ LabelAt l.src pos) (he : expected = true)
      (hn : NoLabel w l pos what) : SulSearch w policy expected l pos ([], .failed what)

/-- How the search for the first visible record ends, and what is reported. -/
inductive VrSearch (w : LoadWhats) (policy : Policy) (l : Layer) (pos : Nat) :
    List Report × Sought → Prop where
  | here (h : VrAt l.src pos) : VrSearch w policy l pos ([], .found pos)
  | later (p : Nat) (r : Report) (h : ¬ VrAt l.src pos) (hl : VrLater l.src pos p)
      (hr : Late "VR" r (l.ptell pos) (p - pos)) :
      VrSearch w policy l pos ([r], if policy .minor then .escalated (w.raised r) else .found p)
  | missing (what : Text) (h : ¬ VrAt l.src pos) (hn : NoVr w l pos what) :
      VrSearch w policy l pos ([], .failed what)

end Spec

theorem readAt_window (src : Source) (pos n : Nat) (hn : n ≠ 0) :
    match readAt src pos n with
    | .ok bs => Spec.Window src pos n bs
    | .eof bs => Spec.Window src pos n bs
    | .error => src.ending ≠ .eof ∧ src.data.length < pos + n := by
  cases h : readAt src pos n with
  | ok bs =>
    obtain ⟨h1, h2⟩ := readAt_ok h hn
    exact ⟨h2, Or.inr h1⟩
  | eof bs =>
    obtain ⟨h1, h2, h3⟩ := readAt_eof h
    refine ⟨?_, Or.inl h1⟩
    rw [h3, List.take_of_length_le (by simp; omega)]
  | error => exact readAt_error h

/-- What the searches do with the bytes they read. -/
structure Seeks (find : Bytes → Err × Option Nat) (needle : Bytes) (before : Nat) : Prop where
  ok : ∀ win o, find win = (.ok, some o) ↔ Spec.FirstAt needle win (o + before)
  notFound : ∀ win, find win = (.notFound, none) ↔ ∀ i, ¬ Spec.OccursAt needle win i
  inconsistent : ∀ win, find win = (.inconsistent, none) ↔ ∃ i, i < before ∧ Spec.FirstAt needle win i
  shape : ∀ win, (∃ o, find win = (.ok, some o)) ∨ find win = (.notFound, none) ∨
    find win = (.inconsistent, none)

theorem seeks_sul : Seeks findSul Spec.recordText 9 where
  ok := fun win => (c14_find_sul win).1
  notFound := fun win => (c14_find_sul win).2.1
  inconsistent := fun win => (c14_find_sul win).2.2
  shape := fun win => by
    unfold findSul
    split
    · exact Or.inr (Or.inl rfl)
    · split
      · exact Or.inr (Or.inr rfl)
      · exact Or.inl ⟨_, rfl⟩

theorem seeks_vrl : Seeks findVrl Spec.ff01 2 where
  ok := fun win => (c14_find_vrl win).1
  notFound := fun win => (c14_find_vrl win).2.1
  inconsistent := fun win => (c14_find_vrl win).2.2
  shape := fun win => by
    unfold findVrl
    split
    · exact Or.inr (Or.inl rfl)
    · split
      · exact Or.inr (Or.inr rfl)
      · exact Or.inl ⟨_, rfl⟩

theorem toldOnce_true {find : Bytes → Err × Option Nat} {needle : Bytes} {before : Nat}
    (hs : Seeks find needle before) (w : LoadWhats) (lost part : String) (l : Layer) (pos n : Nat)
    (hn : n ≠ 0) :
    match toldOnce w find lost (text part) l pos n with
    | .ok p => pos ≤ p ∧ (∃ win, Spec.Window l.src pos n win ∧
        Spec.FirstAt needle win (p - pos + before)) ∧ findOnce find l.src pos n = .found p []
    | .error what => Spec.NotHere needle before n lost part w l pos what ∧
        (findOnce find l.src pos n = .notFound ∨ findOnce find l.src pos n = .runtime) := by
  have hw := readAt_window l.src pos n hn
  have key : ∀ bs, Spec.Window l.src pos n bs →
      match (match find bs with
        | (.ok, some o) => Except.ok (pos + o)
        | (.notFound, _) => .error (saysSearched bs.length (l.ptell pos) lost)
        | (_, _) => .error (text part) : Except Text Nat) with
      | .ok p => pos ≤ p ∧ (∃ win, Spec.Window l.src pos n win ∧
          Spec.FirstAt needle win (p - pos + before)) ∧
          (match find bs with
            | (.ok, some o) => FindResult.found (pos + o) []
            | (.notFound, _) => .notFound
            | (_, _) => .runtime) = .found p []
      | .error what => Spec.NotHere needle before n lost part w l pos what ∧
          ((match find bs with
            | (.ok, some o) => FindResult.found (pos + o) []
            | (.notFound, _) => .notFound
            | (_, _) => .runtime) = .notFound ∨
          (match find bs with
            | (.ok, some o) => FindResult.found (pos + o) []
            | (.notFound, _) => .notFound
            | (_, _) => .runtime) = .runtime) := by
    intro bs hb
    rcases hs.shape bs with ⟨o, h⟩ | h | h
    · rw [h]
      refine ⟨by omega, ⟨bs, hb, ?_⟩, rfl⟩
      rw [show pos + o - pos = o by omega]
      exact (hs.ok bs o).1 h
    · rw [h]
      exact ⟨.absent bs rfl hb ((hs.notFound bs).1 h), Or.inl rfl⟩
    · rw [h]
      obtain ⟨i, h1, h2⟩ := (hs.inconsistent bs).1 h
      exact ⟨.part bs i rfl hb h2 h1, Or.inr rfl⟩
  unfold toldOnce findOnce
  cases hr : readAt l.src pos n with
  | ok bs => rw [hr] at hw; exact key bs hw
  | eof bs => rw [hr] at hw; exact key bs hw
  | error => rw [hr] at hw; exact ⟨.failed rfl hw.1 hw.2, Or.inr rfl⟩

/-- Something that is found with nothing in front of it is also found in a window that is only as long
as it. -/
theorem first_shorter {needle : Bytes} {before n : Nat} (hl : needle.length + before ≤ n) {src : Source}
    {pos : Nat} {win : Bytes} (hw : Spec.Window src pos n win) (h : Spec.FirstAt needle win before) :
    ∃ win, Spec.Window src pos (needle.length + before) win ∧ Spec.FirstAt needle win before := by
  obtain ⟨h1, h2⟩ := hw
  obtain ⟨⟨a, b, e, ha⟩, h3⟩ := h
  have hwin : (src.data.drop pos).take (needle.length + before) = a ++ needle := by
    have : (src.data.drop pos).take (needle.length + before) = win.take (needle.length + before) := by
      rw [h1, List.take_take, Nat.min_eq_left hl]
    rw [this, e, List.take_left' (by simp; omega)]
  refine ⟨a ++ needle, ⟨hwin.symm, h2.imp_right fun _ => by omega⟩, ⟨a, [], by simp, ha⟩, ?_⟩
  rintro j hj ⟨c, d, e', hc⟩
  exact h3 j hj ⟨c, d ++ b, by rw [e, e']; simp, hc⟩

/-- Windows at a position are what they are. -/
theorem window_unique {src : Source} {pos n : Nat} {a b : Bytes} (ha : Spec.Window src pos n a)
    (hb : Spec.Window src pos n b) : a = b := ha.1.trans hb.1.symm

theorem window_gap {needle : Bytes} {before : Nat} {src : Source} {pos k : Nat}
    {win : Bytes} (hw : Spec.Window src pos (needle.length + before) win)
    (h : Spec.FirstAt needle win (k + before)) : k = 0 := by
  obtain ⟨⟨a, b, e, ha⟩, -⟩ := h
  have h1 := congrArg List.length e
  rw [hw.1] at h1
  simp only [List.length_take, List.length_drop, List.length_append] at h1
  omega

/-- C90.  The search for the label: what is found is the first label; it is reported if and only if it is
late, with both places; and if there is none within the bytes searched, then the text of the
exception says so. -/
theorem c90_findsul (w : LoadWhats) (policy : Policy) (expected : Bool) (l : Layer) (pos : Nat) :
    Spec.SulSearch w policy expected l pos (toldFindsul w policy expected l pos) := by
  have h15 := toldOnce_true seeks_sul w "storage label"
    "found something that could be parts of a SUL, file may be corrupted" l pos 15 (by omega)
  have h17 := toldOnce_true seeks_sul w "storage label"
    "found something that could be parts of a SUL, file may be corrupted" l pos 1700 (by omega)
  unfold toldFindsul
  rw [show saysPartsOfSul = text "found something that could be parts of a SUL, file may be corrupted"
    from rfl]
  cases e15 : toldOnce w findSul "storage label"
    (text "found something that could be parts of a SUL, file may be corrupted") l pos 15 with
  | ok p =>
    rw [e15] at h15
    obtain ⟨hp, ⟨win, hw, hf⟩, -⟩ := h15
    have h0 := window_gap (needle := Spec.recordText) (before := 9) hw hf
    have : p = pos := by omega
    subst this
    rw [h0] at hf
    exact .here ⟨win, hw, by simpa using hf⟩
  | error what =>
    rw [e15] at h15
    have hno : ¬ Spec.LabelAt l.src pos := by
      rintro ⟨win, hw, hf⟩
      cases h15.1 with
      | absent win' h hw' ho => exact ho 9 (window_unique hw hw' ▸ hf.1)
      | part win' i h hw' ho hi => exact hf.2 i hi (window_unique hw' hw ▸ ho.1)
      | failed h hs he =>
        rcases hw.2 with h1 | h1
        · exact hs h1
        · omega
    dsimp only
    cases expected with
    | false => exact .unexpected hno rfl
    | true =>
      rw [if_neg (by simp)]
      cases e17 : toldOnce w findSul "storage label"
        (text "found something that could be parts of a SUL, file may be corrupted") l pos 1700 with
      | error what => rw [e17] at h17; exact .missing what hno rfl h17.1
      | ok p =>
        rw [e17] at h17
        obtain ⟨hp, ⟨win, hw, hf⟩, -⟩ := h17
        have hlt : pos < p := by
          rcases Nat.lt_or_ge pos p with h | h
          · exact h
          · exfalso
            rw [show p - pos + 9 = 9 by omega] at hf
            exact hno (first_shorter (needle := Spec.recordText) (by decide) hw hf)
        exact .later p _ hno rfl ⟨hlt, win, hw, hf⟩ ⟨rfl, rfl, rfl⟩

/-- C90.  The search for the first visible record: as for the label. -/
theorem c90_findvrl (w : LoadWhats) (policy : Policy) (l : Layer) (pos : Nat) :
    Spec.VrSearch w policy l pos (toldFindvrl w policy l pos) := by
  have h15 := toldOnce_true seeks_vrl w "visible record envelope pattern [0xFF 0x01]"
    "found [0xFF 0x01] but len field not intact, file may be corrupted" l pos 4 (by omega)
  have h17 := toldOnce_true seeks_vrl w "visible record envelope pattern [0xFF 0x01]"
    "found [0xFF 0x01] but len field not intact, file may be corrupted" l pos 200 (by omega)
  unfold toldFindvrl
  rw [show saysLengthOfVr = text "found [0xFF 0x01] but len field not intact, file may be corrupted"
    from rfl]
  cases e15 : toldOnce w findVrl "visible record envelope pattern [0xFF 0x01]"
    (text "found [0xFF 0x01] but len field not intact, file may be corrupted") l pos 4 with
  | ok p =>
    rw [e15] at h15
    obtain ⟨hp, ⟨win, hw, hf⟩, -⟩ := h15
    have h0 := window_gap (needle := Spec.ff01) (before := 2) hw hf
    have : p = pos := by omega
    subst this
    rw [h0] at hf
    exact .here ⟨win, hw, by simpa using hf⟩
  | error what =>
    rw [e15] at h15
    have hno : ¬ Spec.VrAt l.src pos := by
      rintro ⟨win, hw, hf⟩
      cases h15.1 with
      | absent win' h hw' ho => exact ho 2 (window_unique hw hw' ▸ hf.1)
      | part win' i h hw' ho hi => exact hf.2 i hi (window_unique hw' hw ▸ ho.1)
      | failed h hs he =>
        rcases hw.2 with h1 | h1
        · exact hs h1
        · omega
    dsimp only
    cases e17 : toldOnce w findVrl "visible record envelope pattern [0xFF 0x01]"
      (text "found [0xFF 0x01] but len field not intact, file may be corrupted") l pos 200 with
    | error what => rw [e17] at h17; exact .missing what hno h17.1
    | ok p =>
      rw [e17] at h17
      obtain ⟨hp, ⟨win, hw, hf⟩, -⟩ := h17
      have hlt : pos < p := by
        rcases Nat.lt_or_ge pos p with h | h
        · exact h
        · exfalso
          rw [show p - pos + 2 = 2 by omega] at hf
          exact hno (first_shorter (needle := Spec.ff01) (by decide) hw hf)
      exact .later p _ hno ⟨hlt, win, hw, hf⟩ ⟨rfl, rfl, rfl⟩

/-! ### The texts change nothing -/

theorem toldFindsul_plain (w : LoadWhats) (policy : Policy) (expected : Bool) (l : Layer) (pos : Nat) :
    match (toldFindsul w policy expected l pos).2 with
    | .found p => ∃ logs, findsul policy expected l.src pos = .found p logs
    | .escalated _ => findsul policy expected l.src pos = .escalated ∧ expected = true ∧
        policy .minor = true
    | .failed _ => findsul policy expected l.src pos = .notFound ∨
        findsul policy expected l.src pos = .runtime ∨
        findsul policy expected l.src pos = .generic := by
  have h15 := toldOnce_true seeks_sul w "storage label"
    "found something that could be parts of a SUL, file may be corrupted" l pos 15 (by omega)
  have h17 := toldOnce_true seeks_sul w "storage label"
    "found something that could be parts of a SUL, file may be corrupted" l pos 1700 (by omega)
  unfold toldFindsul
  rw [show saysPartsOfSul = text "found something that could be parts of a SUL, file may be corrupted"
    from rfl]
  cases e15 : toldOnce w findSul "storage label"
    (text "found something that could be parts of a SUL, file may be corrupted") l pos 15 with
  | ok p => rw [e15] at h15; unfold findsul; rw [h15.2.2]; exact ⟨_, rfl⟩
  | error what =>
    rw [e15] at h15
    have e : findsul policy expected l.src pos = if !expected then .generic
        else match findOnce findSul l.src pos 1700 with
          | .found p _ => if policy .minor then .escalated else .found p [.minor]
          | e => e := by
      unfold findsul
      rcases h15.2 with h | h <;> rw [h] <;> rfl
    rw [e]
    cases expected with
    | false => exact Or.inr (Or.inr rfl)
    | true =>
      dsimp only [Bool.not_true, Bool.false_eq_true, if_false]
      cases e17 : toldOnce w findSul "storage label"
        (text "found something that could be parts of a SUL, file may be corrupted") l pos 1700 with
      | error what =>
        rw [e17] at h17
        rcases h17.2 with h | h <;> rw [h]
        · exact Or.inl rfl
        · exact Or.inr (Or.inl rfl)
      | ok p =>
        rw [e17] at h17
        rw [h17.2.2]
        dsimp only
        cases hm : policy .minor with
        | true => exact ⟨rfl, rfl, rfl⟩
        | false => exact ⟨_, rfl⟩

theorem toldFindvrl_plain (w : LoadWhats) (policy : Policy) (l : Layer) (pos : Nat) :
    match (toldFindvrl w policy l pos).2 with
    | .found p => ∃ logs, findvrl policy l.src pos = .found p logs
    | _ => ∀ p logs, findvrl policy l.src pos ≠ .found p logs := by
  have h15 := toldOnce_true seeks_vrl w "visible record envelope pattern [0xFF 0x01]"
    "found [0xFF 0x01] but len field not intact, file may be corrupted" l pos 4 (by omega)
  have h17 := toldOnce_true seeks_vrl w "visible record envelope pattern [0xFF 0x01]"
    "found [0xFF 0x01] but len field not intact, file may be corrupted" l pos 200 (by omega)
  unfold toldFindvrl
  rw [show saysLengthOfVr = text "found [0xFF 0x01] but len field not intact, file may be corrupted"
    from rfl]
  cases e15 : toldOnce w findVrl "visible record envelope pattern [0xFF 0x01]"
    (text "found [0xFF 0x01] but len field not intact, file may be corrupted") l pos 4 with
  | ok p => rw [e15] at h15; unfold findvrl; rw [h15.2.2]; exact ⟨_, rfl⟩
  | error what =>
    rw [e15] at h15
    have e : findvrl policy l.src pos = match findOnce findVrl l.src pos 200 with
          | .found p _ => if policy .minor then .escalated else .found p [.minor]
          | e => e := by
      unfold findvrl
      rcases h15.2 with h | h <;> rw [h] <;> rfl
    rw [e]
    dsimp only
    cases e17 : toldOnce w findVrl "visible record envelope pattern [0xFF 0x01]"
      (text "found [0xFF 0x01] but len field not intact, file may be corrupted") l pos 200 with
    | error what =>
      rw [e17] at h17
      rcases h17.2 with h | h <;> rw [h] <;> intro p logs hc <;> cases hc
    | ok p =>
      rw [e17] at h17
      rw [h17.2.2]
      dsimp only
      cases hm : policy .minor with
      | true => intro p logs hc; cases hc
      | false => exact ⟨_, rfl⟩

theorem toldEof_plain (w : LoadWhats) (policy : Policy) (l : Layer) (pos : Nat) (x : Indexer) :
    (toldEof w policy l pos x).2 = logicalEof policy l pos x := by
  unfold toldEof logicalEof
  cases seekOk l.src pos with
  | false => rfl
  | true =>
    rw [if_pos rfl, if_pos rfl]
    cases readAt l.src pos 1 <;> rfl

theorem toldSul_plain (w : LoadWhats) (policy : Policy) (l : Layer) (x : Indexer) :
    (toldSul w policy l x).2 = findReadSul policy l x := by
  unfold toldSul findReadSul
  dsimp only
  generalize (decide (x.sul.getD [] = []) && decide (x.files = [])) = expected
  have h := toldFindsul_plain w policy expected l 0
  cases e : (toldFindsul w policy expected l 0).2 with
  | found p =>
    rw [e] at h
    obtain ⟨logs, h⟩ := h
    rw [h]
    dsimp only
    have hr : (toldReadSul policy l p x).2 = (match readAt l.src p 80 with
      | .error => (x, .raised)
      | .eof bs =>
        if policy .major then (x, .raised)
        else ({ x with sul := some bs }, .done (p + bs.length))
      | .ok bs => ({ x with sul := some bs }, .done (p + bs.length)) : Indexer × Work Nat) := by
      unfold toldReadSul
      cases readAt l.src p 80 <;> rfl
    cases expected with
    | true => rw [if_pos rfl, if_neg (by simp)]; exact hr
    | false =>
      rw [if_neg (by simp)]
      cases hm : policy .minor with
      | true => rfl
      | false => exact hr
  | failed what =>
    rw [e] at h
    dsimp only
    have : (toldNoSul policy expected what x).2 =
        if (expected && policy .minor) = true then (x, .raised) else (x, .done 0) := by
      unfold toldNoSul
      cases expected <;> cases policy .minor <;> rfl
    rcases h with h | h | h <;> rw [h] <;> exact this
  | escalated what =>
    rw [e] at h
    obtain ⟨h, rfl, hm⟩ := h
    rw [h]
    unfold toldNoSul
    rw [if_pos rfl, hm]
    rfl

theorem toldContents_plain (w : LoadWhats) (policy : Policy) (src : Source) (stale : Nat → Bytes)
    (ofs : Offsets) : (toldContents w policy src stale ofs).2 = contents policy src stale ofs := by
  unfold toldContents contents fdataOf
  dsimp only
  rw [(c89_raw w.io policy src w.tell ofs.explicits).1]
  cases extractAll policy src ofs.explicits with
  | raised => rfl
  | undefined => rfl
  | done recs =>
    dsimp only
    rw [(c89_sets policy recs).1]
    cases objectSets policy recs with
    | raised => rfl
    | undefined => rfl
    | done sets =>
      dsimp only
      rw [(c89_fdata w.io policy src stale w.tell ofs.implicits).1]
      cases fdataStop policy src stale ofs.implicits <;> rfl

theorem toldParseFile_plain (w : LoadWhats) (policy : Policy) (stale : Nat → Bytes) (isTif : Bool)
    (l : Layer) (x : Indexer) :
    (toldParseFile w policy stale isTif l x).2 = parseLogicalFile policy stale isTif l x := by
  obtain ⟨h1, h2, -⟩ := c89_index w.io l.src
  unfold toldParseFile parseLogicalFile findoffsets
  dsimp only
  rw [h1]
  by_cases hb : (findoffsetsRaw l.src).ofs.broken = []
  · rw [h2.2 hb, hb]
    simp only [Option.isSome_none, Bool.and_false, Bool.false_eq_true, if_false, ne_eq,
      not_true_eq_false, decide_false, Bool.false_and]
    rw [toldContents_plain]
    cases contents policy l.src stale (findoffsetsRaw l.src).ofs <;> simp [hb] <;> rfl
  · have hs : (toldOffsets w.io l.src).told.isSome = true := by
      cases h : (toldOffsets w.io l.src).told with
      | none => exact absurd (h2.1 h) hb
      | some s => rfl
    rw [hs]
    cases hc : policy .critical with
    | true => simp [hb]
    | false =>
      simp only [Bool.false_and, Bool.false_eq_true, if_false, Bool.and_false]
      rw [toldContents_plain]
      rfl

theorem toldAfter_plain (w : LoadWhats) (d : Disk) (policy : Policy) (stale : Nat → Bytes) (l : Layer)
    (pos : Nat) (x : Indexer) : (toldAfter w d policy stale l pos x).2 = afterSul d policy stale l pos x := by
  unfold toldAfter afterSul
  dsimp only
  rw [toldEof_plain]
  rcases logicalEof policy l pos x with ⟨y, (b | _) | _ | _⟩
  · dsimp only
    have h := toldFindvrl_plain w policy l pos
    cases e : (toldFindvrl w policy l pos).2 with
    | found q =>
      rw [e] at h
      obtain ⟨logs, h⟩ := h
      rw [h]
      dsimp only
      cases d.rp66 y.next q with
      | none => rfl
      | some r => exact toldParseFile_plain w policy stale d.isTif r y
    | failed what =>
      rw [e] at h
      dsimp only
      cases hf : findvrl policy l.src pos with
      | found q logs => exact absurd hf (h q logs)
      | _ => rfl
    | escalated what =>
      rw [e] at h
      dsimp only
      cases hf : findvrl policy l.src pos with
      | found q logs => exact absurd hf (h q logs)
      | _ => rfl
  · rfl
  · rfl
  · rfl

theorem toldRound_plain (w : LoadWhats) (d : Disk) (policy : Policy) (stale : Nat → Bytes) (x : Indexer) :
    (toldRound w d policy stale x).2 = iteration d policy stale x := by
  unfold toldRound iteration
  by_cases h1 : (!d.opens x.next) = true
  · rw [if_pos h1, if_pos h1]
  · rw [if_neg h1, if_neg h1]
    dsimp only
    by_cases h2 : (!(!d.isTif || d.tif x.next)) = true
    · rw [if_pos h2, if_pos h2]
    · rw [if_neg h2, if_neg h2, toldEof_plain]
      rcases logicalEof policy (d.layer x.next) 0
        { x with stream := some x.opened, opened := x.opened + 1 } with ⟨y, (b | _) | _ | _⟩
      · dsimp only
        rw [toldSul_plain]
        rcases findReadSul policy (d.layer x.next) y with ⟨z, b | _ | _⟩
        · exact toldAfter_plain ..
        · rfl
        · rfl
      · rfl
      · rfl
      · rfl

theorem toldLoop_plain (w : LoadWhats) (d : Disk) (policy : Policy) (stale : Nat → Bytes) :
    ∀ (n : Nat) (x : Indexer), (toldLoop w d policy stale n x).2 = loadLoop d policy stale n x
  | 0, _ => rfl
  | n + 1, x => by
    rw [toldLoop, loadLoop]
    by_cases h : x.dataEnd = true
    · rw [if_pos h, if_pos h]
    · rw [if_neg h, if_neg h]
      dsimp only
      rw [toldRound_plain]
      rcases iteration d policy stale x with ⟨y, b | _ | _⟩
      · exact toldLoop_plain w d policy stale n y
      · rfl
      · rfl

/-- C90.  The texts change nothing: what is loaded is what `load` loads. -/
theorem c90_same (w : LoadWhats) (d : Disk) (policy : Policy) (stale : Nat → Bytes) (n : Nat) :
    (toldLoad w d policy stale n).2 = load d policy stale n := by
  unfold toldLoad load
  cases d.mark with
  | ok tm => exact toldLoop_plain ..
  | _ => rfl

/-! ### What is reported is true -/

namespace Spec

/-- A label is expected: none was read, and no logical file. -/
def Expected (x : Indexer) : Prop := (x.sul = none ∨ x.sul = some []) ∧ x.files = []

/-- The label that is taken is at `p`: at the start of the stream, or, if it is expected, later. -/
def TakenAt (x : Indexer) (src : Source) (p : Nat) : Prop :=
  LabelAt src 0 ∧ p = 0 ∨ ¬ LabelAt src 0 ∧ Expected x ∧ LabelLater src 0 p

/-- Where the search for the first visible record starts: at the start of the stream, or behind the label
that is taken, which may be cut off by the end of the stream. -/
def StartsAt (x : Indexer) (src : Source) (pos : Nat) : Prop :=
  pos = 0 ∨ ∃ p, TakenAt x src p ∧ pos = p + min 80 (src.data.length - p)

/-- Reports about a stream before visible records are looked at. -/
inductive LayerSays (w : LoadWhats) (policy : Policy) (x : Indexer) (l : Layer) (r : Report) : Prop where
  /-- the stream, which does not end regularly, has no byte at the position -/
  | eof (pos : Nat) (hg : r.grade = .known .critical) (hp : r.problem = w.io.read ∨ r.problem = w.io.seek)
      (hd : r.debug = text "Physical tell: " ++ Text.ofNat (w.tell pos) ++ text " (dec)")
      (hs : l.src.ending ≠ .eof) (he : l.src.data.length ≤ pos) (hb : StartsAt x l.src pos)
  | lateLabel (p : Nat) (hr : Late "SUL" r (l.ptell 0) p) (he : Expected x) (h : ¬ LabelAt l.src 0)
      (hl : LabelLater l.src 0 p)
  | noLabel (what : Text) (hg : r.grade = .known .minor)
      (hp : r.problem = text "Exactly one SUL is expected at the start of the file, but found none: " ++ what)
      (he : Expected x) (h : ¬ LabelAt l.src 0) (hn : NoLabel w l 0 what)
  /-- there is a label, but the error handler raised since it is late -/
  | escalated (late : Report) (p : Nat) (hg : r.grade = .known .minor)
      (hp : r.problem = text "Exactly one SUL is expected at the start of the file, but found none: " ++
        w.raised late)
      (hr : Late "SUL" late (l.ptell 0) p) (he : Expected x) (h : ¬ LabelAt l.src 0)
      (hl : LabelLater l.src 0 p) (hm : policy .minor = true)
  | moreLabel (hg : r.grade = .known .minor)
      (hp : r.problem = text "SUL is expected only at the start of the file")
      (he : ¬ Expected x) (h : LabelAt l.src 0)
  | shortLabel (p : Nat) (hg : r.grade = .known .major)
      (hp : r.problem = text "SUL is expected to be 80 bytes, but was " ++
        Text.ofNat (l.src.data.length - p))
      (ht : TakenAt x l.src p) (hs : l.src.ending = .eof) (he : l.src.data.length < p + 80)
  | lateVr (pos p : Nat) (hr : Late "VR" r (l.ptell pos) (p - pos)) (hb : StartsAt x l.src pos)
      (h : ¬ VrAt l.src pos) (hl : VrLater l.src pos p)

/-- Reports about the records of a logical file. -/
inductive FileSays (w : LoadWhats) (policy : Policy) (src : Source) (r : Report) : Prop where
  | index (s : Suspended) (h : r = s.report (w.tell 0)) (ht : SuspensionTrue w.io src s)
  | note (t : Nat) (h : r = trimNote) (ht : AllTrailer src t)
      (hm : t ∈ (findoffsetsRaw src).ofs.explicits ∨ t ∈ (findoffsetsRaw src).ofs.implicits)
  | raw (t : Nat) (what : Text) (er : ExtractErr) (h : r = rawReport (w.tell t) what)
      (hm : t ∈ (findoffsetsRaw src).ofs.explicits) (ht : ExtractTrue w.io src t what)
      (hx : extract policy src t = .error er)
  | set (t n : Nat) (rec : Record) (what : Text) (h : r = setReport what)
      (hm : t ∈ (findoffsetsRaw src).ofs.explicits) (hx : extract policy src t = .ok (rec, n))
      (he : rec.attributes.toNat / 2 ^ 4 % 2 = 0) (ht : SetFault rec.data what)
  | fdata (t : Nat) (what : Text) (h : r = fdataReport (w.tell t) what)
      (hm : t ∈ (findoffsetsRaw src).ofs.implicits) (ht : FdataTrue w.io policy src t what)

/-- The report is about the stream that is opened next, or about the logical file in it, of which the
first visible record was found. -/
def RoundSays (w : LoadWhats) (d : Disk) (policy : Policy) (x : Indexer) (r : Report) : Prop :=
  LayerSays w policy x (d.layer x.next) r ∨
  ∃ pos q f, StartsAt x (d.layer x.next).src pos ∧
    (VrAt (d.layer x.next).src pos ∧ q = pos ∨
      ¬ VrAt (d.layer x.next).src pos ∧ VrLater (d.layer x.next).src pos q) ∧
    d.rp66 x.next q = some f ∧ FileSays w policy f.src r

/-- States in which a round of the loop begins. -/
inductive Reached (d : Disk) (policy : Policy) (stale : Nat → Bytes) : Indexer → Prop where
  | start : Reached d policy stale { Indexer.new with closed := [0] }
  | round {x y : Indexer} (h : Reached d policy stale x) (he : x.dataEnd = false)
      (hi : iteration d policy stale x = (y, .done ())) : Reached d policy stale y

end Spec

theorem readLog_mem {say : Nat → Text → Report} {w : Whats} {policy : Policy} {src : Source}
    {tells : List Nat} {rs : List Report} {b : Bool} (h : Spec.ReadLog say w policy src tells rs b) :
    ∀ r ∈ rs, (r = trimNote ∧ ∃ t ∈ tells, Spec.AllTrailer src t) ∨
      ∃ t ∈ tells, ∃ what er, r = say t what ∧ Spec.ExtractTrue w src t what ∧
        extract policy src t = .error er := by
  induction h with
  | nil => intro r hr; cases hr
  | stop ts => intro r hr; cases hr
  | note h hr ih =>
    intro r hm
    rcases List.mem_cons.1 hm with rfl | hm
    · exact Or.inl ⟨rfl, _, List.mem_cons_self, h⟩
    · exact ih r hm
  | good h hr ih =>
    intro r hm
    rcases ih r hm with ⟨h1, t, h2, h3⟩ | ⟨t, h1, h2⟩
    · exact Or.inl ⟨h1, t, List.mem_cons_of_mem _ h2, h3⟩
    · exact Or.inr ⟨t, List.mem_cons_of_mem _ h1, h2⟩
  | bad h ht hr ih =>
    intro r hm
    rcases List.mem_cons.1 hm with rfl | hm
    · exact Or.inr ⟨_, List.mem_cons_self, _, _, rfl, ht, h⟩
    · rcases ih r hm with ⟨h1, t, h2, h3⟩ | ⟨t, h1, h2⟩
      · exact Or.inl ⟨h1, t, List.mem_cons_of_mem _ h2, h3⟩
      · exact Or.inr ⟨t, List.mem_cons_of_mem _ h1, h2⟩

theorem setLog_mem {recs : List Record} {rs : List Report} {b : Bool} (h : Spec.SetLog recs rs b) :
    ∀ r ∈ rs, ∃ rec ∈ recs, ∃ what, r = setReport what ∧ rec.attributes.toNat / 2 ^ 4 % 2 = 0 ∧
      Spec.SetFault rec.data what := by
  induction h with
  | nil => intro r hr; cases hr
  | stop ts => intro r hr; cases hr
  | encrypted h hr ih =>
    intro r hm
    obtain ⟨rec, h1, h2⟩ := ih r hm
    exact ⟨rec, List.mem_cons_of_mem _ h1, h2⟩
  | good h hs hr ih =>
    intro r hm
    obtain ⟨rec, h1, h2⟩ := ih r hm
    exact ⟨rec, List.mem_cons_of_mem _ h1, h2⟩
  | bad h hs hr ih =>
    intro r hm
    rcases List.mem_cons.1 hm with rfl | hm
    · exact ⟨_, List.mem_cons_self, _, rfl, h, hs⟩
    · obtain ⟨rec, h1, h2⟩ := ih r hm
      exact ⟨rec, List.mem_cons_of_mem _ h1, h2⟩

theorem extractAll_mem {policy : Policy} {src : Source} : ∀ {tells : List Nat} {recs : List Record},
    extractAll policy src tells = .done recs → ∀ rec ∈ recs, ∃ t ∈ tells, ∃ n,
      extract policy src t = .ok (rec, n)
  | [], recs, h, rec, hm => by cases h; cases hm
  | t :: ts, recs, h, rec, hm => by
    rw [extractAll] at h
    have up : ∀ {rs}, extractAll policy src ts = .done rs → rec ∈ rs →
        ∃ t' ∈ t :: ts, ∃ n, extract policy src t' = .ok (rec, n) := fun h1 h2 => by
      obtain ⟨t', h3, h4⟩ := extractAll_mem h1 rec h2
      exact ⟨t', List.mem_cons_of_mem _ h3, h4⟩
    cases hx : extract policy src t with
    | error er =>
      rw [hx] at h
      cases er <;> dsimp only at h <;> first | (cases h; done) | (split at h <;> first | (cases h; done) | exact up h hm)
    | ok y =>
      obtain ⟨rec', n⟩ := y
      rw [hx] at h
      dsimp only at h
      cases hr : extractAll policy src ts with
      | raised => rw [hr] at h; cases h
      | undefined => rw [hr] at h; cases h
      | done rs =>
        rw [hr] at h
        simp only [Work.done.injEq] at h
        rw [← h] at hm
        split at hm
        · rcases List.mem_cons.1 hm with rfl | hm
          · exact ⟨t, List.mem_cons_self, n, hx⟩
          · exact up hr hm
        · exact up hr hm

theorem toldContents_says (w : LoadWhats) (policy : Policy) (src : Source) (stale : Nat → Bytes) :
    ∀ r ∈ (toldContents w policy src stale (findoffsetsRaw src).ofs).1, Spec.FileSays w policy src r := by
  obtain ⟨a1, b, a2, -⟩ := c89_raw w.io policy src w.tell (findoffsetsRaw src).ofs.explicits
  have hraw : ∀ r ∈ (toldExtractAll w.io policy src w.tell (findoffsetsRaw src).ofs.explicits).1,
      Spec.FileSays w policy src r := by
    intro r hr
    rcases readLog_mem a2 r hr with ⟨h1, t, h2, h3⟩ | ⟨t, h1, what, er, h2, h3, h4⟩
    · exact .note t h1 h3 (Or.inl h2)
    · exact .raw t what er h2 h1 h3 h4
  unfold toldContents
  dsimp only
  rw [a1]
  cases hx : extractAll policy src (findoffsetsRaw src).ofs.explicits with
  | raised => exact hraw
  | undefined => exact hraw
  | done recs =>
    obtain ⟨s1, b', s2, -⟩ := c89_sets policy recs
    have hset : ∀ r ∈ (toldSets policy recs).1, Spec.FileSays w policy src r := by
      intro r hr
      obtain ⟨rec, h1, what, h2, h3, h4⟩ := setLog_mem s2 r hr
      obtain ⟨t, h5, n, h6⟩ := extractAll_mem hx rec h1
      exact .set t n rec what h2 h5 h6 h3 h4
    have two : ∀ r ∈ (toldExtractAll w.io policy src w.tell (findoffsetsRaw src).ofs.explicits).1 ++
        (toldSets policy recs).1, Spec.FileSays w policy src r := by
      intro r hr
      rcases List.mem_append.1 hr with hr | hr
      · exact hraw r hr
      · exact hset r hr
    dsimp only
    rw [s1]
    cases objectSets policy recs with
    | raised => exact two
    | undefined => exact two
    | done sets =>
      intro r hr
      rcases List.mem_append.1 hr with hr | hr
      · exact two r hr
      · rcases (c89_fdata w.io policy src stale w.tell (findoffsetsRaw src).ofs.implicits).2.1 r hr with
          ⟨h1, t, h2, h3⟩ | ⟨t, h1, what, h2, h3⟩
        · exact .note t h1 h3 (Or.inr h2)
        · exact .fdata t what h2 h1 h3

theorem toldParseFile_says (w : LoadWhats) (policy : Policy) (stale : Nat → Bytes) (isTif : Bool)
    (l : Layer) (x : Indexer) :
    ∀ r ∈ (toldParseFile w policy stale isTif l x).1, Spec.FileSays w policy l.src r := by
  obtain ⟨h1, h2, h3⟩ := c89_index w.io l.src
  have hix : ∀ r ∈ (toldOffsets w.io l.src).told.toList.map (·.report (w.tell 0)),
      Spec.FileSays w policy l.src r := by
    intro r hr
    obtain ⟨s, hs, rfl⟩ := List.mem_map.1 hr
    exact .index s rfl (h3 s (by simpa using hs)).2.1
  unfold toldParseFile
  dsimp only
  split
  · exact hix
  · intro r hr
    rcases List.mem_append.1 hr with hr | hr
    · exact hix r hr
    · rw [h1] at hr
      exact toldContents_says w policy l.src stale r hr

theorem toldEof_says (w : LoadWhats) (policy : Policy) (l : Layer) (pos : Nat) (x y : Indexer)
    (hb : Spec.StartsAt y l.src pos) :
    (∀ r ∈ (toldEof w policy l pos x).1, Spec.LayerSays w policy y l r) ∧
    ∀ z, (toldEof w policy l pos x).2 = (z, .done false) → z = x ∧ (toldEof w policy l pos x).1 = [] := by
  unfold toldEof
  cases hs : seekOk l.src pos with
  | false =>
    obtain ⟨h1, h2⟩ := seekOk_false hs
    rw [if_neg (by simp)]
    refine ⟨?_, ?_⟩
    · intro r hr
      rw [List.mem_singleton] at hr
      subst hr
      exact .eof pos rfl (Or.inr rfl) rfl h1 (by omega) hb
    · intro z hz
      cases hc : policy .critical <;> rw [hc] at hz <;> simp at hz
  | true =>
    rw [if_pos rfl]
    cases hr : readAt l.src pos 1 with
    | error =>
      obtain ⟨h1, h2⟩ := readAt_error hr
      refine ⟨?_, ?_⟩
      · intro r hr
        rw [List.mem_singleton] at hr
        subst hr
        exact .eof pos rfl (Or.inl rfl) rfl h1 (by omega) hb
      · intro z hz
        cases hc : policy .critical <;> rw [hc] at hz <;> simp at hz
    | eof bs =>
      refine ⟨by simp, ?_⟩
      intro z hz
      cases hc : l.peof <;> rw [hc] at hz <;> simp at hz
    | ok bs =>
      refine ⟨by simp, ?_⟩
      intro z hz
      simp only [Prod.mk.injEq, and_true] at hz
      exact ⟨hz.symm, rfl⟩

theorem expected_iff (x : Indexer) :
    (decide (x.sul.getD [] = []) && decide (x.files = [])) = true ↔ Spec.Expected x := by
  unfold Spec.Expected
  simp only [Bool.and_eq_true, decide_eq_true_eq]
  rcases x.sul with _ | b <;> simp

theorem toldReadSul_says (w : LoadWhats) (policy : Policy) (l : Layer) (p : Nat) (x : Indexer)
    (ht : Spec.TakenAt x l.src p) :
    (∀ r ∈ (toldReadSul policy l p x).1, Spec.LayerSays w policy x l r) ∧
    ∀ z pos, (toldReadSul policy l p x).2 = (z, .done pos) → Spec.StartsAt x l.src pos := by
  unfold toldReadSul
  cases hr : readAt l.src p 80 with
  | error => exact ⟨by simp, fun z pos h => by simp at h⟩
  | ok bs =>
    obtain ⟨h1, h2⟩ := readAt_ok hr (by omega)
    refine ⟨by simp, ?_⟩
    intro z pos h
    simp only [Prod.mk.injEq, Work.done.injEq] at h
    refine Or.inr ⟨p, ht, ?_⟩
    rw [← h.2, h2]
    simp
  | eof bs =>
    obtain ⟨h1, h2, h3⟩ := readAt_eof hr
    have hl : bs.length = l.src.data.length - p := by rw [h3]; simp
    refine ⟨?_, ?_⟩
    · intro r hr
      rw [List.mem_singleton] at hr
      subst hr
      refine .shortLabel p rfl ?_ ht h1 h2
      rw [← hl]
      rfl
    · intro z pos h
      cases hm : policy .major <;> rw [hm] at h <;> simp at h
      refine Or.inr ⟨p, ht, ?_⟩
      rw [← h.2, hl]
      omega

theorem toldNoSul_done {policy : Policy} {expected : Bool} {what : Text} {x z : Indexer} {pos : Nat}
    (h : (toldNoSul policy expected what x).2 = (z, .done pos)) : pos = 0 := by
  unfold toldNoSul at h
  split at h
  · split at h <;> simp at h
    exact h.2.symm
  · simp at h
    exact h.2.symm

theorem toldSul_says (w : LoadWhats) (policy : Policy) (l : Layer) (x : Indexer) :
    (∀ r ∈ (toldSul w policy l x).1, Spec.LayerSays w policy x l r) ∧
    ∀ z pos, (toldSul w policy l x).2 = (z, .done pos) → Spec.StartsAt x l.src pos := by
  have he := expected_iff x
  unfold toldSul
  dsimp only
  generalize (decide (x.sul.getD [] = []) && decide (x.files = [])) = expected at he
  have hs := c90_findsul w policy expected l 0
  generalize toldFindsul w policy expected l 0 = s at hs
  cases hs with
  | here h =>
    obtain ⟨r1, r2⟩ := toldReadSul_says w policy l 0 x (Or.inl ⟨h, rfl⟩)
    dsimp only
    by_cases hx : expected = true
    · rw [if_pos hx]
      exact ⟨by simpa using r1, r2⟩
    · rw [if_neg hx]
      have hmore : Spec.LayerSays w policy x l moreSul :=
        .moreLabel rfl rfl (fun h => hx (he.2 h)) h
      cases hm : policy .minor with
      | true =>
        refine ⟨?_, fun z pos h => Or.inl (toldNoSul_done h)⟩
        unfold toldNoSul
        rw [if_neg hx]
        simpa using hmore
      | false =>
        refine ⟨?_, r2⟩
        intro r hr
        simp only [Bool.false_eq_true, if_false, List.nil_append, List.mem_cons] at hr
        rcases hr with rfl | hr
        · exact hmore
        · exact r1 r hr
  | unexpected h hx =>
    subst hx
    exact ⟨by simp [toldNoSul], fun z pos h => Or.inl (toldNoSul_done h)⟩
  | missing what h hx hn =>
    subst hx
    refine ⟨?_, fun z pos h => Or.inl (toldNoSul_done h)⟩
    intro r hr
    simp only [toldNoSul, if_true, List.nil_append, List.mem_singleton] at hr
    subst hr
    exact .noLabel what rfl rfl (he.1 rfl) h hn
  | later p late h hx hl hr =>
    subst hx
    have hlate : Spec.LayerSays w policy x l late := .lateLabel p (by simpa using hr) (he.1 rfl) h hl
    cases hm : policy .minor with
    | true =>
      refine ⟨?_, fun z pos h => Or.inl (toldNoSul_done h)⟩
      intro r hr'
      simp only [toldNoSul, if_true, List.cons_append, List.nil_append, List.mem_cons, List.not_mem_nil,
        or_false] at hr'
      rcases hr' with rfl | rfl
      · exact hlate
      · exact .escalated late p rfl rfl (by simpa using hr) (he.1 rfl) h hl hm
    | false =>
      obtain ⟨r1, r2⟩ := toldReadSul_says w policy l p x (Or.inr ⟨h, he.1 rfl, hl⟩)
      refine ⟨?_, r2⟩
      intro r hr'
      rcases List.mem_append.1 hr' with hr' | hr'
      · rw [List.mem_singleton] at hr'
        subst hr'
        exact hlate
      · exact r1 r hr'

theorem toldAfter_says (w : LoadWhats) (d : Disk) (policy : Policy) (stale : Nat → Bytes) (pos : Nat)
    (x y : Indexer) (hn : y.next = x.next) (hb : Spec.StartsAt x (d.layer x.next).src pos) :
    ∀ r ∈ (toldAfter w d policy stale (d.layer x.next) pos y).1, Spec.RoundSays w d policy x r := by
  obtain ⟨e1, e2⟩ := toldEof_says w policy (d.layer x.next) pos y x hb
  have he : ∀ r ∈ (toldEof w policy (d.layer x.next) pos y).1, Spec.RoundSays w d policy x r :=
    fun r hr => Or.inl (e1 r hr)
  unfold toldAfter
  dsimp only
  rcases hx : (toldEof w policy (d.layer x.next) pos y).2 with ⟨z, (_ | _) | _ | _⟩
  · obtain ⟨rfl, e3⟩ := e2 z hx
    dsimp only
    have hs := c90_findvrl w policy (d.layer x.next) pos
    generalize toldFindvrl w policy (d.layer x.next) pos = s at hs
    have hfile : ∀ q f, (Spec.VrAt (d.layer x.next).src pos ∧ q = pos ∨
        ¬ Spec.VrAt (d.layer x.next).src pos ∧ Spec.VrLater (d.layer x.next).src pos q) →
        d.rp66 z.next q = some f →
        ∀ r ∈ (toldParseFile w policy stale d.isTif f z).1, Spec.RoundSays w d policy x r :=
      fun q f h1 h2 r hr => Or.inr ⟨pos, q, f, hb, h1, hn ▸ h2,
        toldParseFile_says w policy stale d.isTif f z r hr⟩
    have all : ∀ (q : Nat) (rs : List Report), (∀ r ∈ rs, Spec.RoundSays w d policy x r) →
        (Spec.VrAt (d.layer x.next).src pos ∧ q = pos ∨
          ¬ Spec.VrAt (d.layer x.next).src pos ∧ Spec.VrLater (d.layer x.next).src pos q) →
        ∀ r ∈ (match d.rp66 z.next q with
          | none => ((toldEof w policy (d.layer x.next) pos z).1 ++ rs, z, .raised)
          | some r =>
            ((toldEof w policy (d.layer x.next) pos z).1 ++ rs ++ (toldParseFile w policy stale d.isTif r z).1,
              (toldParseFile w policy stale d.isTif r z).2) : List Report × Indexer × Work Unit).1,
          Spec.RoundSays w d policy x r := by
      intro q rs hrs hq r hr
      cases hd : d.rp66 z.next q with
      | none =>
        rw [hd] at hr
        rcases List.mem_append.1 hr with hr | hr
        · exact he r hr
        · exact hrs r hr
      | some f =>
        rw [hd] at hr
        rcases List.mem_append.1 hr with hr | hr
        · rcases List.mem_append.1 hr with hr | hr
          · exact he r hr
          · exact hrs r hr
        · exact hfile q f hq hd r hr
    cases hs with
    | here h => exact all pos [] (by simp) (Or.inl ⟨h, rfl⟩)
    | missing what h hn' =>
      intro r hr
      simp only [List.append_nil] at hr
      exact he r hr
    | later p late h hl hr =>
      have hlate : ∀ r ∈ [late], Spec.RoundSays w d policy x r := by
        intro r hr'
        rw [List.mem_singleton] at hr'
        subst hr'
        exact Or.inl (.lateVr pos p hr hb h hl)
      cases hm : policy .minor with
      | true =>
        intro r hr'
        rcases List.mem_append.1 hr' with hr' | hr'
        · exact he r hr'
        · exact hlate r hr'
      | false => exact all p [late] hlate (Or.inr ⟨h, hl⟩)
  · exact he
  · exact he
  · exact he

theorem toldRound_says (w : LoadWhats) (d : Disk) (policy : Policy) (stale : Nat → Bytes) (x : Indexer) :
    ∀ r ∈ (toldRound w d policy stale x).1, Spec.RoundSays w d policy x r := by
  unfold toldRound
  split
  · simp
  · dsimp only
    split
    · simp
    · have hc : ∀ {a b : Indexer}, a.sul = b.sul → a.files = b.files → ∀ {l : Layer} {r : Report},
          Spec.LayerSays w policy a l r → Spec.LayerSays w policy b l r := by
        intro a b h1 h2 l r h
        have hx : Spec.Expected a ↔ Spec.Expected b := by unfold Spec.Expected; rw [h1, h2]
        have ht : ∀ p, Spec.TakenAt a l.src p ↔ Spec.TakenAt b l.src p := by
          intro p; unfold Spec.TakenAt; rw [hx]
        have hs : ∀ p, Spec.StartsAt a l.src p ↔ Spec.StartsAt b l.src p := by
          intro p; unfold Spec.StartsAt; simp only [ht]
        cases h with
        | eof pos hg hp hd hs' he hb => exact .eof pos hg hp hd hs' he ((hs _).1 hb)
        | lateLabel p hr he h hl => exact .lateLabel p hr (hx.1 he) h hl
        | noLabel what hg hp he h hn => exact .noLabel what hg hp (hx.1 he) h hn
        | escalated late p hg hp hr he h hl hm => exact .escalated late p hg hp hr (hx.1 he) h hl hm
        | moreLabel hg hp he h => exact .moreLabel hg hp (fun h => he (hx.2 h)) h
        | shortLabel p hg hp ht' hs' he => exact .shortLabel p hg hp ((ht _).1 ht') hs' he
        | lateVr pos p hr hb h hl => exact .lateVr pos p hr ((hs _).1 hb) h hl
      obtain ⟨e1, e2⟩ := toldEof_says w policy (d.layer x.next) 0
        { x with stream := some x.opened, opened := x.opened + 1 } x (Or.inl rfl)
      have he : ∀ r ∈ (toldEof w policy (d.layer x.next) 0
          { x with stream := some x.opened, opened := x.opened + 1 }).1, Spec.RoundSays w d policy x r :=
        fun r hr => Or.inl (e1 r hr)
      rcases hx : (toldEof w policy (d.layer x.next) 0
        { x with stream := some x.opened, opened := x.opened + 1 }).2 with ⟨z, (_ | _) | _ | _⟩
      · obtain ⟨rfl, e3⟩ := e2 z hx
        dsimp only
        obtain ⟨s1, s2⟩ := toldSul_says w policy (d.layer x.next)
          { x with stream := some x.opened, opened := x.opened + 1 }
        have hs : ∀ r ∈ (toldSul w policy (d.layer x.next)
            { x with stream := some x.opened, opened := x.opened + 1 }).1, Spec.RoundSays w d policy x r :=
          fun r hr => Or.inl (hc (a := { x with stream := some x.opened, opened := x.opened + 1 })
            (b := x) rfl rfl (s1 r hr))
        have two : ∀ r ∈ (toldEof w policy (d.layer x.next) 0
            { x with stream := some x.opened, opened := x.opened + 1 }).1 ++ (toldSul w policy (d.layer x.next)
            { x with stream := some x.opened, opened := x.opened + 1 }).1, Spec.RoundSays w d policy x r := by
          intro r hr
          rcases List.mem_append.1 hr with hr | hr
          · exact he r hr
          · exact hs r hr
        rcases hy : (toldSul w policy (d.layer x.next)
          { x with stream := some x.opened, opened := x.opened + 1 }).2 with ⟨y, pos | _ | _⟩
        · intro r hr
          rcases List.mem_append.1 hr with hr | hr
          · exact two r hr
          · have hn : y.next = x.next := by
              have := (findReadSul_next (policy := policy) (l := d.layer x.next)
                { x with stream := some x.opened, opened := x.opened + 1 }).1
              rw [← toldSul_plain w, hy] at this
              exact this
            have hb := s2 y pos hy
            refine toldAfter_says w d policy stale pos x y hn ?_ r hr
            exact hb
        · exact two
        · exact two
      · exact he
      · exact he
      · exact he

theorem toldLoop_says (w : LoadWhats) (d : Disk) (policy : Policy) (stale : Nat → Bytes) :
    ∀ (n : Nat) (x : Indexer), Spec.Reached d policy stale x → ∀ r ∈ (toldLoop w d policy stale n x).1,
      ∃ y, Spec.Reached d policy stale y ∧ y.dataEnd = false ∧ Spec.RoundSays w d policy y r
  | 0, _, _, r, hr => by cases hr
  | n + 1, x, hx, r, hr => by
    rw [toldLoop] at hr
    by_cases h : x.dataEnd = true
    · rw [if_pos h] at hr; cases hr
    · rw [if_neg h] at hr
      have h0 : x.dataEnd = false := by simpa using h
      have hround : ∀ r ∈ (toldRound w d policy stale x).1,
          ∃ y, Spec.Reached d policy stale y ∧ y.dataEnd = false ∧ Spec.RoundSays w d policy y r :=
        fun r hr => ⟨x, hx, h0, toldRound_says w d policy stale x r hr⟩
      dsimp only at hr
      rcases hy : (toldRound w d policy stale x).2 with ⟨y, _ | _ | _⟩
      · rw [hy] at hr
        rcases List.mem_append.1 hr with hr | hr
        · exact hround r hr
        · rw [toldRound_plain] at hy
          exact toldLoop_says w d policy stale n y (.round hx h0 hy) r hr
      · rw [hy] at hr; exact hround r hr
      · rw [hy] at hr; exact hround r hr

/-- C90.  Everything that is reported while a file is loaded is true of a stream that was opened then, or of
the logical file in it: the places of labels and visible records, the number of bytes that were
searched or of which a label consists, and what is wrong with records and sets. -/
theorem c90_reports (w : LoadWhats) (d : Disk) (policy : Policy) (stale : Nat → Bytes) (n : Nat) :
    ∀ r ∈ (toldLoad w d policy stale n).1,
      ∃ x, Spec.Reached d policy stale x ∧ x.dataEnd = false ∧ Spec.RoundSays w d policy x r := by
  unfold toldLoad
  cases d.mark with
  | ok tm => exact toldLoop_says w d policy stale n _ .start
  | _ => simp

/-! ### What the error handler does about it -/

namespace Spec

/-- The action for the severity of the report raises an exception. -/
def Raises (policy : Policy) (r : Report) : Prop := ∃ s, r.grade = .known s ∧ policy s = true

/-- Nothing in the list makes the error handler raise an exception, except for the notes about
trailers, which make the record unreadable, and about further labels, which then are not read. -/
def LetPass (policy : Policy) (rs : List Report) : Prop :=
  ∀ r ∈ rs, Raises policy r → r = trimNote ∨ r.problem = text "SUL is expected only at the start of the file"

/-- The last report makes the error handler raise an exception, and none of those before does, except for
the one about a late label, after which it is reported that there is none. -/
def Ends (w : LoadWhats) (policy : Policy) (rs : List Report) : Prop :=
  ∃ before last, Raises policy last ∧ LetPass policy before ∧
    (rs = before ++ [last] ∨
      ∃ late from_ gap, Late "SUL" late from_ gap ∧ rs = before ++ [late, last] ∧
        last.problem = text "Exactly one SUL is expected at the start of the file, but found none: " ++
          w.raised late)

end Spec

theorem quiet_append {policy : Policy} {a b : List Report} (ha : Spec.LetPass policy a)
    (hb : Spec.LetPass policy b) : Spec.LetPass policy (a ++ b) := by
  intro r hr
  rcases List.mem_append.1 hr with h | h
  · exact ha r h
  · exact hb r h

theorem ends_append {w : LoadWhats} {policy : Policy} {a b : List Report} (ha : Spec.LetPass policy a)
    (hb : Spec.Ends w policy b) : Spec.Ends w policy (a ++ b) := by
  obtain ⟨pre, last, h1, h2, h3⟩ := hb
  refine ⟨a ++ pre, last, h1, quiet_append ha h2, ?_⟩
  rcases h3 with h | ⟨late, f, g, h4, h, h5⟩
  · exact Or.inl (by rw [h, List.append_assoc])
  · exact Or.inr ⟨late, f, g, h4, by rw [h, List.append_assoc], h5⟩

theorem quiet_nil (policy : Policy) : Spec.LetPass policy [] := fun r hr => by cases hr

theorem quiet_notes (policy : Policy) (n : Nat) : Spec.LetPass policy (List.replicate n trimNote) :=
  fun _ hr _ => Or.inl (List.eq_of_mem_replicate hr)

/-- How reports and the end of the work go together. -/
def Heeded {α : Type} (w : LoadWhats) (policy : Policy) (rs : List Report) (res : Work α) : Prop :=
  Spec.LetPass policy rs ∨ Spec.Ends w policy rs ∧ res = .raised

theorem heeded_append {α : Type} {w : LoadWhats} {policy : Policy} {a b : List Report} {res : Work α}
    (ha : Spec.LetPass policy a) (hb : Heeded w policy b res) : Heeded w policy (a ++ b) res := by
  rcases hb with h | ⟨h1, h2⟩
  · exact Or.inl (quiet_append ha h)
  · exact Or.inr ⟨ends_append ha h1, h2⟩

theorem heeded_quiet {α : Type} {w : LoadWhats} {policy : Policy} {rs : List Report} {res : Work α}
    (h : Heeded w policy rs res) (hr : res ≠ .raised) : Spec.LetPass policy rs := by
  rcases h with h | ⟨-, h⟩
  · exact h
  · exact absurd h hr

theorem ends_one {w : LoadWhats} {policy : Policy} {r : Report} (h : Spec.Raises policy r) :
    Spec.Ends w policy [r] := ⟨[], r, h, quiet_nil policy, Or.inl rfl⟩

theorem raises_critical {policy : Policy} {r : Report} (hg : r.grade = .known .critical) :
    Spec.Raises policy r ↔ policy .critical = true := by
  unfold Spec.Raises
  rw [hg]
  constructor
  · rintro ⟨s, h, hp⟩; cases h; exact hp
  · intro h; exact ⟨_, rfl, h⟩

theorem raises_known {policy : Policy} {r : Report} {s : Severity} (hg : r.grade = .known s) :
    Spec.Raises policy r ↔ policy s = true := by
  unfold Spec.Raises
  rw [hg]
  constructor
  · rintro ⟨s, h, hp⟩; cases h; exact hp
  · intro h; exact ⟨_, rfl, h⟩

theorem quiet_one {policy : Policy} {r : Report} (h : ¬ Spec.Raises policy r) : Spec.LetPass policy [r] := by
  intro r' hr hs
  rw [List.mem_singleton] at hr
  subst hr
  exact absurd hs h

theorem heeded_one {α : Type} {w : LoadWhats} {policy : Policy} {r : Report} {s : Severity} {res : Work α}
    (hg : r.grade = .known s) (h : policy s = true → res = .raised) : Heeded w policy [r] res := by
  by_cases hp : policy s = true
  · exact Or.inr ⟨ends_one ((raises_known hg).2 hp), h hp⟩
  · exact Or.inl (quiet_one fun hr => hp ((raises_known hg).1 hr))

theorem toldExtractAll_heeded (w : LoadWhats) (policy : Policy) (src : Source) (ptell : Nat → Nat) :
    ∀ tells : List Nat, Heeded w policy (toldExtractAll w.io policy src ptell tells).1
      (toldExtractAll w.io policy src ptell tells).2
  | [] => Or.inl (quiet_nil policy)
  | t :: ts => by
    have ih := toldExtractAll_heeded w policy src ptell ts
    rw [toldExtractAll]
    rcases toldExtract w.io policy src t with ⟨⟨err, what⟩ | rec, n⟩
    · dsimp only
      split
      · exact Or.inl (quiet_notes policy n)
      · split
        · rename_i hc
          exact heeded_append (quiet_notes policy n) (heeded_one (s := .critical) rfl fun _ => rfl)
        · rename_i hc
          refine heeded_append (quiet_notes policy n) ?_
          exact heeded_append (a := [_]) (quiet_one fun hr => hc ((raises_critical rfl).1 hr)) ih
    · dsimp only
      refine heeded_append (quiet_notes policy n) ?_
      rcases ih with h | ⟨h1, h2⟩
      · exact Or.inl h
      · exact Or.inr ⟨h1, by rw [h2]⟩

theorem toldSets_heeded (w : LoadWhats) (policy : Policy) : ∀ recs : List Record,
    Heeded w policy (toldSets policy recs).1 (toldSets policy recs).2
  | [] => Or.inl (quiet_nil policy)
  | rec :: recs => by
    have ih := toldSets_heeded w policy recs
    rw [toldSets]
    split
    · exact ih
    · split
      · exact Or.inl (quiet_nil policy)
      · split
        · exact heeded_one (s := .critical) rfl fun _ => rfl
        · rename_i hc
          exact heeded_append (a := [_]) (quiet_one fun hr => hc ((raises_critical rfl).1 hr)) ih
      · dsimp only
        rcases ih with h | ⟨h1, h2⟩
        · exact Or.inl h
        · exact Or.inr ⟨h1, by rw [h2]⟩

theorem toldFindfdata_heeded (w : LoadWhats) (policy : Policy) (src : Source) (stale : Nat → Bytes)
    (ptell : Nat → Nat) : ∀ (tells : List Nat) (m : List (Bytes × List Nat)),
      Heeded w policy (toldFindfdata w.io policy src stale ptell m tells).1
        (fdataStop policy src stale tells)
  | [], m => Or.inl (quiet_nil policy)
  | t :: ts, m => by
    rw [toldFindfdata, fdataStop, toldFdataStep_plain w.io]
    rcases toldFdataStep w.io policy src (stale t) t with ⟨fp | _ | what | _, n⟩
    · exact heeded_append (quiet_notes policy n) (toldFindfdata_heeded w policy src stale ptell ts _)
    · exact heeded_append (quiet_notes policy n) (toldFindfdata_heeded w policy src stale ptell ts _)
    · dsimp only [ToldStep.plain]
      split
      · exact heeded_append (quiet_notes policy n) (heeded_one (s := .critical) rfl fun _ => rfl)
      · rename_i hc
        refine heeded_append (quiet_notes policy n) ?_
        exact heeded_append (a := [_]) (quiet_one fun hr => hc ((raises_critical rfl).1 hr))
          (toldFindfdata_heeded w policy src stale ptell ts _)
    · exact Or.inl (quiet_notes policy n)

theorem toldContents_heeded (w : LoadWhats) (policy : Policy) (src : Source) (stale : Nat → Bytes)
    (ofs : Offsets) : Heeded w policy (toldContents w policy src stale ofs).1
      (toldContents w policy src stale ofs).2 := by
  have h1 := toldExtractAll_heeded w policy src w.tell ofs.explicits
  unfold toldContents
  dsimp only
  cases hx : (toldExtractAll w.io policy src w.tell ofs.explicits).2 with
  | raised => rw [hx] at h1; exact h1.imp_right fun h => ⟨h.1, rfl⟩
  | undefined => rw [hx] at h1; exact Or.inl (heeded_quiet h1 (by simp))
  | done recs =>
    rw [hx] at h1
    have q1 := heeded_quiet h1 (by simp)
    have h2 := toldSets_heeded w policy recs
    dsimp only
    cases hs : (toldSets policy recs).2 with
    | raised =>
      rw [hs] at h2
      exact heeded_append q1 (h2.imp_right fun h => ⟨h.1, rfl⟩)
    | undefined =>
      rw [hs] at h2
      exact Or.inl (quiet_append q1 (heeded_quiet h2 (by simp)))
    | done sets =>
      rw [hs] at h2
      have q2 := heeded_quiet h2 (by simp)
      have h3 := toldFindfdata_heeded w policy src stale w.tell ofs.implicits []
      refine heeded_append (quiet_append q1 q2) ?_
      rcases h3 with h | ⟨h, h'⟩
      · exact Or.inl h
      · exact Or.inr ⟨h, by rw [h']⟩

theorem toldParseFile_heeded (w : LoadWhats) (policy : Policy) (stale : Nat → Bytes) (isTif : Bool)
    (l : Layer) (x : Indexer) : Heeded w policy (toldParseFile w policy stale isTif l x).1
      (toldParseFile w policy stale isTif l x).2.2 := by
  unfold toldParseFile
  dsimp only
  have hc := toldContents_heeded w policy l.src stale (toldOffsets w.io l.src).res.ofs
  have hc' : Heeded w policy (toldContents w policy l.src stale (toldOffsets w.io l.src).res.ofs).1
      (match (toldContents w policy l.src stale (toldOffsets w.io l.src).res.ofs).2 with
        | .raised => Work.raised
        | .undefined => .undefined
        | .done _ => .done ()) := by
    rcases hc with h | ⟨h, h'⟩
    · exact Or.inl h
    · exact Or.inr ⟨h, by rw [h']⟩
  cases ht : (toldOffsets w.io l.src).told with
  | none =>
    rw [if_neg (by simp)]
    dsimp only [Option.toList_none, List.map_nil, List.nil_append]
    revert hc'
    rcases (toldContents w policy l.src stale (toldOffsets w.io l.src).res.ofs).2 with ⟨a, b⟩ | _ | _ <;>
      exact id
  | some s =>
    by_cases hp : policy .critical = true
    · rw [hp, if_pos (by simp)]
      exact heeded_one (s := .critical) rfl fun _ => rfl
    · rw [if_neg (by simp [hp])]
      refine heeded_append (quiet_one fun hr => hp ((raises_critical rfl).1 hr)) ?_
      revert hc'
      rcases (toldContents w policy l.src stale (toldOffsets w.io l.src).res.ofs).2 with ⟨a, b⟩ | _ | _ <;>
        exact id

theorem toldEof_heeded (w : LoadWhats) (policy : Policy) (l : Layer) (pos : Nat) (x : Indexer) :
    Heeded w policy (toldEof w policy l pos x).1 (toldEof w policy l pos x).2.2 := by
  unfold toldEof
  split
  · split
    · exact heeded_one (s := .critical) rfl fun h => by dsimp only; rw [h]; rfl
    · exact Or.inl (quiet_nil policy)
    · exact Or.inl (quiet_nil policy)
  · exact heeded_one (s := .critical) rfl fun h => by dsimp only; rw [h]; rfl

theorem toldReadSul_heeded (w : LoadWhats) (policy : Policy) (l : Layer) (p : Nat) (x : Indexer) :
    Heeded w policy (toldReadSul policy l p x).1 (toldReadSul policy l p x).2.2 := by
  unfold toldReadSul
  split
  · exact Or.inl (quiet_nil policy)
  · exact heeded_one (s := .major) rfl fun h => by dsimp only; rw [h]; rfl
  · exact Or.inl (quiet_nil policy)

theorem toldNoSul_heeded (w : LoadWhats) (policy : Policy) (expected : Bool) (what : Text) (x : Indexer) :
    Heeded w policy (toldNoSul policy expected what x).1 (toldNoSul policy expected what x).2.2 := by
  unfold toldNoSul
  split
  · exact heeded_one (s := .minor) rfl fun h => by dsimp only; rw [h]; rfl
  · exact Or.inl (quiet_nil policy)

theorem toldSul_heeded (w : LoadWhats) (policy : Policy) (l : Layer) (x : Indexer) :
    Heeded w policy (toldSul w policy l x).1 (toldSul w policy l x).2.2 := by
  unfold toldSul
  dsimp only
  generalize (decide (x.sul.getD [] = []) && decide (x.files = [])) = expected
  have hs := c90_findsul w policy expected l 0
  generalize toldFindsul w policy expected l 0 = s at hs
  have hmore : Spec.LetPass policy [moreSul] := by
    intro r hr _
    rw [List.mem_singleton] at hr
    subst hr
    exact Or.inr rfl
  cases hs with
  | here h =>
    dsimp only
    split
    · exact toldReadSul_heeded w policy l 0 x
    · split
      · exact heeded_append (a := [_]) hmore (toldNoSul_heeded w policy expected _ x)
      · exact heeded_append (a := [_]) hmore (toldReadSul_heeded w policy l 0 x)
  | unexpected h hx => exact toldNoSul_heeded w policy expected _ x
  | missing what h hx hn => exact toldNoSul_heeded w policy expected _ x
  | later p late h hx hl hr =>
    subst hx
    by_cases hm : policy .minor = true
    · simp only [hm, if_true]
      refine Or.inr ⟨⟨[], noSul (w.raised late), (raises_known rfl).2 hm, quiet_nil policy,
        Or.inr ⟨late, _, _, hr, rfl, rfl⟩⟩, ?_⟩
      unfold toldNoSul
      rw [if_pos rfl, if_pos hm]
    · simp only [hm, if_true, Bool.false_eq_true, if_false]
      exact heeded_append (quiet_one fun h => hm ((raises_known hr.minor).1 h))
        (toldReadSul_heeded w policy l p x)

theorem toldAfter_heeded (w : LoadWhats) (d : Disk) (policy : Policy) (stale : Nat → Bytes) (l : Layer)
    (pos : Nat) (x : Indexer) : Heeded w policy (toldAfter w d policy stale l pos x).1
      (toldAfter w d policy stale l pos x).2.2 := by
  have h1 := toldEof_heeded w policy l pos x
  unfold toldAfter
  dsimp only
  rcases hx : (toldEof w policy l pos x).2 with ⟨z, (_ | _) | _ | _⟩
  · rw [hx] at h1
    have q1 := heeded_quiet h1 (by simp)
    dsimp only
    have hs := c90_findvrl w policy l pos
    generalize toldFindvrl w policy l pos = s at hs
    have all : ∀ (q : Nat) (rs : List Report), Spec.LetPass policy rs →
        Heeded w policy (match d.rp66 z.next q with
          | none => ((toldEof w policy l pos x).1 ++ rs, z, .raised)
          | some r =>
            ((toldEof w policy l pos x).1 ++ rs ++ (toldParseFile w policy stale d.isTif r z).1,
              (toldParseFile w policy stale d.isTif r z).2) : List Report × Indexer × Work Unit).1
          (match d.rp66 z.next q with
          | none => ((toldEof w policy l pos x).1 ++ rs, z, .raised)
          | some r =>
            ((toldEof w policy l pos x).1 ++ rs ++ (toldParseFile w policy stale d.isTif r z).1,
              (toldParseFile w policy stale d.isTif r z).2) : List Report × Indexer × Work Unit).2.2 := by
      intro q rs hq
      cases d.rp66 z.next q with
      | none => exact Or.inl (quiet_append q1 hq)
      | some f => exact heeded_append (quiet_append q1 hq) (toldParseFile_heeded w policy stale d.isTif f z)
    cases hs with
    | here h => exact all pos [] (quiet_nil policy)
    | missing what h hn => exact Or.inl (quiet_append q1 (quiet_nil policy))
    | later p late h hl hr =>
      by_cases hm : policy .minor = true
      · simp only [hm, if_true]
        exact heeded_append q1 (heeded_one hr.minor fun _ => rfl)
      · simp only [hm, Bool.false_eq_true, if_false]
        exact all p [late] (quiet_one fun h => hm ((raises_known hr.minor).1 h))
  · rw [hx] at h1; exact Or.inl (heeded_quiet h1 (by simp))
  · rw [hx] at h1; exact h1.imp_right fun h => ⟨h.1, rfl⟩
  · rw [hx] at h1; exact Or.inl (heeded_quiet h1 (by simp))

theorem toldRound_heeded (w : LoadWhats) (d : Disk) (policy : Policy) (stale : Nat → Bytes) (x : Indexer) :
    Heeded w policy (toldRound w d policy stale x).1 (toldRound w d policy stale x).2.2 := by
  unfold toldRound
  split
  · exact Or.inl (quiet_nil policy)
  · dsimp only
    split
    · exact Or.inl (quiet_nil policy)
    · generalize { x with stream := some x.opened, opened := x.opened + 1 } = x0
      have h1 := toldEof_heeded w policy (d.layer x.next) 0 x0
      rcases hx : (toldEof w policy (d.layer x.next) 0 x0).2 with ⟨z, (_ | _) | _ | _⟩
      · rw [hx] at h1
        have q1 := heeded_quiet h1 (by simp)
        dsimp only
        have h2 := toldSul_heeded w policy (d.layer x.next) z
        rcases hy : (toldSul w policy (d.layer x.next) z).2 with ⟨y, pos | _ | _⟩
        · rw [hy] at h2
          exact heeded_append (quiet_append q1 (heeded_quiet h2 (by simp)))
            (toldAfter_heeded w d policy stale (d.layer x.next) pos y)
        · rw [hy] at h2
          exact heeded_append q1 (h2.imp_right fun h => ⟨h.1, rfl⟩)
        · rw [hy] at h2
          exact Or.inl (quiet_append q1 (heeded_quiet h2 (by simp)))
      · rw [hx] at h1; exact Or.inl (heeded_quiet h1 (by simp))
      · rw [hx] at h1; exact h1.imp_right fun h => ⟨h.1, rfl⟩
      · rw [hx] at h1; exact Or.inl (heeded_quiet h1 (by simp))

theorem toldLoop_heeded (w : LoadWhats) (d : Disk) (policy : Policy) (stale : Nat → Bytes) :
    ∀ (n : Nat) (x : Indexer), Spec.LetPass policy (toldLoop w d policy stale n x).1 ∨
      Spec.Ends w policy (toldLoop w d policy stale n x).1 ∧
        (toldLoop w d policy stale n x).2.2 = .raised
  | 0, _ => Or.inl (quiet_nil policy)
  | n + 1, x => by
    rw [toldLoop]
    split
    · exact Or.inl (quiet_nil policy)
    · have h1 := toldRound_heeded w d policy stale x
      dsimp only
      rcases hy : (toldRound w d policy stale x).2 with ⟨y, _ | _ | _⟩
      · rw [hy] at h1
        have q1 := heeded_quiet h1 (by simp)
        rcases toldLoop_heeded w d policy stale n y with h | ⟨h, h'⟩
        · exact Or.inl (quiet_append q1 h)
        · exact Or.inr ⟨ends_append q1 h, h'⟩
      · rw [hy] at h1; exact h1.imp_right fun h => ⟨h.1, rfl⟩
      · rw [hy] at h1; exact Or.inl (heeded_quiet h1 (by simp))

/-- C90.  When the error handler raises an exception because of something that is reported while a file is
loaded, then loading ends with an exception, and nothing else is reported; exceptions are notes about
trailers, the note that there is a further label, and a late label, after which it is reported that
there is none. -/
theorem c90_stops (w : LoadWhats) (d : Disk) (policy : Policy) (stale : Nat → Bytes) (n : Nat) :
    Spec.LetPass policy (toldLoad w d policy stale n).1 ∨
      Spec.Ends w policy (toldLoad w d policy stale n).1 ∧ (load d policy stale n).2 = .raised := by
  rw [← c90_same w]
  unfold toldLoad
  cases d.mark with
  | ok tm => exact toldLoop_heeded w d policy stale n _
  | _ => exact Or.inl (quiet_nil policy)

/-! ### Nothing is passed over in silence -/

theorem readLog_silent {say : Nat → Text → Report} {w : Whats} {policy : Policy} {src : Source}
    {tells : List Nat} {rs : List Report} {b : Bool} (h : Spec.ReadLog say w policy src tells rs b) :
    rs = [] → b = true → ∀ t ∈ tells, ∃ x, extract policy src t = .ok x := by
  induction h with
  | nil => intro _ _ t ht; cases ht
  | stop ts => intro _ h; cases h
  | note h hr ih => intro h; cases h
  | good h hr ih =>
    intro h1 h2 t ht
    rcases List.mem_cons.1 ht with rfl | ht
    · exact ⟨_, h⟩
    · exact ih h1 h2 t ht
  | bad h ht hr ih => intro h; cases h

theorem setLog_silent {recs : List Record} {rs : List Report} {b : Bool} (h : Spec.SetLog recs rs b) :
    rs = [] → b = true → ∀ rec ∈ recs, rec.attributes.toNat / 2 ^ 4 % 2 = 1 ∨
      ∃ s, ObjectSet.new rec.data = .ok s := by
  induction h with
  | nil => intro _ _ t ht; cases ht
  | stop ts => intro _ h; cases h
  | encrypted h hr ih =>
    intro h1 h2 t ht
    rcases List.mem_cons.1 ht with rfl | ht
    · exact Or.inl h
    · exact ih h1 h2 t ht
  | good h hs hr ih =>
    intro h1 h2 t ht
    rcases List.mem_cons.1 ht with rfl | ht
    · exact Or.inr ⟨_, hs⟩
    · exact ih h1 h2 t ht
  | bad h ht hr ih => intro h; cases h

theorem extractAll_all {policy : Policy} {src : Source} : ∀ {tells : List Nat} {recs : List Record},
    extractAll policy src tells = .done recs → ∀ t ∈ tells, ∀ rec n, extract policy src t = .ok (rec, n) →
      rec.data = [] ∨ rec ∈ recs
  | [], _, _, t, ht, _, _, _ => by cases ht
  | t :: ts, recs, h, t', ht, rec, n, hx => by
    rw [extractAll] at h
    cases he : extract policy src t with
    | error er =>
      rw [he] at h
      have : extractAll policy src ts = .done recs := by
        cases er <;> dsimp only at h <;>
          first | (cases h; done) | (split at h <;> first | (cases h; done) | exact h)
      rcases List.mem_cons.1 ht with rfl | ht
      · rw [he] at hx; cases hx
      · exact extractAll_all this t' ht rec n hx
    | ok y =>
      obtain ⟨rec', n'⟩ := y
      rw [he] at h
      dsimp only at h
      cases hr : extractAll policy src ts with
      | raised => rw [hr] at h; cases h
      | undefined => rw [hr] at h; cases h
      | done rs =>
        rw [hr] at h
        simp only [Work.done.injEq] at h
        rcases List.mem_cons.1 ht with rfl | ht
        · rw [he] at hx
          cases hx
          by_cases h0 : rec.data.length > 0
          · rw [if_pos h0] at h
            exact Or.inr (h ▸ List.mem_cons_self)
          · left
            exact List.length_eq_zero_iff.1 (by omega)
        · rcases extractAll_all hr t' ht rec n hx with h1 | h1
          · exact Or.inl h1
          · refine Or.inr (h ▸ ?_)
            split
            · exact List.mem_cons_of_mem _ h1
            · exact h1

theorem toldFindfdata_some (w : LoadWhats) (policy : Policy) (src : Source) (stale : Nat → Bytes)
    (ptell : Nat → Nat) : ∀ (tells : List Nat) (m : List (Bytes × List Nat)),
      fdataStop policy src stale tells = .done () →
      ∃ m', (toldFindfdata w.io policy src stale ptell m tells).2 = some m'
  | [], m, _ => ⟨m, rfl⟩
  | t :: ts, m, h => by
    rw [fdataStop, toldFdataStep_plain w.io] at h
    rw [toldFindfdata]
    rcases hx : toldFdataStep w.io policy src (stale t) t with ⟨fp | _ | what | _, n⟩ <;> rw [hx] at h
    · exact toldFindfdata_some w policy src stale ptell ts _ h
    · exact toldFindfdata_some w policy src stale ptell ts _ h
    · dsimp only [ToldStep.plain] at h ⊢
      split at h
      · cases h
      · rename_i hc
        rw [if_neg hc]
        exact toldFindfdata_some w policy src stale ptell ts _ h
    · cases h

namespace Spec

/-- All is well with a logical file: no record is broken, each record with a set can be read, and a set be
made of it, unless it is empty or encrypted, and the data of frames can be assigned to frames. -/
structure Sound (policy : Policy) (src : Source) : Prop where
  index : (findoffsetsRaw src).ofs.broken = []
  sets : ∀ t ∈ (findoffsetsRaw src).ofs.explicits, ∃ rec n, extract policy src t = .ok (rec, n) ∧
    (rec.data = [] ∨ rec.attributes.toNat / 2 ^ 4 % 2 = 1 ∨ ∃ s, ObjectSet.new rec.data = .ok s)
  fdata : ∀ t ∈ (findoffsetsRaw src).ofs.implicits, ¬ LeftOut policy src t

end Spec

open Classical in
theorem toldParseFile_silent {w : LoadWhats} {policy : Policy} {stale : Nat → Bytes} {isTif : Bool}
    {l : Layer} {x y : Indexer} (hst : ∀ t, 262 ≤ (stale t).length)
    (h0 : (toldParseFile w policy stale isTif l x).1 = [])
    (hd : (toldParseFile w policy stale isTif l x).2 = (y, .done ())) : Spec.Sound policy l.src := by
  obtain ⟨h1, h2, -⟩ := c89_index w.io l.src
  unfold toldParseFile at h0 hd
  dsimp only at h0 hd
  cases ht : (toldOffsets w.io l.src).told with
  | some s =>
    rw [ht] at h0
    split at h0 <;> simp at h0
  | none =>
    rw [ht] at h0 hd
    rw [if_neg (by simp)] at h0 hd
    rw [h1] at h0 hd
    dsimp only [Option.toList_none, List.map_nil, List.nil_append] at h0 hd
    obtain ⟨a1, b, a2, a3⟩ := c89_raw w.io policy l.src w.tell (findoffsetsRaw l.src).ofs.explicits
    have hcon : ∃ z, (toldContents w policy l.src stale (findoffsetsRaw l.src).ofs).2 = .done z := by
      rcases hc : (toldContents w policy l.src stale (findoffsetsRaw l.src).ofs).2 with z | _ | _
      · exact ⟨z, rfl⟩
      · rw [hc] at hd; simp at hd
      · rw [hc] at hd; simp at hd
    obtain ⟨z, hz⟩ := hcon
    unfold toldContents at h0 hz
    dsimp only at h0 hz
    rw [a1] at h0 hz
    cases hx : extractAll policy l.src (findoffsetsRaw l.src).ofs.explicits with
    | raised => rw [hx] at hz; cases hz
    | undefined => rw [hx] at hz; cases hz
    | done recs =>
      rw [hx] at h0 hz
      dsimp only at h0 hz
      obtain ⟨s1, b', s2, s3⟩ := c89_sets policy recs
      rw [s1] at h0 hz
      cases hs : objectSets policy recs with
      | raised => rw [hs] at hz; cases hz
      | undefined => rw [hs] at hz; cases hz
      | done sets =>
        rw [hs] at h0 hz
        dsimp only at h0 hz
        obtain ⟨f1, -, f3⟩ := c89_fdata w.io policy l.src stale w.tell (findoffsetsRaw l.src).ofs.implicits
        simp only [List.append_eq_nil_iff] at h0
        obtain ⟨-, ⟨h0a, h0b⟩, h0c⟩ := h0
        have hread := readLog_silent a2 h0a (a3 recs hx)
        have hset := setLog_silent s2 h0b (s3 sets hs)
        refine ⟨h2.1 ht, ?_, ?_⟩
        · intro t hm
          obtain ⟨⟨rec, n⟩, he⟩ := hread t hm
          refine ⟨rec, n, he, ?_⟩
          rcases extractAll_all hx t hm rec n he with h | h
          · exact Or.inl h
          · exact Or.inr (hset rec h)
        · have hfd : ∃ m, (toldFindfdata w.io policy l.src stale w.tell []
              (findoffsetsRaw l.src).ofs.implicits).2 = some m := by
            have : fdataStop policy l.src stale (findoffsetsRaw l.src).ofs.implicits = .done () := by
              cases hf : fdataStop policy l.src stale (findoffsetsRaw l.src).ofs.implicits with
              | done u => rfl
              | raised => rw [hf] at hz; cases hz
              | undefined => rw [hf] at hz; cases hz
            exact toldFindfdata_some w policy l.src stale w.tell _ _ this
          obtain ⟨m, hm⟩ := hfd
          have := f3 hst m hm
          rw [h0c] at this
          simp only [List.filter_nil] at this
          cases hfi : List.filter (fun t => decide (Spec.LeftOut policy l.src t))
            (findoffsetsRaw l.src).ofs.implicits with
          | cons a as => rw [hfi] at this; cases this
          | nil =>
            intro t ht' hlo
            have : t ∈ List.filter (fun t => decide (Spec.LeftOut policy l.src t))
              (findoffsetsRaw l.src).ofs.implicits := List.mem_filter.2 ⟨ht', by simpa using hlo⟩
            rw [hfi] at this
            cases this

theorem toldSul_silent {w : LoadWhats} {policy : Policy} {l : Layer} {x z : Indexer} {pos : Nat}
    (h0 : (toldSul w policy l x).1 = []) (hd : (toldSul w policy l x).2 = (z, .done pos)) :
    Spec.LabelAt l.src 0 ∧ Spec.Expected x ∧ 80 ≤ l.src.data.length ∧ pos = 80 ∧
        z.sul = some (l.src.data.take 80) ∨
      ¬ Spec.LabelAt l.src 0 ∧ ¬ Spec.Expected x ∧ pos = 0 ∧ z.sul = x.sul := by
  have he := expected_iff x
  unfold toldSul at h0 hd
  dsimp only at h0 hd
  generalize (decide (x.sul.getD [] = []) && decide (x.files = [])) = expected at he h0 hd
  have hs := c90_findsul w policy expected l 0
  generalize toldFindsul w policy expected l 0 = s at hs h0 hd
  cases hs with
  | here h =>
    dsimp only at h0 hd
    by_cases hx : expected = true
    · rw [if_pos hx] at h0 hd
      refine Or.inl ⟨h, he.1 hx, ?_⟩
      unfold toldReadSul at h0 hd
      cases hr : readAt l.src 0 80 with
      | error => rw [hr] at hd; simp at hd
      | eof bs => rw [hr] at h0; simp at h0
      | ok bs =>
        obtain ⟨h1, h2⟩ := readAt_ok hr (by omega)
        rw [hr] at hd
        simp only [Prod.mk.injEq, Work.done.injEq] at hd
        obtain ⟨rfl, rfl⟩ := hd
        rw [h2]
        exact ⟨by omega, by simp; omega, by simp⟩
    · rw [if_neg hx] at h0
      split at h0 <;> simp at h0
  | unexpected h hx =>
    subst hx
    simp only [toldNoSul, Bool.false_eq_true, if_false, Prod.mk.injEq, Work.done.injEq] at hd
    exact Or.inr ⟨h, fun h => absurd (he.2 h) (by simp), hd.2.symm, by rw [← hd.1]⟩
  | missing what h hx hn =>
    subst hx
    simp [toldNoSul] at h0
  | later p late h hx hl hr =>
    subst hx
    cases hm : policy .minor <;> rw [hm] at h0 <;> simp [toldNoSul] at h0

theorem toldEof_silent {w : LoadWhats} {policy : Policy} {l : Layer} {pos : Nat} {x z : Indexer} {b : Bool}
    (h0 : (toldEof w policy l pos x).1 = []) (hd : (toldEof w policy l pos x).2 = (z, .done b)) :
    if b then l.src.ending = .eof ∧ l.src.data.length ≤ pos else pos < l.src.data.length ∧ z = x := by
  unfold toldEof at h0 hd
  split at h0
  · rename_i hs
    rw [if_pos hs] at hd
    cases hr : readAt l.src pos 1 with
    | error => rw [hr] at h0; cases h0
    | eof bs =>
      obtain ⟨h1, h2, -⟩ := readAt_eof hr
      rw [hr] at hd
      dsimp only at hd
      have : b = true := by split at hd <;> simp at hd <;> simp [hd]
      subst this
      exact ⟨h1, by omega⟩
    | ok bs =>
      obtain ⟨h1, -⟩ := readAt_ok hr (by omega)
      rw [hr] at hd
      simp only [Prod.mk.injEq, Work.done.injEq] at hd
      obtain ⟨rfl, rfl⟩ := hd
      exact ⟨by omega, rfl⟩
  · cases h0

/-- C90.  If nothing is reported in a round that does not end with an exception, then all is well with it:
the stream that is opened is empty; or there is a label at its start if and only if one is
expected, the label is complete and is what is kept, and behind it the stream ends or there is a visible record with a
logical file of which nothing is left out. -/
theorem c90_silent (w : LoadWhats) (d : Disk) (policy : Policy) (stale : Nat → Bytes) (x y : Indexer)
    (hst : ∀ t, 262 ≤ (stale t).length) (h0 : (toldRound w d policy stale x).1 = [])
    (hd : iteration d policy stale x = (y, .done ())) :
    (d.layer x.next).src = ⟨[], .eof⟩ ∨
    ∃ pos, (Spec.LabelAt (d.layer x.next).src 0 ∧ Spec.Expected x ∧ pos = 80 ∨
        ¬ Spec.LabelAt (d.layer x.next).src 0 ∧ ¬ Spec.Expected x ∧ pos = 0) ∧
      ((d.layer x.next).src.data.length = pos ∧ (d.layer x.next).src.ending = .eof ∨
        Spec.VrAt (d.layer x.next).src pos ∧ ∃ f, d.rp66 x.next pos = some f ∧ Spec.Sound policy f.src) := by
  rw [← toldRound_plain w] at hd
  unfold toldRound at h0 hd
  split at h0
  · rename_i ho; rw [if_pos ho] at hd; simp at hd
  · rename_i ho
    rw [if_neg ho] at hd
    dsimp only at h0 hd
    split at h0
    · rename_i ht; rw [if_pos ht] at hd; simp at hd
    · rename_i ht
      rw [if_neg ht] at hd
      rcases hx : (toldEof w policy (d.layer x.next) 0
        { x with stream := some x.opened, opened := x.opened + 1 }).2 with ⟨z, (_ | _) | _ | _⟩
      · rw [hx] at h0 hd
        dsimp only at h0 hd
        rcases hy : (toldSul w policy (d.layer x.next) z).2 with ⟨u, pos | _ | _⟩
        · rw [hy] at h0 hd
          simp only [List.append_eq_nil_iff] at h0
          obtain ⟨⟨h0a, h0b⟩, h0c⟩ := h0
          dsimp only at hd
          obtain ⟨hlt, rfl⟩ := toldEof_silent h0a hx
          have hs := toldSul_silent h0b hy
          have hex : Spec.Expected { x with stream := some x.opened, opened := x.opened + 1 } ↔
              Spec.Expected x := Iff.rfl
          rw [hex] at hs
          have hn : u.next = x.next := by
            have := (findReadSul_next (policy := policy) (l := d.layer x.next)
              { x with stream := some x.opened, opened := x.opened + 1 }).1
            rw [← toldSul_plain w, hy] at this
            exact this
          have hpos : (Spec.LabelAt (d.layer x.next).src 0 ∧ Spec.Expected x ∧ pos = 80 ∨
              ¬ Spec.LabelAt (d.layer x.next).src 0 ∧ ¬ Spec.Expected x ∧ pos = 0) ∧
              pos ≤ (d.layer x.next).src.data.length := by
            rcases hs with ⟨a, b, c, e, -⟩ | ⟨a, b, c, -⟩
            · exact ⟨Or.inl ⟨a, b, e⟩, by omega⟩
            · exact ⟨Or.inr ⟨a, b, c⟩, by omega⟩
          refine Or.inr ⟨pos, hpos.1, ?_⟩
          unfold toldAfter at h0c hd
          dsimp only at h0c hd
          rcases hz : (toldEof w policy (d.layer x.next) pos u).2 with ⟨v, (_ | _) | _ | _⟩
          · rw [hz] at h0c hd
            dsimp only at h0c hd
            have hv := c90_findvrl w policy (d.layer x.next) pos
            generalize toldFindvrl w policy (d.layer x.next) pos = s at hv h0c hd
            cases hv with
            | here h =>
              refine Or.inr ⟨h, ?_⟩
              dsimp only at h0c hd
              cases hr : d.rp66 v.next pos with
              | none => rw [hr] at hd; simp at hd
              | some f =>
                rw [hr] at h0c hd
                simp only [List.append_eq_nil_iff] at h0c
                have hvu := (toldEof_silent h0c.1.1 hz).2
                rw [hvu, hn] at hr
                exact ⟨f, hr, toldParseFile_silent hst h0c.2 hd⟩
            | missing what h hn => simp at hd
            | later p late h hl hr =>
              exfalso
              split at h0c
              · split at h0c <;> simp at h0c
              · simp at h0c
          · rw [hz] at h0c
            obtain ⟨h1, h2⟩ := toldEof_silent h0c hz
            exact Or.inl ⟨by omega, h1⟩
          · rw [hz] at hd; simp at hd
          · rw [hz] at hd; simp at hd
        · rw [hy] at hd; simp at hd
        · rw [hy] at hd; simp at hd
      · rw [hx] at h0
        left
        obtain ⟨h1, h2⟩ := toldEof_silent h0 hx
        have h3 : (d.layer x.next).src.data = [] := List.length_eq_zero_iff.1 (by omega)
        rcases hsrc : (d.layer x.next).src with ⟨a, b⟩
        rw [hsrc] at h1 h3
        simp only at h1 h3
        rw [h1, h3]
      · rw [hx] at hd; simp at hd
      · rw [hx] at hd; simp at hd

/-! ### Places -/

/-- C90.  In a file without tape marks the places that are reported are those in the file: when a label is
late, the first `RECORD` is 9 bytes behind the place where it is said to be found. -/
theorem c90_label_place (w : LoadWhats) (policy : Policy) (expected : Bool) (file : Bytes) (k : Nat)
    (r : Report) (h : (toldFindsul w policy expected ((rawDisk file).layer k) 0).1 = [r]) :
    ∃ p, k < p ∧ r.debug = text "SUL found at ptell " ++ Text.ofNat p ++
        text " (dec), but expected at " ++ Text.ofNat k ∧
      Spec.OccursAt Spec.recordText file (p + 9) ∧
      ∀ j, k ≤ j → j < p + 9 → ¬ Spec.OccursAt Spec.recordText file j := by
  have hs := c90_findsul w policy expected ((rawDisk file).layer k) 0
  generalize toldFindsul w policy expected ((rawDisk file).layer k) 0 = s at hs h
  cases hs with
  | here h' => cases h
  | unexpected h' he => cases h
  | missing what h' he hn => cases h
  | later p r' h' he hl hr =>
    cases h
    obtain ⟨hlt, win, ⟨hw, -⟩, ⟨h1, h2⟩⟩ := hl
    change win = ((file.drop k).drop 0).take 1700 at hw
    rw [List.drop_zero] at hw
    have hin : p - 0 + 9 + 6 ≤ win.length := by
      have := (occurs_bytes.1 h1).2
      simpa [Spec.recordText] using this
    have hle : win.length ≤ 1700 ∧ win.length ≤ file.length - k := by
      rw [hw]; simp
    have up : ∀ i, i + 6 ≤ win.length →
        (Spec.OccursAt Spec.recordText win i ↔ Spec.OccursAt Spec.recordText file (k + i)) := by
      intro i hi
      rw [occurs_bytes, occurs_bytes]
      have hl6 : Spec.recordText.length = 6 := rfl
      rw [hl6]
      have : (win.drop i).take 6 = (file.drop (k + i)).take 6 := by
        rw [hw, List.drop_take, List.take_take, List.drop_drop, Nat.min_eq_left (by omega)]
      rw [this]
      constructor
      · rintro ⟨a, b⟩; exact ⟨a, by omega⟩
      · rintro ⟨a, b⟩; exact ⟨a, hi⟩
    refine ⟨k + p, by omega, hr.debug, ?_, ?_⟩
    · have := (up (p - 0 + 9) hin).1 h1
      rwa [show k + (p - 0 + 9) = k + p + 9 by omega] at this
    · intro j h3 h4 h5
      refine h2 (j - k) (by omega) ((up (j - k) (by omega)).2 ?_)
      rwa [show k + (j - k) = j by omega]

/-- C90.  The same for visible records: the first `FF 01` is 2 bytes behind the place where a late
visible record is said to be found. -/
theorem c90_vr_place (w : LoadWhats) (policy : Policy) (file : Bytes) (k pos : Nat) (r : Report)
    (h : (toldFindvrl w policy ((rawDisk file).layer k) pos).1 = [r]) :
    ∃ p, k + pos < p ∧ r.debug = text "VR found at ptell " ++ Text.ofNat p ++
        text " (dec), but expected at " ++ Text.ofNat (k + pos) ∧
      Spec.OccursAt Spec.ff01 file (p + 2) ∧
      ∀ j, k + pos ≤ j → j < p + 2 → ¬ Spec.OccursAt Spec.ff01 file j := by
  have hs := c90_findvrl w policy ((rawDisk file).layer k) pos
  generalize toldFindvrl w policy ((rawDisk file).layer k) pos = s at hs h
  cases hs with
  | here h' => cases h
  | missing what h' hn => cases h
  | later p r' h' hl hr =>
    cases h
    obtain ⟨hlt, win, ⟨hw, -⟩, ⟨h1, h2⟩⟩ := hl
    change win = ((file.drop k).drop pos).take 200 at hw
    rw [List.drop_drop] at hw
    have hin : p - pos + 2 + 2 ≤ win.length := by
      have := (occurs_bytes.1 h1).2
      simpa [Spec.ff01] using this
    have hle : win.length ≤ 200 ∧ win.length ≤ file.length - (k + pos) := by
      rw [hw]; simp
    have up : ∀ i, i + 2 ≤ win.length →
        (Spec.OccursAt Spec.ff01 win i ↔ Spec.OccursAt Spec.ff01 file (k + pos + i)) := by
      intro i hi
      rw [occurs_bytes, occurs_bytes]
      have hl6 : Spec.ff01.length = 2 := rfl
      rw [hl6]
      have : (win.drop i).take 2 = (file.drop (k + pos + i)).take 2 := by
        rw [hw, List.drop_take, List.take_take, List.drop_drop, Nat.min_eq_left (by omega)]
      rw [this]
      constructor
      · rintro ⟨a, b⟩; exact ⟨a, by omega⟩
      · rintro ⟨a, b⟩; exact ⟨a, hi⟩
    refine ⟨k + pos + (p - pos), by omega, hr.debug, ?_, ?_⟩
    · have := (up (p - pos + 2) hin).1 h1
      rwa [show k + pos + (p - pos + 2) = k + pos + (p - pos) + 2 by omega] at this
    · intro j h3 h4 h5
      refine h2 (j - (k + pos)) (by omega) ((up (j - (k + pos)) (by omega)).2 ?_)
      rwa [show k + pos + (j - (k + pos)) = j by omega]

/-- Texts for cases. -/
def exWhats : LoadWhats where
  io := ⟨text "r", text "s", text "l", text "h"⟩
  sliced := text "std::exception"
  raised := formatError
  tell := fun p => p

/-- Three bytes in front of the label. -/
def exLate : Bytes := [0x20, 0x20, 0x20] ++ exLabel ++ exFile2.bytes

/-- Case: they are reported. -/
example : (toldLoad exWhats (rawDisk exLate) exPolicy exStale 9).1.map formatError =
      [text ("\nProblem:      Unexpected bytes found before SUL\nWhere:        dlis::findsul: Searching for SUL" ++
        "\nSeverity:     minor\nRP66V1 ref:   2.3.2 Storage Unit Label (SUL): The first 80 bytes of the Visible " ++
        "Envelope ... constitute a Storage Unit Label.\nAction taken: Unexpected bytes are ignored" ++
        "\nDebug info:   SUL found at ptell 3 (dec), but expected at 0")] ∧
    (load (rawDisk exLate) exPolicy exStale 9).2 = .files := by
  decide +kernel

/-- Case: the label is cut off. -/
example : (toldLoad exWhats (rawDisk (exLabel.take 20)) (fun _ => false) exStale 9).1.map (·.problem) =
      [text "SUL is expected to be 80 bytes, but was 20"] ∧
    (load (rawDisk (exLabel.take 20)) exPolicy exStale 9).2 = .raised := by
  decide +kernel

/-- Case: nothing is reported about a file that is in order.  If the label of it is cut off, the error
handler is told so, and if it raises that is the last that happens. -/
example : (toldLoad exWhats (rawDisk (exLabel ++ exFile2.bytes)) exPolicy exStale 9).1 = [] ∧
    (load (rawDisk (exLabel ++ exFile2.bytes)) exPolicy exStale 9).2 = .files ∧
    (toldLoad exWhats (rawDisk (exLabel.take 20)) exPolicy exStale 9).1.length = 1 ∧
    (load (rawDisk (exLabel.take 20)) exPolicy exStale 9).2 = .raised := by
  decide +kernel

/-! ### Where reports are not true -/

/-- C90 is violated on tapes: the place of a late label is reported as if there were no tape marks in
between.  Here the label is said to be found at 15, but it begins at 27, and what is at 15 is a tape
mark. -/
theorem c90_place_defect :
    let file := Spec.tapeBytes 0 0 [.data [0x20, 0x20, 0x20], .data (exLabel ++ exFile2.bytes)]
    (toldLoad exWhats (tapeDisk file) exPolicy exStale 9).1.map (·.debug) =
      [text "SUL found at ptell 15 (dec), but expected at 12"] ∧
    (file.drop 27).take 80 = exLabel ∧ (file.drop 15).take 12 ≠ exLabel.take 12 ∧
    (tapeLayer file 0).ptell 3 = 27 ∧
    (load (tapeDisk file) exPolicy exStale 9).1.sul = some exLabel := by
  decide +kernel

/-- C90 is violated when the error handler raises on minor problems and the label is late: it is then
reported that there is none, as the reason for which it is said that it was found. -/
theorem c90_none_defect (w : LoadWhats) (policy : Policy) (l : Layer) (x : Indexer) (p : Nat)
    (hm : policy .minor = true) (he : Spec.Expected x) (h : ¬ Spec.LabelAt l.src 0)
    (hl : Spec.LabelLater l.src 0 p) :
    ∃ late none, toldSul w policy l x = ([late, none], x, .raised) ∧
      none.problem = text "Exactly one SUL is expected at the start of the file, but found none: " ++
        w.raised late ∧ Spec.Late "SUL" late (l.ptell 0) p := by
  have hx := (expected_iff x).2 he
  have hs := c90_findsul w policy true l 0
  unfold toldSul
  dsimp only
  rw [hx]
  generalize toldFindsul w policy true l 0 = s at hs
  cases hs with
  | here h' => exact absurd h' h
  | unexpected h' he => cases he
  | missing what h' he hn =>
    exfalso
    obtain ⟨hlt, win, hw, hf⟩ := hl
    cases hn with
    | absent win' h hw' ho => exact ho _ (window_unique hw hw' ▸ hf.1)
    | part win' i h hw' ho hi => exact hf.2 i (by omega) (window_unique hw' hw ▸ ho.1)
    | failed h hs he =>
      rcases hw.2 with h1 | h1
      · exact hs h1
      · omega
  | later q late h' he' hl' hr =>
    have hq : q = p := by
      obtain ⟨h1, win, hw, hf⟩ := hl
      obtain ⟨h2, win', hw', hf'⟩ := hl'
      have := window_unique hw' hw
      subst this
      rcases Nat.lt_trichotomy q p with hlt | heq | hgt
      · exact absurd hf'.1 (hf.2 _ (by omega))
      · exact heq
      · exact absurd hf.1 (hf'.2 _ (by omega))
    subst hq
    simp only [hm, if_true]
    refine ⟨late, noSul (w.raised late), ?_, rfl, by simpa using hr⟩
    unfold toldNoSul
    rw [if_pos rfl, if_pos hm]
    rfl

/-- Case: bytes in front of the label. -/
example : (toldLoad exWhats (rawDisk exLate) (fun s => s == .minor) exStale 9).1.map (·.debug) =
      [text "SUL found at ptell 3 (dec), but expected at 0", []] ∧
    (load (rawDisk exLate) (fun s => s == .minor) exStale 9).2 = .raised ∧
    (exLate.drop 3).take 80 = exLabel := by
  decide +kernel

/-- C90.  A further label when the error handler raises on minor problems: the exception is passed over and
the label is not read, although it is said that it will be.  If there is no visible record in its
place, which a label of printable characters is not, then loading ends with an exception all the same, for
the label is then in front of the visible record. -/
theorem c90_second_label (w : LoadWhats) (d : Disk) (policy : Policy) (stale : Nat → Bytes) (x : Indexer)
    (hm : policy .minor = true) (he : ¬ Spec.Expected x)
    (h : Spec.LabelAt (d.layer x.next).src 0) :
    (∃ r, toldSul w policy (d.layer x.next) x = ([r], x, .done 0) ∧ Spec.Raises policy r ∧
      r.action = text "New SUL will be read") ∧
    (¬ Spec.VrAt (d.layer x.next).src 0 → (iteration d policy stale x).2 = .raised) := by
  have key : ∀ z : Indexer, z.sul = x.sul → z.files = x.files →
      toldSul w policy (d.layer x.next) z = ([moreSul], z, .done 0) := by
    intro z h1 h2
    have hx : (decide (z.sul.getD [] = []) && decide (z.files = [])) = false := by
      rw [Bool.eq_false_iff]
      intro hc
      have := (expected_iff z).1 hc
      apply he
      unfold Spec.Expected at this ⊢
      rwa [h1, h2] at this
    have hs := c90_findsul w policy false (d.layer x.next) 0
    unfold toldSul
    dsimp only
    rw [hx]
    generalize toldFindsul w policy false (d.layer x.next) 0 = s at hs
    cases hs with
    | here h' =>
      simp only [hm, Bool.false_eq_true, if_false, if_true]
      rfl
    | unexpected h' he => exact absurd h h'
    | missing what h' he hn => cases he
    | later q late h' he' hl' hr => cases he'
  refine ⟨⟨moreSul, key x rfl rfl, (raises_known (s := .minor) rfl).2 hm, rfl⟩, ?_⟩
  intro hv
  rw [← toldRound_plain w]
  unfold toldRound
  split
  · rfl
  · dsimp only
    split
    · rfl
    · rcases hx : (toldEof w policy (d.layer x.next) 0
        { x with stream := some x.opened, opened := x.opened + 1 }).2 with ⟨z, (_ | _) | _ | _⟩
      · obtain ⟨rfl, -⟩ := (toldEof_says w policy (d.layer x.next) 0 _ x (Or.inl rfl)).2 z hx
        dsimp only
        rw [key { x with stream := some x.opened, opened := x.opened + 1 } rfl rfl]
        dsimp only
        unfold toldAfter
        dsimp only
        rw [hx]
        dsimp only
        have hs := c90_findvrl w policy (d.layer x.next) 0
        generalize toldFindvrl w policy (d.layer x.next) 0 = s at hs
        cases hs with
        | here h' => exact absurd h' hv
        | missing what h' hn => rfl
        | later p late h' hl hr => simp only [hm, if_true]
      · exfalso
        obtain ⟨win, hw, hf⟩ := h
        have hlen := (occurs_bytes.1 hf.1).2
        have : (Spec.recordText).length = 6 := rfl
        rw [hw.1] at hlen
        simp at hlen
        have hd : 0 < (d.layer x.next).src.data.length := by omega
        unfold toldEof at hx
        have hk : seekOk (d.layer x.next).src 0 = true := by unfold seekOk; rw [if_pos (by omega)]
        rw [if_pos hk] at hx
        have hr : readAt (d.layer x.next).src 0 1 = .ok (((d.layer x.next).src.data.drop 0).take 1) := by
          unfold readAt
          rw [if_neg (by omega), if_pos (by omega)]
        rw [hr] at hx
        simp at hx
      · rfl
      · exfalso
        unfold toldEof at hx
        split at hx
        · split at hx <;> (try split at hx) <;> simp at hx
        · split at hx <;> simp at hx

/-- A logical file with a file header of which the type, 82 bytes, looks like part of a label. -/
def exLike : Bytes :=
  [0, 92, 0xff, 0x01, 0, 88, 0x80, 0, 0xf0, 0x52, 0x45, 0x43, 0x4f, 0x52, 0x44] ++ List.replicate 77 0x41

/-- C90 is violated when a visible record looks like a label: with an error handler that raises on minor
problems, it does raise, but both logical files are loaded; with one that does not, the file is
read as a label, as is said, and is not among the logical files. -/
theorem c90_second_label_defect :
    let file := exLabel ++ exFile2.bytes ++ exLike
    (let r := toldLoad exWhats (rawDisk file) (fun s => s == .minor) exStale 9
     r.1.map (·.problem) = [text "SUL is expected only at the start of the file"] ∧
     r.2.2 = .files ∧ r.2.1.files.length = 2 ∧ r.2.1.sul = some exLabel) ∧
    (let r := toldLoad exWhats (rawDisk file) (fun s => s == .critical) exStale 9
     r.1.map (·.action) = [text "New SUL will be read"] ∧
     r.2.1.files.length = 1 ∧ r.2.1.sul = some (exLike.take 80)) := by
  decide +kernel

end Dlisio.Dlis
