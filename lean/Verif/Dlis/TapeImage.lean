/-
Loading: C67, files stored as tape images (TIF): every visible record, or part of one, is preceded
by a tape mark of 12 bytes.

The library lfp, which takes the tape marks away, is not part of the repository.  `tapeDisk` below
is what the code in load.py relies on, for marks that are in order; the files in
python/data/tif and their tests (python/tests/dlis/test_tif.py) agree with it.
-/
import Verif.Dlis.LoadFiles

namespace Dlisio.Dlis

open _root_.Dlisio.Dlis.Spec

/-! ### What lfp makes of a tape image -/

/-- The tape records from a tape mark on up to the first mark of type 1 or the end of the file: the
physical position of the data of each, and the data; then how the stream ends, and where.  A mark
of another type or with a next mark in front of its own end, a mark that is cut off, and data that
are cut off, are damage.  A file may end where a mark could be (python/data/tif/templates/7.dlis).
The position of the previous mark is not looked at. -/
def tapeRecords (pos : Nat) (bs : Bytes) : List (Nat × Bytes) × Ending × Nat :=
  match bs with
  | [] => ([], .eof, pos)
  | a0 :: a1 :: a2 :: a3 :: _ :: _ :: _ :: _ :: c0 :: c1 :: c2 :: c3 :: rest =>
    let type := loadLe32 a0 a1 a2 a3
    let next := (loadLe32 c0 c1 c2 c3).toNat
    if type = 1 then ([], .eof, pos + 12)
    else if type ≠ 0 ∨ next < pos + 12 then ([], .broken true, pos + 12)
    else if rest.length < next - (pos + 12) then
      ([(pos + 12, rest)], .broken true, pos + 12 + rest.length)
    else
      let (rs, e) := tapeRecords next (rest.drop (next - (pos + 12)))
      ((pos + 12, rest.take (next - (pos + 12))) :: rs, e)
  | _ => ([], .broken true, pos + bs.length)
termination_by bs.length
decreasing_by simp only [List.length_cons, List.length_drop]; omega

/-- `open_tif` on the file opened at an offset, load.py:124-135 and io.cpp:57-66. -/
def tapeLayer (file : Bytes) (k : Nat) : Layer :=
  let r := tapeRecords k (file.drop k)
  { src := ⟨r.1.flatMap (·.2), r.2.1⟩, ptell := tellIn r.2.2 r.1, endTell := r.2.2,
    peof := decide (file.length ≤ r.2.2) }

/-- `open_rp66` on top of that, load.py:144-150 and io.cpp:45-55: the visible records within the
logical bytes of the tape. -/
def tapeRp66 (file : Bytes) (k pos : Nat) : Layer :=
  let l := tapeLayer file k
  let v := visible pos (l.src.data.drop pos)
  { src := ⟨v.1.flatMap (·.2), match v.2 with | .eof => l.src.ending | e => e⟩,
    ptell := fun p => l.ptell (tellIn l.src.data.length v.1 p), endTell := l.endTell,
    peof := l.peof }

/-- A file with tape marks. -/
def tapeDisk (file : Bytes) : Disk where
  mark := readTapemark ⟨file, .eof⟩ 0
  opens := fun _ => true
  tif := fun _ => true
  layer := tapeLayer file
  rp66 := fun k pos => some (tapeRp66 file k pos)

/-! ### Tapes -/

namespace Spec

/-- A number of 32 bits, least significant byte first. -/
def le32 (n : Nat) : Bytes :=
  [BitVec.ofNat 8 n, BitVec.ofNat 8 (n / 256), BitVec.ofNat 8 (n / 65536),
    BitVec.ofNat 8 (n / 16777216)]

/-- What is on a tape: data, and file marks. -/
inductive Block where
  | data (b : Bytes)
  | mark

/-- The bytes of a tape image from a position on: in front of data there is a mark of type 0, a
file mark is a mark of type 1; both have the positions of the previous and of the next mark. -/
def tapeBytes (prev pos : Nat) : List Block → Bytes
  | [] => []
  | .data b :: bs =>
    le32 0 ++ le32 prev ++ le32 (pos + 12 + b.length) ++ b ++ tapeBytes pos (pos + 12 + b.length) bs
  | .mark :: bs => le32 1 ++ le32 prev ++ le32 (pos + 12) ++ tapeBytes pos (pos + 12) bs

/-- The parts of a tape: file marks, labels, and logical files, the bytes of which are distributed
over pieces. -/
inductive Part where
  | mark
  | label (sul : Bytes)
  | file (f : Stored) (pieces : List Bytes)

/-- A part on tape. -/
def Part.blocks : Part → List Block
  | .mark => [.mark]
  | .label s => [.data s]
  | .file _ bl => bl.map .data

/-- Labels are labels; logical files can be loaded, and the first piece has the header of the first
visible record and at least one more byte. -/
def Part.Ok (policy : Policy) : Part → Prop
  | .mark => True
  | .label s => s.length = 80 ∧ FirstAt recordText s 9
  | .file f bl => Loadable policy f ∧ bl.flatten = f.bytes ∧ (∀ b ∈ bl, b ≠ []) ∧
      ∃ b bs, bl = b :: bs ∧ 5 ≤ b.length

/-- There is no label immediately behind a logical file or another label. -/
def Ordered : List Part → Prop
  | .file _ _ :: .label _ :: _ => False
  | .label _ :: .label _ :: _ => False
  | _ :: ps => Ordered ps
  | [] => True

/-- The data up to the next file mark. -/
def upToMark : List Part → Bytes
  | .label s :: ps => s ++ upToMark ps
  | .file f _ :: ps => f.bytes ++ upToMark ps
  | _ => []

/-- The first part that is not a file mark is a label, or there is nothing like a label. -/
def Starts : List Part → Prop
  | .mark :: ps => Starts ps
  | .file f bl :: ps => Unlabelled (upToMark (.file f bl :: ps))
  | _ => True

/-- The logical files of a tape, each with the label that was the last one in front of it. -/
def labelled (cur : Option Bytes) : List Part → List (Option Bytes × Stored)
  | [] => []
  | .mark :: ps => labelled cur ps
  | .label s :: ps => labelled (some s) ps
  | .file f _ :: ps => (cur, f) :: labelled cur ps

end Spec

/-! ### Tape records -/

/-- where pieces are -/
def pieces (pos : Nat) : List Bytes → List (Nat × Bytes)
  | [] => []
  | b :: bs => (pos + 12, b) :: pieces (pos + 12 + b.length) bs

/-- the number of bytes of pieces with their marks -/
def extent : List Bytes → Nat
  | [] => 0
  | b :: bs => 12 + b.length + extent bs

theorem le32_load (n : Nat) (h : n < 2 ^ 32) :
    (loadLe32 (BitVec.ofNat 8 n) (BitVec.ofNat 8 (n / 256)) (BitVec.ofNat 8 (n / 65536))
      (BitVec.ofNat 8 (n / 16777216))) = BitVec.ofNat 32 n := by
  apply BitVec.eq_of_toNat_eq
  rw [loadLe32_toNat]
  simp only [Dlisio.Spec.leNat, BitVec.toNat_ofNat]
  omega

theorem tape_nil (pos : Nat) : tapeRecords pos [] = ([], .eof, pos) := by rw [tapeRecords]

theorem tape_mark (prev next pos : Nat) (rest : Bytes) :
    tapeRecords pos (Spec.le32 1 ++ Spec.le32 prev ++ Spec.le32 next ++ rest) =
      ([], .eof, pos + 12) := by
  simp only [Spec.le32, List.cons_append, List.nil_append]
  rw [tapeRecords]
  simp only [le32_load 1 (by omega)]
  rfl

theorem tape_data (prev pos : Nat) (b rest : Bytes) (h : pos + 12 + b.length < 2 ^ 32) :
    tapeRecords pos (Spec.le32 0 ++ Spec.le32 prev ++ Spec.le32 (pos + 12 + b.length) ++ b ++ rest) =
      ((pos + 12, b) :: (tapeRecords (pos + 12 + b.length) rest).1,
        (tapeRecords (pos + 12 + b.length) rest).2) := by
  simp only [Spec.le32, List.cons_append, List.nil_append]
  rw [tapeRecords]
  simp only [le32_load _ h, le32_load 0 (by omega), BitVec.toNat_ofNat, Nat.mod_eq_of_lt h]
  rw [if_neg (by decide), if_neg (by simp), if_neg (by simp)]
  simp

theorem pieces_data (pos : Nat) (bl : List Bytes) :
    (pieces pos bl).flatMap (·.2) = bl.flatten := by
  induction bl generalizing pos with
  | nil => rfl
  | cons b bl ih => simp [pieces, ih]

theorem tellIn_pieces (e pos j : Nat) (bl : List Bytes) (vs : List (Nat × Bytes)) :
    tellIn e (pieces pos bl ++ vs) (bl.flatten.length + j) = tellIn e vs j := by
  induction bl generalizing pos with
  | nil => simp [pieces]
  | cons b bl ih =>
    simp only [pieces, List.cons_append, tellIn, List.flatten_cons, List.length_append]
    rw [if_neg (by omega), show b.length + bl.flatten.length + j - b.length = bl.flatten.length + j from
      by omega]
    exact ih _

/-- the parts that are at a position of the file and behind it -/
def At (file : Bytes) (pos : Nat) (ps : List Spec.Part) : Prop :=
  ∃ prev, file.drop pos = Spec.tapeBytes prev pos (ps.flatMap Spec.Part.blocks) ∧
    pos + (Spec.tapeBytes prev pos (ps.flatMap Spec.Part.blocks)).length = file.length

theorem le32_length (n : Nat) : (Spec.le32 n).length = 4 := rfl

theorem at_nil {file : Bytes} {pos : Nat} (h : At file pos []) :
    pos = file.length ∧ tapeRecords pos (file.drop pos) = ([], .eof, pos) := by
  obtain ⟨prev, h1, h2⟩ := h
  simp only [List.flatMap_nil, Spec.tapeBytes] at h1 h2
  exact ⟨by simpa using h2, by rw [h1, tape_nil]⟩

theorem at_mark {file : Bytes} {pos : Nat} {ps : List Spec.Part} (h : At file pos (.mark :: ps)) :
    At file (pos + 12) ps ∧ tapeRecords pos (file.drop pos) = ([], .eof, pos + 12) := by
  obtain ⟨prev, h1, h2⟩ := h
  simp only [List.flatMap_cons, Spec.Part.blocks, List.cons_append, List.nil_append,
    Spec.tapeBytes] at h1 h2
  refine ⟨⟨pos, ?_, ?_⟩, by rw [h1, tape_mark]⟩
  · rw [← List.drop_drop, h1]
    exact List.drop_left' (by simp [le32_length])
  · simp only [List.length_append, le32_length] at h2
    omega

theorem tape_pieces (file : Bytes) (hl : file.length < 2 ^ 32) (bl : List Bytes)
    (rest : List Spec.Block) (prev pos : Nat)
    (h1 : file.drop pos = Spec.tapeBytes prev pos (bl.map .data ++ rest))
    (h2 : pos + (Spec.tapeBytes prev pos (bl.map .data ++ rest)).length = file.length) :
    ∃ prev', file.drop (pos + extent bl) = Spec.tapeBytes prev' (pos + extent bl) rest ∧
      pos + extent bl + (Spec.tapeBytes prev' (pos + extent bl) rest).length = file.length ∧
      tapeRecords pos (file.drop pos) =
        (pieces pos bl ++ (tapeRecords (pos + extent bl) (file.drop (pos + extent bl))).1,
          (tapeRecords (pos + extent bl) (file.drop (pos + extent bl))).2) := by
  induction bl generalizing prev pos with
  | nil => exact ⟨prev, by simpa [extent] using h1, by simpa [extent] using h2, by simp [extent, pieces]⟩
  | cons b bl ih =>
    simp only [List.map_cons, List.cons_append, Spec.tapeBytes] at h1 h2
    have h3 : file.drop (pos + 12 + b.length) =
        Spec.tapeBytes pos (pos + 12 + b.length) (bl.map .data ++ rest) := by
      have h5 : (Spec.le32 0 ++ Spec.le32 prev ++ Spec.le32 (pos + 12 + b.length) ++ b).length =
          12 + b.length := by simp only [List.length_append, le32_length]
      rw [Nat.add_assoc, ← List.drop_drop, h1, ← Nat.add_assoc]
      exact List.drop_left' h5
    have h4 : pos + 12 + b.length +
        (Spec.tapeBytes pos (pos + 12 + b.length) (bl.map .data ++ rest)).length = file.length := by
      simp only [List.length_append, le32_length] at h2
      omega
    obtain ⟨prev', k1, k2, k3⟩ := ih pos (pos + 12 + b.length) h3 h4
    have he : pos + extent (b :: bl) = pos + 12 + b.length + extent bl := by
      simp only [extent]; omega
    rw [he]
    refine ⟨prev', k1, k2, ?_⟩
    rw [h1, tape_data _ _ _ _ (by omega), ← h3, k3]
    rfl

theorem at_pieces {file : Bytes} (hl : file.length < 2 ^ 32) {pos : Nat} {p : Spec.Part}
    {ps : List Spec.Part} {bl : List Bytes} (hb : p.blocks = bl.map .data)
    (h : At file pos (p :: ps)) :
    At file (pos + extent bl) ps ∧
      tapeRecords pos (file.drop pos) =
        (pieces pos bl ++ (tapeRecords (pos + extent bl) (file.drop (pos + extent bl))).1,
          (tapeRecords (pos + extent bl) (file.drop (pos + extent bl))).2) := by
  obtain ⟨prev, h1, h2⟩ := h
  rw [List.flatMap_cons, hb] at h1 h2
  obtain ⟨prev', k1, k2, k3⟩ := tape_pieces file hl bl _ prev pos h1 h2
  exact ⟨⟨prev', k1, k2⟩, k3⟩

/-- the stream ends regularly -/
theorem at_ending {file : Bytes} (hl : file.length < 2 ^ 32) {pos : Nat} {ps : List Spec.Part}
    (h : At file pos ps) : (tapeRecords pos (file.drop pos)).2.1 = .eof := by
  induction ps generalizing pos with
  | nil => rw [(at_nil h).2]
  | cons p ps ih =>
    match p, h with
    | .mark, h => rw [(at_mark h).2]
    | .label s, h =>
      obtain ⟨h1, h2⟩ := at_pieces hl (bl := [s]) rfl h
      rw [h2]; exact ih h1
    | .file f bl, h =>
      obtain ⟨h1, h2⟩ := at_pieces hl (bl := bl) rfl h
      rw [h2]; exact ih h1

/-- the data up to the next file mark -/
theorem at_data {file : Bytes} (hl : file.length < 2 ^ 32) {policy : Policy} {pos : Nat}
    {ps : List Spec.Part} (hok : ∀ p ∈ ps, p.Ok policy) (h : At file pos ps) :
    (tapeRecords pos (file.drop pos)).1.flatMap (·.2) = Spec.upToMark ps := by
  induction ps generalizing pos with
  | nil => rw [(at_nil h).2]; rfl
  | cons p ps ih =>
    have ih := fun {pos} => ih (pos := pos) (fun p hp => hok p (by simp [hp]))
    match p, h, hok with
    | .mark, h, _ => rw [(at_mark h).2]; rfl
    | .label s, h, _ =>
      obtain ⟨h1, h2⟩ := at_pieces hl (bl := [s]) rfl h
      rw [h2]
      simp only [List.flatMap_append, pieces_data, ih h1, Spec.upToMark]
      simp
    | .file f bl, h, hok =>
      obtain ⟨h1, h2⟩ := at_pieces hl (bl := bl) rfl h
      rw [h2]
      simp only [List.flatMap_append, pieces_data, ih h1, Spec.upToMark]
      rw [(hok (.file f bl) (by simp)).2.1]

/-- behind parts that are in order there is something, if there are more parts -/
theorem at_more {file : Bytes} {policy : Policy} {pos : Nat} {p : Spec.Part} {ps : List Spec.Part}
    (h : At file pos (p :: ps)) (hp : p.Ok policy) : pos < file.length := by
  obtain ⟨prev, -, h2⟩ := h
  match p, hp with
  | .mark, _ =>
    simp only [List.flatMap_cons, Spec.Part.blocks, List.cons_append, List.nil_append,
      Spec.tapeBytes, List.length_append, le32_length] at h2
    omega
  | .label s, _ =>
    simp only [List.flatMap_cons, Spec.Part.blocks, List.cons_append, List.nil_append,
      Spec.tapeBytes, List.length_append, le32_length] at h2
    omega
  | .file f bl, hp =>
    obtain ⟨-, -, -, b, bs, rfl, -⟩ := hp
    simp only [List.flatMap_cons, Spec.Part.blocks, List.map_cons, List.cons_append,
      Spec.tapeBytes, List.length_append, le32_length] at h2
    omega

/-! ### Rounds, for any disk -/

theorem eof_no {policy : Policy} {l : Layer} {pos : Nat} (h : pos < l.src.data.length)
    (x : Indexer) : logicalEof policy l pos x = (x, .done false) := by
  have hs : seekOk l.src pos = true := by unfold seekOk; rw [if_pos (by omega)]
  unfold logicalEof
  rw [hs, if_pos rfl]
  unfold readAt
  rw [if_neg (by omega), if_pos (by omega)]

theorem eof_yes {policy : Policy} {l : Layer} {pos : Nat} (h : l.src.data.length ≤ pos)
    (he : l.src.ending = .eof) (x : Indexer) : logicalEof policy l pos x =
      (if l.peof then { x with dataEnd := true } else { x with next := l.endTell }, .done true) := by
  have hs : seekOk l.src pos = true := by unfold seekOk; rw [he]; simp
  unfold logicalEof
  rw [hs, if_pos rfl]
  unfold readAt
  rw [if_neg (by omega), if_neg (by omega), he]
  simp only
  split <;> rfl

theorem findvrl_at (policy : Policy) (src : Source) (he : src.ending = .eof) (pos : Nat)
    (b more : Bytes) (hb : b.length ≤ 16380) (h : src.data.drop pos = Spec.vrBytes b ++ more) :
    findvrl policy src pos = .found pos [] := by
  have h1 := findvrl_vr policy src.data 0 pos b more hb (by simpa using h)
  rw [List.drop_zero, ← he] at h1
  exact h1

theorem label_read (policy : Policy) (hp : policy .minor = false) (l : Layer) (sul rest : Bytes)
    (h80 : sul.length = 80) (htext : Spec.FirstAt Spec.recordText sul 9)
    (hl : l.src = ⟨sul ++ rest, .eof⟩) (y : Indexer) :
    findReadSul policy l y = ({ y with sul := some sul }, .done 80) := by
  have hr : readAt ⟨sul ++ rest, .eof⟩ 0 15 = .ok (sul.take 15) := by
    unfold readAt
    rw [if_neg (by omega), if_pos (by simp; omega)]
    simp only [List.drop_zero]
    rw [take15 _ _ (by omega)]
  have hr2 : readAt ⟨sul ++ rest, .eof⟩ 0 80 = .ok sul := by
    unfold readAt
    rw [if_neg (by omega), if_pos (by simp; omega)]
    simp only [List.drop_zero]
    rw [List.take_append_of_le_length (by omega), List.take_of_length_le (by omega)]
  have hocc : ∀ j, j ≤ 9 → (Spec.OccursAt Spec.recordText (sul.take 15) j ↔
      Spec.OccursAt Spec.recordText sul j) := by
    intro j hj
    rw [occurs_bytes, occurs_bytes]
    have h6 : Spec.recordText.length = 6 := rfl
    rw [h6, List.drop_take, List.take_take, List.length_take, Nat.min_eq_left (by omega)]
    constructor
    · rintro ⟨a, b⟩; exact ⟨a, by omega⟩
    · rintro ⟨a, b⟩; exact ⟨a, by omega⟩
  have hf : findSul (sul.take 15) = (.ok, some 0) := by
    refine ((c14_find_sul _).1 0).2 ⟨(hocc _ (by omega)).2 htext.1, ?_⟩
    intro j hj
    rw [hocc j (by omega)]
    exact htext.2 j hj
  have hfs : ∀ e, findsul policy e ⟨sul ++ rest, .eof⟩ 0 = .found 0 [] := by
    intro e
    unfold findsul findOnce
    rw [hr]
    simp only [hf, Nat.add_zero]
  unfold findReadSul
  simp only [hl, hfs, hr2, hp, Bool.and_false, Bool.false_eq_true, if_false, h80, Nat.zero_add]

/-- a logical file is made of a stream of records -/
theorem parse_layer {policy : Policy} {stale : Nat → Bytes}
    (hst : ∀ t, 262 ≤ (stale t).length) (f : Spec.Stored) (hf : Spec.Loadable policy f)
    (hp : policy .minor = false) (isTif : Bool) (r : Layer) (more : Bytes) (e : Ending)
    (hsrc : r.src = ⟨Spec.fileBytes f.recs ++ more, e⟩)
    (hl : (Spec.fileBytes f.recs).length < 2 ^ 63 - 1)
    (hmore : (more = [] ∧ e = .eof) ∨ ∃ fh : Spec.Seg, fh.FileHeader ∧ 4 + fh.raw.length < 2 ^ 16 ∧
      ∃ post, more = fh.bytes ++ post)
    (x : Indexer) (sul : Option Bytes) (hs : x.sul = sul) (hd : x.dataEnd = false) :
    ∃ g, parseLogicalFile policy stale isTif r x =
      ({ x with next := if more = [] then r.endTell
                  else r.ptell (Spec.fileBytes f.recs).length - 4 - (if isTif then 12 else 0),
                files := x.files ++ [g] }, .done ()) ∧
      Spec.Faithful policy sul f g := by
  have hix : findoffsetsRaw r.src =
      ⟨⟨Spec.positions true (Spec.located 0 f.recs), Spec.positions false (Spec.located 0 f.recs),
        []⟩, if more = [] then none else some (Spec.fileBytes f.recs).length⟩ := by
    rw [hsrc]
    rcases hmore with ⟨rfl, rfl⟩ | ⟨fh, h1, h2, post, rfl⟩
    · rw [if_pos rfl, List.append_nil]
      exact c19_index_last_file f.recs hf.wf.content
    · rw [if_neg (by simp [Spec.Seg.bytes])]
      exact c19_index_next_file f.recs hf.wf.content (explicit_head hf.wf) fh h2 h1 post e
  have hix' : findoffsets policy r.src =
      some ⟨⟨Spec.positions true (Spec.located 0 f.recs),
        Spec.positions false (Spec.located 0 f.recs), []⟩,
        if more = [] then none else some (Spec.fileBytes f.recs).length⟩ := by
    unfold findoffsets
    rw [hix]
    simp
  obtain ⟨m, hcon, hk, hm⟩ := contents_stored (policy := policy) hst f hf.wf hf.defined hf.readable
    hp hl more e []
  unfold parseLogicalFile
  rw [hix']
  simp only
  rw [hsrc, hcon]
  simp only
  refine ⟨{ src := ⟨Spec.fileBytes f.recs ++ more, e⟩, handle := x.stream.getD 0,
            sul := x.sul, explicits := Spec.positions true (Spec.located 0 f.recs),
            implicits := Spec.positions false (Spec.located 0 f.recs),
            sets := Spec.setsOf f.recs, fdata := m }, ?_, ?_⟩
  · congr 2
    · by_cases hte : more = []
      · simp only [if_pos hte]
      · simp only [if_neg hte]
    · simp [hd]
  · refine ⟨hs, rfl, rfl, ?_, rfl, hm, hk⟩
    exact stored_extract policy f.recs hf.wf.content _ _ hp hl

theorem fileBytes_le {f : Spec.Stored} (hf : f.WF) :
    (Spec.fileBytes f.recs).length ≤ f.bytes.length := by
  rw [← hf.same, Spec.Stored.bytes]
  generalize f.bodies = bs
  induction bs with
  | nil => simp
  | cons b bs ih =>
    simp only [List.flatten_cons, List.flatMap_cons, List.length_append, vr_length]
    omega

/-- the round for a logical file, behind a label or not -/
theorem iteration_layer {policy : Policy} {stale : Nat → Bytes}
    (hst : ∀ t, 262 ≤ (stale t).length) (f : Spec.Stored) (hf : Spec.Loadable policy f)
    (hp : policy .minor = false) (d : Disk) (x : Indexer) (ho : d.opens x.next = true)
    (hti : d.tif x.next = true) (pos : Nat) (sul : Option Bytes)
    (hsul : ∀ y : Indexer, y.sul = x.sul → y.files = x.files →
      findReadSul policy (d.layer x.next) y = ({ y with sul := sul }, .done pos))
    (he : (d.layer x.next).src.ending = .eof)
    (D : Bytes) (hdata : (d.layer x.next).src.data.drop pos = f.bytes ++ D)
    (r : Layer) (hr : d.rp66 x.next pos = some r) (more : Bytes) (e : Ending)
    (hsrc : r.src = ⟨Spec.fileBytes f.recs ++ more, e⟩)
    (hl : (Spec.fileBytes f.recs).length < 2 ^ 63 - 1)
    (hmore : (more = [] ∧ e = .eof) ∨ ∃ fh : Spec.Seg, fh.FileHeader ∧ 4 + fh.raw.length < 2 ^ 16 ∧
      ∃ post, more = fh.bytes ++ post) (hd : x.dataEnd = false) :
    ∃ g y, iteration d policy stale x = (y, .done ()) ∧
      (y.next = if more = [] then r.endTell
        else r.ptell (Spec.fileBytes f.recs).length - 4 - (if d.isTif then 12 else 0)) ∧
      y.dataEnd = false ∧ y.sul = sul ∧ y.files = x.files ++ [g] ∧
      Spec.Faithful policy sul f g := by
  have hlong := hf.wf.long
  have hlen : (d.layer x.next).src.data.length - pos = f.bytes.length + D.length := by
    have := congrArg List.length hdata
    simpa using this
  obtain ⟨b, bs, hb, -, hb3⟩ := stored_nonempty hf.wf
  unfold iteration
  rw [ho, hti]
  simp only [Bool.not_true, Bool.false_eq_true, if_false, Bool.or_true]
  generalize hx' : (⟨x.next, x.dataEnd, x.sul, some x.opened, x.files, x.opened + 1, x.closed⟩ :
    Indexer) = x'
  have hxn : x'.next = x.next := by rw [← hx']
  rw [eof_no (by omega)]
  simp only
  rw [hsul x' (by rw [← hx']) (by rw [← hx'])]
  simp only
  unfold afterSul
  rw [eof_no (by omega)]
  simp only
  rw [findvrl_at policy _ he pos b (bs.flatMap Spec.vrBytes ++ D) hb3 (by
    rw [hdata, Spec.Stored.bytes, hb]; simp)]
  simp only
  rw [show d.rp66 x'.next pos = some r from by rw [hxn]; exact hr]
  simp only
  obtain ⟨g, hg, hfa⟩ := parse_layer (stale := stale) hst f hf hp d.isTif r more e hsrc hl hmore
    { x' with sul := sul } sul rfl (by rw [← hx']; exact hd)
  refine ⟨g, _, hg, rfl, ?_, rfl, ?_, hfa⟩
  · rw [← hx']; exact hd
  · rw [← hx']

/-! ### Rounds on a tape -/

theorem tapeRp66_src (file : Bytes) (k q : Nat) (f : Spec.Stored) (hf : f.WF) (D : Bytes)
    (hd : (tapeLayer file k).src.data.drop q = f.bytes ++ D) :
    (tapeRp66 file k q).src = ⟨Spec.fileBytes f.recs ++ (visible (q + f.bytes.length) D).1.flatMap (·.2),
      match (visible (q + f.bytes.length) D).2 with
      | .eof => (tapeLayer file k).src.ending | e => e⟩ ∧
    (tapeRp66 file k q).ptell (Spec.fileBytes f.recs).length =
      (tapeLayer file k).ptell
        (tellIn (tapeLayer file k).src.data.length (visible (q + f.bytes.length) D).1 0) := by
  have hv : visible q ((tapeLayer file k).src.data.drop q) =
      (located' q f.bodies ++ (visible (q + f.bytes.length) D).1,
        (visible (q + f.bytes.length) D).2) := by
    rw [hd]
    exact visible_bodies q f.bodies D (fun b hb => (hf.sizes b hb).2)
  constructor
  · simp only [tapeRp66, hv, List.flatMap_append, located'_data, hf.same]
  · simp only [tapeRp66, hv]
    rw [← hf.same, tellIn_after]

/-- what is behind a logical file, or a label, and the round that follows -/
theorem after_part {file : Bytes} (hl : file.length < 2 ^ 32) {policy : Policy} {pos : Nat}
    {ps : List Spec.Part} (h : At file pos ps) (hok : ∀ p ∈ ps, p.Ok policy)
    (hno : ∀ s qs, ps ≠ .label s :: qs) :
    ((tapeRecords pos (file.drop pos)).1 = [] ∧
      ∃ qs, At file (tapeRecords pos (file.drop pos)).2.2 qs ∧ qs.length ≤ ps.length ∧
        (∀ p ∈ qs, p.Ok policy) ∧ (Spec.Ordered ps → Spec.Ordered qs) ∧
        (∀ cur, Spec.labelled cur qs = Spec.labelled cur ps) ∧
        (file.length ≤ (tapeRecords pos (file.drop pos)).2.2 ↔ qs = [])) ∨
    (∃ f bl qs, ps = .file f bl :: qs ∧ ∃ D vs,
      (tapeRecords pos (file.drop pos)).1.flatMap (·.2) = f.bytes ++ D ∧
      (tapeRecords pos (file.drop pos)).1 = pieces pos bl ++ vs) := by
  match ps, h, hok, hno with
  | [], h, hok, _ =>
    obtain ⟨h1, h2⟩ := at_nil h
    rw [h2]
    exact Or.inl ⟨rfl, [], h, le_rfl, hok, id, fun _ => rfl, by simp [h1]⟩
  | .mark :: qs, h, hok, _ =>
    obtain ⟨h1, h2⟩ := at_mark h
    rw [h2]
    refine Or.inl ⟨rfl, qs, h1, by simp, fun p hp => hok p (by simp [hp]), ?_, fun _ => rfl, ?_⟩
    · intro ho
      exact ho
    · constructor
      · intro h3
        cases qs with
        | nil => rfl
        | cons q qs =>
          have := at_more (policy := policy) h1 (hok q (by simp))
          simp only at h3
          omega
      · rintro rfl
        exact (at_nil h1).1.ge
  | .label s :: qs, _, _, hno => exact absurd rfl (hno s qs)
  | .file f bl :: qs, h, hok, _ =>
    obtain ⟨h1, h2⟩ := at_pieces hl (bl := bl) rfl h
    have h3 := (hok (.file f bl) (by simp)).2.1
    refine Or.inr ⟨f, bl, qs, rfl,
      (tapeRecords (pos + extent bl) (file.drop (pos + extent bl))).1.flatMap (·.2), _, ?_,
      congrArg Prod.fst h2⟩
    rw [h2]
    simp only [List.flatMap_append, pieces_data, h3]

/-- the round for a logical file -/
theorem file_round {policy : Policy} {stale : Nat → Bytes} (hst : ∀ t, 262 ≤ (stale t).length)
    (hp : policy .minor = false) {file : Bytes} (hl : file.length < 2 ^ 32)
    (hti : (tapeDisk file).isTif = true) (x : Indexer) (hd : x.dataEnd = false) (sul : Option Bytes)
    (lbl : List Bytes) (f : Spec.Stored) (bl : List Bytes) (qs : List Spec.Part)
    (hr : tapeRecords x.next (file.drop x.next) = (pieces x.next lbl ++
        (tapeRecords (x.next + extent lbl) (file.drop (x.next + extent lbl))).1,
      (tapeRecords (x.next + extent lbl) (file.drop (x.next + extent lbl))).2))
    (hat : At file (x.next + extent lbl) (.file f bl :: qs))
    (hok : ∀ p ∈ Spec.Part.file f bl :: qs, p.Ok policy)
    (hord : Spec.Ordered (.file f bl :: qs))
    (hsul : ∀ y : Indexer, y.sul = x.sul → y.files = x.files →
      findReadSul policy (tapeLayer file x.next) y =
        ({ y with sul := sul }, .done lbl.flatten.length)) :
    ∃ g y qs', iteration (tapeDisk file) policy stale x = (y, .done ()) ∧
      y.dataEnd = false ∧ y.sul = sul ∧ y.files = x.files ++ [g] ∧
      Spec.Faithful policy sul f g ∧ At file y.next qs' ∧ qs'.length ≤ qs.length ∧
      (∀ p ∈ qs', p.Ok policy) ∧ Spec.Ordered qs' ∧
      ∀ cur, Spec.labelled cur qs' = Spec.labelled cur qs := by
  obtain ⟨hf, hbytes, -, -⟩ := hok (.file f bl) (by simp)
  have hat' := at_pieces hl (bl := bl) rfl hat
  obtain ⟨hat2, hr2⟩ := hat'
  have heof := at_ending hl hat2
  have hno : ∀ s rs, qs ≠ .label s :: rs := by
    rintro s rs rfl
    exact hord
  have hord' : Spec.Ordered qs := by
    cases qs with
    | nil => trivial
    | cons q qs =>
      cases q with
      | label s => exact absurd rfl (hno s qs)
      | mark => exact hord
      | file f' bl' => exact hord
  have hap := after_part (policy := policy) hl hat2 (fun p h => hok p (by simp [h])) hno
  rw [hr2] at hr
  generalize hP : x.next + extent lbl = P at *
  generalize hR : tapeRecords (P + extent bl) (file.drop (P + extent bl)) = R at *
  simp only at hr
  have hlayer : tapeLayer file x.next =
      ⟨⟨lbl.flatten ++ (f.bytes ++ R.1.flatMap (·.2)), R.2.1⟩,
        tellIn R.2.2 (pieces x.next lbl ++ (pieces P bl ++ R.1)), R.2.2,
        decide (file.length ≤ R.2.2)⟩ := by
    unfold tapeLayer
    simp only [hr, List.flatMap_append, pieces_data, hbytes]
  have hdrop : (tapeLayer file x.next).src.data.drop lbl.flatten.length =
      f.bytes ++ R.1.flatMap (·.2) := by
    rw [hlayer]
    exact List.drop_left
  obtain ⟨hs1, hs2⟩ := tapeRp66_src file x.next lbl.flatten.length f hf.wf _ hdrop
  have hlen : (Spec.fileBytes f.recs).length < 2 ^ 63 - 1 := by
    have h1 := fileBytes_le hf.wf
    have h2 : bl.flatten.length ≤ extent bl := by
      clear * -
      induction bl with
      | nil => simp
      | cons b bl ih => simp only [List.flatten_cons, List.length_append, extent]; omega
    obtain ⟨prev, -, h3⟩ := hat2
    rw [hbytes] at h2
    omega
  have hit := iteration_layer (stale := stale) hst f hf hp (tapeDisk file) x rfl rfl
    lbl.flatten.length sul hsul (by
      show (tapeLayer file x.next).src.ending = _
      rw [hlayer]; exact heof) _ hdrop _ rfl _ _ hs1 hlen
  rcases hap with ⟨h1, qs', k1, k2, k3, k4, k5, -⟩ | ⟨f', bl', qs', rfl, D', vs, h1, h2⟩
  · rw [h1] at hit
    have hv : ∀ n, visible n [] = ([], .eof) := fun n => by rw [visible]
    simp only [List.flatMap_nil, hv, hlayer, if_true] at hit
    obtain ⟨g, y, g1, g2, g3, g4, g5, g6⟩ := hit (Or.inl ⟨trivial, heof⟩) hd
    have g2' : y.next = R.2.2 := by
      rw [g2]
      show (tapeLayer file x.next).endTell = _
      rw [hlayer]
    exact ⟨g, y, qs', g1, g3, g4, g5, g6, by rw [g2']; exact k1, k2, k3, k4 hord', k5⟩
  · have hok' := hok (.file f' bl') (by simp)
    obtain ⟨hf', hbytes', -, b, bs, rfl, hb5⟩ := hok'
    have hfol := stored_follows hf'.wf D'
    rw [← h1] at hfol
    have hne : R.1.flatMap (·.2) ≠ [] := by
      rw [h1]
      intro h
      have := hf'.wf.long
      rw [List.append_eq_nil_iff] at h
      rw [h.1] at this
      simp at this
    have htell := tell_follows hne hfol (tapeLayer file x.next).src.data.length
      (lbl.flatten.length + f.bytes.length)
    obtain ⟨-, -, fh, j1, j2, j3⟩ := hfol.resolve_left hne
    obtain ⟨post, j4⟩ := j3 (lbl.flatten.length + f.bytes.length)
    obtain ⟨g, y, g1, g2, g3, g4, g5, g6⟩ := hit (Or.inr ⟨fh, j1, j2, post, j4⟩) hd
    rw [if_neg (by rw [j4]; simp [Spec.Seg.bytes]), hs2, htell, hti, hlayer] at g2
    simp only [if_true] at g2
    rw [← hbytes, Nat.add_assoc, tellIn_pieces, tellIn_pieces, h2] at g2
    simp only [pieces, List.cons_append, tellIn] at g2
    rw [if_pos (by omega)] at g2
    refine ⟨g, y, .file f' (b :: bs) :: qs', g1, g3, g4, g5, g6, ?_, le_rfl,
      fun p h => hok p (by simp at h ⊢; tauto), hord', fun _ => rfl⟩
    rw [g2, show P + extent bl + 12 + 4 - 4 - 12 = P + extent bl from by omega]
    exact hat2

/-- a round in which there is no data -/
theorem empty_round {policy : Policy} {stale : Nat → Bytes} {file : Bytes} (x : Indexer)
    (hr : (tapeRecords x.next (file.drop x.next)).1 = [])
    (he : (tapeRecords x.next (file.drop x.next)).2.1 = .eof) :
    ∃ y, iteration (tapeDisk file) policy stale x = (y, .done ()) ∧ y.files = x.files ∧
      y.sul = x.sul ∧
      if file.length ≤ (tapeRecords x.next (file.drop x.next)).2.2 then y.dataEnd = true
      else y.dataEnd = x.dataEnd ∧ y.next = (tapeRecords x.next (file.drop x.next)).2.2 := by
  have h1 : ∀ y, logicalEof policy (tapeLayer file x.next) 0 y = _ :=
    fun y => eof_yes (by simp [tapeLayer, hr]) (by simpa [tapeLayer] using he) y
  unfold iteration
  have ho : ∀ k, (tapeDisk file).opens k = true := fun _ => rfl
  have ht : ∀ k, (tapeDisk file).tif k = true := fun _ => rfl
  have hlay : (tapeDisk file).layer x.next = tapeLayer file x.next := rfl
  rw [ho, ht, hlay]
  simp only [Bool.not_true, Bool.false_eq_true, if_false, Bool.or_true]
  rw [h1]
  refine ⟨_, rfl, ?_, ?_, ?_⟩
  · split <;> rfl
  · split <;> rfl
  · simp only [tapeLayer, decide_eq_true_eq]
    split
    · rfl
    · exact ⟨rfl, rfl⟩

theorem loop_end {d : Disk} {policy : Policy} {stale : Nat → Bytes} (n : Nat) (x : Indexer)
    (h : x.dataEnd = true) : loadLoop d policy stale (n + 1) x = (x, .files) := by
  rw [loadLoop, h, if_pos rfl]

theorem loop_step {d : Disk} {policy : Policy} {stale : Nat → Bytes} (n : Nat) (x y : Indexer)
    (h : x.dataEnd = false) (hi : iteration d policy stale x = (y, .done ())) :
    loadLoop d policy stale (n + 1) x = loadLoop d policy stale n y := by
  rw [loadLoop, h, hi]
  rfl

/-- all rounds from a part of the tape on -/
theorem tape_loop {policy : Policy} {stale : Nat → Bytes} (hst : ∀ t, 262 ≤ (stale t).length)
    (hp : policy .minor = false) {file : Bytes} (hl : file.length < 2 ^ 32)
    (hti : (tapeDisk file).isTif = true) (m : Nat) (ps : List Spec.Part) (hm : ps.length ≤ m)
    (x : Indexer) (hd : x.dataEnd = false) (hat : At file x.next ps)
    (hok : ∀ p ∈ ps, p.Ok policy) (hord : Spec.Ordered ps) (cur : Option Bytes)
    (hs : x.sul = cur) (hcur : (cur.getD [] ≠ [] ∨ x.files ≠ []) ∨
      cur = none ∧ x.files = [] ∧ Spec.Starts ps) (n : Nat) (hn : m + 2 ≤ n) :
    ∃ y gs, loadLoop (tapeDisk file) policy stale n x = (y, .files) ∧ y.files = x.files ++ gs ∧
      List.Forall₂ (fun p g => Spec.Faithful policy p.1 p.2 g) (Spec.labelled cur ps) gs := by
  induction m generalizing ps x n cur with
  | zero =>
    obtain ⟨n, rfl⟩ : ∃ k, n = k + 1 + 1 := ⟨n - 2, by omega⟩
    have : ps = [] := List.length_eq_zero_iff.1 (by omega)
    subst this
    obtain ⟨h1, h2⟩ := at_nil hat
    obtain ⟨y, k1, k2, k3, k4⟩ := empty_round (policy := policy) (stale := stale) x
      (congrArg Prod.fst h2) (by rw [h2])
    rw [if_pos (by rw [h2]; exact h1.ge)] at k4
    exact ⟨y, [], (loop_step _ _ _ hd k1).trans (loop_end _ _ k4), by rw [k2]; simp, .nil⟩
  | succ m ih =>
    obtain ⟨n, rfl⟩ : ∃ k, n = k + 1 + 1 := ⟨n - 2, by omega⟩
    have hend := at_ending hl hat
    match ps, hm, hat, hok, hord, hcur, hend with
    | [], _, hat, _, _, _, _ =>
      obtain ⟨h1, h2⟩ := at_nil hat
      obtain ⟨y, k1, k2, k3, k4⟩ := empty_round (policy := policy) (stale := stale) x
        (congrArg Prod.fst h2) (by rw [h2])
      rw [if_pos (by rw [h2]; exact h1.ge)] at k4
      exact ⟨y, [], (loop_step _ _ _ hd k1).trans (loop_end _ _ k4), by rw [k2]; simp, .nil⟩
    | .mark :: qs, hm, hat, hok, hord, hcur, _ =>
      obtain ⟨h1, h2⟩ := at_mark hat
      obtain ⟨y, k1, k2, k3, k4⟩ := empty_round (policy := policy) (stale := stale) x
        (congrArg Prod.fst h2) (by rw [h2])
      rw [loop_step _ _ _ hd k1]
      by_cases he : file.length ≤ x.next + 12
      · rw [h2, if_pos he] at k4
        have : qs = [] := by
          cases qs with
          | nil => rfl
          | cons q qs =>
            have := at_more (policy := policy) h1 (hok q (by simp))
            omega
        subst this
        exact ⟨y, [], loop_end _ _ k4, by rw [k2]; simp, .nil⟩
      · rw [h2, if_neg he] at k4
        obtain ⟨z, gs, j1, j2, j3⟩ := ih qs (by simpa using hm) y (by rw [k4.1, hd])
          (by rw [k4.2]; exact h1) (fun p h => hok p (by simp [h])) hord cur
          (k3.trans hs) (by rw [k2]; exact hcur) (n + 1) (by omega)
        exact ⟨z, gs, j1, by rw [j2, k2], j3⟩
    | .file f bl :: qs, hm, hat, hok, hord, hcur, hend =>
      obtain ⟨hf, hbytes, -, -⟩ := hok (.file f bl) (by simp)
      obtain ⟨-, hr⟩ := at_pieces hl (bl := bl) rfl hat
      have hlong := hf.wf.long
      obtain ⟨g, y, qs', k1, k2, k3, k4, k5, k6, k7, k8, k9, k10⟩ := file_round (stale := stale) hst
        hp hl hti x hd cur [] f bl qs (by simp [pieces, extent]) (by simpa [extent] using hat) hok hord
        (by
          intro y hy hy2
          have hsrc : (tapeLayer file x.next).src = ⟨f.bytes ++ (tapeRecords (x.next + extent bl)
              (file.drop (x.next + extent bl))).1.flatMap (·.2), .eof⟩ := by
            unfold tapeLayer
            simp only
            rw [hend, hr]
            simp only [List.flatMap_append, pieces_data, hbytes]
          rcases hcur with hcur | ⟨rfl, hfi, hst⟩
          · refine findsul_none policy _ y cur (by rw [hy2]; exact hcur) (by rw [hy, hs])
              (f.bytes ++ (tapeRecords (x.next + extent bl)
                (file.drop (x.next + extent bl))).1.flatMap (·.2)) ?_ hsrc ?_
            · simp only [List.length_append]; omega
            · rw [take15 _ _ hlong]; exact hf.wf.noLabel
          · rw [findsul_missing (policy := policy) _ y _ hsrc (by rw [hy, hs]) (by rw [hy2, hfi]) (by
              rw [at_data hl (fun p h => hok p (by simp [h])) (at_pieces hl (bl := bl) rfl hat).1]
              exact hst), hp, ← hs, ← hy]
            rfl)
      obtain ⟨z, gs, j1, j2, j3⟩ := ih qs' (by simp only [List.length_cons] at hm; omega) y k2 k6 k8 k9
        cur k3 (Or.inl (Or.inr (by rw [k4]; simp))) (n + 1) (by omega)
      refine ⟨z, g :: gs, (loop_step _ _ _ hd k1).trans j1, by rw [j2, k4]; simp, .cons k5 ?_⟩
      rw [← k10]; exact j3
    | .label s :: qs, hm, hat, hok, hord, _, hend =>
      obtain ⟨h80, htext⟩ := hok (.label s) (by simp)
      have hne : s ≠ [] := by rintro rfl; simp at h80
      obtain ⟨hat2, hr⟩ := at_pieces hl (bl := [s]) rfl hat
      have hno : ∀ t rs, qs ≠ .label t :: rs := by
        rintro t rs rfl
        exact hord
      have hord' : Spec.Ordered qs := by
        cases qs with
        | nil => trivial
        | cons q qs =>
          cases q with
          | label t => exact absurd rfl (hno t qs)
          | mark => exact hord
          | file f' bl' => exact hord
      have hsrc : (tapeLayer file x.next).src = ⟨s ++ (tapeRecords (x.next + extent [s])
          (file.drop (x.next + extent [s]))).1.flatMap (·.2), .eof⟩ := by
        unfold tapeLayer
        simp only
        rw [hend, hr]
        simp [pieces]
      have hlab := label_read policy hp (tapeLayer file x.next) s _ h80 htext hsrc
      rcases after_part (policy := policy) hl hat2 (fun p h => hok p (by simp [h])) hno with
        ⟨h1, qs', k1, k2, k3, k4, k5, k6⟩ | ⟨f, bl, rs, rfl, -⟩
      · have hit : ∃ y, iteration (tapeDisk file) policy stale x = (y, .done ()) ∧
            y.files = x.files ∧ y.sul = some s ∧
            if qs' = [] then y.dataEnd = true
            else y.dataEnd = false ∧ y.next = (tapeRecords (x.next + extent [s])
              (file.drop (x.next + extent [s]))).2.2 := by
          rw [h1] at hsrc
          simp only [List.flatMap_nil, List.append_nil] at hsrc
          unfold iteration
          have ho : ∀ k, (tapeDisk file).opens k = true := fun _ => rfl
          have ht : ∀ k, (tapeDisk file).tif k = true := fun _ => rfl
          have hlay : (tapeDisk file).layer x.next = tapeLayer file x.next := rfl
          rw [ho, ht, hlay]
          simp only [Bool.not_true, Bool.false_eq_true, if_false, Bool.or_true]
          rw [eof_no (by rw [hsrc, h80]; omega)]
          simp only
          rw [hlab]
          simp only
          unfold afterSul
          rw [eof_yes (by rw [hsrc, h80]) (by rw [hsrc])]
          have hpe : (tapeLayer file x.next).peof = decide (qs' = []) := by
            unfold tapeLayer
            rw [hr]
            exact decide_eq_decide.2 k6
          have het : (tapeLayer file x.next).endTell = (tapeRecords (x.next + extent [s])
              (file.drop (x.next + extent [s]))).2.2 := by
            unfold tapeLayer
            rw [hr]
          rw [hpe, het]
          refine ⟨_, rfl, ?_, ?_, ?_⟩
          · split <;> rfl
          · split <;> rfl
          · simp only [decide_eq_true_eq]
            split
            · rfl
            · exact ⟨hd, rfl⟩
        obtain ⟨y, j1, j2, j3, j4⟩ := hit
        rw [loop_step _ _ _ hd j1]
        by_cases hq : qs' = []
        · rw [if_pos hq] at j4
          refine ⟨y, [], loop_end _ _ j4, by rw [j2]; simp, ?_⟩
          rw [Spec.labelled, ← k5, hq]
          exact .nil
        · rw [if_neg hq] at j4
          obtain ⟨z, gs, l1, l2, l3⟩ := ih qs' (by simp only [List.length_cons] at hm; omega) y j4.1
            (by rw [j4.2]; exact k1) k3 (k4 hord') (some s) j3
            (Or.inl (Or.inl (by simpa using hne))) (n + 1) (by omega)
          refine ⟨z, gs, l1, by rw [l2, j2], ?_⟩
          rw [Spec.labelled, ← k5]
          exact l3
      · obtain ⟨g, y, qs', k1, k2, k3, k4, k5, k6, k7, k8, k9, k10⟩ := file_round (stale := stale) hst
          hp hl hti x hd (some s) [s] f bl rs hr hat2 (fun p h => hok p (by simp at h ⊢; tauto)) hord' (by
            intro y _ _
            rw [hlab y]
            simp [h80])
        obtain ⟨z, gs, j1, j2, j3⟩ := ih qs' (by simp only [List.length_cons] at hm; omega) y k2 k6 k8
          k9 (some s) k3 (Or.inl (Or.inl (by simpa using hne))) (n + 1) (by omega)
        refine ⟨z, g :: gs, (loop_step _ _ _ hd k1).trans j1, by rw [j2, k4]; simp, ?_⟩
        rw [Spec.labelled, Spec.labelled, ← k10]
        exact .cons k5 j3

theorem tape_first (ps : List Spec.Part) (policy : Policy) (hok : ∀ p ∈ ps, p.Ok policy)
    (hne : ps ≠ [])
    (hl : (Spec.tapeBytes 0 0 (ps.flatMap Spec.Part.blocks)).length < 2 ^ 32) :
    (∃ tm, (tapeDisk (Spec.tapeBytes 0 0 (ps.flatMap Spec.Part.blocks))).mark = .ok tm) ∧
    (tapeDisk (Spec.tapeBytes 0 0 (ps.flatMap Spec.Part.blocks))).isTif = true := by
  have key : ∀ t next rest, t < 2 → 0 < next → next < 2 ^ 32 →
      (∃ tm, (tapeDisk (Spec.le32 t ++ Spec.le32 0 ++ Spec.le32 next ++ rest)).mark = .ok tm) ∧
      (tapeDisk (Spec.le32 t ++ Spec.le32 0 ++ Spec.le32 next ++ rest)).isTif = true := by
    intro t next rest h1 h2 h3
    have hr : readAt ⟨Spec.le32 t ++ Spec.le32 0 ++ Spec.le32 next ++ rest, .eof⟩ 0 12 =
        .ok (Spec.le32 t ++ Spec.le32 0 ++ Spec.le32 next) := by
      have := readAt_append [] (Spec.le32 t ++ Spec.le32 0 ++ Spec.le32 next) rest .eof 0 12 rfl rfl
      simpa using this
    have hm : (tapeDisk (Spec.le32 t ++ Spec.le32 0 ++ Spec.le32 next ++ rest)).mark =
        .ok ⟨BitVec.ofNat 32 t, 0#32, BitVec.ofNat 32 next⟩ := by
      simp only [tapeDisk, readTapemark, hr]
      simp only [Spec.le32, List.cons_append, List.nil_append, parseTapemark]
      rw [le32_load t (by omega), le32_load 0 (by omega), le32_load next h3]
    refine ⟨⟨_, hm⟩, ?_⟩
    unfold Disk.isTif
    rw [hm]
    simp only [validTapemark]
    have ht : t = 0 ∨ t = 1 := by omega
    rw [if_neg (by rcases ht with rfl | rfl <;> simp), if_neg]
    simp only [ge_iff_le, BitVec.le_def, BitVec.toNat_ofNat, Nat.zero_mod]
    omega
  match ps, hok, hne, hl with
  | .mark :: qs, _, _, _ => exact key 1 12 _ (by omega) (by omega) (by omega)
  | .label s :: qs, _, _, hl =>
    simp only [List.flatMap_cons, Spec.Part.blocks, List.cons_append, List.nil_append,
      Spec.tapeBytes] at hl ⊢
    rw [List.append_assoc]
    refine key 0 (0 + 12 + s.length) _ (by omega) (by omega) ?_
    simp only [List.length_append, le32_length] at hl
    omega
  | .file f bl :: qs, hok, _, hl =>
    obtain ⟨-, -, -, b, bs, rfl, -⟩ := hok (.file f bl) (by simp)
    simp only [List.flatMap_cons, Spec.Part.blocks, List.map_cons, List.cons_append,
      Spec.tapeBytes] at hl ⊢
    rw [List.append_assoc]
    refine key 0 (0 + 12 + b.length) _ (by omega) (by omega) ?_
    simp only [List.length_append, le32_length] at hl
    omega

/-- C67.  A tape image of file marks, labels and well-formed logical files, in which every label is at
the start or behind a file mark, and every logical file starts a tape record; if there is no label
in front of the first logical file, nothing in 1700 bytes looks like one: loading gives one logical file for each, in order, each with the label that was the last
one in front of it, its index, its objects and its frame data, and then stops; however many file
marks there are in front of the label, between and behind the files, and in whatever way the bytes
of the files are distributed over tape records.  For the conditions see `c67_unaligned_defect`,
`c67_label_defect` and `c40_label_text_defect`. -/
theorem c67_tape_partial (policy : Policy) (stale : Nat → Bytes) (hst : ∀ t, 262 ≤ (stale t).length)
    (hp : policy .minor = false) (ps : List Spec.Part) (hne : ps ≠ [])
    (hok : ∀ p ∈ ps, p.Ok policy) (hord : Spec.Ordered ps) (hfirst : Spec.Starts ps)
    (hl : (Spec.tapeBytes 0 0 (ps.flatMap Spec.Part.blocks)).length < 2 ^ 32) (n : Nat)
    (hn : ps.length + 2 ≤ n) :
    ∃ y, load (tapeDisk (Spec.tapeBytes 0 0 (ps.flatMap Spec.Part.blocks))) policy stale n =
        (y, .files) ∧
      List.Forall₂ (fun p g => Spec.Faithful policy p.1 p.2 g) (Spec.labelled none ps) y.files := by
  obtain ⟨⟨tm, hm⟩, hti⟩ := tape_first ps policy hok hne hl
  obtain ⟨y, gs, h1, h2, h3⟩ := tape_loop (stale := stale) hst hp hl hti ps.length ps le_rfl
    { Indexer.new with closed := [0] } rfl ⟨0, rfl, by simp [Indexer.new]⟩ hok hord none
    rfl (Or.inr ⟨rfl, rfl, hfirst⟩) n hn
  refine ⟨y, ?_, ?_⟩
  · unfold load
    rw [hm]
    exact h1
  · rw [h2]
    exact h3

/-! ### Termination -/

theorem tape_tell (pos : Nat) (bs : Bytes) : ∀ p,
    pos + min p ((tapeRecords pos bs).1.flatMap (·.2)).length ≤
        tellIn (tapeRecords pos bs).2.2 (tapeRecords pos bs).1 p ∧
      ((tapeRecords pos bs).1 ≠ [] →
        pos + 12 + min p ((tapeRecords pos bs).1.flatMap (·.2)).length ≤
          tellIn (tapeRecords pos bs).2.2 (tapeRecords pos bs).1 p) := by
  fun_induction tapeRecords pos bs with
  | case1 => intro p; simp [tellIn]
  | case2 => intro p; simp [tellIn]
  | case3 => intro p; simp [tellIn]
  | case4 pos a0 a1 a2 a3 b0 b1 b2 b3 c0 c1 c2 c3 rest type next h1 h2 h3 =>
    intro p
    simp only [tellIn, List.flatMap_cons, List.flatMap_nil, List.append_nil]
    split <;> omega
  | case5 pos a0 a1 a2 a3 b0 b1 b2 b3 c0 c1 c2 c3 rest type next h1 h2 h3 rs e hr ih =>
    intro p
    rw [hr] at ih
    have hlen : (rest.take (next - (pos + 12))).length = next - (pos + 12) := by
      rw [List.length_take]; omega
    simp only [tellIn, List.flatMap_cons, List.length_append, hlen]
    have := (ih (p - (next - (pos + 12)))).1
    simp only at this
    split <;> omega
  | case6 => intro p; simp [tellIn]

theorem visible_room (pos : Nat) (bs : Bytes) (h : (visible pos bs).1.flatMap (·.2) ≠ []) :
    ((visible pos bs).1.flatMap (·.2)).length + 4 ≤ bs.length := by
  fun_induction visible pos bs with
  | case1 => exact absurd rfl h
  | case2 => exact absurd rfl h
  | case3 => simp
  | case4 pos l1 l0 ff v rest len h1 h2 vs e hr ih =>
    rw [hr] at ih
    simp only [List.flatMap_cons, List.length_append, List.length_take, List.length_cons]
    simp only at ih
    by_cases hv : vs.flatMap (·.2) = []
    · rw [hv]; simp only [List.length_nil]; omega
    · have := ih hv
      simp only [List.length_drop] at this
      omega
  | case5 => exact absurd rfl h

theorem tape_end_ge (pos : Nat) (bs : Bytes) : pos ≤ (tapeRecords pos bs).2.2 := by
  fun_induction tapeRecords pos bs with
  | case1 => exact le_rfl
  | case2 => simp only; omega
  | case3 => simp only; omega
  | case4 => simp only; omega
  | case5 pos a0 a1 a2 a3 b0 b1 b2 b3 c0 c1 c2 c3 rest type next h1 h2 h3 rs e hr ih =>
    rw [hr] at ih
    simp only at ih ⊢
    omega
  | case6 => simp only; omega

theorem tape_end_gt (pos : Nat) (bs : Bytes) (h : 0 < bs.length) :
    pos < (tapeRecords pos bs).2.2 := by
  fun_induction tapeRecords pos bs with
  | case1 => simp at h
  | case2 => simp only; omega
  | case3 => simp only; omega
  | case4 => simp only; omega
  | case5 pos a0 a1 a2 a3 b0 b1 b2 b3 c0 c1 c2 c3 rest type next h1 h2 h3 rs e hr ih =>
    have := (tape_tell next (rest.drop (next - (pos + 12))) 0).1
    have hg := tape_end_ge next (rest.drop (next - (pos + 12)))
    rw [hr] at hg
    simp only at hg ⊢
    omega
  | case6 => simp only; omega

theorem tape_moves (file : Bytes) (k : Nat) : Moves (tapeDisk file) file.length k where
  mark h := by
    simp only [tapeDisk, tapeLayer, decide_eq_false_iff_not, not_le] at h ⊢
    have hk : k < file.length := by
      have := (tape_tell k (file.drop k) 0).1
      by_contra hc
      rw [List.drop_eq_nil_of_le (by omega), tape_nil] at h
      simp only at h
      omega
    refine ⟨hk, ?_⟩
    have : 0 < (file.drop k).length := by rw [List.length_drop]; omega
    exact tape_end_gt k _ this
  data h := by
    by_contra hc
    simp only [tapeDisk, tapeLayer] at h
    rw [List.drop_eq_nil_of_le (by omega), tape_nil] at h
    simp at h
  file q r h hpos := by
    simp only [tapeDisk, tapeLayer] at hpos
    have hr : (tapeRecords k (file.drop k)).1 ≠ [] := by
      intro hr; rw [hr] at hpos; simp at hpos
    cases h
    refine ⟨?_, ?_⟩
    · have hk : 0 < (file.drop k).length := by
        rw [List.length_pos_iff]
        intro hn
        rw [hn, tape_nil] at hr
        exact hr rfl
      exact tape_end_gt k _ hk
    · intro p h4 hlen
      simp only [tapeRp66, tapeLayer] at hlen ⊢
      set data := (tapeRecords k (file.drop k)).1.flatMap (·.2) with hd
      have h1 := tellIn_ge data.length q (data.drop q) p (by omega)
      have h2 := visible_room q (data.drop q) (by
        intro hn; rw [hn] at hlen; simp at hlen)
      rw [List.length_drop] at h2
      have h3 := (tape_tell k (file.drop k) (tellIn data.length (visible q (data.drop q)).1 p)).2 hr
      rw [← hd] at h3
      split_ifs <;> omega

/-- **C67** (termination).  Loading a tape image comes to an end, whatever the file contains and
whatever the error handler does: the file is opened at greater and greater offsets. -/
theorem c67_ends (file : Bytes) (policy : Policy) (stale : Nat → Bytes) :
    (load (tapeDisk file) policy stale (file.length + 2)).2 ≠ .running ∧
    ∀ n, file.length + 2 ≤ n →
      load (tapeDisk file) policy stale n = load (tapeDisk file) policy stale (file.length + 2) := by
  unfold load
  split
  · have := loadLoop_ends (policy := policy) (stale := stale) (tape_moves file) (file.length + 2)
      { Indexer.new with closed := [0] } (by simp [Indexer.new])
    exact ⟨this, fun n hn => loadLoop_stable _ _ _ this hn⟩
  · exact ⟨by simp, fun _ _ => rfl⟩

/-! ### Cases and defects -/

/-- A tape with file marks in front of the label, between the files, and at the end; the first file
is cut in the middle of a visible record, the second has a label of its own. -/
def exTape : List Spec.Part :=
  [.mark, .label exLabel, .mark, .file exFile1 [exFile1.bytes.take 13, exFile1.bytes.drop 13],
    .file exFile2 [exFile2.bytes], .mark, .mark, .label (exLabel.take 60 ++ List.replicate 20 0x41),
    .file exFile2 [exFile2.bytes], .mark, .mark]

theorem exTape_ok : ∀ p ∈ exTape, p.Ok exPolicy := by
  intro p hp
  simp only [exTape, List.mem_cons, List.not_mem_nil, or_false] at hp
  rcases hp with rfl | rfl | rfl | rfl | rfl | rfl | rfl | rfl | rfl | rfl | rfl
  · trivial
  · exact ⟨exLabel_label.length, exLabel_label.text⟩
  · trivial
  · exact ⟨exFile1_loadable, by decide, by decide, _, _, rfl, by decide⟩
  · exact ⟨exFile2_loadable, by decide, by decide, _, _, rfl, by decide⟩
  · trivial
  · trivial
  · refine ⟨by decide, by rw [occurs_bytes]; decide, ?_⟩
    intro j hj
    rw [occurs_bytes]
    revert j
    decide
  · exact ⟨exFile2_loadable, by decide, by decide, _, _, rfl, by decide⟩
  · trivial
  · trivial

/-- Case for `c67_tape_partial`: three files; the last one has the second label. -/
example : ∃ y g1 g2 g3,
    load (tapeDisk (Spec.tapeBytes 0 0 (exTape.flatMap Spec.Part.blocks))) exPolicy exStale 13 =
      (y, .files) ∧ y.files = [g1, g2, g3] ∧ g1.explicits = [0] ∧ g1.implicits = [17] ∧
    g2.implicits = [] ∧ g1.sul = some exLabel ∧ g2.sul = some exLabel ∧
    g3.sul = some (exLabel.take 60 ++ List.replicate 20 0x41) := by
  obtain ⟨y, h1, h2⟩ := c67_tape_partial exPolicy exStale
    (fun _ => by rw [exStale, List.length_replicate]) (by decide) exTape (by simp [exTape]) exTape_ok
    (by simp [exTape, Spec.Ordered]) (by simp [exTape, Spec.Starts]) (by decide +kernel) 13
    (by decide)
  simp only [exTape, Spec.labelled] at h2
  cases h : y.files with
  | nil => rw [h] at h2; cases h2
  | cons g1 gs =>
    rw [h] at h2
    cases h2 with
    | cons a b =>
      cases b with
      | cons b c =>
        cases c with
        | cons c d =>
          cases d
          exact ⟨y, g1, _, _, h1, h, a.explicits.trans (by decide), a.implicits.trans (by decide),
            b.implicits.trans (by decide), a.label, b.label, c.label⟩

/-- C67 is violated when a logical file does not start a tape record, although every visible record
is in order: with the second file in the tape record of the first, and with a tape record that ends
behind the header of the first visible record of the second file, loading raises an exception; and
if the error handler lets everything pass, the second file is lost.  The same files without tape
marks are loaded. -/
theorem c67_unaligned_defect :
    let t1 := Spec.tapeBytes 0 0 [.data exLabel, .data (exFile2.bytes ++ exFile1.bytes), .mark, .mark]
    let t2 := Spec.tapeBytes 0 0 [.data exLabel, .data exFile2.bytes, .data (exFile1.bytes.take 4),
      .data (exFile1.bytes.drop 4), .mark, .mark]
    ((load (tapeDisk t1) exPolicy exStale 9).2 = .raised ∧
      (load (tapeDisk t2) exPolicy exStale 9).2 = .raised) ∧
    (load (tapeDisk t1) (fun _ => false) exStale 9).1.files.map (·.implicits) = [[]] ∧
    (load (tapeDisk t2) (fun _ => false) exStale 9).1.files.map (·.implicits) = [[]] ∧
    (load (rawDisk (exLabel ++ exFile2.bytes ++ exFile1.bytes)) exPolicy exStale 9).1.files.map
      (·.implicits) = [[], [17]] := by
  decide +kernel

/-- C67 is violated when a label follows a logical file without a file mark: the second file is
lost. -/
theorem c67_label_defect :
    let tape := Spec.tapeBytes 0 0 [.data exLabel, .data exFile2.bytes, .data exLabel,
      .data exFile1.bytes, .mark, .mark]
    (load (tapeDisk tape) exPolicy exStale 9).2 = .raised ∧
    (let r := load (tapeDisk tape) (fun _ => false) exStale 9
     r.2 = .files ∧ r.1.files.map (fun g => g.implicits) = [[]]) := by
  decide +kernel

/-- Case for `c67_tape_partial`: a tape without a label, and a label behind the first file. -/
example : ∃ y g1 g2 g3,
    load (tapeDisk (Spec.tapeBytes 0 0 ([.mark, .file exFile1 [exFile1.bytes.take 13, exFile1.bytes.drop 13],
        .file exFile2 [exFile2.bytes], .mark, .label exLabel, .file exFile2 [exFile2.bytes]].flatMap
          Spec.Part.blocks))) exPolicy exStale 13 =
      (y, .files) ∧ y.files = [g1, g2, g3] ∧ g1.implicits = [17] ∧ g2.implicits = [] ∧
    g1.sul = none ∧ g2.sul = none ∧ g3.sul = some exLabel := by
  obtain ⟨y, h1, h2⟩ := c67_tape_partial exPolicy exStale
    (fun _ => by rw [exStale, List.length_replicate]) (by decide)
    [.mark, .file exFile1 [exFile1.bytes.take 13, exFile1.bytes.drop 13], .file exFile2 [exFile2.bytes],
      .mark, .label exLabel, .file exFile2 [exFile2.bytes]] (by simp) (by
      intro p hp
      apply exTape_ok
      simp only [exTape, List.mem_cons, List.not_mem_nil, or_false] at hp ⊢
      tauto)
    (by simp [Spec.Ordered]) ((c14_find_sul _).2.1.1 (by decide +kernel)) (by decide +kernel) 13
    (by decide)
  simp only [Spec.labelled] at h2
  cases h : y.files with
  | nil => rw [h] at h2; cases h2
  | cons g1 gs =>
    rw [h] at h2
    cases h2 with
    | cons a b =>
      cases b with
      | cons b c =>
        cases c with
        | cons c d =>
          cases d
          exact ⟨y, g1, _, _, h1, h, a.implicits.trans (by decide), b.implicits.trans (by decide),
            a.label, b.label, c.label⟩

/-- Case for `c67_ends`: the mark behind the label points back to the start of the tape. -/
example :
    let tape := Spec.le32 0 ++ Spec.le32 0 ++ Spec.le32 92 ++ exLabel ++
      (Spec.le32 0 ++ Spec.le32 0 ++ Spec.le32 0) ++ exFile2.bytes
    (load (tapeDisk tape) exPolicy exStale 9).2 = .raised ∧
    (let r := load (tapeDisk tape) (fun _ => false) exStale 9
     r.2 = .files ∧ r.1.files.length = 0 ∧ r.1.sul = some exLabel) := by
  decide +kernel

/-- Case: zeros behind the last file mark.  They are reported as an error; if it is let pass, both
files are there. -/
example :
    let tape := Spec.tapeBytes 0 0 [.data exLabel, .data exFile2.bytes, .data exFile1.bytes, .mark,
      .mark] ++ List.replicate 40 0
    (load (tapeDisk tape) exPolicy exStale 9).2 = .raised ∧
    (let r := load (tapeDisk tape) (fun _ => false) exStale 9
     r.2 = .files ∧ r.1.files.map (fun g => g.implicits) = [[], [17]]) := by
  decide +kernel

end Dlisio.Dlis
