/-
Loading of LIS files: C74, files stored as tape images (TIF).

What lfp makes of a tape image is what C67 says (`Dlis.tapeRecords`): the data of tape records up to
the next file mark.  The layouts in python/data/lis/layouts and their tests
(python/tests/lis/test_physical_layout.py) agree with it.
-/
import Verif.Lis.LogicalFile
import Verif.Lis.TapeStart
import Verif.Dlis.TapeImage

namespace Dlisio.Lis

open _root_.Dlisio.Lis.Spec

/-! ### Model -/

/-- `core.openlis(path, offset, True)`, io.cpp:577-632: an end of the stream in front of the first
byte is an `EOFError`, any other failure to read this byte an `OSError`.  `eof()` is right for
indexing that has stopped at the start of a record, or because there was nothing more to read. -/
def tifOpened (file : Bytes) (off : Nat) : Opened :=
  let r := Dlis.tapeRecords off (file.drop off)
  let data := r.1.flatMap (·.2)
  if data = [] then
    match r.2.1 with
    | .eof => .eof
    | .broken _ => .osError
  else .stream ⟨⟨data, r.2.1⟩, Dlis.tellIn r.2.2 r.1⟩ fun p => decide (data.length ≤ p)

/-- A file, with tape marks or without: `core.open`, load.py:113, and `core.openlis`,
load.py:144. -/
def fileDisk (file : Bytes) : Disk where
  raw := some ⟨file, .eof⟩
  lis isTif off := if isTif then tifOpened file off else (plainDisk file).lis false off

/-- The records of a logical file, as far as they can be read through its handle
(`read_record`, io.cpp:521-562): type and data, explicit and implicit ones apart. -/
def contents (d : Disk) (isTif : Bool) (x : Nat × Index) :
    List (Nat × Option Bytes) × List (Nat × Option Bytes) :=
  match d.lis isTif x.1 with
  | .stream dev _ =>
    let get := fun i : RecordInfo => (i.type, (readRecord dev i).toOption.map (·.1))
    (x.2.explicits.map get, x.2.implicits.map get)
  | _ => ([], [])

/-! ### Specification -/

namespace Spec

/-- What is on a tape between two file marks: delimiters and logical files, the bytes of which are
distributed over tape records. -/
structure Stretch where
  parts : List Part
  pieces : List Bytes

/-- Where a byte is in the file, if the first tape mark is at `start`; twelve bytes for each mark. -/
def physical (start : Nat) : List Bytes → Nat → Nat
  | [], _ => start
  | b :: bs, p =>
    if p < b.length then start + 12 + p else physical (start + 12 + b.length) bs (p - b.length)

/-- The bytes of a stretch that starts at a tape mark. -/
def Stretch.dev (s : Stretch) (start : Nat) : Device :=
  ⟨⟨s.pieces.flatten, .eof⟩, physical start s.pieces⟩

/-- A stretch is in order: the records are in the tape records, with padding where the format allows
it; and all parts but the first start a tape record. -/
def Stretch.Ok (s : Stretch) (start : Nat) : Prop :=
  s.parts ≠ [] ∧ Proper s.parts ∧ (∀ b ∈ s.pieces, b ≠ []) ∧
  (∃ e k x, Blank x ∧ Placed (s.dev start) 0 (itemsOf s.parts) e ∧
    s.pieces.flatten.drop e = List.replicate k x) ∧
  ∀ a b, s.parts = a ++ b → a ≠ [] → ∀ it ∈ (itemsOf b).head?,
    ∃ c d, s.pieces = c ++ d ∧ c.flatten.length = extent (itemsOf a) + it.pad

/-- Bytes of tape records with their marks. -/
def Stretch.size (s : Stretch) : Nat := (s.pieces.map (12 + ·.length)).sum

/-- All stretches are in order; there is a file mark between two of them. -/
def AllOk : Nat → List Stretch → Prop
  | _, [] => True
  | start, s :: ss => s.Ok start ∧ AllOk (start + s.size + 12) ss

/-- The stretches on the tape. -/
def stretchBlocks : List Stretch → List Dlis.Spec.Block
  | [] => []
  | [s] => s.pieces.map .data
  | s :: ss => s.pieces.map .data ++ .mark :: stretchBlocks ss

/-- The end of the tape: nothing, one file mark, or two of them with anything behind. -/
def TapeEnd (bs : List Dlis.Spec.Block) (junk : Bytes) : Prop :=
  (bs = [] ∧ junk = []) ∨ (bs = [.mark] ∧ junk = []) ∨ bs = [.mark, .mark]

/-- The records of explicit or implicit type, with their data. -/
def recordsOf (imp : Bool) (its : List Item) : List (Nat × Option Bytes) :=
  (its.filter fun it => (it.record.type == 0 || it.record.type == 1) == imp).map fun it =>
    (it.record.type.toNat, some it.record.data)

/-- What a part is. -/
def Part.event : Part → Event (List (Nat × Option Bytes) × List (Nat × Option Bytes))
  | .mark it => .mark it.record.type.toNat it.record.data
  | .file its => .file (recordsOf false its, recordsOf true its)

end Spec

/-! ### Positions on the tape -/

/-- the blocks that are at a position of the file, and other bytes behind them -/
def OnTape (file : Bytes) (pos : Nat) (bs : List Dlis.Spec.Block) (junk : Bytes) : Prop :=
  ∃ prev, file.drop pos = Dlis.Spec.tapeBytes prev pos bs ++ junk

theorem onTape_mark {file junk : Bytes} {pos : Nat} {bs : List Dlis.Spec.Block}
    (h : OnTape file pos (.mark :: bs) junk) : OnTape file (pos + 12) bs junk ∧
      Dlis.tapeRecords pos (file.drop pos) = ([], .eof, pos + 12) := by
  obtain ⟨prev, h1⟩ := h
  simp only [Dlis.Spec.tapeBytes] at h1
  refine ⟨⟨pos, ?_⟩, by rw [h1, List.append_assoc, Dlis.tape_mark]⟩
  rw [← List.drop_drop, h1, List.append_assoc]
  exact List.drop_left' (by simp [Dlis.le32_length])

theorem onTape_data {file junk b : Bytes} {pos : Nat} {bs : List Dlis.Spec.Block}
    (hl : file.length < 2 ^ 32) (h : OnTape file pos (.data b :: bs) junk) :
    OnTape file (pos + 12 + b.length) bs junk ∧
      Dlis.tapeRecords pos (file.drop pos) =
        ((pos + 12, b) :: (Dlis.tapeRecords (pos + 12 + b.length) (file.drop (pos + 12 + b.length))).1,
          (Dlis.tapeRecords (pos + 12 + b.length) (file.drop (pos + 12 + b.length))).2) := by
  obtain ⟨prev, h1⟩ := h
  simp only [Dlis.Spec.tapeBytes] at h1
  have hlen := congrArg List.length h1
  simp only [List.length_append, List.length_drop, Dlis.le32_length] at hlen
  have h3 : file.drop (pos + 12 + b.length) =
      Dlis.Spec.tapeBytes pos (pos + 12 + b.length) bs ++ junk := by
    rw [Nat.add_assoc, ← List.drop_drop, h1, ← Nat.add_assoc, List.append_assoc]
    exact List.drop_left' (by simp only [List.length_append, Dlis.le32_length])
  refine ⟨⟨pos, h3⟩, ?_⟩
  rw [h1, List.append_assoc, Dlis.tape_data _ _ _ _ (by omega), ← h3]

theorem onTape_pieces {file junk : Bytes} (hl : file.length < 2 ^ 32) (bl : List Bytes)
    {bs : List Dlis.Spec.Block} : ∀ {pos : Nat}, OnTape file pos (bl.map .data ++ bs) junk →
    OnTape file (pos + Dlis.extent bl) bs junk ∧
      Dlis.tapeRecords pos (file.drop pos) =
        (Dlis.pieces pos bl ++ (Dlis.tapeRecords (pos + Dlis.extent bl) (file.drop (pos + Dlis.extent bl))).1,
          (Dlis.tapeRecords (pos + Dlis.extent bl) (file.drop (pos + Dlis.extent bl))).2) := by
  induction bl with
  | nil => intro pos h; exact ⟨h, by simp [Dlis.extent, Dlis.pieces]⟩
  | cons b bl ih =>
    intro pos h
    obtain ⟨h1, h2⟩ := onTape_data hl h
    obtain ⟨h3, h4⟩ := ih h1
    have he : pos + Dlis.extent (b :: bl) = pos + 12 + b.length + Dlis.extent bl := by
      simp only [Dlis.extent]; omega
    rw [he]
    refine ⟨h3, ?_⟩
    rw [h2, h4]
    rfl

/-- what is behind a stretch: the end of the file, or a file mark -/
def TapeClosed (file : Bytes) (pos : Nat) : Prop :=
  ∃ t, Dlis.tapeRecords pos (file.drop pos) = ([], .eof, t) ∧ (t = pos ∨ t = pos + 12)

theorem onTape_closed {file junk : Bytes} {pos : Nat} {bs : List Dlis.Spec.Block}
    (h : OnTape file pos bs junk) (hb : (bs = [] ∧ junk = []) ∨ ∃ bs', bs = .mark :: bs') :
    TapeClosed file pos := by
  rcases hb with ⟨rfl, rfl⟩ | ⟨bs', rfl⟩
  · obtain ⟨prev, h1⟩ := h
    simp only [Dlis.Spec.tapeBytes, List.append_nil] at h1
    exact ⟨pos, by rw [h1, Dlis.tape_nil], .inl rfl⟩
  · exact ⟨_, (onTape_mark h).2, .inr rfl⟩

theorem physical_tell (bl : List Bytes) : ∀ (start t p : Nat),
    (t = start + Dlis.extent bl ∨ t = start + Dlis.extent bl + 12) →
    Dlis.tellIn t (Dlis.pieces start bl) p % 4 = physical start bl p % 4 := by
  induction bl with
  | nil =>
    intro start t p h
    simp only [Dlis.pieces, Dlis.tellIn, physical, Dlis.extent] at h ⊢
    omega
  | cons b bl ih =>
    intro start t p h
    simp only [Dlis.pieces, Dlis.tellIn, physical, Dlis.extent] at h ⊢
    split
    · rfl
    · exact ih _ _ _ (by omega)

theorem physical_append (c d : List Bytes) : ∀ (start p : Nat),
    physical start (c ++ d) (c.flatten.length + p) = physical (start + Dlis.extent c) d p := by
  induction c with
  | nil => intro start p; simp [Dlis.extent]
  | cons b c ih =>
    intro start p
    simp only [List.cons_append, physical, List.flatten_cons, List.length_append, Dlis.extent]
    rw [if_neg (by omega), show b.length + c.flatten.length + p - b.length = c.flatten.length + p by omega,
      ih]
    congr 1
    omega

theorem tellIn_start (t start : Nat) (b : Bytes) (bl : List Bytes) (hb : b ≠ []) :
    Dlis.tellIn t (Dlis.pieces start (b :: bl)) 0 = start + 12 := by
  have : 0 < b.length := List.length_pos_iff.mpr hb
  simp only [Dlis.pieces, Dlis.tellIn, if_pos this]

/-- what is placed in a stream is placed in another one with the same bytes from some position on -/
theorem placed_sub {dev dev' : Device} (n : Nat) (hsrc : dev'.src.data = dev.src.data.drop n)
    (hp : ∀ p, dev'.ptell p % 4 = dev.ptell (n + p) % 4) (its : List Item) : ∀ pos e : Nat,
    Placed dev (n + pos) its e → ∃ e', e = n + e' ∧ Placed dev' pos its e' := by
  induction its with
  | nil => intro pos e h; exact ⟨pos, h, rfl⟩
  | cons it its ih =>
    intro pos e h
    obtain ⟨h1, h2, h3, h4⟩ := h
    obtain ⟨e', he, hpl⟩ := ih (pos + it.pad + it.record.size) e (by
      rw [show n + (pos + it.pad + it.record.size) = n + pos + it.pad + it.record.size by omega]
      exact h4)
    refine ⟨e', he, h1, ?_, ?_, hpl⟩
    · unfold Gap at h2 ⊢
      rcases h2 with h2 | ⟨h2, h5, h6⟩
      · exact .inl h2
      · refine .inr ⟨h2, h5, ?_⟩
        have := hp (pos + 4)
        rw [show n + (pos + 4) = n + pos + 4 by omega] at this
        omega
    · unfold At at h3 ⊢
      rw [hsrc, List.drop_drop]
      exact h3

/-! ### One stretch -/

/-- the stream from a tape record of a stretch on -/
def tifDev (file : Bytes) (off : Nat) : Device :=
  ⟨⟨(Dlis.tapeRecords off (file.drop off)).1.flatMap (·.2), (Dlis.tapeRecords off (file.drop off)).2.1⟩,
    Dlis.tellIn (Dlis.tapeRecords off (file.drop off)).2.2 (Dlis.tapeRecords off (file.drop off)).1⟩

theorem tifDev_pieces {file junk : Bytes} (hl : file.length < 2 ^ 32) {bl : List Bytes}
    {bs : List Dlis.Spec.Block} {off : Nat} (h : OnTape file off (bl.map .data ++ bs) junk)
    (hc : TapeClosed file (off + Dlis.extent bl)) :
    ∃ t, (t = off + Dlis.extent bl ∨ t = off + Dlis.extent bl + 12) ∧
      Dlis.tapeRecords (off + Dlis.extent bl) (file.drop (off + Dlis.extent bl)) = ([], .eof, t) ∧
      tifDev file off = ⟨⟨bl.flatten, .eof⟩, Dlis.tellIn t (Dlis.pieces off bl)⟩ := by
  obtain ⟨t, h1, h2⟩ := hc
  refine ⟨t, h2, h1, ?_⟩
  unfold tifDev
  rw [(onTape_pieces hl bl h).2, h1]
  simp only [List.append_nil, Dlis.pieces_data]

theorem fileDisk_stream {file : Bytes} {off : Nat} (h : (tifDev file off).src.data ≠ []) :
    (fileDisk file).lis true off = .stream (tifDev file off)
      fun p => decide ((tifDev file off).src.data.length ≤ p) := by
  unfold fileDisk tifOpened
  have h' : (Dlis.tapeRecords off (file.drop off)).1.flatMap (·.2) ≠ [] := h
  simp only [if_true]
  rw [if_neg h']
  rfl

theorem tellIn_end (t : Nat) (bl : List Bytes) : ∀ start p, bl.flatten.length ≤ p →
    Dlis.tellIn t (Dlis.pieces start bl) p = t := by
  induction bl with
  | nil => intro start p _; rfl
  | cons b bl ih =>
    intro start p h
    simp only [List.flatten_cons, List.length_append] at h
    simp only [Dlis.pieces, Dlis.tellIn]
    rw [if_neg (by omega)]
    exact ih _ _ (by omega)

theorem filter_located (imp : Bool) (dev : Device) (its : List Item) : ∀ pos e : Nat,
    Placed dev pos its e →
    (((located pos its).filter fun i => implicit i == imp).map fun i =>
        (i.type, (readRecord dev i).toOption.map (·.1))) = recordsOf imp its := by
  induction its with
  | nil => intro pos e _; rfl
  | cons it its ih =>
    intro pos e h
    have hr := c45_nth dev (it :: its) pos e h 0 it _ rfl rfl
    have hi : implicit ⟨it.record.type.toNat, it.record.size, pos + it.pad⟩ =
        (it.record.type == 0 || it.record.type == 1) := by
      unfold implicit
      rw [Bool.eq_iff_iff]
      simp only [Bool.or_eq_true, decide_eq_true_eq, beq_iff_eq]
      constructor
      · rintro (h | h)
        · exact .inl (BitVec.eq_of_toNat_eq h)
        · exact .inr (BitVec.eq_of_toNat_eq h)
      · rintro (h | h) <;> rw [h]
        · exact .inl rfl
        · exact .inr rfl
    have := ih _ _ h.2.2.2
    unfold recordsOf at this ⊢
    simp only [located, List.filter_cons, hi]
    split
    · simp only [List.map_cons, this]
      rw [hr]
      rfl
    · exact this

theorem nearly_records (imp : Bool) {a b : List Item} (h : Nearly a b) :
    recordsOf imp b = recordsOf imp a := by
  rcases h with rfl | rfl
  · rfl
  · cases a with
    | nil => rfl
    | cons it a =>
      unfold recordsOf bareHead
      simp only [List.filter_cons, Item.bare]
      split <;> rfl

/-- an event with the contents of the file -/
def readEvent (d : Disk) (isTif : Bool) :
    Event (Nat × Index) → Event (List (Nat × Option Bytes) × List (Nat × Option Bytes))
  | .mark t r => .mark t r
  | .file x => .file (contents d isTif x)

/-- the index of a file is one of the records of the part, in the stream from its offset on -/
def Holding (d : Disk) (isTif : Bool) : Event (Nat × Index) → Part → Prop
  | .mark _ _, .mark _ => True
  | .file x, .file its => ∃ dev eof infos, d.lis isTif x.1 = .stream dev eof ∧ Listed dev x.2 its infos
  | _, _ => False

theorem found_nearly {dev : Device} {a b : List Item} {infos : List RecordInfo} (h : Nearly a b)
    (hf : List.Forall₂ (Found dev) b infos) : List.Forall₂ (Found dev) a infos := by
  rcases h with rfl | rfl
  · exact hf
  · cases a with
    | nil => exact hf
    | cons it a =>
      cases hf with
      | cons h hf => exact .cons ⟨h.ok, h.here, h.type⟩ hf

theorem pieces_append (c d : List Bytes) : ∀ start,
    Dlis.pieces start (c ++ d) = Dlis.pieces start c ++ Dlis.pieces (start + Dlis.extent c) d := by
  induction c with
  | nil => intro start; simp [Dlis.pieces, Dlis.extent]
  | cons b c ih =>
    intro start
    simp only [List.cons_append, Dlis.pieces, ih, Dlis.extent]
    rw [show start + 12 + b.length + Dlis.extent c = start + (12 + b.length + Dlis.extent c) by omega]

theorem pieces_extent (c d : List Bytes) :
    Dlis.extent (c ++ d) = Dlis.extent c + Dlis.extent d := by
  induction c with
  | nil => simp [Dlis.extent]
  | cons b c ih => simp only [List.cons_append, Dlis.extent, ih]; omega

theorem walk_stretch {file junk : Bytes} (hl : file.length < 2 ^ 32) {bs : List Dlis.Spec.Block} :
    ∀ (ps : List Part) (off : Nat) (bl : List Bytes) (its : List Item) (e k : Nat) (x : Byte),
    Proper ps → ps ≠ [] → Nearly (itemsOf ps) its → (∀ b ∈ bl, b ≠ []) →
    OnTape file off (bl.map .data ++ bs) junk → TapeClosed file (off + Dlis.extent bl) → Blank x →
    Placed (tifDev file off) 0 its e → bl.flatten.drop e = List.replicate k x →
    (∀ a b, ps = a ++ b → a ≠ [] → ∀ it ∈ (itemsOf b).head?, ∃ c d, bl = c ++ d ∧
      c.flatten.length + extent (itemsOf ps) = extent its + extent (itemsOf a) + it.pad) →
    ∃ evs t, Dlis.tapeRecords (off + Dlis.extent bl) (file.drop (off + Dlis.extent bl)) =
        ([], .eof, t) ∧
      Walk (fileDisk file) true off evs t ∧
      evs.map (readEvent (fileDisk file) true) = ps.map Part.event ∧
      List.Forall₂ (Holding (fileDisk file) true) evs ps := by
  intro ps
  induction ps with
  | nil => intro off bl its e k x _ h; exact absurd rfl h
  | cons p ps ih =>
    intro off bl its e k x hpr _ hn hne hon hcl hx hpl hd hcut
    obtain ⟨its', hn', rfl⟩ := nearly_append hn (proper_nonempty hpr)
    obtain ⟨t, ht, htr, hdev⟩ := tifDev_pieces hl hon hcl
    have hits : its' ≠ [] := nearly_ne hn' (proper_nonempty hpr)
    have hdata : (tifDev file off).src.data = bl.flatten := by rw [hdev]
    have hdn : (tifDev file off).src.data ≠ [] := by
      intro h0
      cases its' with
      | nil => exact hits rfl
      | cons it its' =>
        have := indexRecord_pos (placed_record hpl)
        rw [h0] at this
        simp only [List.length_nil] at this
        omega
    have hlis := fileDisk_stream hdn
    obtain ⟨ev, hy, hev⟩ := yields_dev (fileDisk file) true (tifDev file off) _ p ps off e k x its'
      hlis hpr hn' hpl hx (by rw [hdev]) (by rw [hdata]; exact hd)
    obtain ⟨m, hp1, hp2, -⟩ := placed_append hpl
    have hm : m = extent its' := by simpa using placed_end its' hp1
    have hread : readEvent (fileDisk file) true ev = p.event := by
      cases p with
      | mark it => subst hev; rfl
      | file fits =>
        obtain ⟨ix, rfl, h1, h2⟩ := hev
        simp only [readEvent, contents, hlis, h1, h2, Part.event]
        have e1 := filter_located false (tifDev file off) its' 0 m hp1
        have e2 := filter_located true (tifDev file off) its' 0 m hp1
        rw [nearly_records false (a := fits) hn'] at e1
        rw [nearly_records true (a := fits) hn'] at e2
        rw [← e1, ← e2]
        congr 3
        · congr 1; funext i; cases implicit i <;> rfl
        · congr 1; funext i; cases implicit i <;> rfl
    have hhold : Holding (fileDisk file) true ev p := by
      cases p with
      | mark it => subst hev; trivial
      | file fits =>
        obtain ⟨ix, rfl, h1, h2⟩ := hev
        exact ⟨_, _, _, hlis, found_nearly hn' (found_placed its' hp1), located_order its' hp1, h1, h2⟩
    by_cases hps : ps = []
    · subst hps
      refine ⟨[ev], t, htr, .cons ?_ (.nil _), by simp [hread], .cons hhold .nil⟩
      convert hy using 1
      have hq : bl.flatten.length ≤ e + k := by
        have := congrArg List.length hd
        rw [List.length_drop, List.length_replicate] at this
        omega
      simp only [itemsOf, List.head?_nil, behind, nextOffset, hdata, hq, decide_true, Bool.not_true,
        Bool.and_false, Bool.false_eq_true, if_false]
      rw [hdev]
      exact (tellIn_end t bl off _ hq).symm
    · obtain ⟨nt, rest, hio⟩ : ∃ nt rest, itemsOf ps = nt :: rest := by
        cases h : itemsOf ps with
        | nil => exact absurd (itemsOf_nil (proper_tail hpr) h) hps
        | cons a b => exact ⟨a, b, rfl⟩
      obtain ⟨c, d, hbl, hc⟩ := hcut [p] ps rfl (by simp) nt (by rw [hio]; rfl)
      simp only [itemsOf, extent_append, List.append_nil] at hc
      have hcq : c.flatten.length = extent its' + nt.pad := by omega
      rw [hio] at hp2
      have hlen := indexRecord_pos (placed_record hp2)
      rw [hdata, hbl, List.flatten_append, List.length_append] at hlen
      simp only at hlen
      have hlt : c.flatten.length < (c ++ d).flatten.length := by
        rw [List.flatten_append, List.length_append]; omega
      obtain ⟨b, d', rfl⟩ : ∃ b d', d = b :: d' := by
        cases d with
        | nil => simp at hlt
        | cons b d' => exact ⟨b, d', rfl⟩
      have hb : b ≠ [] := hne b (by rw [hbl]; simp)
      -- the next opening
      have hnext : nextOffset true (tifDev file off)
          (fun p => decide ((tifDev file off).src.data.length ≤ p))
          (behind (e + k) (extent its') (itemsOf ps).head?) = off + Dlis.extent c := by
        rw [hio]
        simp only [List.head?_cons, behind, nextOffset, hdata, ← hcq]
        rw [decide_eq_false (by rw [hbl]; omega), hdev]
        simp only [Bool.not_false, Bool.and_true, if_true]
        rw [hbl, pieces_append]
        have := Dlis.tellIn_pieces t off 0 c (Dlis.pieces (off + Dlis.extent c) (b :: d'))
        rw [Nat.add_zero] at this
        rw [this, tellIn_start _ _ _ _ hb]
        omega
      rw [hnext] at hy
      -- the stream from there
      rw [hbl, List.map_append, List.append_assoc] at hon
      have hon2 := (onTape_pieces hl c hon).1
      have hext : off + Dlis.extent bl = off + Dlis.extent c + Dlis.extent (b :: d') := by
        rw [hbl, pieces_extent]; omega
      rw [hext] at hcl htr ht
      obtain ⟨t', ht', htr', hdev'⟩ := tifDev_pieces hl hon2 hcl
      have htt : t' = t := by
        rw [htr] at htr'
        simpa using htr'.symm
      subst htt
      obtain ⟨e', he', hpl'⟩ := placed_sub (dev := tifDev file off)
        (dev' := tifDev file (off + Dlis.extent c)) c.flatten.length
        (by rw [hdev', hdata, hbl, List.flatten_append, List.drop_left])
        (by
          intro p
          rw [hdev', hdev, hbl]
          simp only
          rw [pieces_append, Dlis.tellIn_pieces])
        (nt.bare :: rest) 0 e (by
          have := placed_bare hp2
          rw [show c.flatten.length + 0 = m + nt.pad by omega]
          exact this)
      obtain ⟨evs, t2, k1, k2, k3, k4⟩ := ih (off + Dlis.extent c) (b :: d') (nt.bare :: rest) e' k x
        (proper_tail hpr) hps (.inr (by rw [hio]; rfl)) (fun y hy => hne y (by rw [hbl]; simp [List.mem_cons.mp hy]))
        hon2 hcl hx hpl' (by
          rw [← hd, hbl, List.flatten_append, he', ← List.drop_drop, List.drop_left]) (by
          intro a' b' hab ha' it hit
          obtain ⟨c2, d2, hcd, hcl2⟩ := hcut (p :: a') b' (by rw [hab]; rfl) (by simp) it hit
          simp only [itemsOf, extent_append] at hcl2
          have hE : extent (itemsOf ps) = nt.pad + extent (nt.bare :: rest) := by
            rw [hio]; simp only [extent, Item.bare]; omega
          have hA : nt.pad ≤ extent (itemsOf a') := by
            cases a' with
            | nil => exact absurd rfl ha'
            | cons p' a' =>
              have hpr' := proper_tail hpr
              rw [hab] at hpr' hio
              have hne' := proper_nonempty hpr'
              simp only [List.cons_append, itemsOf] at hio ⊢
              cases hi : p'.items with
              | nil => exact absurd hi hne'
              | cons j js =>
                rw [hi, List.cons_append] at hio
                obtain ⟨rfl, -⟩ := List.cons.inj hio
                simp only [List.cons_append, extent]
                omega
          rw [hbl] at hcd
          rcases List.append_eq_append_iff.mp hcd with ⟨c3, h1, h2⟩ | ⟨c3, h1, h2⟩
          · refine ⟨c3, d2, h2, ?_⟩
            rw [h1, List.flatten_append, List.length_append] at hcl2
            omega
          · have h3 : c3 = [] := by
              cases c3 with
              | nil => rfl
              | cons y c3 =>
                have hy0 : y ≠ [] := hne y (by rw [hbl, h1]; simp)
                have := List.length_pos_iff.mpr hy0
                rw [h1, List.flatten_append, List.length_append, List.flatten_cons,
                  List.length_append] at hcq
                omega
            subst h3
            simp only [List.append_nil, List.nil_append] at h1 h2
            refine ⟨[], d2, by rw [h2]; rfl, ?_⟩
            subst h1
            simp only [List.flatten_nil, List.length_nil]
            omega)
      refine ⟨ev :: evs, t2, ?_, .cons hy k2, by rw [List.map_cons, List.map_cons, hread, k3],
        .cons hhold k4⟩
      rw [hext]
      exact k1

theorem size_extent (s : Stretch) : s.size = Dlis.extent s.pieces := by
  unfold Stretch.size
  induction s.pieces with
  | nil => rfl
  | cons b bl ih => simp only [List.map_cons, List.sum_cons, Dlis.extent, ih]

theorem walk_one {file junk : Bytes} (hl : file.length < 2 ^ 32) {bs : List Dlis.Spec.Block}
    (s : Stretch) (start : Nat) (hok : s.Ok start)
    (hon : OnTape file start (s.pieces.map .data ++ bs) junk)
    (hb : (bs = [] ∧ junk = []) ∨ ∃ bs', bs = .mark :: bs') :
    ∃ evs t, Dlis.tapeRecords (start + s.size) (file.drop (start + s.size)) = ([], .eof, t) ∧
      OnTape file (start + s.size) bs junk ∧ Walk (fileDisk file) true start evs t ∧
      evs.map (readEvent (fileDisk file) true) = s.parts.map Part.event ∧
      List.Forall₂ (Holding (fileDisk file) true) evs s.parts := by
  obtain ⟨h1, h2, h3, ⟨e, k, x, hx, hpl, hd⟩, hcut⟩ := hok
  rw [size_extent]
  have hon2 := (onTape_pieces hl s.pieces hon).1
  have hcl := onTape_closed hon2 hb
  obtain ⟨t, ht, htr, hdev⟩ := tifDev_pieces hl hon hcl
  obtain ⟨e', he', hpl'⟩ := placed_sub (dev := s.dev start) (dev' := tifDev file start) 0
    (by rw [hdev]; rfl) (by
      intro p
      rw [hdev, Nat.zero_add]
      exact physical_tell s.pieces start t p ht) (itemsOf s.parts) 0 e hpl
  obtain ⟨evs, t', k1, k2, k3⟩ := walk_stretch hl s.parts start s.pieces (itemsOf s.parts) e' k x h2
    h1 (.inl rfl) h3 hon hcl hx hpl' (by rw [← hd, he', Nat.zero_add]) (by
      intro a b hab ha it hit
      obtain ⟨c, d, h4, h5⟩ := hcut a b hab ha it hit
      exact ⟨c, d, h4, by omega⟩)
  exact ⟨evs, t', k1, hon2, k2, k3⟩

theorem opened_eof {file : Bytes} {off t : Nat}
    (h : Dlis.tapeRecords off (file.drop off) = ([], .eof, t)) :
    (fileDisk file).lis true off = .eof := by
  unfold fileDisk tifOpened
  simp only [if_true, h, List.flatMap_nil]

theorem walk_append {d : Disk} {isTif : Bool} {a b c : Nat} {xs ys : List (Event (Nat × Index))}
    (h : Walk d isTif a xs b) (h2 : Walk d isTif b ys c) : Walk d isTif a (xs ++ ys) c := by
  induction h with
  | nil => exact h2
  | cons hy _ ih => exact .cons hy (ih h2)

theorem walk_tape {file junk : Bytes} (hl : file.length < 2 ^ 32) {fin : List Dlis.Spec.Block}
    (hfin : TapeEnd fin junk) : ∀ (ss : List Stretch) (start : Nat), ss ≠ [] → AllOk start ss →
    OnTape file start (stretchBlocks ss ++ fin) junk →
    ∃ evs t, Walk (fileDisk file) true start evs t ∧ (fileDisk file).lis true t = .eof ∧
      evs.map (readEvent (fileDisk file) true) = (ss.flatMap (·.parts)).map Part.event ∧
      List.Forall₂ (Holding (fileDisk file) true) evs (ss.flatMap (·.parts)) := by
  intro ss
  induction ss with
  | nil => intro start h; exact absurd rfl h
  | cons s ss ih =>
    intro start _ hok hon
    cases ss with
    | nil =>
      rw [stretchBlocks] at hon
      obtain ⟨evs, t, h1, h2, h3, h4⟩ := walk_one hl s start hok.1 hon (by
        rcases hfin with h | ⟨h, -⟩ | h
        · exact .inl h
        · exact .inr ⟨_, h⟩
        · exact .inr ⟨_, h⟩)
      refine ⟨evs, t, h3, ?_, by simpa using h4.1, by simpa using h4.2⟩
      rcases hfin with ⟨rfl, rfl⟩ | ⟨rfl, rfl⟩ | rfl
      · obtain ⟨prev, h5⟩ := h2
        simp only [Dlis.Spec.tapeBytes, List.append_nil] at h5
        rw [h5, Dlis.tape_nil] at h1
        obtain rfl : start + s.size = t := by simpa using h1
        exact opened_eof (by rw [h5, Dlis.tape_nil])
      · obtain ⟨h6, h7⟩ := onTape_mark h2
        obtain rfl : start + s.size + 12 = t := by rw [h1] at h7; simpa using h7.symm
        obtain ⟨prev, h5⟩ := h6
        simp only [Dlis.Spec.tapeBytes, List.append_nil] at h5
        exact opened_eof (by rw [h5, Dlis.tape_nil])
      · obtain ⟨h6, h7⟩ := onTape_mark h2
        obtain rfl : start + s.size + 12 = t := by rw [h1] at h7; simpa using h7.symm
        exact opened_eof (onTape_mark h6).2
    | cons s2 ss =>
      rw [stretchBlocks, List.append_assoc, List.cons_append] at hon
      · obtain ⟨evs, t, h1, h2, h3, h4⟩ := walk_one hl s start hok.1 hon (.inr ⟨_, rfl⟩)
        obtain ⟨h6, h7⟩ := onTape_mark h2
        obtain rfl : start + s.size + 12 = t := by rw [h1] at h7; simpa using h7.symm
        obtain ⟨evs2, t2, k1, k2, k3⟩ := ih _ (by simp) hok.2 h6
        refine ⟨evs ++ evs2, t2, walk_append h3 k1, k2, ?_⟩
        rw [List.flatMap_cons (x := s)]
        exact ⟨by rw [List.map_append, h4.1, k3.1, List.map_append], List.rel_append h4.2 k3.2⟩
      · simp

/-! ### The start of the tape -/

theorem le32_nat (n : Nat) (h : n < 2 ^ 32) : Dlisio.Spec.leNat (Dlis.Spec.le32 n) = n := by
  simp only [Dlis.Spec.le32, Dlisio.Spec.leNat, BitVec.toNat_ofNat]
  omega

theorem mark_type {file : Bytes} {pos a : Nat} {bs : Bytes} (ha : a < 2 ^ 32)
    (h : file.drop pos = Dlis.Spec.le32 a ++ bs) : markType file pos = a := by
  unfold markType
  rw [h, List.take_left' (Dlis.le32_length a), le32_nat a ha]

theorem onTape_marks {file junk : Bytes} {bs : List Dlis.Spec.Block} (n : Nat) : ∀ {pos : Nat},
    OnTape file pos (List.replicate n .mark ++ bs) junk →
    OnTape file (pos + 12 * n) bs junk ∧ ∀ m, m < n → markType file (pos + 12 * m) = 1 := by
  induction n with
  | zero => intro pos h; exact ⟨by simpa using h, by simp⟩
  | succ n ih =>
    intro pos h
    rw [List.replicate_succ, List.cons_append] at h
    obtain ⟨h1, h2⟩ := ih (onTape_mark h).1
    refine ⟨by rw [show pos + 12 * (n + 1) = pos + 12 + 12 * n by omega]; exact h1, ?_⟩
    intro m hm
    cases m with
    | zero =>
      obtain ⟨prev, h3⟩ := h
      simp only [Dlis.Spec.tapeBytes, List.append_assoc] at h3
      exact mark_type (by omega) h3
    | succ m =>
      rw [show pos + 12 * (m + 1) = pos + 12 + 12 * m by omega]
      exact h2 m (by omega)

theorem tape_start {file junk : Bytes} (hl : file.length < 2 ^ 32) (lead : Nat) (b : Bytes)
    (bs : List Dlis.Spec.Block)
    (hf : file = Dlis.Spec.tapeBytes 0 0 (List.replicate lead .mark ++ .data b :: bs) ++ junk) :
    checkForTapemarks ⟨file, .eof⟩ = some (true, 12 * lead) := by
  obtain ⟨h1, h2⟩ := onTape_marks (file := file) (junk := junk) lead (pos := 0)
    (bs := .data b :: bs) ⟨0, by rw [List.drop_zero]; exact hf⟩
  simp only [Nat.zero_add] at h1 h2
  obtain ⟨prev, h3⟩ := h1
  simp only [Dlis.Spec.tapeBytes, List.append_assoc] at h3
  have hlen := congrArg List.length h3
  simp only [List.length_append, List.length_drop, Dlis.le32_length] at hlen
  refine (c54_tapemarks file _).2 ⟨?_, lead, rfl, by omega, mark_type (by omega) h3, ?_⟩
  · have key : ∀ a n rest, a < 2 → 0 < n → n < 2 ^ 32 →
        file = Dlis.Spec.le32 a ++ (Dlis.Spec.le32 0 ++ (Dlis.Spec.le32 n ++ rest)) →
        markType file 0 < 2 ∧ Dlisio.Spec.leNat ((file.drop 4).take 4) <
          Dlisio.Spec.leNat ((file.drop 8).take 4) := by
      intro a n rest ha hn hn2 h
      have e1 : file.drop 4 = Dlis.Spec.le32 0 ++ (Dlis.Spec.le32 n ++ rest) := by
        rw [h]; exact List.drop_left' (Dlis.le32_length a)
      have e2 : file.drop 8 = Dlis.Spec.le32 n ++ rest := by
        rw [show (8 : Nat) = 4 + 4 from rfl, ← List.drop_drop, e1]
        exact List.drop_left' (Dlis.le32_length 0)
      refine ⟨by rw [mark_type (a := a) (by omega) (by rw [List.drop_zero]; exact h)]; exact ha, ?_⟩
      rw [e1, e2, List.take_left' (Dlis.le32_length 0), List.take_left' (Dlis.le32_length n),
        le32_nat 0 (by omega), le32_nat n hn2]
      exact hn
    cases lead with
    | zero =>
      simp only [List.replicate_zero, List.nil_append, Dlis.Spec.tapeBytes, List.append_assoc] at hf
      exact key 0 (0 + 12 + b.length) _ (by omega) (by omega) (by omega) hf
    | succ n =>
      simp only [List.replicate_succ, List.cons_append, Dlis.Spec.tapeBytes, List.append_assoc] at hf
      exact key 1 (0 + 12) _ (by omega) (by omega) (by omega) hf
  · intro m hm
    rw [h2 m hm]
    omega

theorem filesOf_read (d : Disk) (isTif : Bool) (evs : List (Event (Nat × Index))) :
    filesOf (evs.map (readEvent d isTif)) = (filesOf evs).map (contents d isTif) := by
  induction evs with
  | nil => rfl
  | cons ev evs ih => cases ev <;> simp [filesOf, readEvent, ih]

theorem holding_files {d : Disk} {isTif : Bool} {evs : List (Event (Nat × Index))} {ps : List Part}
    (h : List.Forall₂ (Holding d isTif) evs ps) : ∀ files : List LogFile,
    files.map (fun f => (f.offset, f.index)) = filesOf evs →
    List.Forall₂ (fun its f => ∃ dev eof infos, d.lis isTif f.offset = .stream dev eof ∧
      Listed dev f.index its infos) (fileParts ps) files := by
  induction h with
  | nil =>
    intro files h
    have : files = [] := by simpa [filesOf] using h
    subst this
    exact .nil
  | @cons ev p evs ps hh _ ih =>
    intro files hf
    cases ev <;> cases p
    · exact ih files hf
    · exact hh.elim
    · exact hh.elim
    · cases files with
      | nil => simp [filesOf] at hf
      | cons f files =>
        simp only [filesOf, List.map_cons, List.cons.injEq] at hf
        obtain ⟨rfl, hf⟩ := hf
        exact .cons hh (ih files hf)

theorem sign_read (d : Disk) (isTif : Bool) (hdr trl : Nat) (evs : List (Event (Nat × Index))) :
    (evs.map (readEvent d isTif)).filterMap (Event.sign hdr trl) =
      evs.filterMap (Event.sign hdr trl) := by
  rw [List.filterMap_map]
  apply List.filterMap_congr
  intro ev _
  cases ev <;> rfl

theorem stretch_head {s : Stretch} {start : Nat} (h : s.Ok start) : ∃ b bl, s.pieces = b :: bl := by
  obtain ⟨h1, h2, -, ⟨e, k, x, -, hpl, -⟩, -⟩ := h
  cases hp : s.pieces with
  | cons b bl => exact ⟨b, bl, rfl⟩
  | nil =>
    exfalso
    cases hi : itemsOf s.parts with
    | nil => exact h1 (itemsOf_nil h2 hi)
    | cons it its =>
      rw [hi] at hpl
      have := indexRecord_pos (placed_record hpl)
      simp only [Stretch.dev, hp, List.flatten_nil, List.length_nil] at this
      omega

/-- **C74**.  Let a file be a tape image: perhaps file marks, then stretches of tape records with
file marks between them, and at the end nothing, one file mark, or two file marks and anything
behind them.  In each stretch there are delimiters and logical files, distributed over tape records
so that each starts a tape record.  Then `load` returns all these logical files, in order; the
records that are read through the handle of a file are those of this file, in order, and the index of
a file is one of these records (`Listed`), so that C62 and C63 hold for it; the reel and
the tape of each have the header that is open there and the trailer that closes it; no header and
no trailer is lost or there twice. -/
theorem c74_load_partial (file junk : Bytes) (lead : Nat) (ss : List Stretch)
    (fin : List Dlis.Spec.Block) (hne : ss ≠ []) (hok : AllOk (12 * lead) ss)
    (hfin : TapeEnd fin junk) (hl : file.length < 2 ^ 32)
    (hf : file = Dlis.Spec.tapeBytes 0 0
      (List.replicate lead .mark ++ (stretchBlocks ss ++ fin)) ++ junk)
    (raises : Bool) (n : Nat) (hn : (ss.flatMap (·.parts)).length < n) :
    let evs := (ss.flatMap (·.parts)).map Part.event
    ∃ s, load (fileDisk file) raises n = some (false, s) ∧
      s.files.map (fun f => contents (fileDisk file) true (f.offset, f.index)) = filesOf evs ∧
      List.Forall₂ (fun its f => ∃ dev eof infos,
          (fileDisk file).lis true f.offset = .stream dev eof ∧ Listed dev f.index its infos)
        (fileParts (ss.flatMap (·.parts))) s.files ∧
      s.files.map (fun f => s.reel.objs[f.reel]?) =
        (enclosing none (evs.filterMap (Event.sign 132 133))).map some ∧
      s.files.map (fun f => s.tape.objs[f.tape]?) =
        (enclosing none (evs.filterMap (Event.sign 130 131))).map some ∧
      s.reel.objs.filterMap (·.header) = headers (evs.filterMap (Event.sign 132 133)) ∧
      s.reel.objs.filterMap (·.trailer) = trailers (evs.filterMap (Event.sign 132 133)) ∧
      s.tape.objs.filterMap (·.header) = headers (evs.filterMap (Event.sign 130 131)) ∧
      s.tape.objs.filterMap (·.trailer) = trailers (evs.filterMap (Event.sign 130 131)) := by
  intro evs'
  have hon := (onTape_marks (file := file) (junk := junk) lead (pos := 0)
    (bs := stretchBlocks ss ++ fin) ⟨0, by rw [List.drop_zero]; exact hf⟩).1
  rw [Nat.zero_add] at hon
  obtain ⟨evs, t, h1, h2, h3, h4⟩ := walk_tape hl hfin ss (12 * lead) hne hok hon
  obtain ⟨b, bs, hb⟩ : ∃ b bs, stretchBlocks ss ++ fin = .data b :: bs := by
    match ss, hne, hok with
    | [s], _, hok =>
      obtain ⟨b, bl, h⟩ := stretch_head hok.1
      exact ⟨b, _, by rw [stretchBlocks, h]; rfl⟩
    | s :: s2 :: ss, _, hok =>
      obtain ⟨b, bl, h⟩ := stretch_head hok.1
      refine ⟨b, bl.map .data ++ .mark :: stretchBlocks (s2 :: ss) ++ fin, ?_⟩
      rw [stretchBlocks]
      · rw [h]; rfl
      · simp
  rw [hb] at hf
  have hchk := tape_start hl lead b bs hf
  have hlen : evs.length = (ss.flatMap (·.parts)).length := by
    rw [← List.length_map (f := Part.event), ← h3, List.length_map]
  obtain ⟨s, k1, k2, k3⟩ := c54_assignment (fileDisk file) ⟨file, .eof⟩ true raises _ t evs rfl hchk
    h1 (.inl h2) n (by omega)
  refine ⟨s, k1, ?_, ?_, ?_⟩
  · change _ = filesOf ((ss.flatMap (·.parts)).map Part.event)
    rw [← h3, filesOf_read, ← k2, List.map_map]
    rfl
  · exact holding_files h4 s.files k2
  · simp only [evs', ← h3, sign_read]
    exact k3

/-! ### Termination -/

theorem tape_advances (file : Bytes) (off : Nat) : Advances (fileDisk file) true file.length off := by
  intro dev eof h
  unfold fileDisk tifOpened at h
  simp only [if_true] at h
  split at h
  · split at h <;> cases h
  · rename_i hd
    cases h
    have hpos := List.length_pos_iff.mpr hd
    refine ⟨hpos, ?_, ?_⟩
    · by_contra hc
      rw [List.drop_eq_nil_of_le (by omega), Dlis.tape_nil] at hd
      exact hd rfl
    · intro p hp
      have := (Dlis.tape_tell off (file.drop off) p).2 (by rintro h; rw [h] at hd; exact hd rfl)
      simp only [Bool.true_and]
      by_cases hle : ((Dlis.tapeRecords off (file.drop off)).1.flatMap (·.2)).length ≤ p
      · simp only [hle, decide_true, Bool.not_true, Bool.false_eq_true, if_false]
        omega
      · simp only [hle, decide_false, Bool.not_false, if_true]
        omega

/-- **C74** (termination).  On every file, with tape marks or without, damaged or not, the loop in
`load` ends, and each turn but the last moves on. -/
theorem c74_terminates (file : Bytes) (raises : Bool) :
    (load (fileDisk file) raises (file.length + 2)).isSome = true := by
  unfold load
  have hraw : (fileDisk file).raw = some ⟨file, .eof⟩ := rfl
  rw [hraw]
  simp only
  split
  · rfl
  · rename_i isTif off _
    refine loadLoop_terminates (size := file.length) raises ?_ (file.length + 1) _ (.inl (by simp only [Indexer.start]; omega))
    cases isTif with
    | true => exact tape_advances file
    | false =>
      intro o dev eof h
      exact plain_advances file o dev eof h

/-! ### Cases -/

/-- A reel header and a tape header, a tape record each. -/
def Spec.exStretch1 : Stretch :=
  ⟨[.mark (exPlain 0 132 [1]), .mark (exPlain 0 130 [2])],
    [(exPlain 0 132 [1]).record.bytes, (exPlain 0 130 [2]).record.bytes]⟩

/-- Two logical files; the first one without a trailer, distributed over three tape records; padding
in front of the second and behind it. -/
def Spec.exStretch2 : Stretch :=
  ⟨[.file [exPlain 0 128 [3], exPlain 0 64 [4], exPlain 0 0 [5]],
    .file [exPlain 5 128 [6], exPlain 0 129 []]],
   [(exPlain 0 128 [3]).record.bytes ++ ((exPlain 0 64 [4]).record.bytes.take 3),
    (exPlain 0 64 [4]).record.bytes.drop 3, (exPlain 0 0 [5]).record.bytes ++ [0, 0, 0, 0, 0],
    (exPlain 0 128 [6]).record.bytes ++ (exPlain 0 129 []).record.bytes ++ [0, 0]]⟩

/-- The trailers in one tape record each. -/
def Spec.exStretch3 : Stretch :=
  ⟨[.mark (exPlain 0 131 [7]), .mark (exPlain 0 133 [8])],
    [(exPlain 0 131 [7]).record.bytes, (exPlain 0 133 [8]).record.bytes]⟩

theorem exStretch1_ok : exStretch1.Ok 12 := by
  have hc : ∀ l, Consistent l ↔ Chain false l := consistent_chain
  refine ⟨by decide, ⟨by decide, by decide, trivial⟩, by decide, ⟨14, 0, 0, .inl rfl, ?_, by decide⟩, ?_⟩
  · simp only [exStretch1, itemsOf, Part.items, List.cons_append, List.nil_append, Placed, Record.Ok, hc,
      Gap, At, Blank]
    refine ⟨⟨by decide, by decide, ?_, ?_⟩, by decide, by decide,
      ⟨by decide, by decide, ?_, ?_⟩, by decide, by decide, by decide⟩
    all_goals (simp only [exPlain]; simp [Chunk.Ok, Chunk.size, trailer, Chain])
  · intro a b hab ha it hit
    match a, ha with
    | [p], _ =>
      simp only [exStretch1, List.cons_append, List.nil_append, List.cons.injEq] at hab
      obtain ⟨rfl, rfl⟩ := hab
      cases hit
      exact ⟨[_], [_], rfl, by decide⟩
    | [p, q], _ =>
      simp only [exStretch1, List.cons_append, List.nil_append, List.cons.injEq] at hab
      obtain ⟨rfl, rfl, rfl⟩ := hab
      cases hit
    | p :: q :: r :: a, _ => simp [exStretch1] at hab

theorem exStretch3_ok (start : Nat) : exStretch3.Ok start := by
  have hc : ∀ l, Consistent l ↔ Chain false l := consistent_chain
  refine ⟨by decide, ⟨by decide, by decide, trivial⟩, by decide, ⟨14, 0, 0, .inl rfl, ?_, by decide⟩, ?_⟩
  · simp only [exStretch3, itemsOf, Part.items, List.cons_append, List.nil_append, Placed, Record.Ok, hc,
      Gap, At, Blank, Stretch.dev]
    refine ⟨⟨by decide, by decide, ?_, ?_⟩, .inl rfl, by decide,
      ⟨by decide, by decide, ?_, ?_⟩, .inl rfl, by decide, by decide⟩
    all_goals (simp only [exPlain]; simp [Chunk.Ok, Chunk.size, trailer, Chain])
  · intro a b hab ha it hit
    match a, ha with
    | [p], _ =>
      simp only [exStretch3, List.cons_append, List.nil_append, List.cons.injEq] at hab
      obtain ⟨rfl, rfl⟩ := hab
      cases hit
      exact ⟨[_], [_], rfl, by decide⟩
    | [p, q], _ =>
      simp only [exStretch3, List.cons_append, List.nil_append, List.cons.injEq] at hab
      obtain ⟨rfl, rfl, rfl⟩ := hab
      cases hit
    | p :: q :: r :: a, _ => simp [exStretch3] at hab

theorem exStretch2_ok : exStretch2.Ok 62 := by
  have hc : ∀ l, Consistent l ↔ Chain false l := consistent_chain
  refine ⟨by decide, ⟨.inr ⟨by decide, ⟨.inl rfl, ?_⟩, .inr ⟨⟨_, List.mem_cons_self, by decide, by decide⟩,
      _, rfl, by decide⟩⟩, .inl ⟨[_], _, rfl, ⟨.inl rfl, by simp⟩, .inl rfl⟩, trivial⟩, by decide,
    ⟨39, 2, 0, .inl rfl, ?_, by decide⟩, ?_⟩
  · intro jt hj
    simp only [List.mem_cons, List.not_mem_nil, or_false] at hj
    rcases hj with rfl | rfl <;> decide
  · simp only [exStretch2, itemsOf, Part.items, List.cons_append, List.nil_append, Placed, Record.Ok, hc,
      Gap, At, Blank]
    refine ⟨⟨by decide, by decide, ?_, ?_⟩, by decide, by decide,
      ⟨by decide, by decide, ?_, ?_⟩, by decide, by decide,
      ⟨by decide, by decide, ?_, ?_⟩, by decide, by decide,
      ⟨by decide, by decide, ?_, ?_⟩, by decide, by decide,
      ⟨by decide, by decide, ?_, ?_⟩, by decide, by decide, by decide⟩
    all_goals (simp only [exPlain]; simp [Chunk.Ok, Chunk.size, trailer, Chain])
  · intro a b hab ha it hit
    match a, ha with
    | [p], _ =>
      simp only [exStretch2, List.cons_append, List.nil_append, List.cons.injEq] at hab
      obtain ⟨rfl, rfl⟩ := hab
      cases hit
      exact ⟨[_, _, _], [_], rfl, by decide⟩
    | [p, q], _ =>
      simp only [exStretch2, List.cons_append, List.nil_append, List.cons.injEq] at hab
      obtain ⟨rfl, rfl, rfl⟩ := hab
      cases hit
    | p :: q :: r :: a, _ => simp [exStretch2] at hab

/-- The tape: a file mark, three stretches, two file marks, zeros. -/
def Spec.exTif : Bytes := Dlis.Spec.tapeBytes 0 0 (List.replicate 1 .mark ++
  (stretchBlocks [exStretch1, exStretch2, exStretch3] ++ [.mark, .mark])) ++ List.replicate 5 0

/-- Case for `c74_load_partial`: two files on reel 1 (closed by 8) and tape 2 (closed by 7). -/
example : ∃ s, load (fileDisk exTif) true 7 = some (false, s) ∧
    s.files.map (fun f => contents (fileDisk exTif) true (f.offset, f.index)) =
      [([(128, some [3]), (64, some [4])], [(0, some [5])]), ([(128, some [6]), (129, some [])], [])] ∧
    s.files.map (fun f => s.reel.objs[f.reel]?) =
      [some ⟨some [1], some [8]⟩, some ⟨some [1], some [8]⟩] ∧
    s.files.map (fun f => s.tape.objs[f.tape]?) =
      [some ⟨some [2], some [7]⟩, some ⟨some [2], some [7]⟩] := by
  obtain ⟨s, h1, h2, -, h3, h4, -⟩ := c74_load_partial exTif (List.replicate 5 0) 1
    [exStretch1, exStretch2, exStretch3] [.mark, .mark] (by simp)
    ⟨exStretch1_ok, exStretch2_ok, exStretch3_ok _, trivial⟩ (.inr (.inr rfl)) (by decide +kernel) rfl
    true 7 (by decide)
  exact ⟨s, h1, h2.trans (by decide), h3.trans (by decide), h4.trans (by decide)⟩

/-! ### Defects -/

/-- A logical file of a header and a trailer. -/
def Spec.exHeaderTrailer (x : Byte) : Bytes :=
  (exPlain 0 128 [x]).record.bytes ++ (exPlain 0 129 []).record.bytes

instance : DecidableEq (List (Nat × Option Bytes) × List (Nat × Option Bytes)) := inferInstance

/-- What a run of `load` returns: was there an exception, and the records of the files. -/
def Spec.exLoaded (file : Bytes) (raises : Bool) :
    Option (Bool × List (List (Nat × Option Bytes) × List (Nat × Option Bytes))) :=
  (load (fileDisk file) raises 9).map fun r =>
    (r.1, r.2.files.map fun f => contents (fileDisk file) true (f.offset, f.index))

/-- A mark points into the middle of its own data: what is there is not a mark, and both files are
given up; with a lenient error handler the first record is kept. -/
example : exLoaded (Dlis.Spec.le32 0 ++ Dlis.Spec.le32 0 ++ Dlis.Spec.le32 19 ++ exHeaderTrailer 3) false =
    some (false, [([(128, some [3])], [])]) ∧
    (exLoaded (Dlis.Spec.le32 0 ++ Dlis.Spec.le32 0 ++ Dlis.Spec.le32 19 ++ exHeaderTrailer 3) true).map
      (·.1) = some true := by
  decide +kernel

/-- **C74** (defect).  When a logical file does not start a tape record, it is lost: the next opening
is twelve bytes in front of it, and there is no tape mark.  With the default error handler `load`
raises.  The same files in a tape record each, or without tape marks, are loaded. -/
theorem c74_inside_defect :
    let tape := Dlis.Spec.tapeBytes 0 0 [.data (exHeaderTrailer 3 ++ exHeaderTrailer 4), .mark, .mark]
    (exLoaded tape true).map (·.1) = some true ∧
    exLoaded tape false = some (false, [([(128, some [3]), (129, some [])], [])]) ∧
    exLoaded (Dlis.Spec.tapeBytes 0 0 [.data (exHeaderTrailer 3), .data (exHeaderTrailer 4), .mark, .mark])
      true = some (false, [([(128, some [3]), (129, some [])], []), ([(128, some [4]), (129, some [])], [])]) ∧
    ((load (plainDisk (exHeaderTrailer 3 ++ exHeaderTrailer 4)) true 9).map
      fun r => (r.1, r.2.files.length)) = some (false, 2) := by
  decide +kernel

/-- **C74** (defect).  Padding that ends a tape record is taken for padding up to a multiple of four in
the file, although the next physical record starts with the next tape record.  Here the tape records
are a file header with two bytes of padding, as a minimum size of tape records would require, and
another record; `load` raises, and otherwise the second record is lost. -/
theorem c74_padding_defect :
    let tape := Dlis.Spec.tapeBytes 0 0 [.data ((exPlain 0 128 [3]).record.bytes ++ [0, 0]),
      .data (exPlain 0 64 [1]).record.bytes, .mark, .mark]
    (exLoaded tape true).map (·.1) = some true ∧
    exLoaded tape false = some (false, [([(128, some [3])], [])]) ∧
    exLoaded (Dlis.Spec.tapeBytes 0 0 [.data (exPlain 0 128 [3]).record.bytes,
      .data (exPlain 0 64 [1]).record.bytes, .mark, .mark]) true =
        some (false, [([(128, some [3]), (64, some [1])], [])]) := by
  decide +kernel

/-- **C74** (defect).  What is behind two file marks is not loaded, and no issue is reported. -/
theorem c74_two_marks_defect :
    exLoaded (Dlis.Spec.tapeBytes 0 0 [.data (exHeaderTrailer 3), .mark, .mark,
      .data (exHeaderTrailer 4), .mark, .mark]) true =
        some (false, [([(128, some [3]), (129, some [])], [])]) := by
  decide +kernel

/-- **C74** (defect).  A tape with no data raises an exception that no error handler is asked about. -/
theorem c74_empty_tape_defect (raises : Bool) :
    exLoaded (Dlis.Spec.tapeBytes 0 0 [.mark, .mark]) raises = some (true, []) := by
  cases raises <;> decide +kernel

end Dlisio.Lis
