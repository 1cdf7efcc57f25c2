import Verif.Lis.Load
/-
C54: files without tape marks, from their bytes.
-/
namespace Dlisio.Lis

open _root_.Dlisio.Lis.Spec

/-! ### Specification -/

namespace Spec

/-- A part of a file: a delimiter alone, or the records of a logical file. -/
inductive Part where
  | mark (it : Item)
  | file (its : List Item)

def Part.items : Part → List Item
  | .mark it => [it]
  | .file its => its

/-- All records of the parts. -/
def itemsOf : List Part → List Item
  | [] => []
  | p :: ps => p.items ++ itemsOf ps

/-- Some record is no data record. -/
def HasExplicit (its : List Item) : Prop := ∃ it ∈ its, it.record.type ≠ 0 ∧ it.record.type ≠ 1

/-- The records of one logical file, if `next` is the record behind them: they end with a
trailer, or with the file, or the next record is a header or delimiter.  A file that does
not end with a trailer, nor with the physical file, has a record that is no data record
(`c54_lost_defect`). -/
def FileOk (its : List Item) (next : Option Item) : Prop :=
  (∃ body it, its = body ++ [it] ∧ Opening body ∧
    (it.record.type = 129 ∨ it.record.type = 137 ∧ HasExplicit body)) ∨
  its ≠ [] ∧ Opening its ∧
    (next = none ∨ HasExplicit its ∧ ∃ nt, next = some nt ∧
      nt.record.type.toNat ∈ [128, 130, 131, 132, 133])

/-- The parts are as they should be. -/
def Proper : List Part → Prop
  | [] => True
  | .mark it :: ps => it.record.type.toNat ∈ [130, 131, 132, 133, 137] ∧ Proper ps
  | .file its :: ps => FileOk its (itemsOf ps).head? ∧ Proper ps

/-- Bytes of items. -/
def extent : List Item → Nat
  | [] => 0
  | it :: its => it.pad + it.record.size + extent its

/-- What is met in a file: delimiters with their data, and the places of the records of each
logical file, explicit and implicit ones apart, from `pos` on. -/
def eventsOf : Nat → List Part → List (Event (List RecordInfo × List RecordInfo))
  | _, [] => []
  | pos, .mark it :: ps =>
    .mark it.record.type.toNat it.record.data :: eventsOf (pos + extent [it]) ps
  | pos, .file its :: ps =>
    .file ((located pos its).filter (! implicit ·), (located pos its).filter implicit) ::
      eventsOf (pos + extent its) ps

/-- Positions in the file instead of positions in the stream of a handle. -/
def shift (off : Nat) (i : RecordInfo) : RecordInfo := { i with ltell := off + i.ltell }

/-- The places in the file of the records in an index. -/
def places (x : Nat × Index) : List RecordInfo × List RecordInfo :=
  (x.2.explicits.map (shift x.1), x.2.implicits.map (shift x.1))

/-- The whole file as one stream. -/
def whole (data : Bytes) : Device := ⟨⟨data, .eof⟩, fun p => p⟩

end Spec

/-- The stream of a file opened at an offset. -/
def fromOffset (data : Bytes) (off : Nat) : Device :=
  ⟨⟨data.drop off, .eof⟩, fun p => off + p⟩

theorem placed_from (data : Bytes) (off : Nat) (its : List Item) : ∀ pos e : Nat,
    Placed (whole data) (off + pos) its e →
    ∃ e', e = off + e' ∧ Placed (fromOffset data off) pos its e' := by
  induction its with
  | nil => intro pos e h; exact ⟨pos, h, rfl⟩
  | cons it its ih =>
    intro pos e h
    obtain ⟨h1, h2, h3, h4⟩ := h
    obtain ⟨e', he, hp⟩ := ih (pos + it.pad + it.record.size) e (by
      rw [show off + (pos + it.pad + it.record.size) = off + pos + it.pad + it.record.size by omega]
      exact h4)
    refine ⟨e', he, h1, ?_, ?_, hp⟩
    · unfold Gap at h2 ⊢
      simp only [whole, fromOffset] at h2 ⊢
      rwa [show off + (pos + 4) = off + pos + 4 by omega]
    · unfold At at h3 ⊢
      simp only [whole, fromOffset] at h3 ⊢
      rwa [List.drop_drop]

theorem located_shift (off : Nat) (its : List Item) : ∀ pos : Nat,
    located (off + pos) its = (located pos its).map (shift off) := by
  induction its with
  | nil => intro pos; rfl
  | cons it its ih =>
    intro pos
    simp only [located, List.map_cons, ← ih]
    simp only [shift]
    rw [show off + (pos + it.pad + it.record.size) = off + pos + it.pad + it.record.size by omega,
      show off + (pos + it.pad) = off + pos + it.pad by omega]

theorem placed_end {dev : Device} (its : List Item) : ∀ {pos e : Nat}, Placed dev pos its e →
    e = pos + extent its := by
  induction its with
  | nil => intro pos e h; exact h
  | cons it its ih =>
    intro pos e h
    have := ih h.2.2.2
    rw [this, extent]
    omega

/-- The item without the padding in front of it. -/
def Spec.Item.bare (it : Item) : Item := { it with pad := 0 }

/-- The list with the padding in front of the first item removed. -/
def Spec.bareHead : List Item → List Item
  | [] => []
  | it :: its => it.bare :: its

theorem placed_bare {dev : Device} {pos e : Nat} {it : Item} {its : List Item}
    (h : Placed dev pos (it :: its) e) : Placed dev (pos + it.pad) (it.bare :: its) e := by
  obtain ⟨h1, h2, h3, h4⟩ := h
  refine ⟨h1, .inl rfl, ?_, ?_⟩
  · have := (at_split h3).2
    rw [List.length_replicate] at this
    simpa [Item.bare] using this
  · simpa [Item.bare] using h4

/-- The items, perhaps without the padding in front of the first. -/
def Spec.Nearly (its its' : List Item) : Prop := its' = its ∨ its' = bareHead its

theorem nearly_nil {its' : List Item} (h : Nearly [] its') : its' = [] := by
  rcases h with h | h <;> exact h

theorem nearly_append {a b c : List Item} (h : Nearly (a ++ b) c) (ha : a ≠ []) :
    ∃ a', Nearly a a' ∧ c = a' ++ b := by
  cases a with
  | nil => exact absurd rfl ha
  | cons it a =>
    rcases h with rfl | rfl
    · exact ⟨_, .inl rfl, rfl⟩
    · exact ⟨_, .inr rfl, rfl⟩

theorem nearly_snoc {body : List Item} {it : Item} {c : List Item} (h : Nearly (body ++ [it]) c) :
    ∃ body' it', c = body' ++ [it'] ∧ Nearly body body' ∧ it'.record = it.record := by
  cases body with
  | nil =>
    rcases h with rfl | rfl
    · exact ⟨[], it, rfl, .inl rfl, rfl⟩
    · exact ⟨[], it.bare, rfl, .inl rfl, rfl⟩
  | cons a body =>
    rcases h with rfl | rfl
    · exact ⟨_, it, rfl, .inl rfl, rfl⟩
    · exact ⟨a.bare :: body, it, rfl, .inr rfl, rfl⟩

theorem nearly_opening {a b : List Item} (h : Nearly a b) (ho : Opening a) : Opening b := by
  rcases h with rfl | rfl
  · exact ho
  · cases a with
    | nil => exact ho
    | cons it a => exact ho

theorem nearly_explicit {a b : List Item} (h : Nearly a b) (ho : HasExplicit a) : HasExplicit b := by
  rcases h with rfl | rfl
  · exact ho
  · cases a with
    | nil => exact ho
    | cons it a =>
      obtain ⟨jt, hj, h1⟩ := ho
      rcases List.mem_cons.mp hj with rfl | hj
      · exact ⟨_, List.mem_cons_self, h1⟩
      · exact ⟨jt, List.mem_cons_of_mem _ hj, h1⟩

theorem nearly_ne {a b : List Item} (h : Nearly a b) (ha : a ≠ []) : b ≠ [] := by
  rcases h with rfl | rfl
  · exact ha
  · cases a with
    | nil => exact ha
    | cons it a => exact List.cons_ne_nil _ _

/-- Where the items are. -/
theorem nearly_located {a b : List Item} (h : Nearly a b) (ha : a ≠ []) (off pos : Nat)
    (hp : pos + extent a = off + extent b) : located pos a = located off b := by
  rcases h with rfl | rfl
  · rw [Nat.add_right_cancel hp]
  · cases a with
    | nil => exact absurd rfl ha
    | cons it a =>
      simp only [bareHead, extent, Item.bare] at hp
      simp only [bareHead, located, Item.bare]
      have : off = pos + it.pad := by omega
      subst this
      rfl

theorem proper_nonempty {p : Part} {ps : List Part} (h : Proper (p :: ps)) : p.items ≠ [] := by
  cases p with
  | mark it => exact List.cons_ne_nil _ _
  | file its =>
    rcases h.1 with ⟨body, it, rfl, _⟩ | ⟨h1, _⟩
    · simp [Part.items]
    · exact h1

theorem proper_tail {p : Part} {ps : List Part} (h : Proper (p :: ps)) : Proper ps := by
  cases p <;> exact h.2

/-- Where the record after position `a` is; `b` if there is none. -/
def Spec.behind (b a : Nat) : Option Item → Nat
  | none => b
  | some nt => a + nt.pad

/-- A stream gives the first event of its parts, and the next opening is behind it, at the next
record or at the end. -/
theorem yields_dev (d : Disk) (isTif : Bool) (dev : Device) (eof : Nat → Bool) (p : Part)
    (ps : List Part) (off e k : Nat) (x : Byte) (its : List Item)
    (hlis : d.lis isTif off = .stream dev eof) (hpr : Proper (p :: ps)) (hn : Nearly p.items its)
    (hpl : Placed dev 0 (its ++ itemsOf ps) e) (hx : Blank x) (hend : dev.src.ending = .eof)
    (hd : dev.src.data.drop e = List.replicate k x) :
    ∃ ev, Yields d isTif off ev
        (nextOffset isTif dev eof (behind (e + k) (extent its) (itemsOf ps).head?)) ∧
      match p with
      | .mark it => ev = .mark it.record.type.toNat it.record.data
      | .file _ => ∃ ix : Index, ev = .file (off, ix) ∧
          ix.explicits = (located 0 its).filter (! implicit ·) ∧
          ix.implicits = (located 0 its).filter implicit := by
  have hits : its ≠ [] := nearly_ne hn (proper_nonempty hpr)
  obtain ⟨m, hp1, hp2, -⟩ := placed_append hpl
  have hm : m = extent its := by simpa using placed_end its hp1
  -- what follows
  obtain ⟨q, hq1, hq2⟩ : ∃ q, Next dev m q ∧ q =
      behind (e + k) (extent its) (itemsOf ps).head? := by
    cases hio : itemsOf ps with
    | nil =>
      rw [hio] at hp2
      have : e = m := hp2
      subst this
      exact ⟨e + k, .inr ⟨k, x, hx, hend, hd, rfl⟩, rfl⟩
    | cons nt rest =>
      rw [hio] at hp2
      refine ⟨m + nt.pad, .inl ⟨nt, ⟨hp2.1, hp2.2.1, hp2.2.2.1, rfl⟩, rfl⟩, ?_⟩
      simp only [List.head?_cons, behind]
      omega
  rw [← hq2]
  cases p with
  | mark it =>
    have ht := hpr.1
    obtain ⟨body', it', rfl, hb, hrec⟩ := nearly_snoc (body := []) hn
    have hb := nearly_nil hb
    subst hb
    simp only [List.nil_append] at *
    have hix : indexRecords dev 0 =
        ⟨[⟨it'.record.type.toNat, it'.record.size, 0 + it'.pad⟩], [], false, q⟩ := by
      by_cases h137 : it.record.type.toNat = 137
      · have h' : it'.record.type = 137 := by
          rw [hrec]; exact BitVec.eq_of_toNat_eq h137
        have := c44_trailer dev 0 m q [] it' hp1 trivial (.inr h') hq1
        rw [this]
        simp [located, implicit, h']
      · apply c44_tape dev 0 m q it' hp1 _ hq1
        rw [hrec]
        simp only [List.mem_cons, List.not_mem_nil, or_false] at ht ⊢
        omega
    refine ⟨.mark it.record.type.toNat it.record.data, ?_, rfl⟩
    refine ⟨_, _, hlis, ?_, ?_, ht, ?_, ?_⟩
    · rw [hix]
    · rw [hix]
    · rw [hix]
    · rw [hix]
      have := c45_nth dev [it'] 0 m hp1 0 it' _ rfl rfl
      exact ⟨_, _, rfl, by rw [hrec], by rw [this, hrec]⟩
  | file fits =>
    -- the first explicit record
    have hfirst : ∀ body : List Item, Opening body → ∀ (rest : List Item) (p0 : Nat),
        (HasExplicit body ∨ ∀ r ∈ rest, r.record.type.toNat = 129) →
        ∀ info ∈ ((located p0 (body ++ rest)).filter (! implicit ·)).head?,
          info.type ∉ [130, 131, 132, 133, 137] := by
      intro body
      induction body with
      | nil =>
        intro _ rest p0 hor info hi
        rcases hor with ⟨_, h, _⟩ | hor
        · cases h
        · have hmem := List.mem_of_mem_head? hi
          have hmem := (List.mem_filter.mp hmem).1
          rw [List.nil_append] at hmem
          have key : ∀ (l : List Item) p0, (∀ r ∈ l, r.record.type.toNat = 129) →
              ∀ i ∈ located p0 l, i.type = 129 := by
            intro l
            induction l with
            | nil => intro p0 _ i hi; cases hi
            | cons r l ih =>
              intro p0 hl i hi
              rw [located] at hi
              rcases List.mem_cons.mp hi with rfl | hi
              · exact hl r List.mem_cons_self
              · exact ih _ (fun r hr => hl r (List.mem_cons_of_mem _ hr)) i hi
          have := key rest p0 hor info hmem
          simp only [List.mem_cons, List.not_mem_nil, or_false]
          omega
      | cons b body ih =>
        intro ho rest p0 hor info hi
        rw [List.cons_append, located] at hi
        by_cases himp : implicit ⟨b.record.type.toNat, b.record.size, p0 + b.pad⟩ = true
        · rw [List.filter_cons_of_neg (by simp [himp])] at hi
          refine ih ?_ rest _ ?_ info hi
          · cases body with
            | nil => trivial
            | cons c body =>
              exact ⟨.inr (ho.2 c List.mem_cons_self),
                fun j hj => ho.2 j (List.mem_cons_of_mem _ hj)⟩
          · rcases hor with ⟨j, hj, hj0, hj1⟩ | hor
            · rcases List.mem_cons.mp hj with rfl | hj
              · exfalso
                simp only [implicit, Bool.or_eq_true, decide_eq_true_eq] at himp
                rcases himp with h | h
                · exact hj0 (BitVec.eq_of_toNat_eq h)
                · exact hj1 (BitVec.eq_of_toNat_eq h)
              · exact .inl ⟨j, hj, hj0, hj1⟩
            · exact .inr hor
        · rw [List.filter_cons_of_pos (by simp [himp])] at hi
          simp only [List.head?_cons, Option.mem_def, Option.some.injEq] at hi
          subst hi
          simp only
          rcases ho.1 with h | h
          · rw [h]; decide
          · simp only [Item.Plain, delimiters, List.mem_cons, List.not_mem_nil, or_false] at h ⊢
            omega
    have hsome : ¬ ((located 0 its).filter (! implicit ·) = [] ∧
        (located 0 its).filter implicit = []) := by
      rintro ⟨h1, h2⟩
      cases its with
      | nil => exact hits rfl
      | cons it its =>
        rw [located] at h1 h2
        by_cases himp : implicit ⟨it.record.type.toNat, it.record.size, 0 + it.pad⟩ = true
        · rw [List.filter_cons_of_pos himp] at h2; exact List.cons_ne_nil _ _ h2
        · rw [List.filter_cons_of_pos (by simpa using himp)] at h1; exact List.cons_ne_nil _ _ h1
    have hyield : ∀ ix : Index, indexRecords dev 0 = ix →
        ix.explicits = (located 0 its).filter (! implicit ·) →
        ix.implicits = (located 0 its).filter implicit → ix.incomplete = false → ix.pos = q →
        (∀ info ∈ ((located 0 its).filter (! implicit ·)).head?,
          info.type ∉ [130, 131, 132, 133, 137]) →
        ∃ ev, Yields d isTif off ev (nextOffset isTif dev eof q) ∧
          ∃ ix : Index, ev = .file (off, ix) ∧
            ix.explicits = (located 0 its).filter (! implicit ·) ∧
            ix.implicits = (located 0 its).filter implicit := by
      intro ix hix h1 h2 h3 h4 h5
      refine ⟨.file (off, ix), ⟨_, _, hlis, ?_, ?_, ?_, ?_, ?_⟩, ix, rfl, h1, h2⟩
      · rw [hix, h4]
      · rw [hix, h3]
      · rw [hix]
      · simp only [h1, h2]; exact hsome
      · simp only [h1]; exact h5
    rcases hpr.1 with ⟨body, it, rfl, ho, ht⟩ | ⟨-, ho, hnext⟩
    · obtain ⟨body', it', rfl, hb, hrec⟩ := nearly_snoc hn
      have hix := c44_trailer dev 0 m q body' it' hp1 (nearly_opening hb ho)
        (by rw [hrec]; rcases ht with h | h; exacts [.inl h, .inr h.1]) hq1
      refine hyield _ hix rfl rfl rfl rfl ?_
      refine hfirst body' (nearly_opening hb ho) [it'] 0 ?_
      rcases ht with h | h
      · right
        intro r hr
        rw [List.mem_singleton.mp hr, hrec, h]; rfl
      · exact .inl (nearly_explicit hb h.2)
    · rcases hnext with hnone | ⟨hexp, nt, hnt, htype⟩
      · have hio : itemsOf ps = [] := List.head?_eq_none_iff.mp hnone
        have hem : e = m := by rw [hio] at hp2; exact hp2
        have hix := c44_end_of_file dev 0 m its hp1 (nearly_opening hn ho) k x hx
          hend (by rw [← hem]; exact hd)
        have hqk : m + k = q := by
          rw [hio] at hq2
          simp only [List.head?_nil, behind] at hq2
          omega
        refine hyield _ hix rfl rfl rfl hqk ?_
        have := hfirst its (nearly_opening hn ho) [] 0 (.inr (by intro r hr; cases hr))
        simpa using this
      · obtain ⟨rest, hio⟩ : ∃ rest, itemsOf ps = nt :: rest := by
          cases hio : itemsOf ps with
          | nil => rw [hio] at hnt; cases hnt
          | cons a rest => rw [hio] at hnt; cases hnt; exact ⟨rest, rfl⟩
        rw [hio] at hpl hq2 hp2
        have hpre : Placed dev 0 (its ++ [nt]) (m + nt.pad + nt.record.size) := by
          have : its ++ nt :: rest = (its ++ [nt]) ++ rest := by simp
          rw [this] at hpl
          obtain ⟨m2, h1, h2, -⟩ := placed_append hpl
          have := placed_end _ h1
          have hext : ∀ (a b : List Item), extent (a ++ b) = extent a + extent b := by
            intro a b
            induction a with
            | nil => simp [extent]
            | cons c a ih => simp only [List.cons_append, extent, ih]; omega
          rw [hext, extent, extent] at this
          rw [show m + nt.pad + nt.record.size = m2 by omega]
          exact h1
        obtain ⟨m3, h1, hix⟩ := c44_missing_trailer dev 0 _ its nt hpre
          (nearly_opening hn ho) (nearly_explicit hn hexp) htype
        have hm3 : m3 = m := by
          have := placed_end _ h1
          omega
        refine hyield _ hix rfl rfl rfl ?_ ?_
        · simp only [List.head?_cons, behind] at hq2
          simp only
          omega
        · have := hfirst its (nearly_opening hn ho) [] 0 (.inl (nearly_explicit hn hexp))
          simpa using this

/-- The file from offset `off` on gives the first event, and the next opening is behind it,
at the next record or at the end. -/
theorem yields_plain (data : Bytes) (p : Part) (ps : List Part) (off pos e k : Nat) (x : Byte)
    (its : List Item) (hpr : Proper (p :: ps)) (hn : Nearly p.items its)
    (hpos : pos + extent p.items = off + extent its)
    (hpl : Placed (whole data) off (its ++ itemsOf ps) e) (hx : Blank x)
    (hd : data.drop e = List.replicate k x) :
    ∃ ev off', Yields (plainDisk data) false off ev off' ∧
      eventsOf pos (p :: ps) =
        (match ev with
          | .mark t r => .mark t r
          | .file y => .file (places y)) :: eventsOf (pos + extent p.items) ps ∧
      off' = behind (e + k) (off + extent its) (itemsOf ps).head? := by
  have hits : its ≠ [] := nearly_ne hn (proper_nonempty hpr)
  -- in the stream of the handle
  obtain ⟨e', he, hpl'⟩ := placed_from data off (its ++ itemsOf ps) 0 e hpl
  have hoff : off < data.length := by
    cases its with
    | nil => exact absurd rfl hits
    | cons it its =>
      have := indexRecord_pos (placed_record hpl')
      simp only [fromOffset, List.length_drop] at this
      omega
  have hlis : (plainDisk data).lis false off =
      .stream (fromOffset data off) (fun _ => false) := by
    unfold plainDisk fromOffset
    simp only [hoff, if_true]
  have hdrop : (fromOffset data off).src.data.drop e' = List.replicate k x := by
    simp only [fromOffset, List.drop_drop]
    rw [← he, hd]
  obtain ⟨ev, hy, hev⟩ := yields_dev (plainDisk data) false (fromOffset data off) (fun _ => false)
    p ps off e' k x its hlis hpr hn hpl' hx rfl hdrop
  refine ⟨ev, _, hy, ?_, ?_⟩
  · cases p with
    | mark it => subst hev; rfl
    | file fits =>
      obtain ⟨ix, rfl, h1, h2⟩ := hev
      have hl : located pos fits = (located 0 its).map (shift off) := by
        rw [nearly_located (a := fits) hn (proper_nonempty hpr) off pos hpos, ← located_shift]; rfl
      have him : ∀ i, implicit (shift off i) = implicit i := fun i => rfl
      simp only [eventsOf, Part.items]
      unfold places
      rw [h1, h2, hl]
      simp only [List.filter_map]
      rfl
  · change off + behind (e' + k) (extent its) (itemsOf ps).head? = _
    cases (itemsOf ps).head? <;> simp only [behind] <;> omega

/-- An event with the places in the file. -/
def Spec.Event.placed : Event (Nat × Index) → Event (List RecordInfo × List RecordInfo)
  | .mark t r => .mark t r
  | .file y => .file (places y)

theorem extent_append (a b : List Item) : extent (a ++ b) = extent a + extent b := by
  induction a with
  | nil => simp [extent]
  | cons c a ih => simp only [List.cons_append, extent, ih]; omega

theorem itemsOf_nil {ps : List Part} (h : Proper ps) (hi : itemsOf ps = []) : ps = [] := by
  cases ps with
  | nil => rfl
  | cons p ps =>
    exact absurd (List.append_eq_nil_iff.mp hi).1 (proper_nonempty h)

theorem walk_plain (data : Bytes) (e k : Nat) (x : Byte) (hx : Blank x)
    (hd : data.drop e = List.replicate k x) : ∀ (ps : List Part) (off pos : Nat) (its : List Item),
    Proper ps → ps ≠ [] → Nearly (itemsOf ps) its → pos + extent (itemsOf ps) = off + extent its →
    Placed (whole data) off its e →
    ∃ evs, Walk (plainDisk data) false off evs (e + k) ∧ evs.map Event.placed = eventsOf pos ps := by
  intro ps
  induction ps with
  | nil => intro off pos its _ h; exact absurd rfl h
  | cons p ps ih =>
    intro off pos its hpr _ hn hpos hpl
    obtain ⟨its', hn', rfl⟩ := nearly_append hn (proper_nonempty hpr)
    rw [itemsOf, extent_append, extent_append] at hpos
    obtain ⟨ev, off', hy, hev, hoff⟩ := yields_plain data p ps off pos e k x its' hpr hn'
      (by omega) hpl hx hd
    have hev' : eventsOf pos (p :: ps) = ev.placed :: eventsOf (pos + extent p.items) ps := by
      rw [hev]; cases ev <;> rfl
    by_cases hps : ps = []
    · subst hps
      simp only [itemsOf, List.head?_nil, behind] at hoff
      subst hoff
      exact ⟨[ev], .cons hy (.nil _), by rw [hev']; rfl⟩
    · obtain ⟨nt, rest, hio⟩ : ∃ nt rest, itemsOf ps = nt :: rest := by
        cases h : itemsOf ps with
        | nil => exact absurd (itemsOf_nil (proper_tail hpr) h) hps
        | cons a b => exact ⟨a, b, rfl⟩
      rw [hio] at hoff
      simp only [List.head?_cons, behind] at hoff
      obtain ⟨m, h1, h2, -⟩ := placed_append hpl
      have hm := placed_end _ h1
      rw [hio] at h2
      have h3 := placed_bare h2
      obtain ⟨evs, hw, he⟩ := ih off' (pos + extent p.items) (nt.bare :: rest) (proper_tail hpr) hps
        (.inr (by rw [hio]; rfl)) (by
          rw [hio]; simp only [extent, Item.bare]; omega) (by
          rw [hoff, ← hm]; exact h3)
      exact ⟨ev :: evs, .cons hy hw, by rw [hev', List.map_cons, he]⟩

theorem sign_placed (hdr trl : Nat) (evs : List (Event (Nat × Index))) :
    (evs.map Event.placed).filterMap (Event.sign hdr trl) = evs.filterMap (Event.sign hdr trl) := by
  rw [List.filterMap_map]
  apply List.filterMap_congr
  intro ev _
  cases ev <;> rfl

theorem filesOf_placed (evs : List (Event (Nat × Index))) :
    filesOf (evs.map Event.placed) = (filesOf evs).map places := by
  induction evs with
  | nil => rfl
  | cons ev evs ih => cases ev <;> simp [filesOf, Event.placed, ih]

theorem eventsOf_length (ps : List Part) : ∀ pos, (eventsOf pos ps).length = ps.length := by
  induction ps with
  | nil => intro pos; rfl
  | cons p ps ih => intro pos; cases p <;> simp [eventsOf, ih]

theorem checkForTapemarks_plain (data : Bytes) (h12 : 12 ≤ data.length)
    (htm : ∀ tm, parseTapemark data = some tm → validTapemark tm = false) :
    checkForTapemarks ⟨data, .eof⟩ = some (false, 0) := by
  have hr : readAt ⟨data, .eof⟩ 0 12 = .ok (data.take 12) := by
    unfold readAt
    rw [if_neg (by omega), if_pos (by simpa using h12)]
    rfl
  have hp : parseTapemark (data.take 12) = parseTapemark data := by
    match data, h12 with
    | a0 :: a1 :: a2 :: a3 :: a4 :: a5 :: a6 :: a7 :: a8 :: a9 :: a10 :: a11 :: rest, _ => rfl
  obtain ⟨tm, ht⟩ : ∃ tm, parseTapemark data = some tm := by
    match data, h12 with
    | a0 :: a1 :: a2 :: a3 :: a4 :: a5 :: a6 :: a7 :: a8 :: a9 :: a10 :: a11 :: rest, _ =>
      exact ⟨_, rfl⟩
  unfold checkForTapemarks readTapemark
  rw [hr]
  simp only
  rw [hp, ht]
  simp [htm tm ht]

/-- **C54** (files without tape marks).  Let the file be a sequence of delimiters and logical
files, records well-formed and padding where the format allows it, perhaps padding at the
end.  Then `load` returns these logical files, in order, each with the places of its records;
the reel and the tape of each have the header that is open there and the trailer that closes
it; no header and no trailer is lost or there twice. -/
theorem c54_load_partial (data : Bytes) (ps : List Part) (e k : Nat) (x : Byte) (hx : Blank x)
    (hd : data.drop e = List.replicate k x) (hps : ps ≠ []) (hpr : Proper ps)
    (hpl : Placed (whole data) 0 (itemsOf ps) e) (h12 : 12 ≤ data.length)
    (htm : ∀ tm, parseTapemark data = some tm → validTapemark tm = false)
    (raises : Bool) (n : Nat) (hn : ps.length < n) :
    ∃ s, load (plainDisk data) raises n = some (false, s) ∧
      s.files.map (fun f => places (f.offset, f.index)) = filesOf (eventsOf 0 ps) ∧
      s.files.map (fun f => s.reel.objs[f.reel]?) =
        (enclosing none ((eventsOf 0 ps).filterMap (Event.sign 132 133))).map some ∧
      s.files.map (fun f => s.tape.objs[f.tape]?) =
        (enclosing none ((eventsOf 0 ps).filterMap (Event.sign 130 131))).map some ∧
      s.reel.objs.filterMap (·.header) = headers ((eventsOf 0 ps).filterMap (Event.sign 132 133)) ∧
      s.reel.objs.filterMap (·.trailer) = trailers ((eventsOf 0 ps).filterMap (Event.sign 132 133)) ∧
      s.tape.objs.filterMap (·.header) = headers ((eventsOf 0 ps).filterMap (Event.sign 130 131)) ∧
      s.tape.objs.filterMap (·.trailer) = trailers ((eventsOf 0 ps).filterMap (Event.sign 130 131)) := by
  obtain ⟨evs, hw, hev⟩ := walk_plain data e k x hx hd ps 0 0 (itemsOf ps) hpr hps (.inl rfl) rfl hpl
  have hchk := checkForTapemarks_plain data h12 htm
  have hlen : evs.length = ps.length := by
    rw [← eventsOf_length ps 0, ← hev, List.length_map]
  have hend : (plainDisk data).lis false (e + k) = .eof := by
    have := congrArg List.length hd
    rw [List.length_drop, List.length_replicate] at this
    unfold plainDisk
    simp only
    rw [if_neg (by omega)]
  obtain ⟨s, h1, h2, h3⟩ := c54_assignment (plainDisk data) ⟨data, .eof⟩ false raises 0 (e + k) evs rfl
    hchk hw (.inl hend) n (by omega)
  refine ⟨s, h1, ?_, ?_⟩
  · rw [← hev, filesOf_placed, ← h2, List.map_map]; rfl
  · rw [← hev, sign_placed, sign_placed]; exact h3

/-! ### Termination -/

theorem skipPad_error {dev : Device} {buf : Bytes} {pos : Nat} {e : IoErr} {p : Nat}
    (h : skipPad dev buf pos = .error (e, p)) : pos ≤ p := by
  fun_induction skipPad dev buf pos with
  | case1 => cases h
  | case2 buf pos hb buf' hr ih => have := ih h; omega
  | case3 => cases h; omega
  | case4 => cases h; omega

theorem readPrh_error {dev : Device} {pos : Nat} {e : IoErr} {p : Nat}
    (h : readPrh dev pos = .error (e, p)) :
    pos ≤ p ∧ (e = .eof → pos < dev.src.data.length → pos < p) := by
  unfold readPrh at h
  split at h
  · rename_i bs hb
    unfold readAt at hb
    simp only [Nat.reduceEqDiff, if_false] at hb
    split_ifs at hb
    split at hb
    · cases hb
      cases h
      simp only [List.length_drop]
      exact ⟨by omega, fun _ _ => by omega⟩
    · cases hb
  · cases h; exact ⟨Nat.le_refl _, by intro h; cases h⟩
  · rename_i buf hb
    have key : pos + 4 ≤ p := by
      split at h
      · split at h
        · rename_i err hra
          cases h
          unfold realign at hra
          simp only at hra
          split at hra
          · exact skipPad_error hra
          · split at hra
            · have := skipPad_error hra; omega
            · cases hra; omega
            · cases hra; omega
        · rename_i buf' pos' hra
          have hpos := (realign_pos hra (readAt_ok hb (by omega)).1).1
          unfold checkPrh at h
          simp only at h
          split at h
          · cases h; exact hpos
          · cases h
      · unfold checkPrh at h
        simp only at h
        split at h
        · cases h; omega
        · cases h
    exact ⟨by omega, fun _ _ => by omega⟩

theorem indexLoop_error {dev : Device} {ltell length : Nat} {prh : Prh} {attrs : List (BitVec 16)}
    {pos : Nat} {e : IoErr} {p : Nat} (hl : 0 < length) (hp : ltell ≤ pos)
    (h : indexLoop dev ltell length prh attrs pos = .error (e, p)) : ltell ≤ p ∧ e ≠ .eof := by
  fun_induction indexLoop dev ltell length prh attrs pos with
  | case1 => cases h; exact ⟨hp, by intro h; cases h⟩
  | case2 => cases h
  | case3 => cases h; exact ⟨by omega, by intro h; cases h⟩
  | case4 => cases h; exact ⟨by omega, by intro h; cases h⟩
  | case5 => cases h; exact ⟨hp, by intro h; cases h⟩
  | case6 length prh attrs pos hs hk prh' p' hr ih =>
    have := (readPrh_pos hr)
    exact ih (by omega) (by omega) h
  | case7 length prh attrs pos hs hk p' hr =>
    cases h
    have := (readPrh_error hr).1
    exact ⟨by omega, by intro h; cases h⟩
  | case8 length prh attrs pos hs hk err hr hne =>
    cases h
    have := (readPrh_error hne).1
    refine ⟨by omega, ?_⟩
    rintro rfl
    exact hr _ rfl

theorem indexRecord_error {dev : Device} {pos : Nat} {e : IoErr} {p : Nat}
    (h : indexRecord dev pos = .error (e, p)) :
    pos ≤ p ∧ (e = .eof → pos < dev.src.data.length → pos < p) := by
  unfold indexRecord at h
  split at h
  · rename_i err hr
    cases h
    exact readPrh_error hr
  · rename_i prh p1 hp
    have hpos := readPrh_pos hp
    simp only at h
    split at h
    · rename_i err hl
      cases h
      unfold readLrh at hl
      split at hl
      · cases hl
      all_goals
        cases hl
        exact ⟨by omega, by intro h; cases h⟩
    · rename_i lrh p2 hl
      split at h
      · cases h
        unfold readLrh at hl
        split at hl
        · cases hl; exact ⟨by omega, by intro h; cases h⟩
        all_goals cases hl
      · split at h
        · rename_i err hlo
          cases h
          have hp2 : p1 - 4 ≤ p2 := by
            unfold readLrh at hl
            split at hl
            · cases hl; omega
            all_goals cases hl
          have := indexLoop_error (by omega) hp2 hlo
          exact ⟨by omega, fun he => absurd he this.2⟩
        · split at h
          · rename_i hlo _
            cases h
            have := indexLoop_pos hlo (by omega)
            exact ⟨by omega, by intro h; cases h⟩
          · cases h

theorem repositionTell_le (dev : Device) (pos : Nat) : pos ≤ repositionTell dev pos := by
  unfold repositionTell
  split
  · rename_i h; exact (indexRecord_pos h).1
  · rename_i h; exact (indexRecord_error h).1

theorem indexFrom_progress (dev : Device) (ex im : List RecordInfo) (pos : Nat) :
    pos ≤ (indexFrom dev ex im pos).pos ∧
    (ex = [] → (indexFrom dev ex im pos).incomplete = false → pos < dev.src.data.length →
      pos < (indexFrom dev ex im pos).pos) := by
  fun_induction indexFrom dev ex im pos with
  | case1 ex im pos p h =>
    have := indexRecord_error h
    exact ⟨this.1, fun _ _ hp => this.2 rfl hp⟩
  | case2 ex im pos e p h hne =>
    have := indexRecord_error hne
    exact ⟨this.1, by intro _ h; cases h⟩
  | case3 ex im pos info p h hi ih =>
    have := indexRecord_pos h
    exact ⟨by omega, fun _ _ _ => by omega⟩
  | case4 ex im pos info p h _ _ hlen =>
    have := indexRecord_pos h
    refine ⟨this.1, ?_⟩
    rintro rfl
    simp at hlen
  | case5 ex im pos info p h _ _ _ =>
    have := indexRecord_pos h
    have := repositionTell_le dev p
    exact ⟨by simp only; omega, fun _ _ _ => by simp only; omega⟩
  | case6 ex im pos info p h _ _ _ _ ih =>
    have := indexRecord_pos h
    exact ⟨by omega, fun _ _ _ => by omega⟩
  | case7 ex im pos info p h _ _ _ hlen =>
    have := indexRecord_pos h
    refine ⟨this.1, ?_⟩
    rintro rfl
    simp at hlen
  | case8 ex im pos info p h _ _ _ _ =>
    have := indexRecord_pos h
    have := repositionTell_le dev p
    exact ⟨by simp only; omega, fun _ _ _ => by simp only; omega⟩
  | case9 ex im pos info p h _ _ _ _ ih =>
    have := indexRecord_pos h
    exact ⟨by omega, fun _ _ _ => by omega⟩

/-- Every turn that opens a file at an offset moves on. -/
def Advances (d : Disk) (isTif : Bool) (size off : Nat) : Prop :=
  ∀ dev eof, d.lis isTif off = .stream dev eof → 0 < dev.src.data.length ∧ off < size ∧
    ∀ p, 0 < p → off < (if isTif && !eof p then dev.ptell p - 12 else dev.ptell p)

/-- One turn of the loop: it raises, or is the last, or the offset grows. -/
theorem indexLogicalFile_progress {d : Disk} {isTif : Bool} {size : Nat} (raises : Bool) (s : Indexer)
    (hadv : Advances d isTif size s.offset) :
    (indexLogicalFile d isTif raises s).1 = true ∨
    (indexLogicalFile d isTif raises s).2.complete = true ∨
    s.offset < (indexLogicalFile d isTif raises s).2.offset ∧ s.offset < size := by
  have hcrit : ∀ t : Indexer, (t.critical raises).1 = true ∨ (t.critical raises).2.complete = true := by
    intro t; unfold Indexer.critical; cases raises <;> simp
  unfold indexLogicalFile
  cases hd : d.lis isTif s.offset with
  | eof => exact .inr (.inl rfl)
  | osError =>
    rcases hcrit s with h | h
    · exact .inl h
    · exact .inr (.inl h)
  | stream dev eof =>
    obtain ⟨hpos, hoff, hnext⟩ := hadv dev eof hd
    simp only
    have hprog := (indexFrom_progress dev [] [] 0).2 rfl
    change (indexRecords dev 0).incomplete = false → _ → 0 < (indexRecords dev 0).pos at hprog
    unfold indexLogical
    generalize indexRecords dev 0 = ix at *
    obtain ⟨ex, im, inc, pos⟩ := ix
    simp only at hprog
    have hnext := hnext pos
    simp only
    generalize (if isTif && !eof pos then dev.ptell pos - 12 else dev.ptell pos) = off' at *
    have hfin : ∀ t : Indexer, t.offset = off' →
        (t.finish raises ⟨ex, im, inc, pos⟩).1 = true ∨
        (t.finish raises ⟨ex, im, inc, pos⟩).2.complete = true ∨
        s.offset < (t.finish raises ⟨ex, im, inc, pos⟩).2.offset ∧ s.offset < size := by
      intro t ht
      unfold Indexer.finish
      cases inc with
      | true =>
        simp only [if_true, Indexer.critical]
        cases raises <;> simp
      | false =>
        right; right
        have := hnext (hprog rfl hpos)
        simp only [Bool.false_eq_true, if_false]
        omega
    cases ex with
    | nil =>
      simp only
      apply hfin
      split_ifs <;> rfl
    | cons first rest =>
      simp only
      split_ifs
      · split
        · exact .inl rfl
        · rename_i t ht
          right; left
          have := hcrit { s with opened := s.opened + 1, offset := off' }
          rw [ht] at this
          rcases this with h | h
          · cases h
          · exact h
      · split
        · rcases hcrit { s with opened := s.opened + 1, offset := off' } with h | h
          · exact .inl h
          · exact .inr (.inl h)
        · apply hfin
          unfold Indexer.adjust
          split_ifs <;> rfl
      · apply hfin; rfl
      · apply hfin; rfl

theorem loadLoop_terminates {d : Disk} {isTif : Bool} {size : Nat} (raises : Bool)
    (hadv : ∀ off, Advances d isTif size off) (n : Nat) : ∀ s : Indexer,
    size < n + s.offset ∨ s.complete = true →
    (loadLoop d isTif raises (n + 1) s).isSome = true := by
  induction n with
  | zero =>
    intro s h
    rw [loadLoop]
    by_cases hc : s.complete = true
    · simp [hc]
    · have hoff : ¬ s.offset < size := by
        rcases h with h | h
        · omega
        · exact absurd h hc
      rw [if_neg hc]
      have hprog := indexLogicalFile_progress raises s (hadv s.offset)
      split
      · rfl
      · rename_i t ht
        rw [ht] at hprog
        rcases hprog with h | h | h
        · cases h
        · simp only at h
          rw [loadLoop, if_pos h]; rfl
        · exact absurd h.2 hoff
  | succ n ih =>
    intro s h
    rw [loadLoop]
    by_cases hc : s.complete = true
    · simp [hc]
    · have hlt := h.resolve_right hc
      rw [if_neg hc]
      have hprog := indexLogicalFile_progress raises s (hadv s.offset)
      split
      · rfl
      · rename_i t ht
        rw [ht] at hprog
        apply ih
        rcases hprog with h | h | h
        · cases h
        · exact .inr h
        · left
          simp only at h
          omega

theorem plain_advances (data : Bytes) (off : Nat) : Advances (plainDisk data) false data.length off := by
  intro dev eof h
  unfold plainDisk at h
  simp only at h
  split at h
  · cases h
    refine ⟨by simp only [List.length_drop]; omega, by omega, ?_⟩
    intro p hp
    simp only [Bool.false_and, Bool.false_eq_true, if_false]
    omega
  · cases h

/-- **C54** (termination).  On every file without tape marks, damaged or not, the loop in
`load` ends: each turn raises, is the last, or moves the offset on.  The rest of
`c54_streams_partial` is then about all runs. -/
theorem c54_terminates (data : Bytes) (h12 : 12 ≤ data.length)
    (htm : ∀ tm, parseTapemark data = some tm → validTapemark tm = false) (raises : Bool) :
    (load (plainDisk data) raises (data.length + 2)).isSome = true := by
  unfold load
  have hchk := checkForTapemarks_plain data h12 htm
  have hraw : (plainDisk data).raw = some ⟨data, .eof⟩ := rfl
  rw [hraw]
  simp only
  rw [hchk]
  exact loadLoop_terminates raises (plain_advances data) (data.length + 1) _ (.inl (by simp only [Indexer.start]; omega))

/-- More turns than needed change nothing. -/
theorem c54_turns (d : Disk) (raises : Bool) (n m : Nat) (r : Bool × Indexer)
    (h : load d raises n = some r) (hm : n ≤ m) : load d raises m = some r := by
  have key : ∀ (isTif : Bool) (n m : Nat) (s : Indexer), loadLoop d isTif raises n s = some r → n ≤ m →
      loadLoop d isTif raises m s = some r := by
    intro isTif n
    induction n with
    | zero =>
      intro m s h _
      rw [loadLoop] at h
      split_ifs at h with hc
      cases m <;> rw [loadLoop, if_pos hc] <;> exact h
    | succ n ih =>
      intro m s h hm
      obtain ⟨m, rfl⟩ : ∃ m', m = m' + 1 := ⟨m - 1, by omega⟩
      rw [loadLoop] at h ⊢
      split_ifs at h ⊢
      · exact h
      · split at h
        · exact h
        · exact ih m _ h (by omega)
  unfold load at h ⊢
  split
  · rename_i hr; rw [hr] at h; exact h
  · rename_i src hr
    rw [hr] at h
    simp only at h
    split at h
    · exact h
    · exact key _ _ _ _ h hm

/-! ### Cases -/

instance (it : Item) : Decidable it.Plain := by unfold Item.Plain; infer_instance

/-- A record in one physical record. -/
def Spec.exPlain (pad : Nat) (type : Byte) (data : Bytes) : Item :=
  ⟨pad, 0, ⟨type, 0, [⟨0, data, []⟩]⟩⟩

/-- A reel with a tape with two logical files, the first without a trailer; behind the reel
trailer another file on a new tape; padding. -/
def Spec.exParts : List Part :=
  [.mark (exPlain 0 132 [1]), .mark (exPlain 0 130 [2]),
   .file [exPlain 0 128 [3], exPlain 0 64 [4], exPlain 0 0 [5]],
   .file [exPlain 5 128 [6], exPlain 0 129 []],
   .mark (exPlain 0 131 [7]), .mark (exPlain 0 133 [8]), .mark (exPlain 0 130 [9]),
   .file [exPlain 0 34 [10, 10], exPlain 0 137 []]]

/-- The bytes, with five bytes of padding at the end. -/
def Spec.exFile : Bytes := fileBytes (itemsOf exParts) ++ List.replicate 5 0

theorem exFile_placed : Placed (whole exFile) 0 (itemsOf exParts) 88 := by
  have hc : ∀ l, Consistent l ↔ Chain false l := consistent_chain
  simp only [exParts, itemsOf, Part.items, List.cons_append, List.nil_append, Placed, Record.Ok, hc,
    Gap, At, Blank]
  refine ⟨⟨by decide, by decide, ?_, ?_⟩, by decide, by decide,
    ⟨by decide, by decide, ?_, ?_⟩, by decide, by decide,
    ⟨by decide, by decide, ?_, ?_⟩, by decide, by decide,
    ⟨by decide, by decide, ?_, ?_⟩, by decide, by decide,
    ⟨by decide, by decide, ?_, ?_⟩, by decide, by decide,
    ⟨by decide, by decide, ?_, ?_⟩, by decide, by decide,
    ⟨by decide, by decide, ?_, ?_⟩, by decide, by decide,
    ⟨by decide, by decide, ?_, ?_⟩, by decide, by decide,
    ⟨by decide, by decide, ?_, ?_⟩, by decide, by decide,
    ⟨by decide, by decide, ?_, ?_⟩, by decide, by decide,
    ⟨by decide, by decide, ?_, ?_⟩, by decide, by decide,
    ⟨by decide, by decide, ?_, ?_⟩, by decide, by decide, by decide⟩
  all_goals (simp only [exPlain]; simp [Chunk.Ok, Chunk.size, trailer, Chain])

theorem exParts_proper : Proper exParts := by
  refine ⟨by decide, by decide, .inr ⟨by decide, ⟨.inl rfl, ?_⟩, .inr ⟨⟨_, List.mem_cons_self, by decide, by decide⟩,
      _, rfl, by decide⟩⟩,
    .inl ⟨[_], _, rfl, ⟨.inl rfl, by simp⟩, .inl rfl⟩, by decide, by decide, by decide,
    .inl ⟨[_], _, rfl, ⟨.inr (by decide), by simp⟩, .inr ⟨rfl, _, List.mem_cons_self, by decide, by decide⟩⟩, trivial⟩
  intro jt hj
  simp only [List.mem_cons, List.not_mem_nil, or_false] at hj
  rcases hj with rfl | rfl <;> decide

/-- Three files: the first two in reel 1 (closed by 8) and tape 2 (closed by 7), the third
behind that reel, on tape 9, which is not closed. -/
example : ∃ s, load (plainDisk exFile) true 9 = some (false, s) ∧
    s.files.map (fun f => places (f.offset, f.index)) =
      [([⟨128, 7, 14⟩, ⟨64, 7, 21⟩], [⟨0, 7, 28⟩]), ([⟨128, 7, 40⟩, ⟨129, 6, 47⟩], []),
       ([⟨34, 8, 74⟩, ⟨137, 6, 82⟩], [])] ∧
    s.files.map (fun f => s.reel.objs[f.reel]?) =
      [some ⟨some [1], some [8]⟩, some ⟨some [1], some [8]⟩, some ⟨none, none⟩] ∧
    s.files.map (fun f => s.tape.objs[f.tape]?) =
      [some ⟨some [2], some [7]⟩, some ⟨some [2], some [7]⟩, some ⟨some [9], none⟩] := by
  obtain ⟨s, h1, h2, h3, h4, -⟩ := c54_load_partial exFile exParts 88 5 0 (.inl rfl) (by decide)
    (by decide) exParts_proper exFile_placed (by decide) (by decide) true 9 (by decide)
  exact ⟨s, h1, h2.trans (by decide), h3.trans (by decide), h4.trans (by decide)⟩

/-! ### Defects -/

/-- **C54** (defect).  A data record in front of a reel header: the index has both, and the
issue that "never should happen" is reported before the stream is closed.  With the default
error handler, which raises, the stream stays open and nobody has it. -/
theorem c54_leak_defect :
    ∃ s, load (plainDisk (fileBytes [exPlain 0 0 [5], exPlain 0 132 [1]])) true 3 = some (true, s) ∧
      s.opened = 2 ∧ 1 ∉ s.closed ∧ s.files = [] :=
  ⟨⟨14, false, Track.start, Track.start, [], 2, [0]⟩, by decide +kernel, rfl, by decide, rfl⟩

/-- **C54** (defect).  With an error handler that does not raise, the data record is lost, the
reel header is lost, and so are the logical files behind it, although all records are
well-formed. -/
theorem c54_lost_defect :
    ∃ s, load (plainDisk (fileBytes [exPlain 0 0 [5], exPlain 0 132 [1], exPlain 0 128 [3],
        exPlain 0 129 []])) false 3 = some (false, s) ∧
      s.files = [] ∧ s.reel.objs = [⟨none, none⟩] :=
  ⟨⟨14, true, Track.start, Track.start, [], 2, [0, 1]⟩, by decide +kernel, rfl, rfl⟩

/-- **C54** (defect).  A file that is cut inside the record behind a file trailer (or behind a
delimiter) loads without any issue being reported: `reposition_tell` ignores the error, and
leaves the cursor behind the end of the file.  Here a file header and a file trailer are followed
by the first ten bytes of another file header; the error handler raises on critical issues,
and `load` does not raise. -/
theorem c54_silent_defect :
    ∃ s, load (plainDisk (fileBytes [exPlain 0 128 [3], exPlain 0 129 []] ++
        (exPlain 0 128 [1, 2, 3, 4, 5, 6]).record.bytes.take 10)) true 3 = some (false, s) ∧
      s.files.length = 1 :=
  ⟨⟨24, true, Track.start, Track.start, [⟨1, 0, ⟨[⟨128, 7, 0⟩, ⟨129, 6, 7⟩], [], false, 24⟩, 0, 0⟩], 2, [0]⟩,
    by decide +kernel, rfl⟩

/-- **C54** (defect).  A file without tape marks whose first physical record has 256 bytes is
taken for one with tape marks: length and attributes, 0x0100 and 0, read as a number in the
other byte order, are 1.  Here it is a comment of 250 blanks; `load` raises. -/
theorem c54_mistaken_defect :
    ∃ it : Item, it.record.Ok ∧ it.record.size = 256 ∧
      load (plainDisk it.record.bytes) false 300 = some (true, Indexer.start 0) := by
  refine ⟨exPlain 0 232 (List.replicate 250 0x20), ?_, by decide +kernel, by decide +kernel⟩
  have hc : ∀ l, Consistent l ↔ Chain false l := consistent_chain
  simp only [Record.Ok, hc]
  refine ⟨by decide, by decide, ?_, ⟨by decide, by decide, by decide +kernel, by decide +kernel⟩, ?_⟩
  · change Chain false [0]; simp [Chain]
  · intro d hd; cases hd

end Dlisio.Lis
