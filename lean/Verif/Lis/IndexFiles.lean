import Verif.Lis.IndexProps
/-
C44: the index of a whole logical file.
-/
namespace Dlisio.Lis

/-! ### Specification -/

namespace Spec

/-- A record in a file, with the padding in front of it. -/
structure Item where
  pad : Nat
  padbyte : Byte
  record : Record

/-- The items are in the file, one after the other, from `pos` on; `e` is the end. -/
def Placed (dev : Device) : Nat → List Item → Nat → Prop
  | pos, [], e => e = pos
  | pos, it :: its, e =>
    it.record.Ok ∧ Gap dev pos it.pad it.padbyte ∧
    At dev pos (List.replicate it.pad it.padbyte ++ it.record.bytes) ∧
    Placed dev (pos + it.pad + it.record.size) its e

/-- Type, size and position of each record. -/
def located : Nat → List Item → List RecordInfo
  | _, [] => []
  | pos, it :: its =>
    ⟨it.record.type.toNat, it.record.size, pos + it.pad⟩ ::
      located (pos + it.pad + it.record.size) its

/-- Implicit records hold frame data: types 0 and 1. -/
def implicit (r : RecordInfo) : Bool := r.type = 0 || r.type = 1

/-- Types of records that begin or end logical files, tapes and reels. -/
def delimiters : List Nat := [128, 129, 130, 131, 132, 133, 137]

/-- An item that is not a delimiter. -/
def Item.Plain (it : Item) : Prop := it.record.type.toNat ∉ delimiters

/-- The beginning of a logical file: perhaps a file header, then records that are not
delimiters. -/
def Opening : List Item → Prop
  | [] => True
  | it :: its => (it.record.type = 128 ∨ it.Plain) ∧ ∀ jt ∈ its, jt.Plain

/-- What follows position `e`: another record (perhaps behind padding), which is at `p`; or
at most padding, and `p` is the end of the file. -/
def Next (dev : Device) (e p : Nat) : Prop :=
  (∃ it : Item, Placed dev e [it] (e + it.pad + it.record.size) ∧ p = e + it.pad) ∨
  ∃ k x, Blank x ∧ dev.src.ending = .eof ∧ dev.src.data.drop e = List.replicate k x ∧ p = e + k

end Spec

open Spec

/-! ### The loop over records -/

theorem indexFrom_eq (dev : Device) (ex im : List RecordInfo) (pos : Nat) :
    indexFrom dev ex im pos =
      match indexRecord dev pos with
      | .error (.eof, p) => ⟨ex, im, false, p⟩
      | .error (_, p) => ⟨ex, im, true, p⟩
      | .ok (info, p) =>
        if info.type = 0 ∨ info.type = 1 then indexFrom dev ex (im ++ [info]) p
        else if info.type = 132 ∨ info.type = 133 ∨ info.type = 130 ∨ info.type = 131 then
          if 1 < (ex ++ [info]).length then ⟨ex, im, false, info.ltell⟩
          else ⟨ex ++ [info], im, false, repositionTell dev p⟩
        else if info.type = 128 then
          if (ex ++ [info]).length = 1 then indexFrom dev (ex ++ [info]) im p
          else ⟨ex, im, false, info.ltell⟩
        else if info.type = 137 ∨ info.type = 129 then
          ⟨ex ++ [info], im, false, repositionTell dev p⟩
        else indexFrom dev (ex ++ [info]) im p := by
  rw [indexFrom]
  split <;> rename_i h <;> rw [h]
  cases ‹IoErr› <;> simp_all

theorem placed_record {dev : Device} {pos : Nat} {it : Item} {its : List Item} {e : Nat}
    (h : Placed dev pos (it :: its) e) :
    indexRecord dev pos = .ok (⟨it.record.type.toNat, it.record.size, pos + it.pad⟩,
      pos + it.pad + it.record.size) :=
  c44_record dev pos it.pad it.padbyte it.record h.1 h.2.1 h.2.2.1

theorem indexFrom_plain (dev : Device) (its : List Item) :
    ∀ (pos e : Nat) (ex im : List RecordInfo), Placed dev pos its e → (∀ it ∈ its, it.Plain) →
    indexFrom dev ex im pos =
      indexFrom dev (ex ++ (located pos its).filter (! implicit ·))
        (im ++ (located pos its).filter implicit) e := by
  induction its with
  | nil => intro pos e ex im h _; rw [Placed] at h; subst h; simp [located]
  | cons it its ih =>
    intro pos e ex im h hp
    have hpl : it.record.type.toNat ∉ delimiters := hp it List.mem_cons_self
    rw [indexFrom_eq dev ex im pos, placed_record h]
    rw [located]
    simp only [delimiters, List.mem_cons, List.not_mem_nil, or_false] at hpl
    have hrest := ih (pos + it.pad + it.record.size) e
    simp only
    by_cases hi : it.record.type.toNat = 0 ∨ it.record.type.toNat = 1
    · rw [if_pos hi, hrest ex _ h.2.2.2 fun jt hjt => hp jt (List.mem_cons_of_mem _ hjt)]
      rw [List.filter_cons_of_neg (by simp [implicit]; omega),
        List.filter_cons_of_pos (by simp [implicit]; omega)]
      simp
    · rw [if_neg hi, if_neg (by omega), if_neg (by omega), if_neg (by omega)]
      rw [hrest _ im h.2.2.2 fun jt hjt => hp jt (List.mem_cons_of_mem _ hjt)]
      rw [List.filter_cons_of_pos (by simpa [implicit, not_or] using hi),
        List.filter_cons_of_neg (by simpa [implicit] using hi)]
      simp

theorem indexRecords_opening (dev : Device) (its : List Item) (pos e : Nat)
    (h : Placed dev pos its e) (ho : Opening its) :
    indexRecords dev pos =
      indexFrom dev ((located pos its).filter (! implicit ·))
        ((located pos its).filter implicit) e := by
  unfold indexRecords
  cases its with
  | nil => rw [Placed] at h; subst h; simp [located]
  | cons it its =>
    rcases ho with ⟨h1 | h1, h2⟩
    · rw [indexFrom_eq, placed_record h]
      have ht : it.record.type.toNat = 128 := by rw [h1]; rfl
      simp only [ht]
      rw [if_neg (by omega), if_neg (by omega), if_pos trivial, if_pos (by simp)]
      rw [indexFrom_plain dev its _ e _ _ h.2.2.2 h2, located]
      rw [List.filter_cons_of_pos (by simp [implicit, ht]),
        List.filter_cons_of_neg (by simp [implicit, ht])]
      simp [ht]
    · have := indexFrom_plain dev (it :: its) pos e [] [] h (by
        intro jt hjt
        rcases List.mem_cons.mp hjt with rfl | hjt
        · exact h1
        · exact h2 jt hjt)
      simpa using this

theorem placed_append {dev : Device} {a b : List Item} : ∀ {pos e : Nat},
    Placed dev pos (a ++ b) e → ∃ m, Placed dev pos a m ∧ Placed dev m b e ∧
      located pos (a ++ b) = located pos a ++ located m b := by
  induction a with
  | nil => intro pos e h; exact ⟨pos, rfl, h, rfl⟩
  | cons it a ih =>
    intro pos e h
    obtain ⟨m, h1, h2, h3⟩ := ih h.2.2.2
    exact ⟨m, ⟨h.1, h.2.1, h.2.2.1, h1⟩, h2, by simp only [List.cons_append, located]; rw [h3]⟩

theorem repositionTell_next {dev : Device} {e p : Nat} (h : Next dev e p) :
    repositionTell dev e = p := by
  unfold repositionTell
  rcases h with ⟨it, h1, rfl⟩ | ⟨k, x, h1, h2, h3, rfl⟩
  · rw [placed_record h1]
  · unfold indexRecord
    rw [c43_end dev e k x h1 h2 h3]

/-- **C44** (to the end of the file).  The index of a logical file that ends with the file
has each record once, in order, with type, size and position, explicit and implicit ones
apart, and is complete; padding at the end is ignored. -/
theorem c44_end_of_file (dev : Device) (pos e : Nat) (its : List Item)
    (h : Placed dev pos its e) (ho : Opening its) (k : Nat) (x : Byte) (hx : Blank x)
    (he : dev.src.ending = .eof) (hd : dev.src.data.drop e = List.replicate k x) :
    indexRecords dev pos =
      ⟨(located pos its).filter (! implicit ·), (located pos its).filter implicit, false, e + k⟩ := by
  rw [indexRecords_opening dev its pos e h ho, indexFrom_eq]
  unfold indexRecord
  rw [c43_end dev e k x hx he hd]

/-- **C44** (file trailer).  With a file trailer or a logical end of file the index ends
with it; the cursor is moved over padding to the next record, or to the end of the file. -/
theorem c44_trailer (dev : Device) (pos e p : Nat) (its : List Item) (it : Item)
    (h : Placed dev pos (its ++ [it]) e) (ho : Opening its)
    (ht : it.record.type = 129 ∨ it.record.type = 137) (hn : Next dev e p) :
    indexRecords dev pos =
      ⟨(located pos (its ++ [it])).filter (! implicit ·),
       (located pos (its ++ [it])).filter implicit, false, p⟩ := by
  obtain ⟨m, h1, h2, h3⟩ := placed_append h
  rw [indexRecords_opening dev its pos m h1 ho, indexFrom_eq, placed_record h2, h3]
  have ht' : it.record.type.toNat = 129 ∨ it.record.type.toNat = 137 := by
    rcases ht with ht | ht <;> rw [ht]
    · exact .inl rfl
    · exact .inr rfl
  have he : e = m + it.pad + it.record.size := h2.2.2.2
  simp only
  rw [if_neg (by omega), if_neg (by omega), if_neg (by omega), if_pos (by omega)]
  rw [← he, repositionTell_next hn]
  simp only [located, List.filter_append]
  rw [List.filter_cons_of_pos (by simp [implicit]; omega),
    List.filter_cons_of_neg (by simp [implicit]; omega)]
  simp

/-- **C44** (missing trailer).  If the records of a logical file are followed by the header
of another file, or by a header or trailer of a tape or reel, the index ends before it and
the cursor is at it. -/
theorem c44_missing_trailer (dev : Device) (pos e : Nat) (its : List Item) (it : Item)
    (h : Placed dev pos (its ++ [it]) e) (ho : Opening its)
    (hex : ∃ jt ∈ its, jt.record.type ≠ 0 ∧ jt.record.type ≠ 1)
    (ht : it.record.type.toNat ∈ [128, 130, 131, 132, 133]) :
    ∃ m, Placed dev pos its m ∧ indexRecords dev pos =
      ⟨(located pos its).filter (! implicit ·), (located pos its).filter implicit, false,
        m + it.pad⟩ := by
  obtain ⟨m, h1, h2, -⟩ := placed_append h
  refine ⟨m, h1, ?_⟩
  rw [indexRecords_opening dev its pos m h1 ho, indexFrom_eq, placed_record h2]
  have hne : 1 ≤ ((located pos its).filter (! implicit ·)).length := by
    obtain ⟨jt, hj, h0, hh1⟩ := hex
    have : ∀ (its : List Item) pos, jt ∈ its → ∃ i ∈ located pos its, i.type = jt.record.type.toNat := by
      intro its
      induction its with
      | nil => intro pos h; cases h
      | cons a its ih =>
        intro pos h
        rcases List.mem_cons.mp h with rfl | h
        · exact ⟨_, List.mem_cons_self, rfl⟩
        · obtain ⟨i, hi, he⟩ := ih (pos + a.pad + a.record.size) h
          exact ⟨i, List.mem_cons_of_mem _ hi, he⟩
    obtain ⟨i, hi, he⟩ := this its pos hj
    have hpos : i ∈ (located pos its).filter (! implicit ·) := by
      rw [List.mem_filter]
      refine ⟨hi, ?_⟩
      simp only [implicit, he, Bool.not_eq_true', Bool.or_eq_false_iff, decide_eq_false_iff_not]
      exact ⟨fun h => h0 (BitVec.eq_of_toNat_eq h), fun h => hh1 (BitVec.eq_of_toNat_eq h)⟩
    exact List.length_pos_of_mem hpos
  simp only [List.mem_cons, List.not_mem_nil, or_false] at ht
  simp only [List.length_append, List.length_cons, List.length_nil]
  rw [if_neg (by omega)]
  by_cases h128 : it.record.type.toNat = 128
  · rw [if_neg (by omega), if_pos h128, if_neg (by omega)]
  · rw [if_pos (by omega), if_pos (by omega)]

/-- **C44** (tapes and reels).  A header or trailer of a tape or reel is indexed alone. -/
theorem c44_tape (dev : Device) (pos e p : Nat) (it : Item) (h : Placed dev pos [it] e)
    (ht : it.record.type.toNat ∈ [130, 131, 132, 133]) (hn : Next dev e p) :
    indexRecords dev pos =
      ⟨[⟨it.record.type.toNat, it.record.size, pos + it.pad⟩], [], false, p⟩ := by
  unfold indexRecords
  rw [indexFrom_eq, placed_record h]
  have he : e = pos + it.pad + it.record.size := h.2.2.2
  simp only [List.mem_cons, List.not_mem_nil, or_false] at ht
  simp only
  rw [if_neg (by omega), if_pos (by omega), if_neg (by simp), ← he, repositionTell_next hn]
  rfl

/-! ### Damaged files -/

theorem indexFrom_prefix (dev : Device) (ex im : List RecordInfo) (pos : Nat) :
    ex <+: (indexFrom dev ex im pos).explicits ∧ im <+: (indexFrom dev ex im pos).implicits := by
  fun_induction indexFrom dev ex im pos with
  | case1 => exact ⟨List.prefix_refl _, List.prefix_refl _⟩
  | case2 => exact ⟨List.prefix_refl _, List.prefix_refl _⟩
  | case3 ex im pos info p h hi ih => exact ⟨ih.1, (List.prefix_append _ _).trans ih.2⟩
  | case4 => exact ⟨List.prefix_refl _, List.prefix_refl _⟩
  | case5 => exact ⟨List.prefix_append _ _, List.prefix_refl _⟩
  | case6 ex im pos info p h _ _ _ _ ih => exact ⟨(List.prefix_append _ _).trans ih.1, ih.2⟩
  | case7 => exact ⟨List.prefix_refl _, List.prefix_refl _⟩
  | case8 => exact ⟨List.prefix_append _ _, List.prefix_refl _⟩
  | case9 ex im pos info p h _ _ _ _ ih => exact ⟨(List.prefix_append _ _).trans ih.1, ih.2⟩

/-- **C44** (damage).  Whatever follows them, the records before it are in the index, first
and in order. -/
theorem c44_damage (dev : Device) (pos e : Nat) (its : List Item) (h : Placed dev pos its e)
    (ho : Opening its) :
    (located pos its).filter (! implicit ·) <+: (indexRecords dev pos).explicits ∧
    (located pos its).filter implicit <+: (indexRecords dev pos).implicits := by
  rw [indexRecords_opening dev its pos e h ho]
  exact indexFrom_prefix _ _ _ _

theorem readAt_short {src : Source} {pos n : Nat} (he : src.ending = .eof) (hn : n ≠ 0)
    (h : src.data.length < pos + n) : readAt src pos n = .eof (src.data.drop pos) := by
  unfold readAt
  rw [if_neg hn, if_neg (by omega), he]

theorem readPrh_short {dev : Device} {pos : Nat} (he : dev.src.ending = .eof)
    (h : dev.src.data.length < pos + 4) :
    ∃ p, readPrh dev pos = .error (.eof, p) ∨ readPrh dev pos = .error (.truncation, p) := by
  unfold readPrh
  rw [readAt_short he (by omega) h]
  simp only
  refine ⟨pos + (dev.src.data.drop pos).length, ?_⟩
  unfold shortErr
  split
  · exact .inl rfl
  · exact .inr rfl

theorem seekOk_eof {src : Source} (pos : Nat) (he : src.ending = .eof) : seekOk src pos = true := by
  unfold seekOk
  split
  · rfl
  · rw [he]

theorem indexLoop_cut (dev : Device) (ltell : Nat) (he : dev.src.ending = .eof) (cs : List Chunk) :
    ∀ (length : Nat) (prh : Prh) (attrs : List (BitVec 16)) (pos : Nat),
    0 < length →
    dev.src.data.drop (ltell + length) <+: (cs.map (Chunk.bytes [])).flatten →
    dev.src.data.length < ltell + length + (cs.map (Chunk.size [])).sum →
    has prh.attributes SUCCSES = !cs.isEmpty → Chain true (cs.map (·.attrs)) →
    (∀ d ∈ cs, d.Ok []) →
    ∃ p, indexLoop dev ltell length prh attrs pos = .error (.truncation, p) := by
  induction cs with
  | nil =>
    intro length prh attrs pos h0 _ hlt hsucc _ _
    rw [indexLoop, hsucc]
    simp only [List.map_nil, List.sum_nil, Nat.add_zero] at hlt
    simp only [List.isEmpty_nil, Bool.not_true, Bool.not_false, if_true]
    rw [seekOk_eof _ he]
    simp only [Bool.not_true, Bool.false_eq_true, if_false]
    rw [readAt_short he (by omega) (by omega)]
    exact ⟨_, rfl⟩
  | cons c cs ih =>
    intro length prh attrs pos h0 hpre hlt hsucc hch hok
    rw [List.map_cons, List.flatten_cons] at hpre
    have hc := hok c List.mem_cons_self
    rw [List.map_cons, Chain] at hch
    rw [List.map_cons, List.sum_cons] at hlt
    rw [indexLoop, hsucc]
    simp only [List.isEmpty_cons, Bool.not_false, Bool.not_true, Bool.false_eq_true, if_false]
    rw [seekOk_eof _ he]
    simp only [Bool.not_true, Bool.false_eq_true, if_false]
    by_cases h4 : dev.src.data.length < ltell + length + 4
    · obtain ⟨p, hp⟩ := readPrh_short he h4
      refine ⟨p, ?_⟩
      rcases hp with hp | hp
      · split
        · rename_i hr; rw [hp] at hr; cases hr
        · rename_i hr; rw [hp] at hr; cases hr; rfl
        · rename_i e hne hr
          rw [hp] at hr
          cases hr
          exact absurd rfl (hne p)
      · split
        · rename_i hr; rw [hp] at hr; cases hr
        · rename_i hr; rw [hp] at hr; cases hr
        · rename_i hr; rw [hp] at hr; cases hr; rfl
    · have hat : At dev (ltell + length) (List.replicate 0 0 ++ c.head []) := by
        unfold At
        rw [List.replicate_zero, List.nil_append]
        rw [chunk_bytes_head, List.append_assoc] at hpre
        refine List.prefix_of_prefix_length_le (List.prefix_append _ _) hpre ?_
        rw [List.length_drop]
        simp only [Chunk.head, List.length_cons, List.length_nil]
        omega
      have hrd := readPrh_head dev (ltell + length) 0 0 [] c hc
        (by rw [hch.1]; intro h; cases h) (.inl rfl) hat
      split
      · rename_i prh' p hr
        rw [hrd] at hr
        injection hr with hr
        injection hr with hr1 hr2
        subst hr1 hr2
        simp only
        rw [chunk_toNat hc]
        refine ih (length + c.size []) _ _ _ (by omega) ?_ (by omega)
          (by rw [has_succses_ofNat, hch.2.1]; cases cs <;> rfl) hch.2.2
          (fun d hd => hok d (List.mem_cons_of_mem _ hd))
        obtain ⟨t, ht⟩ := hpre
        by_cases hlen : c.size [] ≤ (dev.src.data.drop (ltell + length)).length
        · refine ⟨t, ?_⟩
          have := congrArg (List.drop (c.size [])) ht
          rw [List.drop_append_of_le_length hlen, List.drop_drop] at this
          rw [← Nat.add_assoc, this]
          rw [← chunk_bytes_length [] c, List.drop_left]
        · rw [List.drop_eq_nil_of_le (by rw [List.length_drop] at hlen; omega)]
          exact List.nil_prefix
      · rename_i hr; rw [hrd] at hr; cases hr
      · rename_i hr; rw [hrd] at hr; cases hr

/-- **C44** (truncated file).  If the file ends inside a record, behind its first four
bytes, the index has exactly the records before it, and says it is incomplete. -/
theorem c44_truncated (dev : Device) (pos e n : Nat) (its : List Item) (it : Item)
    (h : Placed dev pos its e) (ho : Opening its) (hok : it.record.Ok)
    (hg : Gap dev e it.pad it.padbyte) (he : dev.src.ending = .eof)
    (hd : dev.src.data.drop e =
      (List.replicate it.pad it.padbyte ++ it.record.bytes).take n)
    (h1 : it.pad + 4 ≤ n) (h2 : n < it.pad + it.record.size) :
    ∃ p, indexRecords dev pos =
      ⟨(located pos its).filter (! implicit ·), (located pos its).filter implicit, true, p⟩ := by
  have : ∃ p, indexRecord dev e = .error (.truncation, p) := by
    rcases it with ⟨k, x, ⟨type, attr, chunks⟩⟩
    obtain ⟨ht, hne, hcons, hcs⟩ := hok
    cases chunks with
    | nil => exact absurd rfl hne
    | cons c cs =>
      simp only at hcs hcons ht hd hg h1 h2
      rw [consistent_chain, List.map_cons, Chain] at hcons
      unfold Record.size at h2
      simp only at h2
      unfold Record.bytes at hd
      simp only at hd
      have hc4 : 4 ≤ c.size [type, attr] := by unfold Chunk.size; omega
      have hlen : dev.src.data.length - e = n := by
        rw [← List.length_drop, hd, List.length_take]
        have : ((cs.map (Chunk.bytes [])).flatten).length = (cs.map (Chunk.size [])).sum := by
          rw [List.length_flatten, List.map_map]
          congr 1
          exact List.map_congr_left fun d _ => chunk_bytes_length [] d
        simp only [List.length_append, List.length_replicate, chunk_bytes_length, this]
        omega
      have hpre : dev.src.data.drop e <+:
          List.replicate k x ++ (c.bytes [type, attr] ++ (cs.map (Chunk.bytes [])).flatten) := by
        rw [hd]; exact List.take_prefix _ _
      have hat : At dev e (List.replicate k x ++ c.head [type, attr]) := by
        unfold At
        rw [chunk_bytes_head, List.append_assoc, ← List.append_assoc] at hpre
        refine List.prefix_of_prefix_length_le (List.prefix_append _ _) hpre ?_
        rw [List.length_drop]
        simp only [Chunk.head, List.length_append, List.length_replicate, List.length_cons,
          List.length_nil]
        omega
      have hrd := readPrh_head dev e k x [type, attr] c hcs.1 (fun _ => by simp) hg hat
      unfold indexRecord
      rw [hrd]
      simp only
      rcases hl : readLrh dev (e + k + 4) with ⟨er, p⟩ | ⟨lrh, p⟩
      · refine ⟨p, ?_⟩
        unfold readLrh at hl
        split at hl
        · cases hl
        · cases hl; rfl
        · cases hl; rfl
        · rename_i hr
          unfold readAt at hr
          rw [if_neg (by omega), he] at hr
          split at hr <;> cases hr
      · have hlat := ((c43_logical dev _).2 _ _ hl).1
        have hl2 := at_length hlat (by simp)
        have hty : lrh.type = type := by
          simp only [List.length_cons, List.length_nil] at hl2
          have h3 : At dev e (List.replicate k x ++ (c.head [type, attr] ++ [type, attr])) := by
            unfold At
            rw [chunk_bytes_head] at hpre
            refine List.prefix_of_prefix_length_le (l₃ := List.replicate k x ++
              (c.head [type, attr] ++ ([type, attr] ++ c.payload ++ c.tail) ++
                (cs.map (Chunk.bytes [])).flatten)) ?_ hpre ?_
            · refine ⟨c.payload ++ c.tail ++ (cs.map (Chunk.bytes [])).flatten, ?_⟩
              simp only [List.append_assoc]
            · rw [List.length_drop]
              simp only [Chunk.head, List.length_append, List.length_replicate, List.length_cons,
                List.length_nil]
              omega
          have h4 := (at_split (at_split h3).2).2
          rw [List.length_replicate, show (c.head [type, attr]).length = 4 from rfl] at h4
          have h5 := readAt_at (n := 2) h4 rfl
          have h6 := readAt_at (n := 2) hlat rfl
          rw [h5] at h6
          injection h6 with h6
          injection h6 with h6 _
          exact h6.symm
        simp only
        rw [hty, (validRectype_iff type).mpr ht, chunk_toNat hcs.1]
        simp only [Bool.not_true, Bool.false_eq_true, if_false, Nat.add_sub_cancel]
        obtain ⟨p', hp'⟩ := indexLoop_cut dev (e + k) he cs (c.size [type, attr])
          ⟨BitVec.ofNat 16 (c.size [type, attr]), BitVec.ofNat 16 c.attrs⟩
          [BitVec.ofNat 16 c.attrs] p (by omega) (by
            obtain ⟨t, ht⟩ := hpre
            by_cases hle : k + c.size [type, attr] ≤ (dev.src.data.drop e).length
            · refine ⟨t, ?_⟩
              have := congrArg (List.drop (k + c.size [type, attr])) ht
              rw [List.drop_append_of_le_length hle, List.drop_drop, ← List.append_assoc] at this
              rw [Nat.add_assoc, this]
              exact List.drop_left' (by simp [chunk_bytes_length])
            · rw [List.drop_eq_nil_of_le (by rw [List.length_drop] at hle; omega)]
              exact List.nil_prefix)
          (by omega) (by rw [has_succses_ofNat, hcons.2.1]; cases cs <;> rfl) hcons.2.2 hcs.2
        exact ⟨p', by rw [hp']⟩
  obtain ⟨p, hp⟩ := this
  exact ⟨p, by rw [indexRecords_opening dev its pos e h ho, indexFrom_eq, hp]⟩

/-! ### Positions -/

/-- Records that do not overlap, the first before the second. -/
def Spec.Before (a b : RecordInfo) : Prop := a.ltell + a.size ≤ b.ltell

theorem indexFrom_positions (dev : Device) (lo : Nat) (ex im : List RecordInfo) (pos : Nat) :
    lo ≤ pos →
    ex.Pairwise Before → im.Pairwise Before →
    (∀ a ∈ ex, ∀ b ∈ im, Before a b ∨ Before b a) →
    (∀ a ∈ ex ++ im, lo ≤ a.ltell ∧ 4 ≤ a.size ∧ a.ltell + a.size ≤ pos ∧
      a.ltell + a.size ≤ dev.src.data.length) →
    let r := indexFrom dev ex im pos
    r.explicits.Pairwise Before ∧ r.implicits.Pairwise Before ∧
    (∀ a ∈ r.explicits, ∀ b ∈ r.implicits, Before a b ∨ Before b a) ∧
    (∀ a ∈ r.explicits ++ r.implicits, lo ≤ a.ltell ∧ 4 ≤ a.size ∧
      a.ltell + a.size ≤ dev.src.data.length) := by
  have addEx : ∀ (ex im : List RecordInfo) (pos p : Nat) (info : RecordInfo),
      indexRecord dev pos = .ok (info, p) → lo ≤ pos →
      ex.Pairwise Before →
      (∀ a ∈ ex, ∀ b ∈ im, Before a b ∨ Before b a) →
      (∀ a ∈ ex ++ im, lo ≤ a.ltell ∧ 4 ≤ a.size ∧ a.ltell + a.size ≤ pos ∧
        a.ltell + a.size ≤ dev.src.data.length) →
      (ex ++ [info]).Pairwise Before ∧
      (∀ a ∈ ex ++ [info], ∀ b ∈ im, Before a b ∨ Before b a) ∧
      (∀ a ∈ (ex ++ [info]) ++ im, lo ≤ a.ltell ∧ 4 ≤ a.size ∧ a.ltell + a.size ≤ p ∧
        a.ltell + a.size ≤ dev.src.data.length) := by
    intro ex im pos p info h hlo h1 h2 h3
    have hp := indexRecord_pos h
    refine ⟨?_, ?_, ?_⟩
    · rw [List.pairwise_append]
      refine ⟨h1, List.pairwise_singleton _ _, fun a ha b hb => ?_⟩
      rw [List.mem_singleton] at hb
      subst hb
      have := h3 a (List.mem_append_left _ ha)
      unfold Before; omega
    · intro a ha b hb
      rcases List.mem_append.mp ha with ha | ha
      · exact h2 a ha b hb
      · rw [List.mem_singleton] at ha
        subst ha
        have := h3 b (List.mem_append_right _ hb)
        right; unfold Before; omega
    · intro a ha
      rcases List.mem_append.mp ha with ha | ha
      · rcases List.mem_append.mp ha with ha | ha
        · have := h3 a (List.mem_append_left _ ha); omega
        · rw [List.mem_singleton] at ha; subst ha; omega
      · have := h3 a (List.mem_append_right _ ha); omega
  have weaken : ∀ (l : List RecordInfo) (pos : Nat),
      (∀ a ∈ l, lo ≤ a.ltell ∧ 4 ≤ a.size ∧ a.ltell + a.size ≤ pos ∧
        a.ltell + a.size ≤ dev.src.data.length) →
      ∀ a ∈ l, lo ≤ a.ltell ∧ 4 ≤ a.size ∧ a.ltell + a.size ≤ dev.src.data.length :=
    fun l pos h a ha => ⟨(h a ha).1, (h a ha).2.1, (h a ha).2.2.2⟩
  fun_induction indexFrom dev ex im pos with
  | case1 => exact fun _ h1 h2 h3 h4 => ⟨h1, h2, h3, weaken _ _ h4⟩
  | case2 => exact fun _ h1 h2 h3 h4 => ⟨h1, h2, h3, weaken _ _ h4⟩
  | case3 ex im pos info p h hi ih =>
    intro hlo h1 h2 h3 h4
    have hp := indexRecord_pos h
    obtain ⟨k1, k2, k3⟩ := addEx im ex pos p info h hlo h2
      (fun a ha b hb => (h3 b hb a ha).symm)
      (fun a ha => h4 a (by rw [List.mem_append] at *; exact ha.symm))
    exact ih (by omega) h1 k1 (fun a ha b hb => (k2 b hb a ha).symm)
      (fun a ha => k3 a (by rw [List.mem_append] at *; exact ha.symm))
  | case4 => exact fun _ h1 h2 h3 h4 => ⟨h1, h2, h3, weaken _ _ h4⟩
  | case5 ex im pos info p h =>
    intro hlo h1 h2 h3 h4
    obtain ⟨k1, k2, k3⟩ := addEx ex im pos p info h hlo h1 h3 h4
    exact ⟨k1, h2, k2, weaken _ _ k3⟩
  | case6 ex im pos info p h _ _ _ _ ih =>
    intro hlo h1 h2 h3 h4
    have hp := indexRecord_pos h
    obtain ⟨k1, k2, k3⟩ := addEx ex im pos p info h hlo h1 h3 h4
    exact ih (by omega) k1 h2 k2 k3
  | case7 => exact fun _ h1 h2 h3 h4 => ⟨h1, h2, h3, weaken _ _ h4⟩
  | case8 ex im pos info p h =>
    intro hlo h1 h2 h3 h4
    obtain ⟨k1, k2, k3⟩ := addEx ex im pos p info h hlo h1 h3 h4
    exact ⟨k1, h2, k2, weaken _ _ k3⟩
  | case9 ex im pos info p h _ _ _ _ ih =>
    intro hlo h1 h2 h3 h4
    have hp := indexRecord_pos h
    obtain ⟨k1, k2, k3⟩ := addEx ex im pos p info h hlo h1 h3 h4
    exact ih (by omega) k1 h2 k2 k3

/-- **C44** (any stream).  Whatever the contents of the file, the records of the index lie
inside it, do not overlap, and are in the order of the file. -/
theorem c44_positions (dev : Device) (pos : Nat) :
    let r := indexRecords dev pos
    r.explicits.Pairwise Before ∧ r.implicits.Pairwise Before ∧
    (∀ a ∈ r.explicits, ∀ b ∈ r.implicits, Before a b ∨ Before b a) ∧
    (∀ a ∈ r.explicits ++ r.implicits, pos ≤ a.ltell ∧ 4 ≤ a.size ∧
      a.ltell + a.size ≤ dev.src.data.length) :=
  indexFrom_positions dev pos [] [] pos (Nat.le_refl _) List.Pairwise.nil List.Pairwise.nil
    (fun a ha => by cases ha) (fun a ha => by cases ha)

/-! ### Cases -/

/-- A file header in one physical record. -/
def Spec.exHeader : Item := ⟨0, 0, ⟨128, 0, [⟨0, [1, 2], []⟩]⟩⟩
/-- A data format specification in two physical records; both have a record number. -/
def Spec.exSpec : Item := ⟨0, 0, ⟨64, 0, [⟨0x0201, [3], [0, 1]⟩, ⟨0x0202, [4, 5, 6], [0, 2]⟩]⟩⟩
/-- A data record behind three bytes of padding. -/
def Spec.exData : Item := ⟨3, 0x20, ⟨0, 0, [⟨0, [7], []⟩]⟩⟩
/-- A file trailer behind five bytes of padding. -/
def Spec.exTrailer : Item := ⟨5, 0, ⟨129, 0, [⟨0, [], []⟩]⟩⟩

/-- The bytes of the items. -/
def Spec.fileBytes (its : List Item) : Bytes :=
  (its.map fun it => List.replicate it.pad it.padbyte ++ it.record.bytes).flatten

/-- The file is as the theorems ask for. -/
theorem exPlaced : Placed
    ⟨⟨fileBytes [exHeader, exSpec, exData, exTrailer, exHeader], .eof⟩, fun p => p + 3⟩ 0
    ([exHeader, exSpec, exData] ++ [exTrailer]) 47 := by
  have hc : ∀ l, Consistent l ↔ Chain false l := consistent_chain
  simp only [List.cons_append, List.nil_append, Placed, Record.Ok, hc, Gap, At, Blank]
  refine ⟨⟨by decide, by decide, ?_, ?_⟩, by decide, by decide,
    ⟨by decide, by decide, ?_, ?_⟩, by decide, by decide,
    ⟨by decide, by decide, ?_, ?_⟩, by decide, by decide,
    ⟨by decide, by decide, ?_, ?_⟩, by decide, by decide, by decide⟩
  all_goals (simp only [exHeader, exSpec, exData, exTrailer]; simp [Chunk.Ok, Chunk.size, trailer, Chain]) <;> decide

example : indexRecords
    ⟨⟨fileBytes [exHeader, exSpec, exData, exTrailer, exHeader], .eof⟩, fun p => p + 3⟩ 0 =
      ⟨[⟨128, 8, 0⟩, ⟨64, 18, 8⟩, ⟨129, 6, 41⟩], [⟨0, 7, 29⟩], false, 47⟩ := by
  decide +kernel

/-! ### Defects -/

/-- **C44** (defect).  Padding between the physical records of one logical record, which
the format allows and `read_record` copes with, makes the index stop: the size does not
count the padding, so that the next record is looked for inside this one.  The file has one
data format specification, complete in two physical records with four bytes of padding
between them. -/
theorem c44_padding_inside_defect :
    ∃ dev : Device, dev.src.ending = .eof ∧
      dev.src.data = (Chunk.mk 1 [1, 2] []).bytes [64, 0] ++ List.replicate 4 0 ++
        (Chunk.mk 2 [3, 4] []).bytes [] ∧
      (indexRecords dev 0).incomplete = true ∧
      (indexRecords dev 0).explicits = [⟨64, 14, 0⟩] ∧
      readRecord dev ⟨64, 14, 0⟩ = .ok ([1, 2, 3, 4], 18) :=
  ⟨⟨⟨[0, 8, 0, 1, 64, 0, 1, 2, 0, 0, 0, 0, 0, 6, 0, 2, 3, 4], .eof⟩, fun p => p⟩,
    rfl, by decide, by decide +kernel, by decide +kernel, by decide +kernel⟩

/-- **C44** (defect).  A file that ends after the first byte of a record is taken for a
complete one if that byte is zero, as it is for all records shorter than 256 bytes. -/
theorem c44_one_byte_defect :
    ∃ dev : Device, dev.src.ending = .eof ∧
      dev.src.data = exHeader.record.bytes ++ exSpec.record.bytes.take 1 ∧
      indexRecords dev 0 = ⟨[⟨128, 8, 0⟩], [], false, 9⟩ :=
  ⟨⟨⟨[0, 8, 0, 0, 128, 0, 1, 2, 0], .eof⟩, fun p => p⟩, rfl, by decide, by decide +kernel⟩

/-- **C44** (defect).  After a file trailer that is followed by a damaged record the cursor
is neither at the end of the trailer nor at a record: the next logical file is looked for
inside the damaged record. -/
theorem c44_reposition_defect :
    ∃ dev : Device, dev.src.ending = .eof ∧
      dev.src.data = exTrailer.record.bytes ++ (Chunk.mk 0 [1, 2] []).bytes [77, 0] ∧
      indexRecords dev 0 = ⟨[⟨129, 6, 0⟩], [], false, 12⟩ :=
  ⟨⟨⟨[0, 6, 0, 0, 129, 0, 0, 8, 0, 0, 77, 0, 1, 2], .eof⟩, fun p => p⟩, rfl, by decide,
    by decide +kernel⟩

end Dlisio.Lis
