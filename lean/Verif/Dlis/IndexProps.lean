/-
C19 (index of a well-formed file) and C20 (index of any stream).
-/
import Verif.Dlis.ExtractProps

namespace Dlisio.Dlis

namespace Spec

/-- Explicitly formatted? -/
def Seg.Explicit (s : Seg) : Prop := s.attrs.toNat / 2 ^ 7 % 2 = 1
/-- Continuation of a previous segment? -/
def Seg.Continuation (s : Seg) : Prop := s.attrs.toNat / 2 ^ 6 % 2 = 1

instance (s : Seg) : Decidable s.Explicit := by unfold Seg.Explicit; infer_instance
instance (s : Seg) : Decidable s.Continuation := by unfold Seg.Continuation; infer_instance

/-- A segment that starts a FILE-HEADER record. -/
def Seg.FileHeader (s : Seg) : Prop := s.Explicit ∧ ¬ s.Continuation ∧ s.type.toNat = 0

/-- A well-formed record of the given format: its segments are chained, all have the same
format, and all but the first are marked as continuations. -/
structure RecordOf (isExplicit : Bool) (segs : List Seg) : Prop where
  chained : IsRecord segs
  format : ∀ s ∈ segs, (s.Explicit ↔ isExplicit = true)
  continued : ∀ s ∈ segs.tail, s.Continuation

/-- The content of a logical file: records with their format.  No record but the first
is a FILE-HEADER. -/
structure FileContent (recs : List (Bool × List Seg)) : Prop where
  records : ∀ r ∈ recs, RecordOf r.1 r.2
  headers : ∀ r ∈ recs.tail, ∀ s, r.2.head? = some s → ¬ s.FileHeader

/-- The bytes of a sequence of records. -/
def fileBytes (recs : List (Bool × List Seg)) : Bytes := recs.flatMap (fun r => recordBytes r.2)

/-- Every record with its position, the first at `pos`. -/
def located (pos : Nat) : List (Bool × List Seg) → List (Nat × Bool × List Seg)
  | [] => []
  | r :: rs => (pos, r.1, r.2) :: located (pos + (recordBytes r.2).length) rs

/-- The positions of the explicit (implicit) records among located records. -/
def positions (isExplicit : Bool) (l : List (Nat × Bool × List Seg)) : List Nat :=
  (l.filter (fun x => x.2.1 == isExplicit)).map (fun x => x.1)

end Spec

/-- what the end of a record does to the index -/
def Offsets.push (o : Offsets) (isexplicit : Bool) (lr : Nat) : Offsets :=
  if isexplicit then { o with explicits := o.explicits ++ [lr] }
  else { o with implicits := o.implicits ++ [lr] }

theorem findoffsets_seg (e : Ending) (pre post : Bytes) (s : Spec.Seg) (hs : s.WF)
    (ofs : Offsets) (lr : Nat) (hsucc : Bool)
    (hfh : ¬ s.FileHeader ∨ ofs.explicits = []) :
    findoffsetsLoop ⟨pre ++ s.bytes ++ post, e⟩ ofs lr pre.length hsucc =
      if s.Continued then
        findoffsetsLoop ⟨pre ++ s.bytes ++ post, e⟩ ofs lr (pre ++ s.bytes).length true
      else findoffsetsLoop ⟨pre ++ s.bytes ++ post, e⟩ (ofs.push (decide s.Explicit) lr)
        (pre ++ s.bytes).length (pre ++ s.bytes).length false := by
  obtain ⟨r1, -⟩ := read_seg pre post e s
  rw [findoffsetsLoop_eq, r1]
  simp only [seg_header s hs]
  rw [if_neg (by omega)]
  have hstop : (!flag s.attrs SEGATTR_PREDSEG && flag s.attrs SEGATTR_EXFMTLR &&
      decide (s.type.toNat = 0) && decide (ofs.explicits.length ≠ 0)) = false := by
    rw [Bool.eq_false_iff]
    simp only [ne_eq, Bool.and_eq_true, decide_eq_true_eq, Bool.not_eq_true',
      List.length_eq_zero_iff]
    rintro ⟨⟨⟨h1, h2⟩, h3⟩, h4⟩
    rcases hfh with h | h
    · refine h ⟨(flag_expl _).1 h2, ?_, h3⟩
      intro hc
      rw [(flag_pred _).2 hc] at h1; cases h1
    · exact h4 h
  have hseek : seekOk ⟨pre ++ s.bytes ++ post, e⟩ (pre.length + (4 + s.raw.length) - 1) = true := by
    unfold seekOk; rw [if_pos]
    simp only [List.length_append, seg_bytes_length]; omega
  have hread : ∃ b, readAt ⟨pre ++ s.bytes ++ post, e⟩ (pre.length + (4 + s.raw.length) - 1) 1 = .ok b := by
    unfold readAt; rw [if_neg (by omega), if_pos]
    · exact ⟨_, rfl⟩
    · simp only [List.length_append, seg_bytes_length]; omega
  obtain ⟨b, hb⟩ := hread
  have hexp : flag s.attrs SEGATTR_EXFMTLR = decide s.Explicit := by
    rw [Bool.eq_iff_iff, flag_expl, decide_eq_true_iff]; rfl
  have hlen : (pre ++ s.bytes).length = pre.length + (4 + s.raw.length) := by
    simp [seg_bytes_length]
  simp only [hstop, Bool.false_eq_true, if_false, hseek, Bool.not_true, hb, hlen]
  by_cases hc : s.Continued
  · have : flag s.attrs SEGATTR_SUCCSEG = true := (flag_succ _).2 hc
    simp [this, hc]
  · have : flag s.attrs SEGATTR_SUCCSEG = false := by
      rw [Bool.eq_false_iff, ne_eq, flag_succ]; exact hc
    simp only [this, hc, Bool.not_false, if_true, if_false, Offsets.push, hexp]

theorem findoffsets_segs (e : Ending) (segs : List Spec.Seg) (isExplicit : Bool)
    (hr : Spec.IsRecord segs) (hf : ∀ s ∈ segs, (s.Explicit ↔ isExplicit = true))
    (pre post : Bytes) (ofs : Offsets) (lr : Nat) (hsucc : Bool)
    (hfh : ∀ s ∈ segs, ¬ s.FileHeader ∨ ofs.explicits = []) :
    findoffsetsLoop ⟨pre ++ Spec.recordBytes segs ++ post, e⟩ ofs lr pre.length hsucc =
      findoffsetsLoop ⟨pre ++ Spec.recordBytes segs ++ post, e⟩ (ofs.push isExplicit lr)
        (pre ++ Spec.recordBytes segs).length (pre ++ Spec.recordBytes segs).length false := by
  induction hr generalizing pre hsucc with
  | last s hs hc =>
    have hb : Spec.recordBytes [s] = s.bytes := by simp [Spec.recordBytes]
    rw [hb, findoffsets_seg e pre post s hs ofs lr hsucc (hfh s (by simp)), if_neg hc]
    have : decide s.Explicit = isExplicit := by
      rw [Bool.eq_iff_iff, decide_eq_true_iff]; exact hf s (by simp)
    rw [this]
  | more s r hs hc hr ih =>
    have hb : Spec.recordBytes (s :: r) = s.bytes ++ Spec.recordBytes r := by
      simp [Spec.recordBytes]
    have hsrc : pre ++ Spec.recordBytes (s :: r) ++ post =
        pre ++ s.bytes ++ (Spec.recordBytes r ++ post) := by rw [hb]; simp
    rw [hsrc, findoffsets_seg e pre _ s hs ofs lr hsucc (hfh s (by simp)), if_pos hc]
    have := ih (fun s hs => hf s (by simp [hs])) (pre ++ s.bytes) true
      (fun s hs => hfh s (by simp [hs]))
    rw [List.append_assoc (pre ++ s.bytes)] at this
    rw [this, hb, ← List.append_assoc pre]

theorem record_head_or (b : Bool) (segs : List Spec.Seg) (h : Spec.RecordOf b segs)
    (ofs : Offsets)
    (hh : (∀ s, segs.head? = some s → ¬ s.FileHeader) ∨ ofs.explicits = []) :
    ∀ s ∈ segs, ¬ s.FileHeader ∨ ofs.explicits = [] := by
  intro s hs
  rcases hh with hh | hh
  · left
    cases segs with
    | nil => simp at hs
    | cons a t =>
      rcases List.mem_cons.1 hs with rfl | hs
      · exact hh _ rfl
      · exact fun hc => hc.2.1 (h.continued s hs)
  · exact Or.inr hh

/-- the index after some records -/
def Offsets.after (o : Offsets) (l : List (Nat × Bool × List Spec.Seg)) : Offsets :=
  { explicits := o.explicits ++ Spec.positions true l
    implicits := o.implicits ++ Spec.positions false l
    broken := o.broken }

theorem findoffsets_records (e : Ending) (recs : List (Bool × List Spec.Seg))
    (hr : ∀ r ∈ recs, Spec.RecordOf r.1 r.2) (pre post : Bytes) (ofs : Offsets)
    (hh : ∀ r, recs.head? = some r →
      (∀ s, r.2.head? = some s → ¬ s.FileHeader) ∨ ofs.explicits = [])
    (ht : ∀ r ∈ recs.tail, ∀ s, r.2.head? = some s → ¬ s.FileHeader) :
    findoffsetsLoop ⟨pre ++ Spec.fileBytes recs ++ post, e⟩ ofs pre.length pre.length false =
      findoffsetsLoop ⟨pre ++ Spec.fileBytes recs ++ post, e⟩
        (ofs.after (Spec.located pre.length recs))
        (pre ++ Spec.fileBytes recs).length (pre ++ Spec.fileBytes recs).length false := by
  induction recs generalizing pre ofs with
  | nil => simp [Spec.fileBytes, Spec.located, Offsets.after, Spec.positions]
  | cons r rs ih =>
    have hb : Spec.fileBytes (r :: rs) = Spec.recordBytes r.2 ++ Spec.fileBytes rs := by
      simp [Spec.fileBytes]
    have hsrc : pre ++ Spec.fileBytes (r :: rs) ++ post =
        pre ++ Spec.recordBytes r.2 ++ (Spec.fileBytes rs ++ post) := by rw [hb]; simp
    have hro := hr r (by simp)
    rw [hsrc, findoffsets_segs e r.2 r.1 hro.chained hro.format pre _ ofs pre.length false
      (record_head_or r.1 r.2 hro ofs (hh r rfl))]
    have := ih (fun x hx => hr x (by simp [hx])) (pre ++ Spec.recordBytes r.2)
      (ofs.push r.1 pre.length)
      (fun x hx => Or.inl (ht x (List.mem_of_mem_head? hx)))
      (fun x hx => ht x (List.mem_of_mem_tail hx))
    rw [List.append_assoc (pre ++ Spec.recordBytes r.2)] at this
    rw [this]
    have h1 : pre ++ Spec.recordBytes r.2 ++ Spec.fileBytes rs = pre ++ Spec.fileBytes (r :: rs) := by
      rw [hb]; simp
    rw [h1]
    congr 1
    rcases hr1 : r.1 with _ | _ <;>
      simp [Offsets.after, Offsets.push, Spec.located, Spec.positions, hr1]

/-- C19.  Indexing a stream that starts with a logical file and then ends lists the
positions of all its records, explicit and implicit ones separately, each in file order,
and reports nothing broken. -/
theorem c19_index_last_file (recs : List (Bool × List Spec.Seg)) (h : Spec.FileContent recs) :
    findoffsetsRaw ⟨Spec.fileBytes recs, .eof⟩ =
      ⟨⟨Spec.positions true (Spec.located 0 recs), Spec.positions false (Spec.located 0 recs), []⟩,
        none⟩ := by
  have := findoffsets_records .eof recs h.records [] [] ⟨[], [], []⟩ (fun _ _ => Or.inr rfl) h.headers
  simp only [List.nil_append, List.append_nil, List.length_nil] at this
  rw [findoffsetsRaw, this, findoffsetsLoop_eq]
  have hrd : readAt ⟨Spec.fileBytes recs, .eof⟩ (Spec.fileBytes recs).length 4 = .eof [] := by
    unfold readAt
    rw [if_neg (by omega), if_neg (by simp)]
    simp
  simp [hrd, Offsets.after]

/-- C19.  When another logical file follows (whatever its content and however the stream
ends), indexing stops right in front of its FILE-HEADER and tells that position. -/
theorem c19_index_next_file (recs : List (Bool × List Spec.Seg)) (h : Spec.FileContent recs)
    (hexp : ∃ r ∈ recs, r.1 = true) (fh : Spec.Seg) (hwf : 4 + fh.raw.length < 2 ^ 16)
    (hfh : fh.FileHeader) (post : Bytes) (e : Ending) :
    findoffsetsRaw ⟨Spec.fileBytes recs ++ (fh.bytes ++ post), e⟩ =
      ⟨⟨Spec.positions true (Spec.located 0 recs), Spec.positions false (Spec.located 0 recs), []⟩,
        some (Spec.fileBytes recs).length⟩ := by
  have := findoffsets_records e recs h.records [] (fh.bytes ++ post) ⟨[], [], []⟩
    (fun _ _ => Or.inr rfl) h.headers
  simp only [List.nil_append, List.length_nil] at this
  rw [findoffsetsRaw, this, findoffsetsLoop_eq]
  obtain ⟨r1, -⟩ := read_seg (Spec.fileBytes recs) post e fh
  rw [List.append_assoc] at r1
  rw [r1]
  have hhd : lrsh [BitVec.ofNat 8 ((4 + fh.raw.length) / 256),
      BitVec.ofNat 8 ((4 + fh.raw.length) % 256), fh.attrs, fh.type] =
      some ⟨4 + fh.raw.length, fh.attrs, fh.type.toNat⟩ := by
    refine (c15_lrsh _ _).2 ⟨_, [], (List.append_nil _).symm, rfl, ?_, by simp [beNat], by simp [beNat]⟩
    simp [beNat]; omega
  simp only [hhd]
  rw [if_neg (by omega)]
  have hne : (Spec.positions true (Spec.located 0 recs)).length ≠ 0 := by
    have : ∀ (l : List (Bool × List Spec.Seg)) (n : Nat), (∃ r ∈ l, r.1 = true) →
        Spec.positions true (Spec.located n l) ≠ [] := by
      intro l
      induction l with
      | nil => simp
      | cons r rs ih =>
        intro n ⟨x, hx, hx1⟩
        rcases List.mem_cons.1 hx with rfl | hx
        · simp [Spec.located, Spec.positions, hx1]
        · have := ih (n + (Spec.recordBytes r.2).length) ⟨x, hx, hx1⟩
          simp only [Spec.located, Spec.positions, List.filter_cons] at this ⊢
          split
          · simp
          · exact this
    simpa using this recs 0 hexp
  have hp : flag fh.attrs SEGATTR_PREDSEG = false := by
    rw [Bool.eq_false_iff, ne_eq, flag_pred]; exact hfh.2.1
  have hx : flag fh.attrs SEGATTR_EXFMTLR = true := (flag_expl _).2 hfh.1
  have hne' : Spec.positions true (Spec.located 0 recs) ≠ [] := by simpa using hne
  simp [hp, hx, hfh.2.2, Offsets.after, hne']

theorem located_split (recs : List (Bool × List Spec.Seg)) (n : Nat) (x : Nat × Bool × List Spec.Seg)
    (h : x ∈ Spec.located n recs) :
    ∃ a b, recs = a ++ x.2 :: b ∧ x.1 = n + (Spec.fileBytes a).length := by
  induction recs generalizing n with
  | nil => simp [Spec.located] at h
  | cons r rs ih =>
    rcases List.mem_cons.1 h with rfl | h
    · exact ⟨[], rs, rfl, by simp [Spec.fileBytes]⟩
    · obtain ⟨a, b, h1, h2⟩ := ih _ h
      refine ⟨r :: a, b, by rw [h1]; rfl, ?_⟩
      rw [h2]; simp [Spec.fileBytes]; omega

/-- C19.  Every listed position can be extracted and yields its record. -/
theorem c19_listed_extract (policy : Policy) (recs : List (Bool × List Spec.Seg))
    (h : Spec.FileContent recs) (post : Bytes) (e : Ending) (hp : policy .minor = false)
    (x : Nat × Bool × List Spec.Seg) (hx : x ∈ Spec.located 0 recs)
    (hl : (Spec.recordData x.2.2).length < 2 ^ 63 - 1) :
    ∃ s0, x.2.2.head? = some s0 ∧
      extract policy ⟨Spec.fileBytes recs ++ post, e⟩ x.1 =
        .ok ({ type := s0.type.toNat, attributes := Spec.fmtEncBits s0.attrs,
               data := Spec.recordData x.2.2 }, Spec.recordNotes x.2.2) := by
  obtain ⟨a, b, h1, h2⟩ := located_split recs 0 x hx
  have hr : Spec.IsRecord x.2.2 := (h.records x.2 (by rw [h1]; simp)).chained
  obtain ⟨s0, h0⟩ : ∃ s0, x.2.2.head? = some s0 := by
    generalize x.2.2 = l at hr
    cases hr <;> exact ⟨_, rfl⟩
  refine ⟨s0, h0, ?_⟩
  have := c17_extract policy e x.2.2 hr (Spec.fileBytes a) (Spec.fileBytes b ++ post) s0 h0 hl (Or.inl hp)
  rw [Nat.zero_add] at h2
  rw [h2, ← this, h1]
  simp [Spec.fileBytes]

/-- C19.  Listed positions are pairwise different and in file order. -/
theorem c19_positions_increasing (recs : List (Bool × List Spec.Seg)) (h : Spec.FileContent recs) :
    (Spec.located 0 recs).Pairwise (fun x y => x.1 < y.1) := by
  have : ∀ (l : List (Bool × List Spec.Seg)) (n : Nat), (∀ r ∈ l, Spec.RecordOf r.1 r.2) →
      (∀ x ∈ Spec.located n l, n ≤ x.1) ∧
      (Spec.located n l).Pairwise (fun x y => x.1 < y.1) := by
    intro l
    induction l with
    | nil => intro n _; simp [Spec.located]
    | cons r rs ih =>
      intro n hr
      obtain ⟨h1, h2⟩ := ih (n + (Spec.recordBytes r.2).length) (fun x hx => hr x (by simp [hx]))
      have hpos : 0 < (Spec.recordBytes r.2).length := by
        have hc := (hr r (by simp)).chained
        generalize r.2 = q at hc
        cases hc with
        | last s hs hc => simp [Spec.recordBytes, seg_bytes_length]
        | more s t hs hc ht => simp [Spec.recordBytes, seg_bytes_length]
      refine ⟨?_, List.pairwise_cons.2 ⟨?_, h2⟩⟩
      · intro x hx
        rcases List.mem_cons.1 hx with rfl | hx
        · exact Nat.le_refl _
        · have := h1 x hx; omega
      · intro x hx
        have := h1 x hx
        simp only
        omega
  exact (this recs 0 h.records).2

/-! ### a concrete logical file: a file header, a record of two segments, frame data -/

namespace Case

theorem plain {a : Byte} {raw : Bytes} (h : a.toNat % 8 = 0) :
    Spec.SegContent a raw raw 0 := by
  have : Spec.SegContent a (raw ++ []) raw 0 := by
    refine .plain raw [] ?_
    unfold Spec.Trailer
    split
    · rfl
    · exact ⟨[], [], [], rfl, by rw [if_neg (by omega)], by rw [if_neg (by omega)]; rfl,
        by rw [if_neg (by omega)]; rfl⟩
  simpa using this

/-- the records -/
def recs : List (Bool × List Spec.Seg) :=
  [(true, [⟨0x80, 0, [1, 2], [1, 2], 0⟩]),
   (true, [⟨0xa0, 3, [3], [3], 0⟩, ⟨0xc0, 3, [4, 5], [4, 5], 0⟩]),
   (false, [⟨0x00, 0, [6], [6], 0⟩])]

theorem content : Spec.FileContent recs := by
  constructor
  · intro r hr
    simp only [recs, List.mem_cons, List.not_mem_nil, or_false] at hr
    rcases hr with rfl | rfl | rfl
    · exact ⟨.last _ ⟨plain (by decide), by decide⟩ (by decide), by decide, by decide⟩
    · exact ⟨.more _ _ ⟨plain (by decide), by decide⟩ (by decide)
        (.last _ ⟨plain (by decide), by decide⟩ (by decide)), by decide, by decide⟩
    · exact ⟨.last _ ⟨plain (by decide), by decide⟩ (by decide), by decide, by decide⟩
  · intro r hr s hs
    simp only [recs, List.tail_cons, List.mem_cons, List.not_mem_nil, or_false] at hr
    rcases hr with rfl | rfl <;> simp only [List.head?_cons, Option.some.injEq] at hs <;>
      subst hs <;> unfold Spec.Seg.FileHeader <;> decide

/-- `c19_index_last_file` on these records: explicit at 0 and 6, implicit at 17. -/
example : findoffsetsRaw ⟨[0, 6, 0x80, 0, 1, 2] ++ [0, 5, 0xa0, 3, 3, 0, 6, 0xc0, 3, 4, 5] ++
    [0, 5, 0, 0, 6], .eof⟩ = ⟨⟨[0, 6], [17], []⟩, none⟩ :=
  c19_index_last_file recs content

example : findoffsetsRaw ⟨Spec.fileBytes recs ++ ([0, 5, 0x80, 0, 9] ++ [1, 2, 3]), .broken true⟩ =
    ⟨⟨[0, 6], [17], []⟩, some 22⟩ :=
  c19_index_next_file recs content ⟨_, List.mem_cons_self, rfl⟩ ⟨0x80, 0, [9], [], 0⟩ (by decide)
    (by unfold Spec.Seg.FileHeader; decide) [1, 2, 3] (.broken true)

end Case

/-! ## C20: any stream -/

namespace Spec

/-- At `pos` stands a segment header announcing `len` bytes. -/
def HeaderAt (data : Bytes) (pos len : Nat) (a t : Byte) : Prop :=
  pos + 4 ≤ data.length ∧ 4 ≤ len ∧ len < 2 ^ 16 ∧
  (data.drop pos).take 4 = [BitVec.ofNat 8 (len / 256), BitVec.ofNat 8 (len % 256), a, t]

/-- Headers of a record from `pos`, each where the previous one says its segment ends;
`stop` is where the last one says its segment ends.  The format is that of the last
segment. -/
inductive Headers (data : Bytes) : Nat → Nat → Bool → Prop where
  | last (pos len : Nat) (a t : Byte) (h : HeaderAt data pos len a t)
      (hc : a.toNat / 2 ^ 5 % 2 = 0) :
      Headers data pos (pos + len) (decide (a.toNat / 2 ^ 7 % 2 = 1))
  | more (pos len stop : Nat) (a t : Byte) (b : Bool) (h : HeaderAt data pos len a t)
      (hc : a.toNat / 2 ^ 5 % 2 = 1) (hr : Headers data (pos + len) stop b) :
      Headers data pos stop b

/-- A gap-free sequence of records: start and format of each. -/
inductive Records (data : Bytes) : Nat → List (Nat × Bool) → Nat → Prop where
  | nil (pos : Nat) : Records data pos [] pos
  | cons (pos q stop : Nat) (b : Bool) (l : List (Nat × Bool)) (h : Headers data pos q b)
      (hr : Records data q l stop) : Records data pos ((pos, b) :: l) stop

end Spec

theorem headers_lt {data : Bytes} {p q : Nat} {b : Bool} (h : Spec.Headers data p q b) : p < q := by
  induction h with
  | last pos len a t h hc => have := h.2.1; omega
  | more pos len stop a t b h hc hr ih => have := h.2.1; omega

theorem records_le {data : Bytes} {p q : Nat} {l : List (Nat × Bool)} (h : Spec.Records data p l q) :
    p ≤ q ∧ (∀ x ∈ l, p ≤ x.1 ∧ x.1 < q) ∧ l.Pairwise (fun x y => x.1 < y.1) := by
  induction h with
  | nil => simp
  | cons pos q stop b l h hr ih =>
    obtain ⟨i1, i2, i3⟩ := ih
    have := headers_lt h
    refine ⟨by omega, ?_, List.pairwise_cons.2 ⟨?_, i3⟩⟩
    · intro x hx
      rcases List.mem_cons.1 hx with rfl | hx
      · exact ⟨Nat.le_refl _, by omega⟩
      · have := i2 x hx; omega
    · intro x hx
      have := i2 x hx; simp only; omega

/-- positions of one format in a list of starts -/
def pick (b : Bool) (l : List (Nat × Bool)) : List Nat :=
  (l.filter (fun x => x.2 == b)).map (fun x => x.1)

/-- The index produced by the loop, described by the records it walked over: `l` are
the records listed, `stop` the end of the last. -/
def Walked (data : Bytes) (ofs : Offsets) (lr : Nat) (headOk : Nat → Bool → Prop)
    (res : IndexResult) : Prop :=
  (∃ l stop, (l = [] ∧ stop = lr ∨
      ∃ q b l', headOk q b ∧ Spec.Records data q l' stop ∧ l = (lr, b) :: l') ∧
    res.ofs.explicits = ofs.explicits ++ pick true l ∧
    res.ofs.implicits = ofs.implicits ++ pick false l ∧
    (res.ofs.broken = ofs.broken ∨ res.ofs.broken = ofs.broken ++ [stop]) ∧
    ∀ p, res.next = some p → res.ofs.broken = ofs.broken ∧ (p = stop))

theorem walked_none (data : Bytes) (ofs : Offsets) (lr : Nat) (P : Nat → Bool → Prop) :
    Walked data ofs lr P ⟨ofs.addBroken lr, none⟩ := by
  refine ⟨[], lr, Or.inl ⟨rfl, rfl⟩, ?_, ?_, Or.inr rfl, ?_⟩ <;> simp [Offsets.addBroken, pick]

theorem findoffsets_walk (src : Source) (pos : Nat) :
    ∀ (ofs : Offsets) (lr : Nat) (hsucc : Bool), (hsucc = false → lr = pos) →
      Walked src.data ofs lr (fun q b => Spec.Headers src.data pos q b)
        (findoffsetsLoop src ofs lr pos hsucc) := by
  induction pos using stream_induction src with | _ pos ih =>
  intro ofs lr hsucc hlr
  rw [findoffsetsLoop_eq]
  cases hrd : readAt src pos 4 with
  | error => exact walked_none ..
  | eof bs =>
    simp only
    split
    · split
      · exact walked_none ..
      · refine ⟨[], lr, Or.inl ⟨rfl, rfl⟩, ?_, ?_, Or.inl rfl, ?_⟩ <;> simp [pick]
    · exact walked_none ..
  | ok buf =>
    obtain ⟨hin, hbuf⟩ := readAt_ok hrd (by omega)
    have hlen4 := readAt_length hrd
    simp only
    cases hh : lrsh buf with
    | none => exact walked_none ..
    | some hd =>
      obtain ⟨t, ht1, ht2, ht3⟩ := header_bytes hlen4 hh
      simp only
      split
      · exact walked_none ..
      · rename_i h4
        have hha : Spec.HeaderAt src.data pos hd.length hd.attrs t :=
          ⟨hin, by omega, ht2, by rw [← hbuf, ht1]⟩
        split
        · split
          · exact walked_none ..
          · rename_i _ hs
            simp only [Bool.not_eq_true] at hs
            refine ⟨[], lr, Or.inl ⟨rfl, rfl⟩, ?_, ?_, Or.inl rfl, ?_⟩
            · simp [pick]
            · simp [pick]
            · intro p hp
              simp only [Option.some.injEq] at hp
              exact ⟨rfl, by rw [← hp, hlr hs]⟩
        · split
          · exact walked_none ..
          · have key : Walked src.data ofs lr (fun q b => Spec.Headers src.data pos q b)
                (if (!flag hd.attrs SEGATTR_SUCCSEG) = true then
                  findoffsetsLoop src
                    (if flag hd.attrs SEGATTR_EXFMTLR = true then
                      { ofs with explicits := ofs.explicits ++ [lr] }
                    else { ofs with implicits := ofs.implicits ++ [lr] })
                    (pos + hd.length) (pos + hd.length) (flag hd.attrs SEGATTR_SUCCSEG)
                else findoffsetsLoop src ofs lr (pos + hd.length)
                    (flag hd.attrs SEGATTR_SUCCSEG)) := by
              cases hs : flag hd.attrs SEGATTR_SUCCSEG with
              | true =>
                have hc := (flag_succ _).1 hs
                simp only [Bool.not_true, Bool.false_eq_true, if_false]
                obtain ⟨l, stop, h1, h2⟩ := ih (pos + hd.length) (by omega) hin ofs lr true (by simp)
                refine ⟨l, stop, ?_, h2⟩
                rcases h1 with h1 | ⟨q, b, l', hq, hr, hl⟩
                · exact Or.inl h1
                · exact Or.inr ⟨q, b, l', .more _ _ _ _ _ _ hha hc hq, hr, hl⟩
              | false =>
                have hc : ¬ hd.attrs.toNat / 2 ^ 5 % 2 = 1 := by
                  rw [← flag_succ, hs]; simp
                have hx := flag_expl hd.attrs
                simp only [Bool.not_false, if_true]
                obtain ⟨l, stop, h1, h2, h3, h4, h5⟩ := ih (pos + hd.length) (by omega) hin
                  (if flag hd.attrs SEGATTR_EXFMTLR = true then
                      { ofs with explicits := ofs.explicits ++ [lr] }
                    else { ofs with implicits := ofs.implicits ++ [lr] })
                  (pos + hd.length) false (by simp)
                have hb : Spec.Headers src.data pos (pos + hd.length)
                    (flag hd.attrs SEGATTR_EXFMTLR) := by
                  have := Spec.Headers.last pos hd.length hd.attrs t hha (by omega)
                  rwa [show decide (hd.attrs.toNat / 2 ^ 7 % 2 = 1) =
                    flag hd.attrs SEGATTR_EXFMTLR by
                      rw [Bool.eq_iff_iff, decide_eq_true_iff, hx]] at this
                have hrecs : Spec.Records src.data (pos + hd.length) l stop := by
                  rcases h1 with ⟨rfl, rfl⟩ | ⟨q, b, l', hq, hr, rfl⟩
                  · exact .nil _
                  · exact .cons _ _ _ _ _ hq hr
                refine ⟨(lr, flag hd.attrs SEGATTR_EXFMTLR) :: l, stop,
                  Or.inr ⟨_, _, l, hb, hrecs, rfl⟩, ?_⟩
                cases hxe : flag hd.attrs SEGATTR_EXFMTLR <;>
                  rw [hxe] at h2 h3 h4 h5 <;>
                  simp only [Bool.false_eq_true, if_false, if_true] at h2 h3 h4 h5 ⊢ <;>
                  exact ⟨by rw [h2]; simp [pick], by rw [h3]; simp [pick], h4, h5⟩
            split
            · exact walked_none ..
            · exact key

/-- C20.  Whatever the stream contains: the listed positions are the starts of a
gap-free sequence of records beginning at 0 (each a chain of segment headers that are
all present), separated by format; at most one position is reported broken, and it is
exactly the place where the last listed record ends; the position for the next logical
file, if any, is that place too, and then nothing is broken. -/
theorem c20_any_stream (src : Source) :
    ∃ l stop, Spec.Records src.data 0 l stop ∧
      (findoffsetsRaw src).ofs.explicits = (l.filter (fun x => x.2 == true)).map (fun x => x.1) ∧
      (findoffsetsRaw src).ofs.implicits = (l.filter (fun x => x.2 == false)).map (fun x => x.1) ∧
      ((findoffsetsRaw src).ofs.broken = [] ∨ (findoffsetsRaw src).ofs.broken = [stop]) ∧
      ∀ p, (findoffsetsRaw src).next = some p →
        (findoffsetsRaw src).ofs.broken = [] ∧ p = stop := by
  obtain ⟨l, stop, h1, h2, h3, h4, h5⟩ := findoffsets_walk src 0 ⟨[], [], []⟩ 0 false (fun _ => rfl)
  refine ⟨l, stop, ?_, h2, h3, h4, h5⟩
  rcases h1 with ⟨rfl, rfl⟩ | ⟨q, b, l', hq, hr, rfl⟩
  · exact .nil _
  · exact .cons _ _ _ _ _ hq hr

/-- C20.  Listed positions are strictly increasing, no position is listed twice or as
both formats, and the broken position is behind all of them. -/
theorem c20_increasing (src : Source) :
    (findoffsetsRaw src).ofs.explicits.Pairwise (· < ·) ∧
    (findoffsetsRaw src).ofs.implicits.Pairwise (· < ·) ∧
    (∀ x ∈ (findoffsetsRaw src).ofs.explicits, x ∉ (findoffsetsRaw src).ofs.implicits) ∧
    (findoffsetsRaw src).ofs.broken.length ≤ 1 ∧
    ∀ b ∈ (findoffsetsRaw src).ofs.broken,
      (∀ x ∈ (findoffsetsRaw src).ofs.explicits, x < b) ∧
      (∀ x ∈ (findoffsetsRaw src).ofs.implicits, x < b) := by
  obtain ⟨l, stop, h1, h2, h3, h4, -⟩ := c20_any_stream src
  obtain ⟨-, i2, i3⟩ := records_le h1
  rw [h2, h3]
  have hpw : ∀ b : Bool, ((l.filter (fun x => x.2 == b)).map (fun x => x.1)).Pairwise (· < ·) := by
    intro b
    rw [List.pairwise_map]
    exact i3.filter _
  refine ⟨hpw true, hpw false, ?_, ?_, ?_⟩
  · intro x hx hx'
    simp only [List.mem_map, List.mem_filter, beq_iff_eq] at hx hx'
    obtain ⟨a, ⟨ha, ha2⟩, rfl⟩ := hx
    obtain ⟨b, ⟨hb, hb2⟩, hab⟩ := hx'
    have hne : a ≠ b := by rintro rfl; rw [ha2] at hb2; cases hb2
    have hinj : ∀ (l : List (Nat × Bool)), l.Pairwise (fun x y => x.1 < y.1) → ∀ x ∈ l, ∀ y ∈ l,
        x.1 = y.1 → x = y := by
      intro l
      induction l with
      | nil => simp
      | cons c cs ih =>
        intro hp x hx y hy hxy
        obtain ⟨hc, hp⟩ := List.pairwise_cons.1 hp
        rcases List.mem_cons.1 hx with rfl | hx'
        · rcases List.mem_cons.1 hy with rfl | hy'
          · rfl
          · have := hc y hy'; omega
        · rcases List.mem_cons.1 hy with rfl | hy'
          · have := hc x hx'; omega
          · exact ih hp x hx' y hy' hxy
    exact hne (hinj l i3 a ha b hb hab.symm)
  · rcases h4 with h | h <;> simp [h]
  · intro b hb
    rcases h4 with h | h
    · simp [h] at hb
    · rw [h] at hb
      simp only [List.mem_singleton] at hb
      subst hb
      constructor <;>
      · intro x hx
        simp only [List.mem_map, List.mem_filter] at hx
        obtain ⟨a, ⟨ha, _⟩, rfl⟩ := hx
        exact (i2 a ha).2

/-- C20.  Whatever follows a sequence of well-formed records: they are all listed, in
front of anything else, and a broken position is not in front of their end. -/
theorem c20_kept (recs : List (Bool × List Spec.Seg)) (h : Spec.FileContent recs) (rest : Bytes)
    (e : Ending) :
    (∃ x, (findoffsetsRaw ⟨Spec.fileBytes recs ++ rest, e⟩).ofs.explicits =
      Spec.positions true (Spec.located 0 recs) ++ x) ∧
    (∃ x, (findoffsetsRaw ⟨Spec.fileBytes recs ++ rest, e⟩).ofs.implicits =
      Spec.positions false (Spec.located 0 recs) ++ x) ∧
    ∀ b ∈ (findoffsetsRaw ⟨Spec.fileBytes recs ++ rest, e⟩).ofs.broken,
      (Spec.fileBytes recs).length ≤ b := by
  have := findoffsets_records e recs h.records [] rest ⟨[], [], []⟩ (fun _ _ => Or.inr rfl) h.headers
  simp only [List.nil_append, List.length_nil] at this
  rw [findoffsetsRaw, this]
  obtain ⟨l, stop, h1, h2, h3, h4, -⟩ := findoffsets_walk ⟨Spec.fileBytes recs ++ rest, e⟩
    (Spec.fileBytes recs).length (Offsets.after ⟨[], [], []⟩ (Spec.located 0 recs))
    (Spec.fileBytes recs).length false (fun _ => rfl)
  refine ⟨⟨_, h2⟩, ⟨_, h3⟩, ?_⟩
  intro b hb
  have hle : (Spec.fileBytes recs).length ≤ stop := by
    rcases h1 with ⟨-, rfl⟩ | ⟨q, b, l', hq, hr, -⟩
    · exact Nat.le_refl _
    · have := headers_lt hq
      have := (records_le hr).1
      omega
  rcases h4 with h | h
  · rw [h] at hb; simp [Offsets.after] at hb
  · rw [h] at hb; simp [Offsets.after] at hb; omega

/-- a record cut off in front of byte `k` -/
theorem findoffsets_cut (segs : List Spec.Seg) (hr : Spec.IsRecord segs) (pre : Bytes) (k : Nat)
    (e : Ending) (hk : k < (Spec.recordBytes segs).length)
    (he : (∃ f, e = .broken f) ∨
      (∃ s, segs.getLast? = some s ∧ k + s.raw.length < (Spec.recordBytes segs).length))
    (ofs : Offsets) (lr : Nat) (hsucc : Bool)
    (hk0 : 0 < k ∨ hsucc = true ∨ ∃ f, e = .broken f)
    (hfh : ∀ s ∈ segs, ¬ s.FileHeader ∨ ofs.explicits = []) :
    findoffsetsLoop ⟨pre ++ (Spec.recordBytes segs).take k, e⟩ ofs lr pre.length hsucc =
      ⟨ofs.addBroken lr, none⟩ := by
  -- the header of the first segment is incomplete
  have short : ∀ (bs : Bytes) (k : Nat) (hsucc : Bool), k < bs.length → k < 4 →
      (0 < k ∨ hsucc = true ∨ ∃ f, e = .broken f) →
      findoffsetsLoop ⟨pre ++ bs.take k, e⟩ ofs lr pre.length hsucc = ⟨ofs.addBroken lr, none⟩ := by
    intro bs k hsucc hk h4 h0
    rw [findoffsetsLoop_eq]
    unfold readAt
    rw [if_neg (by omega), if_neg (by simp; omega)]
    cases e with
    | broken f => rfl
    | eof =>
      simp only [List.drop_left', List.length_take]
      by_cases hz : min k bs.length = 0
      · rw [if_pos hz]
        rcases h0 with h0 | h0 | ⟨f, h0⟩
        · omega
        · rw [if_pos h0]
        · cases h0
      · rw [if_neg hz]
  induction hr generalizing pre k hsucc with
  | last s hs hc =>
    have hb : Spec.recordBytes [s] = s.bytes := by simp [Spec.recordBytes]
    rw [hb] at hk he ⊢
    by_cases h4 : k < 4
    · exact short _ k hsucc hk h4 hk0
    · -- only possible when the end of the stream is broken
      rw [seg_bytes_length] at hk he
      have he' : ∃ f, e = .broken f := by
        rcases he with h | ⟨s', h1, h2⟩
        · exact h
        · simp only [List.getLast?_singleton, Option.some.injEq] at h1; subst h1; omega
      obtain ⟨f, rfl⟩ := he'
      have hrd : readAt ⟨pre ++ s.bytes.take k, .broken f⟩ pre.length 4 =
          .ok [BitVec.ofNat 8 ((4 + s.raw.length) / 256), BitVec.ofNat 8 ((4 + s.raw.length) % 256),
            s.attrs, s.type] := by
        obtain ⟨j, rfl⟩ : ∃ j, k = 4 + j := ⟨k - 4, by omega⟩
        have := readAt_append pre [BitVec.ofNat 8 ((4 + s.raw.length) / 256),
          BitVec.ofNat 8 ((4 + s.raw.length) % 256), s.attrs, s.type] (s.raw.take j) (.broken f)
          pre.length 4 rfl rfl
        rw [← this]
        simp [Spec.Seg.bytes, Nat.add_comm 4 j]
      rw [findoffsetsLoop_eq, hrd]
      simp only [seg_header s hs]
      rw [if_neg (by omega)]
      have hlast : readAt ⟨pre ++ s.bytes.take k, .broken f⟩
          (pre.length + (4 + s.raw.length) - 1) 1 = .error := by
        unfold readAt
        rw [if_neg (by omega), if_neg (by simp [seg_bytes_length]; omega)]
      split
      · rename_i hstop
        exfalso
        simp only [Bool.and_eq_true, decide_eq_true_eq, Bool.not_eq_true', ne_eq,
          List.length_eq_zero_iff] at hstop
        obtain ⟨⟨⟨h1, h2⟩, h3⟩, h4⟩ := hstop
        rcases hfh s (by simp) with h | h
        · refine h ⟨(flag_expl _).1 h2, ?_, h3⟩
          intro hc; rw [(flag_pred _).2 hc] at h1; cases h1
        · exact h4 h
      · simp only [hlast]
        split <;> rfl
  | more s r hs hc hr ih =>
    have hb : Spec.recordBytes (s :: r) = s.bytes ++ Spec.recordBytes r := by
      simp [Spec.recordBytes]
    have hrne : r ≠ [] := by cases hr <;> simp
    by_cases h4 : k < 4
    · exact short _ k hsucc hk h4 hk0
    · by_cases hfull : s.bytes.length ≤ k
      · -- the segment is complete
        have htake : (Spec.recordBytes (s :: r)).take k =
            s.bytes ++ (Spec.recordBytes r).take (k - s.bytes.length) := by
          rw [hb, List.take_append, List.take_of_length_le hfull]
        rw [htake, ← List.append_assoc, findoffsets_seg e pre _ s hs ofs lr hsucc (hfh s (by simp)),
          if_pos hc]
        rw [hb, List.length_append] at hk
        have hshort : ∀ (bs : Bytes) (k : Nat) (hsucc : Bool), k < bs.length → k < 4 →
            (0 < k ∨ hsucc = true ∨ ∃ f, e = .broken f) →
            findoffsetsLoop ⟨(pre ++ s.bytes) ++ bs.take k, e⟩ ofs lr (pre ++ s.bytes).length hsucc =
              ⟨ofs.addBroken lr, none⟩ := by
          intro bs k hsucc hk h4 h0
          rw [findoffsetsLoop_eq]
          unfold readAt
          rw [if_neg (by omega), if_neg (by simp; omega)]
          cases e with
          | broken f => rfl
          | eof =>
            simp only [List.drop_left', List.length_take]
            by_cases hz : min k bs.length = 0
            · rw [if_pos hz]
              rcases h0 with h0 | h0 | ⟨f, h0⟩
              · omega
              · rw [if_pos h0]
              · cases h0
            · rw [if_neg hz]
        refine ih (pre ++ s.bytes) (k - s.bytes.length) (by omega) ?_ true (Or.inr (Or.inl rfl))
          (fun s hs => hfh s (by simp [hs])) hshort
        rcases he with h | ⟨s', h1, h2⟩
        · exact Or.inl h
        · refine Or.inr ⟨s', ?_, ?_⟩
          · rw [← h1, List.getLast?_cons_of_ne_nil hrne]
          · rw [hb, List.length_append] at h2; omega
      · -- cut inside the segment
        have hlen := seg_bytes_length s
        have htake : (Spec.recordBytes (s :: r)).take k = s.bytes.take k := by
          rw [hb, List.take_append_of_le_length (by omega)]
        rw [htake]
        have hrd : readAt ⟨pre ++ s.bytes.take k, e⟩ pre.length 4 =
            .ok [BitVec.ofNat 8 ((4 + s.raw.length) / 256),
              BitVec.ofNat 8 ((4 + s.raw.length) % 256), s.attrs, s.type] := by
          obtain ⟨j, rfl⟩ : ∃ j, k = 4 + j := ⟨k - 4, by omega⟩
          have := readAt_append pre [BitVec.ofNat 8 ((4 + s.raw.length) / 256),
            BitVec.ofNat 8 ((4 + s.raw.length) % 256), s.attrs, s.type] (s.raw.take j) e
            pre.length 4 rfl rfl
          rw [← this]
          simp [Spec.Seg.bytes, Nat.add_comm 4 j]
        rw [findoffsetsLoop_eq, hrd]
        simp only [seg_header s hs]
        rw [if_neg (by omega)]
        split
        · rename_i hstop
          exfalso
          simp only [Bool.and_eq_true, decide_eq_true_eq, Bool.not_eq_true', ne_eq,
            List.length_eq_zero_iff] at hstop
          obtain ⟨⟨⟨h1, h2⟩, h3⟩, h4⟩ := hstop
          rcases hfh s (by simp) with h | h
          · refine h ⟨(flag_expl _).1 h2, ?_, h3⟩
            intro hc; rw [(flag_pred _).2 hc] at h1; cases h1
          · exact h4 h
        · have hsf : flag s.attrs SEGATTR_SUCCSEG = true := (flag_succ _).2 hc
          cases e with
          | broken f =>
            have hlast : readAt ⟨pre ++ s.bytes.take k, .broken f⟩
                (pre.length + (4 + s.raw.length) - 1) 1 = .error := by
              unfold readAt
              rw [if_neg (by omega), if_neg (by simp [seg_bytes_length]; omega)]
            simp only [hlast]
            split <;> rfl
          | eof =>
            have hlast : ∃ b, readAt ⟨pre ++ s.bytes.take k, .eof⟩
                (pre.length + (4 + s.raw.length) - 1) 1 = .eof b := by
              unfold readAt
              rw [if_neg (by omega), if_neg (by simp [seg_bytes_length]; omega)]
              exact ⟨_, rfl⟩
            obtain ⟨b, hlast⟩ := hlast
            have hseek : seekOk ⟨pre ++ s.bytes.take k, .eof⟩
                (pre.length + (4 + s.raw.length) - 1) = true := by
              unfold seekOk; split <;> rfl
            simp only [hseek, Bool.not_true, Bool.false_eq_true, if_false, hlast, hsf]
            rw [findoffsetsLoop_eq]
            have : readAt ⟨pre ++ s.bytes.take k, .eof⟩ (pre.length + (4 + s.raw.length)) 4 =
                .eof [] := by
              unfold readAt
              rw [if_neg (by omega), if_neg (by simp [seg_bytes_length]; omega)]
              simp only
              rw [List.drop_of_length_le (by simp [seg_bytes_length])]
            simp [this]

/-- C20.  A file that is damaged or cut off inside a record (so that the stream cannot be
read to the end of the record): the records in front of it are listed, the position of
the incomplete record is reported as broken, and nothing else. -/
theorem c20_truncated (recs : List (Bool × List Spec.Seg)) (b : Bool) (segs : List Spec.Seg)
    (h : Spec.FileContent (recs ++ [(b, segs)])) (k : Nat) (f : Bool)
    (hk : k < (Spec.recordBytes segs).length) :
    findoffsetsRaw ⟨Spec.fileBytes recs ++ (Spec.recordBytes segs).take k, .broken f⟩ =
      ⟨⟨Spec.positions true (Spec.located 0 recs), Spec.positions false (Spec.located 0 recs),
        [(Spec.fileBytes recs).length]⟩, none⟩ := by
  have hrec := h.records (b, segs) (by simp)
  have := findoffsets_records (.broken f) recs (fun r hr => h.records r (by simp [hr])) []
    ((Spec.recordBytes segs).take k) ⟨[], [], []⟩ (fun _ _ => Or.inr rfl)
    (fun r hr => h.headers r (by
      cases recs with
      | nil => simp at hr
      | cons a t => simp at hr ⊢; exact Or.inl hr))
  simp only [List.nil_append, List.length_nil] at this
  rw [findoffsetsRaw, this, findoffsets_cut segs hrec.chained _ k _ hk (Or.inl ⟨f, rfl⟩) _ _ _
    (Or.inr (Or.inr ⟨f, rfl⟩))]
  · rfl
  · refine record_head_or b segs hrec _ ?_
    cases recs with
    | nil => exact Or.inr rfl
    | cons a t =>
      exact Or.inl (h.headers (b, segs) (by simp))

/-- C20 at a regular end of file: reported as broken when the file ends before the data of
the last segment begins. Missing for the full statement: ends inside the data of the last
segment, which go unnoticed (`c20_truncated_at_eof_defect`). -/
theorem c20_truncated_at_eof_partial (recs : List (Bool × List Spec.Seg)) (b : Bool)
    (segs : List Spec.Seg) (h : Spec.FileContent (recs ++ [(b, segs)])) (k : Nat) (hk0 : 0 < k)
    (s : Spec.Seg) (hs : segs.getLast? = some s)
    (hk : k + s.raw.length < (Spec.recordBytes segs).length) :
    findoffsetsRaw ⟨Spec.fileBytes recs ++ (Spec.recordBytes segs).take k, .eof⟩ =
      ⟨⟨Spec.positions true (Spec.located 0 recs), Spec.positions false (Spec.located 0 recs),
        [(Spec.fileBytes recs).length]⟩, none⟩ := by
  have hrec := h.records (b, segs) (by simp)
  have := findoffsets_records .eof recs (fun r hr => h.records r (by simp [hr])) []
    ((Spec.recordBytes segs).take k) ⟨[], [], []⟩ (fun _ _ => Or.inr rfl)
    (fun r hr => h.headers r (by
      cases recs with
      | nil => simp at hr
      | cons a t => simp at hr ⊢; exact Or.inl hr))
  simp only [List.nil_append, List.length_nil] at this
  rw [findoffsetsRaw, this, findoffsets_cut segs hrec.chained _ k _ (by omega) (Or.inr ⟨s, hs, hk⟩)
    _ _ _ (Or.inl hk0)]
  · rfl
  · refine record_head_or b segs hrec _ ?_
    cases recs with
    | nil => exact Or.inr rfl
    | cons a t =>
      exact Or.inl (h.headers (b, segs) (by simp))

/-- C20, defect: a file that ends (regularly) inside the data of a one-segment record is
indexed as if the record were complete, nothing is reported broken - and the listed
position cannot be extracted. Holds for every such record and every cut. -/
theorem c20_truncated_at_eof_defect (s : Spec.Seg) (hs : s.WF) (hc : ¬ s.Continued)
    (hx : s.Explicit) (k : Nat) (h4 : 4 ≤ k) (hk : k < s.bytes.length) (policy : Policy) :
    findoffsetsRaw ⟨s.bytes.take k, .eof⟩ = ⟨⟨[0], [], []⟩, none⟩ ∧
    extract policy ⟨s.bytes.take k, .eof⟩ 0 = .error .body := by
  rw [seg_bytes_length] at hk
  have hrd : readAt ⟨s.bytes.take k, .eof⟩ 0 4 =
      .ok [BitVec.ofNat 8 ((4 + s.raw.length) / 256),
        BitVec.ofNat 8 ((4 + s.raw.length) % 256), s.attrs, s.type] := by
    obtain ⟨j, rfl⟩ : ∃ j, k = 4 + j := ⟨k - 4, by omega⟩
    have := readAt_append [] [BitVec.ofNat 8 ((4 + s.raw.length) / 256),
      BitVec.ofNat 8 ((4 + s.raw.length) % 256), s.attrs, s.type] (s.raw.take j) .eof
      0 4 rfl rfl
    rw [← this]
    simp [Spec.Seg.bytes, Nat.add_comm 4 j]
  have hsf : flag s.attrs SEGATTR_SUCCSEG = false := by
    rw [Bool.eq_false_iff, ne_eq, flag_succ]; exact hc
  have hxf : flag s.attrs SEGATTR_EXFMTLR = true := (flag_expl _).2 hx
  constructor
  · rw [findoffsetsRaw, findoffsetsLoop_eq, hrd]
    simp only [seg_header s hs]
    rw [if_neg (by omega)]
    have hlast : ∃ b, readAt ⟨s.bytes.take k, .eof⟩ (0 + (4 + s.raw.length) - 1) 1 = .eof b := by
      unfold readAt
      rw [if_neg (by omega), if_neg (by simp [seg_bytes_length]; omega)]
      exact ⟨_, rfl⟩
    obtain ⟨b, hlast⟩ := hlast
    have hseek : seekOk ⟨s.bytes.take k, .eof⟩ (0 + (4 + s.raw.length) - 1) = true := by
      unfold seekOk; split <;> rfl
    simp only [hseek, hlast, hsf, hxf, List.length_nil, ne_eq, not_true_eq_false, decide_false,
      Bool.and_false, Bool.false_eq_true, if_false, Bool.not_true, Bool.not_false, if_true]
    rw [findoffsetsLoop_eq]
    have : readAt ⟨s.bytes.take k, .eof⟩ (0 + (4 + s.raw.length)) 4 = .eof [] := by
      unfold readAt
      rw [if_neg (by omega), if_neg (by simp [seg_bytes_length])]
      simp only
      rw [List.drop_of_length_le (by simp [seg_bytes_length])]
    rw [this]; simp
  · have hseek : seekOk ⟨s.bytes.take k, .eof⟩ 0 = true := by unfold seekOk; rw [if_pos (by simp)]
    rw [extract, extractN, hseek]
    simp only [Bool.not_true, Bool.false_eq_true, if_false]
    rw [extractLoop_eq, hrd]
    simp only [seg_header s hs, Nat.add_sub_cancel_left]
    rw [if_neg (by omega), toRead_of_le _ _ _ (by have := hs.2; simp; omega)]
    have : ∃ b, readAt ⟨s.bytes.take k, .eof⟩ (0 + 4) s.raw.length = .eof b := by
      unfold readAt
      rw [if_neg (by omega), if_neg (by simp [seg_bytes_length]; omega)]
      exact ⟨_, rfl⟩
    obtain ⟨b, hb⟩ := this
    simp only [hb]

/-- Case of `c20_truncated`: the last record of the example file cut after one byte. -/
example : findoffsetsRaw ⟨Spec.fileBytes (Case.recs.take 2) ++ [0], .broken false⟩ =
    ⟨⟨[0, 6], [], [17]⟩, none⟩ :=
  c20_truncated (Case.recs.take 2) false [⟨0x00, 0, [6], [6], 0⟩] Case.content 1 false (by decide)

example : findoffsetsRaw ⟨[0, 6, 0x80, 0, 1], .eof⟩ = ⟨⟨[0], [], []⟩, none⟩ :=
  (c20_truncated_at_eof_defect ⟨0x80, 0, [1, 2], [1, 2], 0⟩ ⟨Case.plain (by decide), by decide⟩
    (by decide) (by decide) 5 (by decide) (by decide) (fun _ => false)).1

end Dlisio.Dlis
