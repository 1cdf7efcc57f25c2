import Verif.Lis.IndexFiles
/-
C45: reading the data of a logical record.
-/
namespace Dlisio.Lis

open Spec

/-- One round of the loop of `read_record`. -/
theorem readLoop_chunk (dev : Device) (data : Bytes) (pos k : Nat) (x : Byte) (lrh : Bytes)
    (c : Chunk) (hok : c.Ok lrh) (hl : lrh.length = if c.attrs.testBit 1 then 0 else 2)
    (hg : Gap dev pos k x) (hat : At dev pos (List.replicate k x ++ c.bytes lrh)) :
    readLoop dev data pos =
      if c.attrs.testBit 0 then readLoop dev (data ++ c.payload) (pos + k + c.size lrh)
      else .ok (data ++ c.payload, pos + k + c.size lrh) := by
  have hrd := readPrh_chunk dev pos k x lrh c hok
    (by intro h; rw [hl, h]; simp) hg hat
  have hlen := at_length hat (by unfold Chunk.bytes; simp)
  rw [List.length_append, List.length_replicate, chunk_bytes_length] at hlen
  have hsz : c.size lrh = 4 + lrh.length + c.payload.length + c.tail.length := rfl
  have htr : trlen (BitVec.ofNat 16 c.attrs) = c.tail.length := by
    rw [trlen_eq, BitVec.toNat_ofNat, Nat.mod_eq_of_lt hok.1, hok.2.1]
  have hlr : (if has (BitVec.ofNat 16 c.attrs) PREDCES then 0 else 2) = lrh.length := by
    rw [has_predces_ofNat, hl]
  have hp : readAt dev.src (pos + k + 4 + lrh.length) c.payload.length = .ok c.payload := by
    refine readAt_at ?_ rfl
    have h1 := (at_split hat).2
    rw [List.length_replicate, chunk_bytes_head] at h1
    have h2 := (at_split h1).2
    rw [show (c.head lrh).length = 4 from rfl, List.append_assoc] at h2
    have h3 := (at_split h2).2
    exact (at_split h3).1
  rw [readLoop]
  split
  · rename_i e hr; rw [hrd] at hr; cases hr
  · rename_i prh p hr
    rw [hrd] at hr
    injection hr with hr
    injection hr with hr1 hr2
    subst hr1 hr2
    simp only
    rw [hlr, htr, chunk_toNat hok, has_succses_ofNat]
    rw [show c.size lrh - 4 - c.tail.length - lrh.length = c.payload.length by omega]
    rw [seekOk_le (by omega), hp]
    simp only [Bool.not_true, Bool.false_eq_true, if_false]
    rw [seekOk_le (by omega)]
    simp only [Bool.not_true, Bool.false_eq_true, if_false]
    rw [show pos + k + 4 + lrh.length + c.payload.length + c.tail.length = pos + k + c.size lrh by
      omega]
    cases c.attrs.testBit 0 <;> simp

theorem readLoop_chunks (dev : Device) (cs : List Chunk) : ∀ (data : Bytes) (pos : Nat),
    cs ≠ [] → At dev pos (cs.map (Chunk.bytes [])).flatten → Chain true (cs.map (·.attrs)) →
    (∀ d ∈ cs, d.Ok []) →
    readLoop dev data pos =
      .ok (data ++ (cs.map (·.payload)).flatten, pos + (cs.map (Chunk.size [])).sum) := by
  induction cs with
  | nil => intro data pos h; exact absurd rfl h
  | cons c cs ih =>
    intro data pos _ hat hch hok
    rw [List.map_cons, List.flatten_cons] at hat
    obtain ⟨hat1, hat2⟩ := at_split hat
    rw [chunk_bytes_length] at hat2
    rw [List.map_cons, Chain] at hch
    rw [readLoop_chunk dev data pos 0 0 [] c (hok c List.mem_cons_self) (by rw [hch.1]; rfl)
      (.inl rfl) (by simpa using hat1)]
    rw [hch.2.1]
    cases cs with
    | nil => simp
    | cons d cs =>
      simp only [List.map_cons, List.isEmpty_cons, Bool.not_false, if_true, Nat.add_zero]
      rw [ih _ _ (by simp) hat2 hch.2.2 (fun e he => hok e (List.mem_cons_of_mem _ he))]
      simp [Nat.add_assoc]

/-- **C45** (one record).  Reading a well-formed record, from the position in the index,
gives the concatenation of the parts in its physical records, without headers and trailers,
and the cursor is behind the record.  (Also from a position with padding in front of the
record.) -/
theorem c45_read (dev : Device) (pos k : Nat) (x : Byte) (r : Record) (hok : r.Ok)
    (hg : Gap dev pos k x) (hat : At dev pos (List.replicate k x ++ r.bytes))
    (info : RecordInfo) (hi : info.ltell = pos) :
    readRecord dev info = .ok (r.data, pos + k + r.size) := by
  obtain ⟨ht, hne, hcons, hcs⟩ := hok
  rcases r with ⟨type, attr, chunks⟩
  cases chunks with
  | nil => exact absurd rfl hne
  | cons c cs =>
    simp only at hcs hcons
    rw [consistent_chain, List.map_cons, Chain] at hcons
    unfold Record.bytes at hat
    simp only at hat
    rw [← List.append_assoc] at hat
    obtain ⟨hat1, hat2⟩ := at_split hat
    rw [List.length_append, List.length_replicate, chunk_bytes_length] at hat2
    have hlen := at_length hat1 (by unfold Chunk.bytes; simp)
    unfold readRecord
    rw [hi, seekOk_le (by omega)]
    simp only [Bool.not_true, Bool.false_eq_true, if_false]
    rw [readLoop_chunk dev [] pos k x [type, attr] c hcs.1 (by rw [hcons.1]; rfl) hg hat1]
    rw [hcons.2.1]
    cases cs with
    | nil => simp [Record.data, Record.size]
    | cons d cs =>
      simp only [List.map_cons, List.isEmpty_cons, Bool.not_false, if_true]
      rw [readLoop_chunks dev (d :: cs) _ _ (by simp) (by rw [Nat.add_assoc]; exact hat2)
        hcons.2.2 hcs.2]
      simp [Record.data, Record.size, Nat.add_assoc]

theorem mem_located {its : List Item} {i : RecordInfo} : ∀ {pos : Nat}, i ∈ located pos its →
    ∃ it ∈ its, i.type = it.record.type.toNat ∧ i.size = it.record.size := by
  induction its with
  | nil => intro pos h; cases h
  | cons it its ih =>
    intro pos h
    rcases List.mem_cons.mp h with rfl | h
    · exact ⟨it, List.mem_cons_self, rfl, rfl⟩
    · obtain ⟨jt, hj, h⟩ := ih h
      exact ⟨jt, List.mem_cons_of_mem _ hj, h⟩

/-- **C45** (records of a file).  The n-th record of a file is read back through the n-th
record of the index. -/
theorem c45_nth (dev : Device) (its : List Item) : ∀ (pos e : Nat), Placed dev pos its e →
    ∀ (n : Nat) (it : Item) (info : RecordInfo), its[n]? = some it →
    (located pos its)[n]? = some info →
    readRecord dev info = .ok (it.record.data, info.ltell + info.size) := by
  induction its with
  | nil => intro pos e _ n it info h; simp at h
  | cons jt its ih =>
    intro pos e h n it info h1 h2
    cases n with
    | zero =>
      simp only [List.getElem?_cons_zero, Option.some.injEq, located] at h1 h2
      subst h1 h2
      exact c45_read dev (pos + jt.pad) 0 0 jt.record h.1 (.inl rfl) (by
        have := (at_split h.2.2.1).2
        rw [List.length_replicate] at this
        simpa using this) _ rfl
    | succ n =>
      rw [List.getElem?_cons_succ] at h1
      rw [located, List.getElem?_cons_succ] at h2
      exact ih _ e h.2.2.2 n it info h1 h2

theorem c45_sum (r : Record) (hne : r.chunks ≠ []) :
    r.size = r.data.length + 2 + (r.chunks.map (fun c => 4 + c.tail.length)).sum := by
  have hs : ∀ cs : List Chunk, (cs.map (Chunk.size [])).sum =
      (cs.map (·.payload)).flatten.length + (cs.map (fun c => 4 + c.tail.length)).sum := by
    intro cs
    induction cs with
    | nil => rfl
    | cons c cs ih =>
      simp only [List.map_cons, List.sum_cons, List.flatten_cons, List.length_append, ih]
      unfold Chunk.size
      simp only [List.length_nil]
      omega
  rcases r with ⟨type, attr, chunks⟩
  cases chunks with
  | nil => exact absurd rfl hne
  | cons c cs =>
    unfold Record.size Record.data
    simp only [List.map_cons, List.sum_cons, List.flatten_cons, List.length_append]
    rw [hs cs]
    unfold Chunk.size
    simp only [List.length_cons, List.length_nil]
    omega

/-- **C45** (size).  The size in the index is the number of bytes from the record to the
next, and so the number of bytes that are read, plus those of the headers and trailers. -/
theorem c45_size (dev : Device) (pos k : Nat) (x : Byte) (r : Record) (hok : r.Ok)
    (hg : Gap dev pos k x) (hat : At dev pos (List.replicate k x ++ r.bytes)) :
    ∃ info data, indexRecord dev pos = .ok (info, info.ltell + info.size) ∧
      readRecord dev info = .ok (data, info.ltell + info.size) ∧
      info.size = data.length + 2 + (r.chunks.map (fun c => 4 + trailer c.attrs)).sum := by
  refine ⟨⟨r.type.toNat, r.size, pos + k⟩, r.data, c44_record dev pos k x r hok hg hat, ?_, ?_⟩
  · refine c45_read dev (pos + k) 0 0 r hok (.inl rfl) ?_ _ rfl
    have := (at_split hat).2
    rw [List.length_replicate] at this
    simpa using this
  · have ht : ∀ c ∈ r.chunks, c.tail.length = trailer c.attrs := by
      obtain ⟨-, hne, -, hcs⟩ := hok
      rcases r with ⟨type, attr, chunks⟩
      cases chunks with
      | nil => exact absurd rfl hne
      | cons c cs =>
        intro d hd
        rcases List.mem_cons.mp hd with rfl | hd
        · exact hcs.1.2.1
        · exact (hcs.2 d hd).2.1
    rw [← List.map_congr_left (f := fun c => 4 + c.tail.length) (fun c hc => by rw [ht c hc])]
    exact c45_sum r hok.2.1

/-- Two physical records with trailers and padding between them; the second has no data
but its trailer. -/
example : readRecord ⟨⟨[9, 0, 9, 2, 1, 64, 0, 3, 0, 1, 0, 6, 2, 2, 0, 2], .eof⟩, fun p => p⟩
    ⟨64, 15, 1⟩ = .ok ([3], 16) := by decide +kernel

/-! ### Any stream -/

/-- **C45** (any stream).  Whatever the file is, the bytes returned for a record are bytes
of the file behind the position of the record, in their order. -/
theorem c45_bytes (dev : Device) (info : RecordInfo) {r : Bytes} {p : Nat}
    (h : readRecord dev info = .ok (r, p)) :
    r.Sublist (dev.src.data.drop info.ltell) := by
  have key : ∀ (data : Bytes) (pos : Nat) (r : Bytes) (p : Nat),
      readLoop dev data pos = .ok (r, p) →
      ∃ s, r = data ++ s ∧ s.Sublist (dev.src.data.drop pos) := by
    intro data pos
    fun_induction readLoop dev data pos with
    | case1 => intro r p h; cases h
    | case2 => intro r p h; cases h
    | case3 => intro r p h; cases h
    | case4 => intro r p h; cases h
    | case5 => intro r p h; cases h
    | case6 data pos prh q hq tr lrh toread _ bs hb _ _ =>
      intro r p h
      cases h
      refine ⟨bs, rfl, ?_⟩
      have hpos := readPrh_pos hq
      obtain ⟨t, ht⟩ := readAt_at_of_ok hb
      have : dev.src.data.drop (q + lrh) = (dev.src.data.drop pos).drop (q + lrh - pos) := by
        rw [List.drop_drop]; congr 1; omega
      have h2 := List.sublist_append_left bs t
      rw [ht, this] at h2
      exact h2.trans (List.drop_sublist _ _)
    | case7 data pos prh q hq tr lrh toread _ bs hb _ _ ih =>
      intro r p h
      obtain ⟨s, rfl, hs⟩ := ih r p h
      refine ⟨bs ++ s, by simp, ?_⟩
      have hpos := readPrh_pos hq
      have hbl := readAt_length hb
      obtain ⟨t, ht⟩ := readAt_at_of_ok hb
      have h1 : dev.src.data.drop (q + lrh) = (dev.src.data.drop pos).drop (q + lrh - pos) := by
        rw [List.drop_drop]; congr 1; omega
      have h2 : dev.src.data.drop (q + lrh + toread + tr) = t.drop tr := by
        rw [← List.drop_drop, ← List.drop_drop, ← ht]
        rw [List.drop_left' hbl]
      rw [h2] at hs
      have h3 : (bs ++ s).Sublist (bs ++ t) :=
        List.Sublist.append (List.Sublist.refl _) (hs.trans (List.drop_sublist _ _))
      rw [ht, h1] at h3
      exact h3.trans (List.drop_sublist _ _)
  unfold readRecord at h
  split at h
  · cases h
  · obtain ⟨s, rfl, hs⟩ := key [] _ _ _ h
    simpa using hs

/-! ### Truncated files -/

/-- One round on a file that ends inside the chunk. -/
theorem readLoop_cut (dev : Device) (he : dev.src.ending = .eof) (l : Bytes × Chunk)
    (hl : l.2.payload ≠ []) (init : List (Bytes × Chunk)) :
    ∀ (data : Bytes) (pos : Nat),
    dev.src.data.drop pos <+: ((init ++ [l]).map (fun c => c.2.bytes c.1)).flatten →
    dev.src.data.length + l.2.tail.length <
      pos + ((init ++ [l]).map (fun c => c.2.size c.1)).sum →
    (∀ c ∈ init, c.2.attrs.testBit 0 = true) →
    (∀ c ∈ init ++ [l], c.2.Ok c.1 ∧ c.1.length = if c.2.attrs.testBit 1 then 0 else 2) →
    ∃ e, readLoop dev data pos = .error e := by
  have short : ∀ data pos, dev.src.data.length < pos + 4 →
      ∃ e, readLoop dev data pos = .error e := by
    intro data pos h
    rw [readLoop]
    obtain ⟨p, hp⟩ := readPrh_short he h
    split
    · exact ⟨_, rfl⟩
    · rename_i hr; rcases hp with hp | hp <;> rw [hp] at hr <;> cases hr
  induction init with
  | nil =>
    intro data pos hpre hlt _ hok
    obtain ⟨hc, hlr⟩ := hok l (by simp)
    rcases l with ⟨lrh, c⟩
    simp only [List.nil_append, List.map_cons, List.map_nil, List.flatten_cons, List.flatten_nil,
      List.append_nil, List.sum_cons, List.sum_nil, Nat.add_zero] at hpre hlt hl hc hlr
    by_cases h4 : dev.src.data.length < pos + 4
    · exact short data pos h4
    have hat : At dev pos (List.replicate 0 0 ++ c.head lrh) := by
      unfold At
      rw [List.replicate_zero, List.nil_append]
      rw [chunk_bytes_head] at hpre
      refine List.prefix_of_prefix_length_le (List.prefix_append _ _) hpre ?_
      rw [List.length_drop]
      simp only [Chunk.head, List.length_cons, List.length_nil]
      omega
    have hrd := readPrh_head dev pos 0 0 lrh c hc (by intro h; rw [hlr, h]; simp) (.inl rfl) hat
    have hsz : c.size lrh = 4 + lrh.length + c.payload.length + c.tail.length := rfl
    have htr : trlen (BitVec.ofNat 16 c.attrs) = c.tail.length := by
      rw [trlen_eq, BitVec.toNat_ofNat, Nat.mod_eq_of_lt hc.1, hc.2.1]
    have hlr' : (if has (BitVec.ofNat 16 c.attrs) PREDCES then 0 else 2) = lrh.length := by
      rw [has_predces_ofNat, hlr]
    have hpl : 0 < c.payload.length := List.length_pos_iff.mpr hl
    rw [readLoop]
    split
    · exact ⟨_, rfl⟩
    rename_i prh p hr
    rw [hrd] at hr
    injection hr with hr
    injection hr with hr1 hr2
    subst hr1 hr2
    simp only
    rw [hlr', htr, chunk_toNat hc]
    rw [show c.size lrh - 4 - c.tail.length - lrh.length = c.payload.length by omega]
    rw [seekOk_eof _ he, readAt_short he (by omega) (by omega)]
    exact ⟨_, rfl⟩
  | cons c init ih =>
    intro data pos hpre hlt hsucc hok
    obtain ⟨hc, hlr⟩ := hok c (by simp)
    have hs := hsucc c List.mem_cons_self
    rcases c with ⟨lrh, c⟩
    simp only [List.cons_append, List.map_cons, List.flatten_cons, List.sum_cons] at hpre hlt hc hlr hs
    by_cases h4 : dev.src.data.length < pos + 4
    · exact short data pos h4
    have hat : At dev pos (List.replicate 0 0 ++ c.head lrh) := by
      unfold At
      rw [List.replicate_zero, List.nil_append]
      rw [chunk_bytes_head, List.append_assoc] at hpre
      refine List.prefix_of_prefix_length_le (List.prefix_append _ _) hpre ?_
      rw [List.length_drop]
      simp only [Chunk.head, List.length_cons, List.length_nil]
      omega
    have hrd := readPrh_head dev pos 0 0 lrh c hc (by intro h; rw [hlr, h]; simp) (.inl rfl) hat
    have hsz : c.size lrh = 4 + lrh.length + c.payload.length + c.tail.length := rfl
    have htr : trlen (BitVec.ofNat 16 c.attrs) = c.tail.length := by
      rw [trlen_eq, BitVec.toNat_ofNat, Nat.mod_eq_of_lt hc.1, hc.2.1]
    have hlr' : (if has (BitVec.ofNat 16 c.attrs) PREDCES then 0 else 2) = lrh.length := by
      rw [has_predces_ofNat, hlr]
    rw [readLoop]
    split
    · exact ⟨_, rfl⟩
    rename_i prh p hr
    rw [hrd] at hr
    injection hr with hr
    injection hr with hr1 hr2
    subst hr1 hr2
    simp only
    rw [hlr', htr, chunk_toNat hc, has_succses_ofNat, hs]
    rw [show c.size lrh - 4 - c.tail.length - lrh.length = c.payload.length by omega]
    rw [seekOk_eof _ he, seekOk_eof _ he]
    simp only [Bool.not_true, Bool.false_eq_true, if_false]
    split
    · exact ⟨_, rfl⟩
    · exact ⟨_, rfl⟩
    · rename_i bs _
      refine ih (data ++ bs) _ ?_ ?_ (fun d hd => hsucc d (List.mem_cons_of_mem _ hd))
        (fun d hd => hok d (by simp only [List.cons_append]; exact List.mem_cons_of_mem _ hd))
      · rw [show pos + 0 + 4 + lrh.length + c.payload.length + c.tail.length =
          pos + c.size lrh by omega]
        obtain ⟨t, ht⟩ := hpre
        by_cases hle : c.size lrh ≤ (dev.src.data.drop pos).length
        · refine ⟨t, ?_⟩
          have := congrArg (List.drop (c.size lrh)) ht
          rw [List.drop_append_of_le_length hle, List.drop_drop] at this
          rw [this]
          exact List.drop_left' (chunk_bytes_length lrh c)
        · rw [List.drop_eq_nil_of_le (by rw [List.length_drop] at hle; omega)]
          exact List.nil_prefix
      · rw [show pos + 0 + 4 + lrh.length + c.payload.length + c.tail.length =
          pos + c.size lrh by omega]
        omega

/-- **C45** (truncated record).  If the file ends before the last byte of the data of a
record, reading the record fails; it does not give a part of the data. -/
theorem c45_truncated (dev : Device) (r : Record) (hok : r.Ok) (info : RecordInfo) (n : Nat)
    (he : dev.src.ending = .eof) (hd : dev.src.data.drop info.ltell = r.bytes.take n)
    (cs : List Chunk) (c : Chunk) (hcs : r.chunks = cs ++ [c]) (hc : c.payload ≠ [])
    (hn : n + c.tail.length < r.size) :
    ∃ e, readRecord dev info = .error e := by
  unfold readRecord
  rw [seekOk_eof _ he]
  simp only [Bool.not_true, Bool.false_eq_true, if_false]
  have hcons : Chain false (r.chunks.map (·.attrs)) := (consistent_chain _).mp hok.2.2.1
  have hch := (chain_iff _ _).mp hcons
  rcases r with ⟨type, attr, chunks⟩
  simp only at hcs hcons hch
  -- the chunks with what is in front of the data
  obtain ⟨init, l, hil, hl2, hbytes, hsize, hsucc, hall⟩ :
      ∃ (init : List (Bytes × Chunk)) (l : Bytes × Chunk),
        (init ++ [l]).map (·.2) = chunks ∧ l.2 = c ∧
        Record.bytes ⟨type, attr, chunks⟩ =
          ((init ++ [l]).map (fun c => c.2.bytes c.1)).flatten ∧
        Record.size ⟨type, attr, chunks⟩ = ((init ++ [l]).map (fun c => c.2.size c.1)).sum ∧
        (∀ c ∈ init, c.2.attrs.testBit 0 = true) ∧
        (∀ c ∈ init ++ [l], c.2.Ok c.1 ∧ c.1.length = if c.2.attrs.testBit 1 then 0 else 2) := by
    have hsplit : ∀ (b : Bool) (as : List Chunk), Chain b ((as ++ [c]).map (·.attrs)) →
        ∀ d ∈ as, d.attrs.testBit 0 = true := by
      intro b as
      induction as generalizing b with
      | nil => intro _ d h; cases h
      | cons a as ih =>
        intro h d hd
        rw [List.cons_append, List.map_cons, Chain] at h
        rcases List.mem_cons.mp hd with rfl | hd
        · rw [h.2.1]; cases as <;> rfl
        · exact ih _ h.2.2 d hd
    have hpred : ∀ (as : List Chunk), Chain true (as.map (·.attrs)) →
        ∀ d ∈ as, d.attrs.testBit 1 = true := by
      intro as
      induction as with
      | nil => intro _ d h; cases h
      | cons a as ih =>
        intro h d hd
        rw [List.map_cons, Chain] at h
        rcases List.mem_cons.mp hd with rfl | hd
        · exact h.1
        · exact ih h.2.2 d hd
    obtain ⟨-, -, -, hoks⟩ := hok
    cases cs with
    | nil =>
      simp only [List.nil_append] at hcs
      subst hcs
      rw [List.map_cons, Chain] at hcons
      refine ⟨[], ([type, attr], c), by simp, rfl, by simp [Record.bytes], by simp [Record.size],
        (fun d hd => by cases hd), ?_⟩
      intro d hd
      simp only [List.nil_append, List.mem_singleton] at hd
      subst hd
      exact ⟨hoks.1, by rw [hcons.1]; rfl⟩
    | cons a cs =>
      simp only [List.cons_append] at hcs
      subst hcs
      have hsu := hsplit false (a :: cs) hcons
      rw [List.map_cons, Chain] at hcons
      refine ⟨([type, attr], a) :: cs.map (fun d => ([], d)), ([], c), ?_, rfl, ?_, ?_, ?_, ?_⟩
      · simp [Function.comp_def]
      · simp [Record.bytes, Function.comp_def]
      · simp [Record.size, Function.comp_def]
      · intro d hd
        rcases List.mem_cons.mp hd with rfl | hd
        · exact hsu a List.mem_cons_self
        · obtain ⟨d', hd', rfl⟩ := List.mem_map.mp hd
          exact hsu d' (List.mem_cons_of_mem _ hd')
      · intro d hd
        rw [List.cons_append] at hd
        rcases List.mem_cons.mp hd with rfl | hd
        · exact ⟨hoks.1, by rw [hcons.1]; rfl⟩
        · have : ∃ d' ∈ cs ++ [c], d = ([], d') := by
            rcases List.mem_append.mp hd with hd | hd
            · obtain ⟨d', hd', rfl⟩ := List.mem_map.mp hd
              exact ⟨d', List.mem_append_left _ hd', rfl⟩
            · rw [List.mem_singleton] at hd
              exact ⟨c, List.mem_append_right _ List.mem_cons_self, hd⟩
          obtain ⟨d', hd', rfl⟩ := this
          exact ⟨hoks.2 d' hd', by rw [hpred _ hcons.2.2 d' hd']; rfl⟩
  subst hl2
  refine readLoop_cut dev he l hc init [] info.ltell ?_ ?_ hsucc hall
  · rw [← hbytes, hd]; exact List.take_prefix _ _
  · rw [← hsize]
    have h1 : (dev.src.data.drop info.ltell).length ≤ n := by
      rw [hd, List.length_take]; omega
    rw [List.length_drop] at h1
    have h2 : 4 ≤ Record.size ⟨type, attr, chunks⟩ := by
      unfold Record.size
      rw [hcs]
      cases cs <;> simp [Chunk.size] <;> omega
    by_cases h3 : dev.src.data.length ≤ info.ltell
    · have h4 : l.2.tail.length < Record.size ⟨type, attr, chunks⟩ := by omega
      omega
    · omega

example : readRecord ⟨⟨[0, 9, 0, 1, 64, 0, 3, 4, 5, 0, 6, 0, 2, 6], .eof⟩, fun p => p⟩
    ⟨64, 15, 0⟩ = .error (.readTruncated, 14) := by decide +kernel

end Dlisio.Lis
