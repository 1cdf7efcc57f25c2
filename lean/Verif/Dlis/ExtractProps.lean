/-
C17 (record extraction) and C18 (partial extraction).
-/
import Verif.Dlis.IoLemmas

namespace Dlisio.Dlis

namespace Spec

/-- `SegContent a raw body notes`: for a segment with attribute byte `a` whose bytes
after the header are `raw`, the record data is `body`.  Either `raw` is the data
followed by a trailer, or (tolerated malformation, reported as a minor problem) the
padding count covers the complete segment including its 4-byte header. -/
inductive SegContent (a : Byte) : Bytes → Bytes → Nat → Prop where
  | plain (body tail : Bytes) (h : Trailer a tail) : SegContent a (body ++ tail) body 0
  | overpadded (raw : Bytes) (n : Byte) (henc : a.toNat / 2 ^ 4 % 2 = 0)
      (hpad : a.toNat / 2 ^ 0 % 2 = 1) (hn : raw.reverse[fixedTrailer a]? = some n)
      (hsize : fixedTrailer a + n.toNat = raw.length + 4) : SegContent a raw [] 1

/-- A logical record segment. -/
structure Seg where
  attrs : Byte
  type : Byte
  /-- the bytes after the header -/
  raw : Bytes
  /-- the record data among them -/
  body : Bytes
  /-- number of problems in this segment that are worth a note -/
  notes : Nat

/-- A segment as the standard allows it: its length fits the 16-bit length field. -/
def Seg.WF (s : Seg) : Prop :=
  SegContent s.attrs s.raw s.body s.notes ∧ 4 + s.raw.length < 2 ^ 16

/-- The bytes of a segment: length (16 bit big endian, including the header),
attributes, type, and the rest. -/
def Seg.bytes (s : Seg) : Bytes :=
  [BitVec.ofNat 8 ((4 + s.raw.length) / 256), BitVec.ofNat 8 ((4 + s.raw.length) % 256),
    s.attrs, s.type] ++ s.raw

/-- Is the segment announced to be continued by another one? -/
def Seg.Continued (s : Seg) : Prop := s.attrs.toNat / 2 ^ 5 % 2 = 1

instance (s : Seg) : Decidable s.Continued := by unfold Seg.Continued; infer_instance

/-- A logical record: segments of which all but the last are announced to be
continued. -/
inductive IsRecord : List Seg → Prop where
  | last (s : Seg) (hs : s.WF) (hc : ¬ s.Continued) : IsRecord [s]
  | more (s : Seg) (r : List Seg) (hs : s.WF) (hc : s.Continued) (hr : IsRecord r) :
      IsRecord (s :: r)

/-- The bytes of a record. -/
def recordBytes (segs : List Seg) : Bytes := segs.flatMap Seg.bytes

/-- The data of a record: the segment bodies, concatenated. -/
def recordData (segs : List Seg) : Bytes := segs.flatMap Seg.body

/-- Number of tolerated problems in a record. -/
def recordNotes (segs : List Seg) : Nat := (segs.map Seg.notes).sum

/-- The formatting (bit 7) and encryption (bit 4) bits of an attribute byte. -/
def fmtEncBits (a : Byte) : Byte :=
  BitVec.ofNat 8 (a.toNat / 2 ^ 7 % 2 * 128 + a.toNat / 2 ^ 4 % 2 * 16)

end Spec

theorem fmtenc_eq (a : Byte) : a &&& fmtenc = Spec.fmtEncBits a := by
  revert a; decide +kernel

theorem seg_header (s : Spec.Seg) (h : s.WF) :
    lrsh [BitVec.ofNat 8 ((4 + s.raw.length) / 256), BitVec.ofNat 8 ((4 + s.raw.length) % 256),
      s.attrs, s.type] = some ⟨4 + s.raw.length, s.attrs, s.type.toNat⟩ := by
  have := h.2
  refine (c15_lrsh _ _).2 ⟨_, [], (List.append_nil _).symm, rfl, ?_, by simp [beNat], by simp [beNat]⟩
  simp [beNat]; omega

theorem flag_succ (a : Byte) : flag a SEGATTR_SUCCSEG = true ↔ a.toNat / 2 ^ 5 % 2 = 1 :=
  flag_iff a 0x20 5 (by decide)

theorem flag_pad (a : Byte) : flag a SEGATTR_PADDING = true ↔ a.toNat / 2 ^ 0 % 2 = 1 :=
  flag_iff a 0x01 0 (by decide)

theorem flag_trail (a : Byte) : flag a SEGATTR_TRAILEN = true ↔ a.toNat / 2 ^ 1 % 2 = 1 :=
  flag_iff a 0x02 1 (by decide)

theorem flag_chk (a : Byte) : flag a SEGATTR_CHCKSUM = true ↔ a.toNat / 2 ^ 2 % 2 = 1 :=
  flag_iff a 0x04 2 (by decide)

theorem flag_expl (a : Byte) : flag a SEGATTR_EXFMTLR = true ↔ a.toNat / 2 ^ 7 % 2 = 1 :=
  flag_iff a 0x80 7 (by decide)

theorem flag_pred (a : Byte) : flag a SEGATTR_PREDSEG = true ↔ a.toNat / 2 ^ 6 % 2 = 1 :=
  flag_iff a 0x40 6 (by decide)

theorem flag_enc (a : Byte) : flag a SEGATTR_ENCRYPT = true ↔ a.toNat / 2 ^ 4 % 2 = 1 :=
  flag_iff a 0x10 4 (by decide)

theorem trimSegment_content (policy : Policy) {a : Byte} {acc raw body : Bytes} {k : Nat}
    (h : Spec.SegContent a raw body k) (hp : policy .minor = false ∨ k = 0) :
    trimSegment policy a acc raw = .ok (body, k) := by
  cases h with
  | plain _ tail ht =>
    obtain ⟨h1, h2⟩ := c16_body_left a acc body tail ht
    simp only [trimSegment, h1, h2]
  | overpadded _ n henc hpad hn hsize =>
    have hlt : Spec.fixedTrailer a < raw.length := by
      have := (List.getElem?_eq_some_iff.1 hn).1; simpa using this
    have hp' : policy .minor = false := by
      rcases hp with h | h
      · exact h
      · cases h
    have ht : trimRecordSegment a acc raw = some (.badSize, raw.length + 4) := by
      rw [trim_eq, if_neg (by omega), if_pos hpad, List.reverse_append,
        List.getElem?_append_left (by simpa using hlt), hn]
      simp only [Option.map_some, hsize, trimVerdict]
      rw [if_pos (by omega)]
    simp only [trimSegment, ht, hp']
    simp

theorem toRead_full {a : Byte} {raw body : Bytes} {k : Nat} (h : Spec.SegContent a raw body k)
    (remaining : Nat) (hr : body.length ≤ remaining) :
    toRead a remaining raw.length = raw.length := by
  unfold toRead
  split
  · rename_i hc
    simp only [Bool.and_eq_true, Bool.not_eq_eq_eq_not, Bool.not_true, decide_eq_true_eq] at hc
    obtain ⟨⟨⟨h1, h2⟩, h3⟩, h4⟩ := hc
    have f0 := flag_pad a
    have f1 := flag_trail a
    have f2 := flag_chk a
    rw [h1] at f0; rw [h2] at f1; rw [h3] at f2
    simp only [Bool.false_eq_true, false_iff] at f0 f1 f2
    cases h with
    | plain _ tail ht =>
      have : tail = [] := by
        unfold Spec.Trailer at ht
        split at ht
        · exact ht
        · obtain ⟨pad, chk, len, rfl, hp, hc, hl⟩ := ht
          rw [List.length_eq_zero_iff] at hc hl
          simp [hp, hc, hl]
      subst this; simp at h4; omega
    | overpadded _ n _ hpad _ _ => exact absurd hpad f0
  · rfl

/-- reading a segment in the middle of a stream -/
theorem read_seg (pre post : Bytes) (e : Ending) (s : Spec.Seg) :
    readAt ⟨pre ++ s.bytes ++ post, e⟩ pre.length 4 =
      .ok [BitVec.ofNat 8 ((4 + s.raw.length) / 256), BitVec.ofNat 8 ((4 + s.raw.length) % 256),
        s.attrs, s.type] ∧
    readAt ⟨pre ++ s.bytes ++ post, e⟩ (pre.length + 4) s.raw.length = .ok s.raw := by
  constructor
  · have := readAt_append pre [BitVec.ofNat 8 ((4 + s.raw.length) / 256),
      BitVec.ofNat 8 ((4 + s.raw.length) % 256), s.attrs, s.type] (s.raw ++ post) e
      pre.length 4 rfl rfl
    rw [← this]; simp [Spec.Seg.bytes]
  · have := readAt_append (pre ++ [BitVec.ofNat 8 ((4 + s.raw.length) / 256),
      BitVec.ofNat 8 ((4 + s.raw.length) % 256), s.attrs, s.type]) s.raw post e
      (pre.length + 4) s.raw.length (by simp) rfl
    rw [← this]; simp [Spec.Seg.bytes]

theorem seg_bytes_length (s : Spec.Seg) : s.bytes.length = 4 + s.raw.length := by
  simp [Spec.Seg.bytes]; omega

theorem extractLoop_record (policy : Policy) (e : Ending) (limit : Nat) (segs : List Spec.Seg)
    (hr : Spec.IsRecord segs) (pre post acc : Bytes) (first : Option (Byte × Nat)) (logs : Nat)
    (hl : acc.length + (Spec.recordData segs).length < limit)
    (hp : policy .minor = false ∨ ∀ s ∈ segs, s.notes = 0)
    (s0 : Spec.Seg) (h0 : segs.head? = some s0) :
    extractLoop policy ⟨pre ++ Spec.recordBytes segs ++ post, e⟩ limit pre.length acc first logs =
      .ok ({ type := (first.getD (s0.attrs, s0.type.toNat)).2,
             attributes := Spec.fmtEncBits (first.getD (s0.attrs, s0.type.toNat)).1,
             data := acc ++ Spec.recordData segs },
           logs + Spec.recordNotes segs) := by
  induction hr generalizing pre acc first logs s0 with
  | last s hs hc =>
    simp only [List.head?_cons, Option.some.injEq] at h0; subst h0
    have hb : Spec.recordBytes [s] = s.bytes := by simp [Spec.recordBytes]
    have hd : Spec.recordData [s] = s.body := by simp [Spec.recordData]
    have hn : Spec.recordNotes [s] = s.notes := by simp [Spec.recordNotes]
    rw [hd] at hl
    obtain ⟨r1, r2⟩ := read_seg pre post e s
    have ht := trimSegment_content policy (acc := acc) hs.1
      (hp.imp id (fun h => h s (by simp)))
    have hrd := toRead_full hs.1 (limit - acc.length) (by omega)
    have hsucc : flag s.attrs SEGATTR_SUCCSEG = false := by
      rw [Bool.eq_false_iff, ne_eq, flag_succ]; exact hc
    rw [extractLoop_eq, hb, r1]
    simp only [seg_header s hs, Nat.add_sub_cancel_left, hrd, r2, ht, hsucc, hd, hn,
      Bool.false_and, Bool.false_eq_true, if_false, fmtenc_eq]
    rw [if_neg (by omega), List.take_of_length_le (by simp; omega)]
  | more s r hs hc hr ih =>
    simp only [List.head?_cons, Option.some.injEq] at h0; subst h0
    have hb : Spec.recordBytes (s :: r) = s.bytes ++ Spec.recordBytes r := by
      simp [Spec.recordBytes]
    have hd : Spec.recordData (s :: r) = s.body ++ Spec.recordData r := by
      simp [Spec.recordData]
    have hn : Spec.recordNotes (s :: r) = s.notes + Spec.recordNotes r := by
      simp [Spec.recordNotes]
    rw [hd, List.length_append] at hl
    obtain ⟨r1, r2⟩ := read_seg pre (Spec.recordBytes r ++ post) e s
    have ht := trimSegment_content policy (acc := acc) hs.1
      (hp.imp id (fun h => h s (by simp)))
    have hrd := toRead_full hs.1 (limit - acc.length) (by omega)
    have hsucc : flag s.attrs SEGATTR_SUCCSEG = true := (flag_succ _).2 hc
    have hlim : (acc ++ s.body).length < limit := by simp; omega
    have hpos : pre.length + 4 + s.raw.length = (pre ++ s.bytes).length := by
      simp [seg_bytes_length]; omega
    obtain ⟨s1, h1⟩ : ∃ s1, r.head? = some s1 := by
      cases hr <;> exact ⟨_, rfl⟩
    have := ih (pre ++ s.bytes) (acc ++ s.body)
      (some (first.getD (s.attrs, s.type.toNat))) (logs + s.notes) (by simp; omega)
      (hp.imp id (fun h x hx => h x (by simp [hx]))) s1 h1
    have hsrc : pre ++ Spec.recordBytes (s :: r) ++ post =
        pre ++ s.bytes ++ (Spec.recordBytes r ++ post) := by rw [hb]; simp
    have hsrc' : pre ++ s.bytes ++ Spec.recordBytes r ++ post =
        pre ++ s.bytes ++ (Spec.recordBytes r ++ post) := by simp
    rw [hsrc'] at this
    rw [extractLoop_eq, hsrc, r1]
    simp only [seg_header s hs, Nat.add_sub_cancel_left, hrd, r2, ht, hsucc, hd, hn, hlim,
      decide_true, Bool.and_true, if_true, hpos, this]
    rw [if_neg (by omega)]
    simp [Nat.add_assoc]

/-- C17.  Extracting the record at its offset returns the concatenation of its segment
bodies (padding, checksum and trailing length removed), the type of its first segment
and that segment's formatting and encryption bits - however the record is split into
segments, whatever stands before and after it, and whatever the end of the stream
looks like.  A minor problem is noted for each segment with an absurd padding count. -/
theorem c17_extract (policy : Policy) (e : Ending) (segs : List Spec.Seg)
    (hr : Spec.IsRecord segs) (pre post : Bytes) (s0 : Spec.Seg) (h0 : segs.head? = some s0)
    (hl : (Spec.recordData segs).length < 2 ^ 63 - 1)
    (hp : policy .minor = false ∨ ∀ s ∈ segs, s.notes = 0) :
    extract policy ⟨pre ++ Spec.recordBytes segs ++ post, e⟩ pre.length =
      .ok ({ type := s0.type.toNat, attributes := Spec.fmtEncBits s0.attrs,
             data := Spec.recordData segs }, Spec.recordNotes segs) := by
  have hseek : seekOk ⟨pre ++ Spec.recordBytes segs ++ post, e⟩ pre.length = true := by
    unfold seekOk; rw [if_pos (by simp)]
  rw [extract, extractN, hseek]
  simp only [Bool.not_true, Bool.false_eq_true, if_false]
  rw [extractLoop_record policy e _ segs hr pre post [] none 0 (by simpa using hl) hp s0 h0]
  simp

/-- C17.  The extracted record does not depend on how the record is split, nor on its
surroundings: two layouts with the same first segment attributes, type and the same data
extract to the same record. -/
theorem c17_split_independent (policy : Policy) (e e' : Ending) (segs segs' : List Spec.Seg)
    (hr : Spec.IsRecord segs) (hr' : Spec.IsRecord segs') (pre post pre' post' : Bytes)
    (s0 s0' : Spec.Seg) (h0 : segs.head? = some s0) (h0' : segs'.head? = some s0')
    (hl : (Spec.recordData segs).length < 2 ^ 63 - 1)
    (hp : policy .minor = false)
    (ht : s0.type = s0'.type) (ha : Spec.fmtEncBits s0.attrs = Spec.fmtEncBits s0'.attrs)
    (hd : Spec.recordData segs = Spec.recordData segs') :
    (extract policy ⟨pre ++ Spec.recordBytes segs ++ post, e⟩ pre.length).map (·.1) =
    (extract policy ⟨pre' ++ Spec.recordBytes segs' ++ post', e'⟩ pre'.length).map (·.1) := by
  rw [c17_extract policy e segs hr pre post s0 h0 hl (Or.inl hp),
    c17_extract policy e' segs' hr' pre' post' s0' h0' (hd ▸ hl) (Or.inl hp), ht, ha, hd]
  rfl

/-- Case: a record of two segments, the first with padding, in the middle of other
bytes. -/
example : extract (fun _ => false)
    ⟨[9, 9] ++ ([0, 8, 0xa1, 4, 1, 2, 3, 1] ++ [0, 6, 0xc0, 4, 5, 6]) ++ [7], .eof⟩ 2 =
      .ok (⟨4, 0x80, [1, 2, 3, 5, 6]⟩, 0) := by
  have h1 : Spec.IsRecord [⟨0xa1, 4, [1, 2, 3, 1], [1, 2, 3], 0⟩, ⟨0xc0, 4, [5, 6], [5, 6], 0⟩] := by
    refine .more _ _ ⟨?_, by decide⟩ (by decide) (.last _ ⟨?_, by decide⟩ (by decide))
    · refine .plain [1, 2, 3] [1] ?_
      unfold Spec.Trailer
      rw [if_neg (by decide)]
      exact ⟨[1], [], [], rfl, by rw [if_pos (by decide)]; exact ⟨[], 1, rfl, rfl⟩, by decide,
        by decide⟩
    · refine .plain [5, 6] [] ?_
      unfold Spec.Trailer
      rw [if_neg (by decide)]
      exact ⟨[], [], [], rfl, rfl, by decide, by decide⟩
  exact c17_extract _ .eof _ h1 [9, 9] [7] _ rfl (by decide) (Or.inl rfl)

/-! ### soundness: success means that a complete chain of segments was read -/

namespace Spec

/-- From position `pos` the stream holds segments with these headers, one after the
other and completely: the list gives for each the position, its total size (at least
4), its attributes and type; all but the last are announced to be continued. -/
inductive Chain (data : Bytes) : Nat → List (Nat × Nat × Byte × Byte) → Prop where
  | last (pos len : Nat) (a t : Byte) (h4 : 4 ≤ len) (hin : pos + len ≤ data.length)
      (hh : (data.drop pos).take 4 = [BitVec.ofNat 8 (len / 256), BitVec.ofNat 8 (len % 256), a, t])
      (hs : len < 2 ^ 16) (hc : a.toNat / 2 ^ 5 % 2 = 0) : Chain data pos [(pos, len, a, t)]
  | more (pos len : Nat) (a t : Byte) (r : List (Nat × Nat × Byte × Byte)) (h4 : 4 ≤ len)
      (hin : pos + len ≤ data.length)
      (hh : (data.drop pos).take 4 = [BitVec.ofNat 8 (len / 256), BitVec.ofNat 8 (len % 256), a, t])
      (hs : len < 2 ^ 16) (hc : a.toNat / 2 ^ 5 % 2 = 1) (hr : Chain data (pos + len) r) :
      Chain data pos ((pos, len, a, t) :: r)

end Spec

/-- a header that was read, in terms of its bytes -/
theorem header_bytes {buf : Bytes} {hd : Lrsh} (hb : buf.length = 4) (h : lrsh buf = some hd) :
    ∃ t : Byte, buf = [BitVec.ofNat 8 (hd.length / 256), BitVec.ofNat 8 (hd.length % 256),
      hd.attrs, t] ∧ hd.length < 2 ^ 16 ∧ hd.type = t.toNat := by
  match buf, hb with
  | [a, b, c, d], _ =>
    obtain ⟨e, r, h1, h2, h3, h4, h5⟩ := (c15_lrsh _ _).1 h
    match e, h2 with
    | [a', b', c', d'], _ =>
      simp only [List.cons_append, List.nil_append, List.cons.injEq] at h1
      obtain ⟨rfl, rfl, rfl, rfl, _⟩ := h1
      simp [beNat] at h3 h4 h5
      have := a.isLt
      have := b.isLt
      refine ⟨d, ?_, by omega, h5⟩
      have e1 : BitVec.ofNat 8 (hd.length / 256) = a := by
        apply BitVec.eq_of_toNat_eq; simp; omega
      have e2 : BitVec.ofNat 8 (hd.length % 256) = b := by
        apply BitVec.eq_of_toNat_eq; simp; omega
      have e3 : hd.attrs = c := BitVec.eq_of_toNat_eq h4
      rw [e1, e2, e3]

theorem trimSegment_length {policy : Policy} {a : Byte} {acc seg body : Bytes} {k : Nat}
    (h : trimSegment policy a acc seg = .ok (body, k)) : body.length ≤ seg.length := by
  unfold trimSegment at h
  split at h
  · cases h
  · cases h; simp
  · split at h
    · cases h
    · split at h
      · cases h
      · cases h; simp
  · cases h

theorem toRead_le (a : Byte) (r n : Nat) : toRead a r n ≤ n := by
  unfold toRead; split
  · rename_i h; simp at h; omega
  · exact Nat.le_refl _

theorem toRead_of_le (a : Byte) (r n : Nat) (h : n ≤ r) : toRead a r n = n := by
  unfold toRead; split
  · rename_i h'; simp at h'; omega
  · rfl

theorem extractLoop_sound (policy : Policy) (src : Source) (limit : Nat)
    (hlim : src.data.length < limit) (pos : Nat) :
    ∀ (acc : Bytes) (first : Option (Byte × Nat)) (logs : Nat) (rec : Record) (n : Nat),
    acc.length ≤ pos →
    extractLoop policy src limit pos acc first logs = .ok (rec, n) →
    ∃ p l a t r, Spec.Chain src.data pos ((p, l, a, t) :: r) ∧
      rec.type = (first.getD (a, t.toNat)).2 ∧
      rec.attributes = Spec.fmtEncBits (first.getD (a, t.toNat)).1 ∧
      rec.data.length ≤ acc.length + ((((p, l, a, t) :: r).map (fun x => x.2.1 - 4)).sum) := by
  induction pos using stream_induction src with | _ pos ih =>
  intro acc first logs rec n hacc h
  rw [extractLoop_eq] at h
  cases hrd : readAt src pos 4 with
  | error => rw [hrd] at h; cases h
  | eof => rw [hrd] at h; cases h
  | ok buf =>
    rw [hrd] at h
    obtain ⟨hin, hbuf⟩ := readAt_ok hrd (by omega)
    have hlen4 := readAt_length hrd
    simp only at h
    cases hh : lrsh buf with
    | none => rw [hh] at h; cases h
    | some hd =>
      rw [hh] at h
      obtain ⟨t, ht1, ht2, ht3⟩ := header_bytes hlen4 hh
      simp only at h
      split at h
      · cases h
      · rename_i h4
        by_cases hle : hd.length - 4 ≤ limit - acc.length
        · rw [toRead_of_le _ _ _ hle] at h
          cases hrb : readAt src (pos + 4) (hd.length - 4) with
          | error => rw [hrb] at h; cases h
          | eof => rw [hrb] at h; cases h
          | ok seg =>
            rw [hrb] at h
            have hseg := readAt_length hrb
            have hin2 : pos + hd.length ≤ src.data.length := by
              by_cases h0 : hd.length - 4 = 0
              · omega
              · have := (readAt_ok hrb h0).1; omega
            simp only at h
            cases htr : trimSegment policy hd.attrs acc seg with
            | error => rw [htr] at h; cases h
            | ok x =>
              obtain ⟨body, k⟩ := x
              have hbl := trimSegment_length htr
              rw [htr] at h
              simp only at h
              have hb4 : (src.data.drop pos).take 4 = [BitVec.ofNat 8 (hd.length / 256),
                BitVec.ofNat 8 (hd.length % 256), hd.attrs, t] := by rw [← hbuf]; exact ht1
              have hacc' : (acc ++ body).length ≤ pos + hd.length := by simp; omega
              split at h
              · rename_i hs
                simp only [Bool.and_eq_true, flag_succ] at hs
                obtain ⟨p, l, a, t', r, hc, e1, e2, e3⟩ :=
                  ih (pos + 4 + (hd.length - 4)) (by omega) hin _ _ _ _ _
                    (by simp; omega) h
                refine ⟨pos, hd.length, hd.attrs, t, _,
                  .more pos hd.length hd.attrs t _ (by omega) hin2 hb4 ht2 hs.1
                    (by rw [show pos + hd.length = pos + 4 + (hd.length - 4) by omega]; exact hc),
                  ?_, ?_, ?_⟩
                · rw [e1, ht3]; rfl
                · rw [e2, ht3]; rfl
                · simp only [List.map_cons, List.sum_cons, List.length_append] at e3 ⊢; omega
              · rename_i hs
                have hns : ¬ hd.attrs.toNat / 2 ^ 5 % 2 = 1 := by
                  intro hcon
                  apply hs
                  have hlt : (acc ++ body).length < limit := by simp at hacc' ⊢; omega
                  simp only [Bool.and_eq_true, flag_succ, hlt, decide_true, and_true]; exact hcon
                cases h
                refine ⟨pos, hd.length, hd.attrs, t, [],
                  .last pos hd.length hd.attrs t (by omega) hin2 hb4 ht2 (by omega), ?_, ?_, ?_⟩
                · rw [ht3]
                · simp only [ht3, fmtenc_eq]
                · simp; omega
        · exfalso
          have hr := toRead_le hd.attrs (limit - acc.length) (hd.length - 4)
          by_cases hacl : acc.length ≤ src.data.length
          · have hne : toRead hd.attrs (limit - acc.length) (hd.length - 4) ≠ 0 := by
              unfold toRead; split <;> omega
            cases hrb : readAt src (pos + 4)
                (toRead hd.attrs (limit - acc.length) (hd.length - 4)) with
            | error => rw [hrb] at h; cases h
            | eof => rw [hrb] at h; cases h
            | ok seg =>
              have := (readAt_ok hrb hne).1
              have hge : limit - acc.length ≤ toRead hd.attrs (limit - acc.length) (hd.length - 4) := by
                unfold toRead; split <;> omega
              omega
          · omega

/-- C17, soundness.  Whenever extraction succeeds, the stream holds at that offset a
complete chain of segments (each with a length of at least 4 and lying entirely inside
the stream, all but the last announced to be continued); type and formatting and
encryption bits are those of the first one, and the data is not longer than the
segments' contents. In particular a truncated record is never returned. -/
theorem c17_success_means_complete (policy : Policy) (src : Source) (tell : Nat)
    (rec : Record) (n : Nat) (hlim : src.data.length < 2 ^ 63 - 1)
    (h : extract policy src tell = .ok (rec, n)) :
    ∃ p l a t r, Spec.Chain src.data tell ((p, l, a, t) :: r) ∧
      rec.type = t.toNat ∧ rec.attributes = Spec.fmtEncBits a ∧
      rec.data.length ≤ (((p, l, a, t) :: r).map (fun x => x.2.1 - 4)).sum := by
  unfold extract extractN at h
  split at h
  · cases h
  · obtain ⟨p, l, a, t, r, h1, h2, h3, h4⟩ :=
      extractLoop_sound policy src _ hlim tell [] none 0 rec n (by simp) h
    exact ⟨p, l, a, t, r, h1, h2, h3, by simpa using h4⟩

/-! ### C18 -/

theorem extractLoop_prefix (policy : Policy) (src : Source) (limit : Nat) (pos : Nat) :
    ∀ (acc : Bytes) (first : Option (Byte × Nat)) (logs : Nat) (rec : Record) (n : Nat),
    acc.length ≤ limit →
    extractLoop policy src limit pos acc first logs = .ok (rec, n) →
    (∃ r, rec.data = acc ++ r) ∧ logs ≤ n ∧
      ∀ x, first = some x → rec.type = x.2 ∧ rec.attributes = x.1 &&& fmtenc := by
  induction pos using stream_induction src with | _ pos ih =>
  intro acc first logs rec n hacc h
  rw [extractLoop_eq] at h
  cases hrd : readAt src pos 4 with
  | error => rw [hrd] at h; cases h
  | eof => rw [hrd] at h; cases h
  | ok buf =>
    rw [hrd] at h
    obtain ⟨hin, hbuf⟩ := readAt_ok hrd (by omega)
    simp only at h
    cases hh : lrsh buf with
    | none => rw [hh] at h; cases h
    | some hd =>
      rw [hh] at h
      simp only at h
      split at h
      · cases h
      · cases hrb : readAt src (pos + 4)
            (toRead hd.attrs (limit - acc.length) (hd.length - 4)) with
        | error => rw [hrb] at h; cases h
        | eof => rw [hrb] at h; cases h
        | ok seg =>
          rw [hrb] at h
          simp only at h
          cases htr : trimSegment policy hd.attrs acc seg with
          | error => rw [htr] at h; cases h
          | ok x =>
            obtain ⟨body, k⟩ := x
            rw [htr] at h
            simp only at h
            split at h
            · rename_i hs
              simp only [Bool.and_eq_true, decide_eq_true_eq] at hs
              obtain ⟨⟨r, hr⟩, hn, hf⟩ := ih _ (by omega) hin _ _ _ _ _ (by omega) h
              refine ⟨⟨body ++ r, by rw [hr, List.append_assoc]⟩, by omega, ?_⟩
              rintro x rfl
              exact hf x rfl
            · cases h
              refine ⟨⟨body.take (limit - acc.length), ?_⟩, by omega, ?_⟩
              · simp only [List.take_append, List.take_of_length_le hacc]
              · rintro x rfl; exact ⟨rfl, rfl⟩

/-- without padding, checksum and trailing length nothing is trimmed -/
theorem trimSegment_none (policy : Policy) (a : Byte) (acc seg : Bytes)
    (h0 : flag a SEGATTR_PADDING = false) (h1 : flag a SEGATTR_TRAILEN = false)
    (h2 : flag a SEGATTR_CHCKSUM = false) : trimSegment policy a acc seg = .ok (seg, 0) := by
  have : trimRecordSegment a acc seg = some (.ok, 0) := by
    unfold trimRecordSegment
    simp [h0, trailerSize, h1, h2, trimVerdict]
  simp [trimSegment, this]

theorem readAt_take {src : Source} {pos n m : Nat} {bs : Bytes} (h : readAt src pos n = .ok bs)
    (hm : m ≤ n) : readAt src pos m = .ok (bs.take m) := by
  by_cases h0 : m = 0
  · subst h0; simp [readAt]
  · obtain ⟨h1, rfl⟩ := readAt_ok h (by omega)
    unfold readAt
    rw [if_neg h0, if_pos (by omega), List.take_take]
    congr 2; omega

theorem extractLoop_partial (policy : Policy) (src : Source) (limit small : Nat)
    (hsm : small ≤ limit) (pos : Nat) :
    ∀ (acc : Bytes) (first : Option (Byte × Nat)) (logs : Nat) (rec : Record) (n : Nat),
    acc.length ≤ small →
    extractLoop policy src limit pos acc first logs = .ok (rec, n) →
    ∃ n', n' ≤ n ∧ extractLoop policy src small pos acc first logs =
      .ok ({ rec with data := rec.data.take small }, n') := by
  induction pos using stream_induction src with | _ pos ih =>
  intro acc first logs rec n hacc h
  have hpre := extractLoop_prefix policy src limit pos acc first logs rec n (by omega) h
  rw [extractLoop_eq] at h ⊢
  cases hrd : readAt src pos 4 with
  | error => rw [hrd] at h; cases h
  | eof => rw [hrd] at h; cases h
  | ok buf =>
    rw [hrd] at h
    obtain ⟨hin, hbuf⟩ := readAt_ok hrd (by omega)
    simp only at h ⊢
    cases hh : lrsh buf with
    | none => rw [hh] at h; cases h
    | some hd =>
      rw [hh] at h
      simp only at h ⊢
      split at h
      · cases h
      · rename_i h4
        rw [if_neg h4]
        cases hrb : readAt src (pos + 4)
            (toRead hd.attrs (limit - acc.length) (hd.length - 4)) with
        | error => rw [hrb] at h; cases h
        | eof => rw [hrb] at h; cases h
        | ok seg =>
          rw [hrb] at h
          have hsegl := readAt_length hrb
          simp only at h
          -- is the segment read partially by the limited extraction?
          by_cases hpart : toRead hd.attrs (small - acc.length) (hd.length - 4) =
              toRead hd.attrs (limit - acc.length) (hd.length - 4)
          · rw [hpart, hrb]
            simp only
            cases htr : trimSegment policy hd.attrs acc seg with
            | error => rw [htr] at h; cases h
            | ok x =>
              obtain ⟨body, k⟩ := x
              rw [htr] at h
              simp only at h ⊢
              by_cases hs : flag hd.attrs SEGATTR_SUCCSEG = true
              · by_cases hlt : (acc ++ body).length < small
                · have hlt' : (acc ++ body).length < limit := by omega
                  simp only [hs, hlt', decide_true, Bool.and_true, if_true] at h
                  simp only [hs, hlt, decide_true, Bool.and_true, if_true]
                  exact ih _ (by omega) hin _ _ _ _ _ (by omega) h
                · simp only [hs, hlt, decide_false, Bool.and_false, Bool.false_eq_true, if_false]
                  by_cases hlt' : (acc ++ body).length < limit
                  · simp only [hs, hlt', decide_true, Bool.and_true, if_true] at h
                    obtain ⟨⟨r, hr⟩, hn, hf⟩ :=
                      extractLoop_prefix policy src limit _ _ _ _ _ _ (by omega) h
                    obtain ⟨ht, ha⟩ := hf _ rfl
                    refine ⟨logs + k, hn, ?_⟩
                    rw [← ht, ← ha, hr, List.take_append_of_le_length (l₁ := acc ++ body) (l₂ := r) (by omega)]
                  · simp only [hs, hlt', decide_false, Bool.and_false, Bool.false_eq_true,
                      if_false] at h
                    cases h
                    refine ⟨_, Nat.le_refl _, ?_⟩
                    rw [List.take_take, Nat.min_eq_left hsm]
              · rw [Bool.not_eq_true] at hs
                simp only [hs, Bool.false_and, Bool.false_eq_true, if_false] at h ⊢
                cases h
                refine ⟨_, Nat.le_refl _, ?_⟩
                rw [List.take_take, Nat.min_eq_left hsm]
          · -- partial read: no trailer, and fewer bytes left than the segment has
            have hno : flag hd.attrs SEGATTR_PADDING = false ∧
                flag hd.attrs SEGATTR_TRAILEN = false ∧ flag hd.attrs SEGATTR_CHCKSUM = false ∧
                toRead hd.attrs (small - acc.length) (hd.length - 4) = small - acc.length ∧
                small - acc.length ≤ toRead hd.attrs (limit - acc.length) (hd.length - 4) := by
              unfold toRead at hpart ⊢
              cases h0 : flag hd.attrs SEGATTR_PADDING <;>
                cases h1 : flag hd.attrs SEGATTR_TRAILEN <;>
                cases h2 : flag hd.attrs SEGATTR_CHCKSUM <;>
                simp only [h0, h1, h2, Bool.not_true, Bool.not_false, Bool.true_and, Bool.false_and,
                  Bool.and_false, Bool.and_true, Bool.false_eq_true, if_false, not_true_eq_false,
                  decide_eq_true_eq, true_and] at hpart ⊢
              by_cases hlt : small - acc.length < hd.length - 4
              · rw [if_pos hlt]
                refine ⟨rfl, ?_⟩
                split <;> omega
              · rw [if_neg hlt] at hpart
                split at hpart
                · omega
                · exact absurd rfl hpart
            obtain ⟨h0, h1, h2, hsmall, hle⟩ := hno
            rw [hsmall, readAt_take hrb hle]
            have htr := trimSegment_none policy hd.attrs acc seg h0 h1 h2
            have htr' := trimSegment_none policy hd.attrs acc (seg.take (small - acc.length)) h0 h1 h2
            rw [htr] at h
            have hlen : (acc ++ seg.take (small - acc.length)).length = small := by
              simp only [List.length_append, List.length_take]; omega
            simp only [htr', hlen, Nat.lt_irrefl, decide_false, Bool.and_false, Bool.false_eq_true,
              if_false] at h ⊢
            have hdata : (acc ++ seg).take small = acc ++ seg.take (small - acc.length) := by
              simp only [List.take_append, List.take_of_length_le hacc]
            by_cases hgo : (flag hd.attrs SEGATTR_SUCCSEG && decide ((acc ++ seg).length < limit))
                = true
            · rw [if_pos hgo] at h
              simp only [Bool.and_eq_true, decide_eq_true_eq] at hgo
              obtain ⟨⟨r, hr⟩, hn, hf⟩ :=
                extractLoop_prefix policy src limit _ _ _ _ _ _ (by omega) h
              obtain ⟨ht, ha⟩ := hf _ rfl
              refine ⟨logs, by omega, ?_⟩
              rw [← ht, ← ha, hr, List.take_append_of_le_length (l₁ := acc ++ seg) (l₂ := r)
                (by simp; omega), hdata, List.take_of_length_le (by omega)]
              rfl
            · rw [if_neg hgo] at h
              cases h
              refine ⟨_, Nat.le_refl _, ?_⟩
              rw [List.take_take, Nat.min_eq_left hsm, hdata, List.take_of_length_le (by omega)]

/-- C18.  Extracting at most `k` bytes yields the first `k` bytes of what full
extraction yields, with the same type and attributes, whenever full extraction
succeeds (on any stream, well-formed or not). -/
theorem c18_partial_is_prefix (policy : Policy) (src : Source) (tell k : Nat)
    (hk : k ≤ 2 ^ 63 - 1) (rec : Record) (n : Nat)
    (h : extract policy src tell = .ok (rec, n)) :
    ∃ n', n' ≤ n ∧ extractN policy src tell k = .ok (⟨rec.type, rec.attributes, rec.data.take k⟩, n') := by
  unfold extract extractN at h
  unfold extractN
  split at h
  · cases h
  · rename_i hs
    rw [if_neg hs]
    exact extractLoop_partial policy src _ k hk tell [] none 0 rec n (by simp) h

/-- Case: three of the five bytes of a record of two segments. -/
example : extractN (fun _ => false)
    ⟨[0, 7, 0xa0, 4, 1, 2, 3] ++ [0, 6, 0xc0, 4, 5, 6], .eof⟩ 0 3 = .ok (⟨4, 0x80, [1, 2, 3]⟩, 0) := by
  have h1 : Spec.IsRecord [⟨0xa0, 4, [1, 2, 3], [1, 2, 3], 0⟩, ⟨0xc0, 4, [5, 6], [5, 6], 0⟩] := by
    refine .more _ _ ⟨?_, by decide⟩ (by decide) (.last _ ⟨?_, by decide⟩ (by decide))
    · refine .plain [1, 2, 3] [] ?_
      unfold Spec.Trailer
      rw [if_neg (by decide)]
      exact ⟨[], [], [], rfl, rfl, by decide, by decide⟩
    · refine .plain [5, 6] [] ?_
      unfold Spec.Trailer
      rw [if_neg (by decide)]
      exact ⟨[], [], [], rfl, rfl, by decide, by decide⟩
  have h2 := c17_extract (fun _ => false) .eof _ h1 [] [] _ rfl (by decide) (Or.inl rfl)
  obtain ⟨n', hn, h⟩ := c18_partial_is_prefix _ _ _ 3 (by omega) _ _ h2
  have : n' = 0 := by
    have : Spec.recordNotes [⟨0xa0, 4, [1, 2, 3], [1, 2, 3], 0⟩, ⟨0xc0, 4, [5, 6], [5, 6], 0⟩] = 0 := by
      decide
    omega
  subst this
  exact h

end Dlisio.Dlis
