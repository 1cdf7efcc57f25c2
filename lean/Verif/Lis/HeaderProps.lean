import Verif.Lis.Io
/-
C43: headers of physical records and the padding in front of them.
-/
namespace Dlisio.Lis

/-! ### Specification -/

namespace Spec

/-- Bytes used for padding. -/
def Blank (b : Byte) : Prop := b = 0x00 ∨ b = 0x20

/-- From position `pos` on the stream holds `bs` (and perhaps more). -/
def At (dev : Device) (pos : Nat) (bs : Bytes) : Prop := bs <+: dev.src.data.drop pos

/-- Trailer of a physical record: two bytes for the record number (bit 9), for the file
number (bit 10) and for the checksum (bits 12 and 13). -/
def trailer (attrs : Nat) : Nat :=
  2 * ((attrs.testBit 9).toNat + (attrs.testBit 10).toNat +
    (attrs.testBit 12 || attrs.testBit 13).toNat)

/-- What a physical record holds at the least: its own header, the header of the logical
record unless it continues one (bit 1), and the trailer. -/
def minimum (attrs : Nat) : Nat := 4 + (if attrs.testBit 1 then 0 else 2) + trailer attrs

/-- The header in four bytes: length and attributes, both big-endian. -/
def header (a b c d : Byte) : Prh :=
  ⟨BitVec.ofNat 16 (beNat [a, b]), BitVec.ofNat 16 (beNat [c, d])⟩

end Spec

open Spec

instance (b : Byte) : Decidable (Blank b) := by unfold Blank; infer_instance

/-! ### Flags -/

theorem has_bit (a : BitVec 16) (k : Nat) (hk : k < 16) :
    has a (1#16 <<< k) = a.toNat.testBit k := by
  have hb : a.toNat.testBit k = a.getLsbD k := rfl
  rw [hb]
  unfold has
  by_cases h : a.getLsbD k = true
  · rw [h, decide_eq_true_iff]
    intro he
    have := congrArg (fun x => x.getLsbD k) he
    rw [BitVec.getLsbD_and, BitVec.getLsbD_shiftLeft, h] at this
    simp [hk] at this
  · simp only [Bool.not_eq_true] at h
    rw [h, decide_eq_false_iff_not]
    refine not_not_intro ?_
    apply BitVec.eq_of_getLsbD_eq
    intro i hi
    rw [BitVec.getLsbD_and, BitVec.getLsbD_shiftLeft]
    by_cases hik : i = k
    · subst hik; simp [h]
    · simp only [BitVec.getLsbD_one]
      have : i < k ∨ ¬ i - k = 0 := by omega
      rcases this with h | h <;> simp [h]

theorem has_predces (a : BitVec 16) : has a PREDCES = a.toNat.testBit 1 := has_bit a 1 (by omega)
theorem has_succses (a : BitVec 16) : has a SUCCSES = a.toNat.testBit 0 := has_bit a 0 (by omega)
theorem has_reconum (a : BitVec 16) : has a RECONUM = a.toNat.testBit 9 := has_bit a 9 (by omega)
theorem has_filenum (a : BitVec 16) : has a FILENUM = a.toNat.testBit 10 := has_bit a 10 (by omega)

theorem has_or (a f g : BitVec 16) : has a (f ||| g) = (has a f || has a g) := by
  unfold has
  have : a &&& (f ||| g) = (a &&& f) ||| (a &&& g) := by
    ext i hi; simp [Bool.and_or_distrib_left]
  rw [this]
  by_cases h1 : a &&& f = 0 <;> by_cases h2 : a &&& g = 0 <;> simp [h1, h2]

theorem has_chcksum (a : BitVec 16) :
    has a CHCKSUM = (a.toNat.testBit 12 || a.toNat.testBit 13) := by
  unfold CHCKSUM
  rw [has_or, Bool.or_comm]
  rw [show has a (1 <<< 12) = a.toNat.testBit 12 from has_bit a 12 (by omega),
    show has a (1 <<< 13) = a.toNat.testBit 13 from has_bit a 13 (by omega)]

theorem trlen_eq (a : BitVec 16) : trlen a = trailer a.toNat := by
  unfold trlen trailer
  rw [has_reconum, has_filenum, has_chcksum]
  cases a.toNat.testBit 9 <;> cases a.toNat.testBit 10 <;>
    cases (a.toNat.testBit 12 || a.toNat.testBit 13) <;> rfl

theorem minLength_eq (a : BitVec 16) : minLength a = minimum a.toNat := by
  unfold minLength minimum trailer
  rw [has_reconum, has_filenum, has_chcksum, has_predces]
  cases a.toNat.testBit 1 <;> cases a.toNat.testBit 9 <;> cases a.toNat.testBit 10 <;>
    cases (a.toNat.testBit 12 || a.toNat.testBit 13) <;> rfl

/-- **C43** (trailers).  The size of the trailer and the minimum length of a physical
record follow from the attribute bits. -/
theorem c43_trailer (a : BitVec 16) :
    trlen a = trailer a.toNat ∧ minLength a = minimum a.toNat :=
  ⟨trlen_eq a, minLength_eq a⟩

example : trlen 0x3602 = 6 ∧ minLength 0x1200 = 10 ∧ trailer 0x2000 = 2 := by decide

/-! ### Padding -/

theorem isPadbytes_iff (l : Bytes) :
    isPadbytes l = true ↔ l ≠ [] ∧ ∃ b, Blank b ∧ l = List.replicate l.length b := by
  cases l with
  | nil => simp [isPadbytes]
  | cons b bs =>
    simp only [isPadbytes, Bool.and_eq_true, Bool.or_eq_true, beq_iff_eq, List.all_eq_true]
    constructor
    · rintro ⟨h1, h2⟩
      refine ⟨by simp, b, h1, ?_⟩
      rw [List.length_cons, List.replicate_succ]
      congr 1
      exact List.eq_replicate_of_mem h2
    · rintro ⟨-, b', hb, he⟩
      rw [List.length_cons, List.replicate_succ] at he
      injection he with h1 h2
      subst h1
      refine ⟨hb, fun x hx => ?_⟩
      rw [h2] at hx
      exact (List.mem_replicate.mp hx).2

theorem isPadbytes_replicate {b : Byte} (hb : Blank b) {n : Nat} (hn : n ≠ 0) :
    isPadbytes (List.replicate n b) = true := by
  rw [isPadbytes_iff]
  refine ⟨?_, b, hb, by simp⟩
  cases n with
  | zero => exact absurd rfl hn
  | succ n => simp [List.replicate_succ]

/-! ### Reading -/

theorem readAt_at {dev : Device} {pos n : Nat} {bs : Bytes} (h : At dev pos bs)
    (hn : bs.length = n) : readAt dev.src pos n = .ok bs := by
  obtain ⟨t, ht⟩ := h
  subst hn
  unfold readAt
  split
  · rename_i h0; rw [List.length_eq_zero_iff] at h0; rw [h0]
  · rename_i h0
    have hl : (dev.src.data.drop pos).length = bs.length + t.length := by
      rw [← ht, List.length_append]
    rw [List.length_drop] at hl
    rw [if_pos (by omega), ← ht]
    simp

theorem at_split {dev : Device} {pos : Nat} {a b : Bytes} (h : At dev pos (a ++ b)) :
    At dev pos a ∧ At dev (pos + a.length) b := by
  obtain ⟨t, ht⟩ := h
  refine ⟨⟨b ++ t, by rw [← List.append_assoc, ht]⟩, ⟨t, ?_⟩⟩
  rw [← List.drop_drop, ← ht]
  simp

theorem at_length {dev : Device} {pos : Nat} {a : Bytes} (h : At dev pos a) (ha : a ≠ []) :
    pos + a.length ≤ dev.src.data.length := by
  obtain ⟨t, ht⟩ := h
  have hl : (dev.src.data.drop pos).length = a.length + t.length := by
    rw [← ht, List.length_append]
  rw [List.length_drop] at hl
  have : 0 < a.length := List.length_pos_iff.mpr ha
  omega

theorem load16_beNat (x y : Byte) : Dlis.load16 y x = BitVec.ofNat 16 (beNat [x, y]) := by
  apply BitVec.eq_of_toNat_eq
  have hx := x.isLt
  have hy := y.isLt
  simp only [Dlis.load16, beNat, BitVec.toNat_append, BitVec.toNat_ofNat, List.length_cons,
    List.length_nil]
  rw [← Nat.shiftLeft_add_eq_or_of_lt hy, Nat.shiftLeft_eq]
  omega

theorem beNat_two_lt (x y : Byte) : beNat [x, y] < 2 ^ 16 := by
  have hx := x.isLt
  have hy := y.isLt
  simp only [beNat, List.length_cons, List.length_nil]
  omega

/-- What is returned for the header `a b c d`, read up to position `p`. -/
theorem checkPrh_eq (a b c d : Byte) (p : Nat) :
    checkPrh [a, b, c, d] p =
      if beNat [a, b] < minimum (beNat [c, d]) then .error (.shortLength, p)
      else .ok (header a b c d, p) := by
  unfold checkPrh parsePrh header
  simp only [minLength_eq, load16_beNat, BitVec.toNat_ofNat,
    Nat.mod_eq_of_lt (beNat_two_lt _ _)]

theorem list4 {l : Bytes} (h : l.length = 4) : ∃ a b c d, l = [a, b, c, d] := by
  match l, h with
  | [a, b, c, d], _ => exact ⟨a, b, c, d, rfl⟩

theorem readAt_at_of_ok {dev : Device} {pos n : Nat} {bs : Bytes}
    (h : readAt dev.src pos n = .ok bs) : At dev pos bs := by
  by_cases hn : n = 0
  · subst hn; simp [readAt] at h; subst h; exact List.nil_prefix
  · obtain ⟨-, rfl⟩ := readAt_ok h hn
    exact List.take_prefix _ _

/-- **C43** (header directly at the cursor).  If the two bytes of the length are not
padding, the header is returned as it is, or refused if the length is too small for it. -/
theorem c43_direct (dev : Device) (pos : Nat) (a b c d : Byte)
    (hat : At dev pos [a, b, c, d]) (hnot : ¬ (Blank a ∧ a = b)) :
    readPrh dev pos =
      if beNat [a, b] < minimum (beNat [c, d]) then .error (.shortLength, pos + 4)
      else .ok (header a b c d, pos + 4) := by
  unfold readPrh
  rw [readAt_at (n := 4) hat rfl]
  have hp : isPadbytes [a, b] = false := by
    rw [Bool.eq_false_iff, ne_eq, isPadbytes_iff]
    rintro ⟨-, x, hx, he⟩
    simp only [List.length_cons, List.length_nil, List.replicate] at he
    injection he with h1 h2
    injection h2 with h2 _
    exact hnot ⟨h1 ▸ hx, by rw [h1, h2]⟩
  simp only [List.take_succ_cons, List.take_zero, hp, Bool.false_eq_true, if_false]
  exact checkPrh_eq a b c d _

/-- Whole blocks of padding are skipped. -/
theorem skipPad_run (dev : Device) (x : Byte) (hx : Blank x) (h : Bytes) (hl : h.length = 4)
    (hp : isPadbytes h = false) (j : Nat) : ∀ (q : Nat) (buf : Bytes),
    At dev q (List.replicate (4 * j) x ++ h) → At dev q buf → buf.length = 4 →
    skipPad dev buf (q + 4) = .ok (h, q + 4 * j + 4) := by
  induction j with
  | zero =>
    intro q buf hat hb hbl
    have : buf = h := by
      have h1 := readAt_at hb hbl
      have h2 := readAt_at (by simpa using hat) hl
      rw [h1] at h2; injection h2
    subst this
    rw [skipPad]
    simp [hp]
  | succ j ih =>
    intro q buf hat hb hbl
    rw [show 4 * (j + 1) = 4 + 4 * j by omega, ← List.replicate_append_replicate,
      List.append_assoc] at hat
    obtain ⟨h1, h2⟩ := at_split hat
    have : buf = List.replicate 4 x := by
      have h3 := readAt_at hb hbl
      have h4 := readAt_at (n := 4) h1 (by simp)
      rw [h3] at h4; injection h4
    subst this
    rw [List.length_replicate] at h2
    have hrd : ∃ buf', At dev (q + 4) buf' ∧ buf'.length = 4 := by
      obtain ⟨t, ht⟩ := h2
      refine ⟨(dev.src.data.drop (q + 4)).take 4, List.take_prefix _ _, ?_⟩
      rw [← ht, List.length_take]
      simp only [List.length_append, List.length_replicate]
      omega
    obtain ⟨buf', hb', hbl'⟩ := hrd
    rw [skipPad, isPadbytes_replicate hx (by omega)]
    simp only [Bool.not_true, Bool.false_eq_true, if_false]
    split
    · rename_i bs hr
      rw [readAt_at hb' hbl'] at hr
      injection hr with hr
      subst hr
      rw [ih (q + 4) buf' h2 hb' hbl']
      congr 2; omega
    · rename_i hr; rw [readAt_at hb' hbl'] at hr; cases hr
    · rename_i hr; rw [readAt_at hb' hbl'] at hr; cases hr

/-- **C43** (padding).  Two or more padding bytes of one kind that end at a multiple of
four are skipped, all of them and nothing else, whatever their number: the header behind
them is returned, and the cursor is behind the header. -/
theorem c43_padding (dev : Device) (pos k : Nat) (x a b c d : Byte) (hx : Blank x) (hk : 2 ≤ k)
    (hat : At dev pos (List.replicate k x ++ [a, b, c, d]))
    (halign : (dev.ptell (pos + 4) + k) % 4 = 0)
    (hnot : ¬ (Blank a ∧ a = b ∧ a = c ∧ a = d)) :
    readPrh dev pos =
      if beNat [a, b] < minimum (beNat [c, d]) then .error (.shortLength, pos + k + 4)
      else .ok (header a b c d, pos + k + 4) := by
  have hp : isPadbytes [a, b, c, d] = false := by
    rw [Bool.eq_false_iff, ne_eq, isPadbytes_iff]
    rintro ⟨-, y, hy, he⟩
    simp only [List.length_cons, List.length_nil, List.replicate] at he
    injection he with h1 he
    injection he with h2 he
    injection he with h3 he
    injection he with h4 _
    subst h1 h2 h3 h4
    exact hnot ⟨hy, rfl, rfl, rfl⟩
  have hlen : pos + (k + 4) ≤ dev.src.data.length := by
    have := at_length hat (by simp)
    simpa using this
  have hsub : ∀ q n, pos ≤ q → q + n ≤ pos + (k + 4) →
      ∃ bs, At dev q bs ∧ bs.length = n := by
    intro q n h1 h2
    refine ⟨(dev.src.data.drop q).take n, List.take_prefix _ _, ?_⟩
    rw [List.length_take, List.length_drop]; omega
  obtain ⟨buf, hb, hbl⟩ := hsub pos 4 (by omega) (by omega)
  have h2 : buf.take 2 = [x, x] := by
    obtain ⟨t, ht⟩ := hat
    obtain ⟨u, hu⟩ := hb
    have h3 : (buf ++ u).take 2 = (List.replicate k x ++ [a, b, c, d] ++ t).take 2 := by
      rw [hu, ht]
    obtain ⟨k', rfl⟩ := Nat.exists_eq_add_of_le hk
    rw [List.take_append_of_le_length (by omega), Nat.add_comm,
      show k' + 2 = (k' + 1) + 1 from rfl, List.replicate_succ, List.replicate_succ] at h3
    simpa using h3
  unfold readPrh
  rw [readAt_at hb hbl]
  simp only [h2, show isPadbytes [x, x] = true from
    isPadbytes_replicate (n := 2) hx (by omega), if_true]
  -- the run that is left after the first `s` bytes is a multiple of four
  have hrun : ∀ s buf', s ≤ k → (k - s) % 4 = 0 → At dev (pos + s) buf' → buf'.length = 4 →
      skipPad dev buf' (pos + s + 4) = .ok ([a, b, c, d], pos + k + 4) := by
    intro s buf' hs hmod hb' hbl'
    have hat' : At dev (pos + s) (List.replicate (4 * ((k - s) / 4)) x ++ [a, b, c, d]) := by
      have he : List.replicate k x = List.replicate s x ++ List.replicate (k - s) x := by
        rw [List.replicate_append_replicate]; congr 1; omega
      rw [he, List.append_assoc] at hat
      have := (at_split hat).2
      rw [List.length_replicate] at this
      rwa [show 4 * ((k - s) / 4) = k - s by omega]
    rw [skipPad_run dev x hx _ rfl hp _ (pos + s) buf' hat' hb' hbl']
    congr 2; omega
  have hre : realign dev buf (pos + 4) = .ok ([a, b, c, d], pos + k + 4) := by
    unfold realign
    simp only
    split
    · exact hrun 0 buf (by omega) (by omega) (by simpa using hb) hbl
    · rename_i hne
      obtain ⟨bs, hbs, hbsl⟩ := hsub (pos + 4) (4 - dev.ptell (pos + 4) % 4) (by omega) (by omega)
      rw [readAt_at hbs hbsl]
      simp only
      have := hrun (4 - dev.ptell (pos + 4) % 4)
        (buf.drop (4 - dev.ptell (pos + 4) % 4) ++ bs) (by omega) (by omega) ?_ ?_
      · rw [← this]; congr 1; omega
      · -- the shifted buffer is what is in the file
        obtain ⟨u, hu⟩ := hb
        obtain ⟨v, hv⟩ := hbs
        refine ⟨v, ?_⟩
        rw [← List.drop_drop, ← hu] at hv
        rw [← List.drop_drop, ← hu]
        rw [List.drop_append_of_le_length (by omega), List.append_assoc, hv]
        congr 1
        rw [← hbl, List.drop_left]
      · rw [List.length_append, List.length_drop]; omega
  rw [hre]
  exact checkPrh_eq a b c d _

/-- A plain file (its physical positions are the logical ones) with five zero bytes at
position 3, and a header behind them. -/
example :
    readPrh ⟨⟨[1, 1, 1, 0, 0, 0, 0, 0, 0, 62, 0, 0, 128, 0], .eof⟩, fun p => p⟩ 3 =
      .ok (⟨62, 0⟩, 12) := by decide +kernel

theorem skipPad_end (dev : Device) (x : Byte) (hx : Blank x) (he : dev.src.ending = .eof)
    (k : Nat) : ∀ (q : Nat), dev.src.data.drop q = List.replicate k x →
    skipPad dev (List.replicate 4 x) q = .error (.eof, q + k) := by
  induction k using Nat.strongRecOn with
  | _ k ih =>
    intro q hd
    have hl : dev.src.data.length - q = k := by
      rw [← List.length_drop, hd, List.length_replicate]
    rw [skipPad, isPadbytes_replicate hx (by omega)]
    simp only [Bool.not_true, Bool.false_eq_true, if_false]
    split
    · rename_i bs hr
      obtain ⟨h1, h2⟩ := readAt_ok hr (by omega)
      have : bs = List.replicate 4 x := by
        rw [h2, hd, List.take_replicate]; congr 1; omega
      subst this
      rw [ih (k - 4) (by omega) (q + 4) (by rw [← List.drop_drop, hd, List.drop_replicate])]
      congr 2; omega
    · rename_i bs hr
      have hb : bs = List.replicate k x := by
        unfold readAt at hr
        rw [if_neg (by omega)] at hr
        split at hr
        · cases hr
        · rw [he] at hr; cases hr; exact hd
      rw [show q + bs.length = q + k by rw [hb, List.length_replicate]]
      rw [show shortErr bs bs.length = .eof by
        unfold shortErr
        by_cases hk : k = 0
        · rw [if_pos (Or.inl (by rw [hb, List.length_replicate, hk]))]
        · rw [if_pos (Or.inr (by rw [hb]; exact isPadbytes_replicate hx hk))]]
    · rename_i hr
      unfold readAt at hr
      rw [if_neg (by omega)] at hr
      split at hr
      · cases hr
      · rw [he] at hr; cases hr

theorem readAt_end {src : Source} {q n k : Nat} {x : Byte} (he : src.ending = .eof)
    (hd : src.data.drop q = List.replicate k x) (hn : n ≠ 0) :
    readAt src q n = if n ≤ k then .ok (List.replicate n x) else .eof (List.replicate k x) := by
  have hl : src.data.length - q = k := by
    rw [← List.length_drop, hd, List.length_replicate]
  unfold readAt
  rw [if_neg hn, he, hd, List.take_replicate]
  by_cases h : n ≤ k
  · rw [if_pos h, if_pos (by omega), Nat.min_eq_left h]
  · rw [if_neg h, if_neg (by omega)]

theorem shortErr_pad {x : Byte} (hx : Blank x) (n m : Nat) (h : m ≠ 0 ∨ n = 0) :
    shortErr (List.replicate m x) n = .eof := by
  unfold shortErr
  rcases h with h | h
  · rw [if_pos (Or.inr (isPadbytes_replicate hx h))]
  · rw [if_pos (Or.inl h)]

/-- **C43** (padding at the end).  If all that is left is padding of one kind, of any
length, the end of the file is reported and not a damaged header, and the cursor is at the
end. -/
theorem c43_end (dev : Device) (pos k : Nat) (x : Byte) (hx : Blank x)
    (he : dev.src.ending = .eof) (hd : dev.src.data.drop pos = List.replicate k x) :
    readPrh dev pos = .error (.eof, pos + k) := by
  unfold readPrh
  rw [readAt_end he hd (by omega)]
  by_cases hk : 4 ≤ k
  · rw [if_pos hk]
    simp only [List.take_replicate,
      isPadbytes_replicate hx (n := min 2 4) (by omega), if_true]
    have hd4 : dev.src.data.drop (pos + 4) = List.replicate (k - 4) x := by
      rw [← List.drop_drop, hd, List.drop_replicate]
    have : realign dev (List.replicate 4 x) (pos + 4) = .error (.eof, pos + k) := by
      unfold realign
      simp only
      split
      · rw [skipPad_end dev x hx he _ _ hd4]
        congr 2; omega
      · rename_i hne
        rw [readAt_end he hd4 (by omega)]
        by_cases h2 : 4 - dev.ptell (pos + 4) % 4 ≤ k - 4
        · rw [if_pos h2]
          simp only [List.drop_replicate, List.replicate_append_replicate]
          rw [show 4 - (4 - dev.ptell (pos + 4) % 4) + (4 - dev.ptell (pos + 4) % 4) = 4 by omega]
          rw [skipPad_end dev x hx he (k - 4 - (4 - dev.ptell (pos + 4) % 4)) _
            (by rw [← List.drop_drop, hd4, List.drop_replicate])]
          congr 2; omega
        · rw [if_neg h2]
          simp only [List.drop_replicate, List.replicate_append_replicate]
          rw [shortErr_pad hx _ _ (Or.inl (by omega)), List.length_replicate]
          congr 2; omega
    rw [this]
  · rw [if_neg hk]
    simp only
    rw [shortErr_pad hx _ _ (by rw [List.length_replicate]; omega), List.length_replicate]

example :
    readPrh ⟨⟨[7, 0x20, 0x20, 0x20, 0x20, 0x20], .eof⟩, fun p => p + 80⟩ 1 = .error (.eof, 6) := by
  decide +kernel

/-- **C43** (logical header).  The header of a logical record is the two bytes at the
cursor; at the end of the file it is never made up. -/
theorem c43_logical (dev : Device) (pos : Nat) :
    (∀ t a, At dev pos [t, a] → readLrh dev pos = .ok (⟨t, a⟩, pos + 2)) ∧
    (∀ h p, readLrh dev pos = .ok (h, p) → At dev pos [h.type, h.attributes] ∧ p = pos + 2) := by
  constructor
  · intro t a h
    unfold readLrh
    rw [readAt_at (n := 2) h rfl]
  · intro h p hr
    unfold readLrh at hr
    split at hr
    · rename_i hb
      cases hr
      exact ⟨readAt_at_of_ok hb, rfl⟩
    · cases hr
    · cases hr
    · cases hr

example : readLrh ⟨⟨[0, 62, 0, 0, 128, 0], .eof⟩, fun p => p⟩ 4 = .ok (⟨128, 0⟩, 6) := by
  decide +kernel

/-! ### Soundness on any stream -/

theorem at_get {dev : Device} {pos : Nat} {bs : Bytes} (h : At dev pos bs) {i : Nat}
    (hi : i < bs.length) : dev.src.data[pos + i]? = bs[i]? := by
  obtain ⟨t, ht⟩ := h
  rw [← List.getElem?_drop, ← ht, List.getElem?_append_left hi]

/-- All bytes from `q` up to `p` are padding. -/
def Spec.BlankRange (dev : Device) (q p : Nat) : Prop :=
  ∀ i, q ≤ i → i < p → ∃ x, Blank x ∧ dev.src.data[i]? = some x

theorem blankRange_pad {dev : Device} {q : Nat} {buf : Bytes} (h : At dev q buf)
    (hp : isPadbytes buf = true) : BlankRange dev q (q + buf.length) := by
  intro i h1 h2
  obtain ⟨-, x, hx, he⟩ := (isPadbytes_iff buf).mp hp
  refine ⟨x, hx, ?_⟩
  have hg := at_get h (i := i - q) (by omega)
  rw [show q + (i - q) = i by omega] at hg
  rw [hg, he, List.getElem?_replicate, if_pos (by omega)]

theorem skipPad_sound (dev : Device) (buf : Bytes) (pos : Nat) {r : Bytes} {p : Nat} :
    skipPad dev buf pos = .ok (r, p) → 4 ≤ pos → At dev (pos - 4) buf → buf.length = 4 →
    At dev (p - 4) r ∧ r.length = 4 ∧ isPadbytes r = false ∧ pos ≤ p ∧ (p - pos) % 4 = 0 ∧
      BlankRange dev (pos - 4) (p - 4) := by
  fun_induction skipPad dev buf pos with
  | case1 buf pos hb =>
    intro h h4 hat hl
    cases h
    exact ⟨hat, hl, by simpa using hb, Nat.le_refl _, by simp, fun i h1 h2 => by omega⟩
  | case2 buf pos hb buf' hr ih =>
    intro h h4 hat hl
    obtain ⟨h1, h2, h3, h5, h6, h7⟩ := ih h (by omega)
      (by simpa using readAt_at_of_ok hr) (readAt_length hr)
    refine ⟨h1, h2, h3, by omega, by omega, ?_⟩
    intro i hi1 hi2
    by_cases hi : i < pos
    · exact blankRange_pad hat (by simpa using hb) i hi1 (by omega)
    · exact h7 i (by omega) hi2
  | case3 => intro h; cases h
  | case4 => intro h; cases h

theorem realign_sound (dev : Device) (buf : Bytes) (pos : Nat) {r : Bytes} {p : Nat}
    (h : realign dev buf (pos + 4) = .ok (r, p)) (hat : At dev pos buf) (hl : buf.length = 4) :
    At dev (p - 4) r ∧ r.length = 4 ∧ isPadbytes r = false ∧ pos + 4 ≤ p ∧
      (dev.ptell (pos + 4) + (p - 4 - pos)) % 4 = 0 ∧
      BlankRange dev (pos + (4 - dev.ptell (pos + 4) % 4) % 4) (p - 4) := by
  unfold realign at h
  simp only at h
  split at h
  · rename_i h0
    obtain ⟨h1, h2, h3, h5, h6, h7⟩ := skipPad_sound dev buf _ h (by omega) (by simpa using hat) hl
    refine ⟨h1, h2, h3, h5, by omega, ?_⟩
    rw [h0]
    simpa using h7
  · rename_i h0
    split at h
    · rename_i bs hr
      have hbs := readAt_at_of_ok hr
      have hbsl := readAt_length hr
      obtain ⟨h1, h2, h3, h5, h6, h7⟩ := skipPad_sound dev _ _ h (by omega) (by
        obtain ⟨u, hu⟩ := hat
        obtain ⟨v, hv⟩ := hbs
        refine ⟨v, ?_⟩
        rw [show pos + 4 + (4 - dev.ptell (pos + 4) % 4) - 4 =
          pos + (4 - dev.ptell (pos + 4) % 4) by omega]
        rw [← List.drop_drop, ← hu] at hv
        rw [← List.drop_drop, ← hu]
        rw [List.drop_append_of_le_length (by omega), List.append_assoc, hv]
        congr 1
        rw [← hl, List.drop_left]) (by rw [List.length_append, List.length_drop]; omega)
      refine ⟨h1, h2, h3, by omega, by omega, ?_⟩
      rw [Nat.mod_eq_of_lt (show 4 - dev.ptell (pos + 4) % 4 < 4 by omega)]
      intro i hi1 hi2
      exact h7 i (by omega) hi2
    · cases h
    · cases h

/-- **C43** (nothing else is returned, any stream).  A header that is returned is in the
file right before the new position, is long enough for its attributes, and is not padding.
Either it was directly at the cursor, or it begins at a multiple of four and everything
skipped is padding, except possibly the byte at `pos + 2` when the padding began at an odd
position (see `c43_unchecked_defect`). -/
theorem c43_sound (dev : Device) (pos : Nat) (h : Prh) (p : Nat)
    (hr : readPrh dev pos = .ok (h, p)) :
    ∃ a b c d, At dev (p - 4) [a, b, c, d] ∧ h = header a b c d ∧
      minimum (beNat [c, d]) ≤ beNat [a, b] ∧ ¬ (Blank a ∧ a = b ∧ a = c ∧ a = d) ∧
      (p = pos + 4 ∨
        pos + 4 < p ∧ (dev.ptell (pos + 4) + (p - 4 - pos)) % 4 = 0 ∧
        ∀ i, pos ≤ i → i < p - 4 →
          (i = pos + 2 ∧ dev.ptell (pos + 4) % 4 = 1) ∨
            ∃ x, Blank x ∧ dev.src.data[i]? = some x) := by
  unfold readPrh at hr
  split at hr
  · cases hr
  · cases hr
  rename_i buf hb
  have hat := readAt_at_of_ok hb
  have hl := readAt_length hb
  have hnotpad : ∀ a b c d, isPadbytes [a, b, c, d] = false → ¬ (Blank a ∧ a = b ∧ a = c ∧ a = d) := by
    rintro a b c d hp ⟨h1, rfl, rfl, rfl⟩
    rw [show [a, a, a, a] = List.replicate 4 a from rfl, isPadbytes_replicate h1 (by omega)] at hp
    cases hp
  split at hr
  · rename_i hp2
    split at hr
    · cases hr
    rename_i r q hre
    obtain ⟨h1, h2, h3, h5, h6, h7⟩ := realign_sound dev buf pos hre hat hl
    obtain ⟨a, b, c, d, rfl⟩ := list4 h2
    rw [checkPrh_eq] at hr
    split at hr
    · cases hr
    cases hr
    rename_i hmin
    refine ⟨a, b, c, d, h1, rfl, by omega, hnotpad _ _ _ _ h3, ?_⟩
    by_cases hpe : p = pos + 4
    · exact .inl hpe
    · refine .inr ⟨by omega, h6, fun i hi1 hi2 => ?_⟩
      by_cases hi : pos + (4 - dev.ptell (pos + 4) % 4) % 4 ≤ i
      · exact .inr (h7 i hi hi2)
      · -- one of the bytes dropped by the shift
        by_cases hi3 : i < pos + 2
        · right
          have hat2 : At dev pos (buf.take 2) := (List.take_prefix 2 buf).trans hat
          exact blankRange_pad hat2 hp2 i hi1 (by rw [List.length_take]; omega)
        · left; omega
  · rename_i hp2
    obtain ⟨a, b, c, d, rfl⟩ := list4 hl
    rw [checkPrh_eq] at hr
    split at hr
    · cases hr
    cases hr
    rename_i hmin
    refine ⟨a, b, c, d, by simpa using hat, rfl, by omega, ?_, .inl rfl⟩
    rintro ⟨h1, rfl, -, -⟩
    apply hp2
    exact isPadbytes_replicate (n := 2) h1 (by omega)

/-! ### Defects -/

/-- **C43** (defect).  A physical record of length 0x2020 = 8224 that does not begin at a
multiple of four is taken for padding: the header is read two bytes late, from the
attributes and the first bytes of the record. -/
theorem c43_blank_length_defect (dev : Device) (pos : Nat) (c d e f : Byte)
    (hat : At dev pos [0x20, 0x20, c, d, e, f]) (halign : dev.ptell (pos + 4) % 4 = 2)
    (hc : ¬ (Blank c ∧ c = d ∧ c = e ∧ c = f)) :
    readPrh dev pos =
      if beNat [c, d] < minimum (beNat [e, f]) then .error (.shortLength, pos + 6)
      else .ok (header c d e f, pos + 6) :=
  c43_padding dev pos 2 0x20 c d e f (.inr rfl) (by omega) hat (by omega) hc

/-- The same defect: whatever the body of the record at position 2 is, another header is
given. -/
example (body : Bytes) :
    readPrh ⟨⟨[9, 9, 0x20, 0x20, 0x04, 0x00, 0x80, 0x00] ++ body, .eof⟩, fun p => p⟩ 2 =
      .ok (⟨0x0400, 0x8000⟩, 8) := by
  rw [c43_blank_length_defect _ 2 4 0 0x80 0 ⟨body, by simp⟩ (by simp) (by decide)]
  rw [if_neg (by decide)]
  rfl

/-- **C43** (defect).  A single padding byte is not skipped: the header is read one byte
early. -/
theorem c43_single_pad_defect (dev : Device) (pos : Nat) (x a b c : Byte)
    (hat : At dev pos [x, a, b, c]) (hne : x ≠ a) :
    readPrh dev pos =
      if beNat [x, a] < minimum (beNat [b, c]) then .error (.shortLength, pos + 4)
      else .ok (header x a b c, pos + 4) :=
  c43_direct dev pos x a b c hat fun h => hne h.2

example :
    readPrh ⟨⟨[9, 9, 9, 0x20, 0, 62, 0, 0, 128, 0], .eof⟩, fun p => p⟩ 3 = .ok (⟨0x2000, 0x3e00⟩, 7) := by
  decide +kernel

/-- **C43** (defect).  When the padding begins three bytes before a multiple of four its
third byte is skipped whatever it is. -/
theorem c43_unchecked_defect :
    ∃ (data : Bytes), data[3]? = some 0xff ∧
      readPrh ⟨⟨data, .eof⟩, fun p => p⟩ 1 = .ok (⟨62, 0⟩, 8) :=
  ⟨[9, 0, 0, 0xff, 0, 62, 0, 0, 128, 0], rfl, by decide +kernel⟩

/-- **C43** (defect).  Padding of both kinds is taken for a header. -/
theorem c43_mixed_padding_defect :
    ∃ (data : Bytes), (∀ x ∈ data.take 8, Blank x) ∧
      readPrh ⟨⟨data, .eof⟩, fun p => p⟩ 0 = .error (.shortLength, 4) ∧
      readPrh ⟨⟨data, .eof⟩, fun p => p⟩ 8 = .ok (⟨62, 0⟩, 12) :=
  ⟨[0, 0, 0x20, 0x20, 0x20, 0x20, 0x20, 0x20, 0, 62, 0, 0, 128, 0], by decide, by decide +kernel,
    by decide +kernel⟩

end Dlisio.Lis
