import Verif.Lis.HeaderProps
/-
C44 and C45: the index of a logical file and the reading of records, against a
description of the layout of LIS records.
-/
namespace Dlisio.Lis

/-! ### Specification -/

namespace Spec

/-- A physical record: attributes, its part of the data of the logical record, trailer. -/
structure Chunk where
  attrs : Nat
  payload : Bytes
  tail : Bytes

/-- A logical record: its header (type and attributes), and the physical records. -/
structure Record where
  type : Byte
  attr : Byte
  chunks : List Chunk

/-- Length of a physical record that begins with `lrh`. -/
def Chunk.size (lrh : Bytes) (c : Chunk) : Nat :=
  4 + lrh.length + c.payload.length + c.tail.length

/-- The bytes of a physical record: length and attributes in two bytes each, data,
trailer. -/
def Chunk.bytes (lrh : Bytes) (c : Chunk) : Bytes :=
  [BitVec.ofNat 8 (c.size lrh / 256), BitVec.ofNat 8 (c.size lrh),
   BitVec.ofNat 8 (c.attrs / 256), BitVec.ofNat 8 c.attrs] ++ lrh ++ c.payload ++ c.tail

/-- The bytes of a logical record: the first physical record has the header of the
logical one. -/
def Record.bytes (r : Record) : Bytes :=
  match r.chunks with
  | [] => []
  | c :: cs => c.bytes [r.type, r.attr] ++ (cs.map (Chunk.bytes [])).flatten

/-- Bytes of a logical record in the file. -/
def Record.size (r : Record) : Nat :=
  match r.chunks with
  | [] => 0
  | c :: cs => c.size [r.type, r.attr] + (cs.map (Chunk.size [])).sum

/-- The data of a logical record. -/
def Record.data (r : Record) : Bytes := (r.chunks.map (·.payload)).flatten

/-- A physical record is well-formed: attributes in 16 bits, the trailer they ask for, a
length in 16 bits, and not the one that looks like padding (`c43_blank_length_defect`). -/
def Chunk.Ok (lrh : Bytes) (c : Chunk) : Prop :=
  c.attrs < 65536 ∧ c.tail.length = trailer c.attrs ∧ c.size lrh < 65536 ∧ c.size lrh ≠ 0x2020

/-- The bits "has a predecessor" and "has a successor" are those of the place of the
physical record in the logical one. -/
def Consistent (attrs : List Nat) : Prop :=
  ∀ i a, attrs[i]? = some a → a.testBit 1 = decide (i ≠ 0) ∧ a.testBit 0 = decide (i + 1 ≠ attrs.length)

/-- The record types of the standard. -/
def types : List Nat :=
  [0, 1, 32, 34, 39, 42, 47, 64, 65, 85, 86, 95, 96, 97, 100, 101, 102, 128, 129, 130, 131, 132,
   133, 137, 138, 139, 141, 224, 225, 227, 232, 234]

/-- A logical record is well-formed. -/
def Record.Ok (r : Record) : Prop :=
  r.type.toNat ∈ types ∧ r.chunks ≠ [] ∧ Consistent (r.chunks.map (·.attrs)) ∧
  match r.chunks with
  | [] => True
  | c :: cs => c.Ok [r.type, r.attr] ∧ ∀ d ∈ cs, d.Ok []

end Spec

open Spec

/-! ### Consistency of attributes -/

/-- Recursive form of `Spec.Consistent`. -/
def Chain : Bool → List Nat → Prop
  | _, [] => True
  | pred, a :: rest =>
    a.testBit 1 = pred ∧ a.testBit 0 = !rest.isEmpty ∧ Chain true rest

theorem chain_iff (l : List Nat) : ∀ (pred : Bool), Chain pred l ↔
    ∀ i a, l[i]? = some a →
      a.testBit 1 = (pred || decide (i ≠ 0)) ∧ a.testBit 0 = decide (i + 1 ≠ l.length) := by
  induction l with
  | nil => intro pred; simp [Chain]
  | cons b l ih =>
    intro pred
    rw [Chain, ih]
    constructor
    · rintro ⟨h1, h2, h3⟩ i a hi
      cases i with
      | zero =>
        simp only [List.getElem?_cons_zero, Option.some.injEq] at hi
        subst hi
        rw [h1, h2]
        cases l <;> simp
      | succ i =>
        rw [List.getElem?_cons_succ] at hi
        have := h3 i a hi
        rw [this.1, this.2]
        simp
    · intro h
      refine ⟨by simpa using (h 0 b rfl).1, ?_, fun i a hi => ?_⟩
      · rw [(h 0 b rfl).2]; cases l <;> simp
      · have := h (i + 1) a (by rwa [List.getElem?_cons_succ])
        rw [this.1, this.2]
        simp

theorem consistent_chain (l : List Nat) : Consistent l ↔ Chain false l := by
  rw [chain_iff]
  simp [Consistent]

theorem inconsistentFrom_chain (l : List (BitVec 16)) : ∀ (a b : BitVec 16) (pos size : Nat),
    size = pos + l.length + 1 →
    (a.toNat.testBit 1 = decide (pos ≠ 0) ∧ inconsistentFrom size pos (a :: b :: l) = false ↔
      Chain (decide (pos ≠ 0)) ((a :: b :: l).map (·.toNat))) := by
  induction l with
  | nil =>
    intro a b pos size hs
    simp only [inconsistentFrom, has_predces, has_succses, List.map_cons, List.map_nil, Chain,
      List.length_nil] at *
    have : (pos + 1 == size) = true := by simp [hs]
    simp only [this]
    by_cases hp : pos = 0 <;> cases a.toNat.testBit 1 <;> cases a.toNat.testBit 0 <;>
      cases b.toNat.testBit 1 <;> cases b.toNat.testBit 0 <;> simp [hp]
  | cons c l ih =>
    intro a b pos size hs
    have ih' := ih b c (pos + 1) size (by rw [hs, List.length_cons]; omega)
    rw [List.map_cons, Chain]
    simp only [show decide (pos + 1 ≠ 0) = true from by simp] at ih'
    rw [← ih']
    rw [inconsistentFrom]
    simp only [has_predces, has_succses]
    have : (pos + 1 == size) = false := by simp [hs, List.length_cons]
    simp only [this]
    by_cases hp : pos = 0 <;> cases a.toNat.testBit 1 <;> cases a.toNat.testBit 0 <;>
      cases b.toNat.testBit 1 <;> simp [hp]

/-- **C44** (attributes).  The attributes of the physical records of a logical record are
accepted exactly if each says it has a predecessor unless it is the first and a successor
unless it is the last. -/
theorem c44_consistent (attrs : List (BitVec 16)) :
    attrConsistent attrs = true ↔ Consistent (attrs.map (·.toNat)) := by
  rw [consistent_chain]
  unfold attrConsistent
  match attrs with
  | [] => simp [Chain]
  | [a] =>
    simp only [has_predces, has_succses, List.map_cons, List.map_nil, Chain]
    cases a.toNat.testBit 1 <;> cases a.toNat.testBit 0 <;> simp
  | a :: b :: l =>
    have h := inconsistentFrom_chain l a b 0 (l.length + 1) (by omega)
    simp only [ne_eq, not_true_eq_false, decide_false] at h
    rw [← h]
    simp only [List.length_cons, Nat.add_sub_cancel, Bool.not_eq_true']
    constructor
    · intro h1
      refine ⟨?_, h1⟩
      rw [inconsistentFrom] at h1
      rw [has_predces] at h1
      cases hb : a.toNat.testBit 1
      · rfl
      · rw [hb] at h1; simp at h1
    · exact fun h1 => h1.2

example : attrConsistent [1, 3, 0x1003, 2] = true ∧ attrConsistent [1, 3, 1, 2] = false := by
  decide

/-! ### Reading a physical record -/

/-- Padding in front of a record: none, or two or more bytes of one kind that end at a
multiple of four. -/
def Spec.Gap (dev : Device) (pos k : Nat) (x : Byte) : Prop :=
  k = 0 ∨ 2 ≤ k ∧ Blank x ∧ (dev.ptell (pos + 4) + k) % 4 = 0

theorem beNat_split (n : Nat) (h : n < 65536) :
    beNat [BitVec.ofNat 8 (n / 256), BitVec.ofNat 8 n] = n := by
  simp only [beNat, BitVec.toNat_ofNat, List.length_cons, List.length_nil]
  omega

/-- The header of a physical record. -/
def Spec.Chunk.head (lrh : Bytes) (c : Chunk) : Bytes :=
  [BitVec.ofNat 8 (c.size lrh / 256), BitVec.ofNat 8 (c.size lrh),
   BitVec.ofNat 8 (c.attrs / 256), BitVec.ofNat 8 c.attrs]

theorem chunk_bytes_head (lrh : Bytes) (c : Chunk) :
    c.bytes lrh = c.head lrh ++ (lrh ++ c.payload ++ c.tail) := by
  simp [Chunk.bytes, Chunk.head]

theorem readPrh_head (dev : Device) (pos k : Nat) (x : Byte) (lrh : Bytes) (c : Chunk)
    (hok : c.Ok lrh) (hl : c.attrs.testBit 1 = false → 2 ≤ lrh.length) (hg : Gap dev pos k x)
    (hat' : At dev pos (List.replicate k x ++ c.head lrh)) :
    readPrh dev pos =
      .ok (⟨BitVec.ofNat 16 (c.size lrh), BitVec.ofNat 16 c.attrs⟩, pos + k + 4) := by
  obtain ⟨h1, h2, h3, h4⟩ := hok
  have hb1 := beNat_split _ h3
  have hb2 := beNat_split _ h1
  have hmin : ¬ c.size lrh < minimum c.attrs := by
    unfold minimum Chunk.size
    rw [h2]
    cases hc : c.attrs.testBit 1
    · have := hl hc
      simp only [Bool.false_eq_true, if_false]
      omega
    · simp only [if_true]
      omega
  have hne : ¬ (Blank (BitVec.ofNat 8 (c.size lrh / 256)) ∧
      BitVec.ofNat 8 (c.size lrh / 256) = BitVec.ofNat 8 (c.size lrh)) := by
    rintro ⟨hbl, he⟩
    rw [← he] at hb1
    have h5 : 4 ≤ c.size lrh := by unfold Chunk.size; omega
    rcases hbl with hbl | hbl <;> rw [hbl] at hb1
    · rw [show beNat [0x00, 0x00] = 0 from rfl] at hb1; omega
    · rw [show beNat [0x20, 0x20] = 0x2020 from rfl] at hb1; omega
  unfold Chunk.head at hat'
  rcases hg with rfl | ⟨hk, hx, hal⟩
  · rw [List.replicate_zero, List.nil_append] at hat'
    rw [c43_direct dev pos _ _ _ _ hat' hne]
    rw [hb1, hb2, if_neg hmin]
    unfold header
    rw [hb1, hb2]
  · rw [c43_padding dev pos k x _ _ _ _ hx hk hat' hal fun h => hne ⟨h.1, h.2.1⟩]
    rw [hb1, hb2, if_neg hmin]
    unfold header
    rw [hb1, hb2]

theorem readPrh_chunk (dev : Device) (pos k : Nat) (x : Byte) (lrh : Bytes) (c : Chunk)
    (hok : c.Ok lrh) (hl : c.attrs.testBit 1 = false → 2 ≤ lrh.length) (hg : Gap dev pos k x)
    (hat : At dev pos (List.replicate k x ++ c.bytes lrh)) :
    readPrh dev pos =
      .ok (⟨BitVec.ofNat 16 (c.size lrh), BitVec.ofNat 16 c.attrs⟩, pos + k + 4) := by
  refine readPrh_head dev pos k x lrh c hok hl hg ?_
  rw [chunk_bytes_head, ← List.append_assoc] at hat
  exact (at_split hat).1

theorem seekOk_le {src : Source} {pos : Nat} (h : pos ≤ src.data.length) :
    seekOk src pos = true := by
  unfold seekOk; rw [if_pos h]

theorem has_succses_ofNat (a : Nat) : has (BitVec.ofNat 16 a) SUCCSES = a.testBit 0 := by
  rw [has_succses, BitVec.toNat_ofNat, Nat.testBit_mod_two_pow]; simp

theorem has_predces_ofNat (a : Nat) : has (BitVec.ofNat 16 a) PREDCES = a.testBit 1 := by
  rw [has_predces, BitVec.toNat_ofNat, Nat.testBit_mod_two_pow]; simp

theorem chunk_bytes_length (lrh : Bytes) (c : Chunk) : (c.bytes lrh).length = c.size lrh := by
  unfold Chunk.bytes Chunk.size
  simp only [List.length_append, List.length_cons, List.length_nil]

theorem chunk_toNat {lrh : Bytes} {c : Chunk} (hok : c.Ok lrh) :
    (BitVec.ofNat 16 (c.size lrh)).toNat = c.size lrh := by
  rw [BitVec.toNat_ofNat]; exact Nat.mod_eq_of_lt hok.2.2.1

theorem indexLoop_chunks (dev : Device) (ltell : Nat) (cs : List Chunk) :
    ∀ (length : Nat) (prh : Prh) (attrs : List (BitVec 16)) (pos : Nat),
    0 < length → ltell + length ≤ dev.src.data.length →
    At dev (ltell + length) (cs.map (Chunk.bytes [])).flatten →
    has prh.attributes SUCCSES = !cs.isEmpty → Chain true (cs.map (·.attrs)) →
    (∀ d ∈ cs, d.Ok []) →
    indexLoop dev ltell length prh attrs pos =
      .ok ((attrs ++ cs.map (fun c => BitVec.ofNat 16 c.attrs),
        length + (cs.map (Chunk.size [])).sum), ltell + (length + (cs.map (Chunk.size [])).sum)) := by
  induction cs with
  | nil =>
    intro length prh attrs pos h0 hle _ hsucc _ _
    rw [indexLoop, hsucc]
    simp only [List.isEmpty_nil, Bool.not_true, Bool.not_false, if_true, List.map_nil,
      List.append_nil, List.sum_nil, Nat.add_zero]
    rw [seekOk_le (by omega)]
    simp only [Bool.not_true, Bool.false_eq_true, if_false]
    unfold readAt
    rw [if_neg (by omega), if_pos (by omega)]
  | cons c cs ih =>
    intro length prh attrs pos h0 hle hat hsucc hch hok
    rw [List.map_cons, List.flatten_cons] at hat
    obtain ⟨hat1, hat2⟩ := at_split hat
    rw [chunk_bytes_length] at hat2
    have hc := hok c List.mem_cons_self
    rw [List.map_cons, Chain] at hch
    have hrd := readPrh_chunk dev (ltell + length) 0 0 [] c hc
      (by rw [hch.1]; intro h; cases h) (.inl rfl) (by simpa using hat1)
    rw [indexLoop, hsucc]
    simp only [List.isEmpty_cons, Bool.not_false, Bool.not_true, Bool.false_eq_true, if_false]
    rw [seekOk_le hle]
    simp only [Bool.not_true, Bool.false_eq_true, if_false]
    split
    · rename_i prh' p hr
      rw [hrd] at hr
      injection hr with hr
      injection hr with hr1 hr2
      subst hr1 hr2
      simp only
      rw [chunk_toNat hc]
      have hlen := at_length hat1 (by unfold Chunk.bytes; simp)
      rw [chunk_bytes_length] at hlen
      rw [ih (length + c.size []) _ _ _ (by omega) (by omega) (by rw [← Nat.add_assoc]; exact hat2)
        (by rw [has_succses_ofNat, hch.2.1]; cases cs <;> rfl) hch.2.2
        (fun d hd => hok d (List.mem_cons_of_mem _ hd))]
      simp only [List.map_cons, List.sum_cons, List.append_assoc, List.cons_append, List.nil_append,
        Nat.add_assoc]
    · rename_i hr; rw [hrd] at hr; cases hr
    · rename_i hr; rw [hrd] at hr; cases hr

theorem validRectype_iff (t : Byte) : validRectype t = true ↔ t.toNat ∈ types := by
  unfold validRectype
  rw [List.contains_iff_mem]
  unfold rectypes types
  simp only [List.mem_cons, List.not_mem_nil, or_false]
  omega

/-- **C44** (one record).  A well-formed logical record, in any number of physical
records with any trailers, and any padding in front, is found with its position, type and
size, and the cursor is behind it. -/
theorem c44_record (dev : Device) (pos k : Nat) (x : Byte) (r : Record) (hok : r.Ok)
    (hg : Gap dev pos k x) (hat : At dev pos (List.replicate k x ++ r.bytes)) :
    indexRecord dev pos =
      .ok (⟨r.type.toNat, r.size, pos + k⟩, pos + k + r.size) := by
  obtain ⟨ht, hne, hcons, hcs⟩ := hok
  rcases r with ⟨type, attr, chunks⟩
  cases chunks with
  | nil => exact absurd rfl hne
  | cons c cs =>
    simp only at hcs hcons ht
    rw [consistent_chain] at hcons
    have hcons' := hcons
    rw [List.map_cons, Chain] at hcons
    unfold Record.bytes at hat
    simp only at hat
    rw [← List.append_assoc] at hat
    obtain ⟨hat1, hat2⟩ := at_split hat
    rw [List.length_append, List.length_replicate, chunk_bytes_length] at hat2
    have hrd := readPrh_chunk dev pos k x [type, attr] c hcs.1 (fun _ => by simp) hg hat1
    have hlen := at_length hat1 (by unfold Chunk.bytes; simp)
    rw [List.length_append, List.length_replicate, chunk_bytes_length] at hlen
    have hl : readLrh dev (pos + k + 4) = .ok (⟨type, attr⟩, pos + k + 4 + 2) := by
      refine (c43_logical dev _).1 type attr ?_
      have h3 := (at_split hat1).2
      rw [List.length_replicate] at h3
      unfold Chunk.bytes at h3
      rw [List.append_assoc, List.append_assoc] at h3
      have h4 := (at_split h3).2
      exact (at_split h4).1
    have hcs4 : 4 ≤ c.size [type, attr] := by unfold Chunk.size; omega
    unfold indexRecord
    rw [hrd]
    simp only
    rw [hl]
    simp only
    rw [(validRectype_iff type).mpr ht, chunk_toNat hcs.1]
    simp only [Bool.not_true, Bool.false_eq_true, if_false, Nat.add_sub_cancel]
    rw [indexLoop_chunks dev (pos + k) cs (c.size [type, attr]) _ _ _ (by omega) (by omega)
      (by rw [Nat.add_assoc]; exact hat2) (by rw [has_succses_ofNat, hcons.2.1]; cases cs <;> rfl)
      hcons.2.2 hcs.2]
    simp only [List.cons_append, List.nil_append]
    have hco : attrConsistent (BitVec.ofNat 16 c.attrs :: cs.map (fun c => BitVec.ofNat 16 c.attrs))
        = true := by
      rw [c44_consistent, consistent_chain, List.map_cons, List.map_map]
      rw [List.map_cons] at hcons'
      have h16 : ∀ d ∈ c :: cs, (BitVec.ofNat 16 d.attrs).toNat = d.attrs := by
        intro d hd
        rw [BitVec.toNat_ofNat]
        apply Nat.mod_eq_of_lt
        rcases List.mem_cons.mp hd with rfl | hd
        · exact hcs.1.1
        · exact (hcs.2 d hd).1
      rw [h16 c List.mem_cons_self]
      rw [List.map_congr_left (g := fun d => d.attrs) (fun d hd => by
        simp only [Function.comp]; exact h16 d (List.mem_cons_of_mem _ hd))]
      exact hcons'
    simp [hco, Record.size]

end Dlisio.Lis
