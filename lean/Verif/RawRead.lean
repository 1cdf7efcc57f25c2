/-
Bytes of a stream read into a buffer of Python: `stream.get` (python/dlisio/ext/dlis.cpp:993-1006) and
`lis_stream.read` (python/dlisio/ext/lis.cpp:675-688).  C98.
-/
import Verif.Dlis.LoadLog

namespace Dlisio

/-! ## Model -/

/-- What `py::buffer::request` says about a buffer of one dimension, ext/dlis.cpp:994 and ext/lis.cpp:676:
the memory of the object that owns it, the place of the first item in it (`info.ptr`), the number of
items (`info.size`), the bytes of an item, the bytes from one item to the next, and whether the object
says that it must not be written.  `request()` does not ask for memory that may be written.
Buffers of several dimensions are left out. -/
structure RawView where
  mem : Bytes
  start : Nat
  count : Nat
  itemsize : Nat
  stride : Int
  readonly : Bool
deriving DecidableEq

/-- What comes of reading into a buffer: it is refused (`std::invalid_argument`), seeking or reading
raises, bytes outside of the memory of the buffer are written, or it is done, with the number of bytes
read and the memory afterwards. -/
inductive RawOutcome where
  | refused (what : Text)
  | raised (mem : Bytes)
  | outside
  | done (read : Nat) (mem : Bytes)
deriving DecidableEq

/-- Bytes are written one after the other from `info.ptr` on (file.cpp:45); `none` if this goes beyond
the memory. -/
def RawView.store (v : RawView) (bs : Bytes) : Option Bytes :=
  if v.start + bs.length ≤ v.mem.length then
    some (v.mem.take v.start ++ bs ++ v.mem.drop (v.start + bs.length))
  else none

/-- `std::to_string` of the size and of `n`, ext/dlis.cpp:996-1000 and ext/lis.cpp:678-682.  `n` is larger than the
size and so it is not negative. -/
def tooSmall (size : Nat) (n : Int) : Text :=
  text "buffer to small: buffer.size (which is " ++ Text.ofNat size ++ text ") < " ++
    text "n (which is " ++ Text.ofNat n.toNat ++ text ")"

/-- `stream.get`, ext/dlis.cpp:993-1006, with file.cpp:17-27 and 41-56.  `torn` is what lfp has stored
before it fails, at most `n` bytes.  lfp fails for offsets and lengths below zero. -/
def rawGet (src : Source) (torn : Bytes) (v : RawView) (off n : Int) : RawOutcome :=
  if (v.count : Int) < n then .refused (tooSmall v.count n)
  else if off < 0 then .raised v.mem
  else if !seekOk src off.toNat then .raised v.mem
  else if n < 0 then .raised v.mem
  else match readAt src off.toNat n.toNat with
    | .ok bs | .eof bs =>
      match v.store bs with
      | none => .outside
      | some m => .done bs.length m
    | .error =>
      match v.store (torn.take n.toNat) with
      | none => .outside
      | some m => .raised m

/-- What `lis_stream.read` gives: the buffer itself, ext/lis.cpp:685-687; `some` with the memory of the
buffer afterwards. -/
def RawOutcome.buffer : RawOutcome → Option Bytes
  | .done _ m => some m
  | _ => none

/-- `bytearray(k)`, as in load.py:226 and 293. -/
def byteArray (k : Nat) : RawView := ⟨List.replicate k 0, 0, k, 1, 1, false⟩

/-! ## Specification -/

namespace Spec

/-- The place of byte `j` of a buffer: byte `j % itemsize` of item `j / itemsize`. -/
def rawPlace (v : RawView) (j : Nat) : Int :=
  v.start + (j / v.itemsize : Nat) * v.stride + (j % v.itemsize : Nat)

/-- The bytes of all items are in the memory of the owner. -/
def RawInside (v : RawView) : Prop :=
  0 < v.itemsize ∧ ∀ j < v.count * v.itemsize, 0 ≤ rawPlace v j ∧ rawPlace v j < v.mem.length

/-- The items follow each other without gaps. -/
def RawDense (v : RawView) : Prop := v.stride = v.itemsize

/-- `m` is the memory of the buffer with `bs` in its first bytes and all else as before. -/
def RawKept (v : RawView) (bs : Bytes) (m : Bytes) : Prop :=
  m.length = v.mem.length ∧
  (∀ j < bs.length, ∃ p : Nat, rawPlace v j = p ∧ m[p]? = bs[j]?) ∧
  ∀ p : Nat, (∀ j < bs.length, rawPlace v j ≠ p) → m[p]? = v.mem[p]?

/-- The text for a buffer of too few items. -/
def tooFew (size n : Nat) : Text :=
  text "buffer to small: buffer.size (which is " ++ Text.ofNat size ++ text ") < n (which is " ++
    Text.ofNat n ++ text ")"

end Spec

/-! ## Proofs -/

theorem tooSmall_eq (size n : Nat) : tooSmall size n = Spec.tooFew size n := by
  unfold tooSmall Spec.tooFew
  rw [Int.toNat_natCast]
  simp only [List.append_assoc, text]
  rfl

theorem rawPlace_dense {v : RawView} (hd : Spec.RawDense v) (j : Nat) :
    Spec.rawPlace v j = ((v.start + j : Nat) : Int) := by
  unfold Spec.rawPlace
  rw [hd]
  have := Nat.div_add_mod j v.itemsize
  have h2 : ((j / v.itemsize : Nat) : Int) * (v.itemsize : Int) + ((j % v.itemsize : Nat) : Int) = (j : Int) := by
    rw [← Nat.cast_mul, ← Nat.cast_add, Nat.mul_comm, this]
  push_cast at h2 ⊢
  omega

theorem rawDense_room {v : RawView} (hi : Spec.RawInside v) (hd : Spec.RawDense v) {k : Nat} (hk : k ≤ v.count)
    (h0 : 0 < k) : v.start + k ≤ v.mem.length := by
  have h1 : k ≤ v.count * v.itemsize := le_trans hk (Nat.le_mul_of_pos_right _ hi.1)
  have h2 := (hi.2 (k - 1) (by omega)).2
  rw [rawPlace_dense hd] at h2
  omega

theorem rawStore_room {v : RawView} (hi : Spec.RawInside v) (hd : Spec.RawDense v)
    (hs : v.start ≤ v.mem.length) {bs : Bytes} (h : bs.length ≤ v.count) : ∃ m, v.store bs = some m := by
  unfold RawView.store
  by_cases h0 : bs.length = 0
  · exact ⟨_, if_pos (by omega)⟩
  · exact ⟨_, if_pos (rawDense_room hi hd h (by omega))⟩

theorem rawStore_kept {v : RawView} (hd : Spec.RawDense v) {bs m : Bytes} (h : v.store bs = some m) :
    Spec.RawKept v bs m := by
  unfold RawView.store at h
  split at h
  case isFalse => cases h
  case isTrue hle =>
    cases h
    refine ⟨by simp; omega, fun j hj => ⟨v.start + j, rawPlace_dense hd j, ?_⟩, fun p hp => ?_⟩
    · rw [List.append_assoc, List.getElem?_append_right (by simp)]
      have hl : (v.mem.take v.start).length = v.start := by simp; omega
      rw [hl, Nat.add_sub_cancel_left, List.getElem?_append_left hj]
    · have hl : (v.mem.take v.start).length = v.start := by simp; omega
      by_cases h1 : p < v.start
      · rw [List.append_assoc, List.getElem?_append_left (by omega), List.getElem?_take, if_pos h1]
      · have h2 : v.start + bs.length ≤ p := by
          by_contra hc
          apply hp (p - v.start) (by omega)
          rw [rawPlace_dense hd]
          omega
        rw [List.getElem?_append_right (by simp; omega), List.length_append, hl, List.getElem?_drop]
        congr 1
        omega

/-- What is read is what the file has from the offset on, as far as it goes. -/
theorem readAt_bytes {src : Source} {p n : Nat} {bs : Bytes}
    (h : readAt src p n = .ok bs ∨ readAt src p n = .eof bs) : bs = (src.data.drop p).take n := by
  unfold readAt at h
  split at h
  · rename_i h0; subst h0; simpa using h.symm
  · split at h
    · simpa [eq_comm] using h
    · rename_i hlt
      split at h
      · have : bs = src.data.drop p := by simpa [eq_comm] using h
        rw [this, List.take_of_length_le (by simp; omega)]
      · simp at h

/-- C98: the call is refused exactly if the buffer has fewer items than bytes are asked for, and the
text says both numbers. -/
theorem c98_refused (src : Source) (torn : Bytes) (v : RawView) (off n : Int) (what : Text) :
    rawGet src torn v off n = .refused what ↔
      ∃ k : Nat, n = k ∧ v.count < k ∧ what = Spec.tooFew v.count k := by
  constructor
  · intro h
    unfold rawGet at h
    split at h
    · rename_i hlt
      refine ⟨n.toNat, by omega, by omega, ?_⟩
      have : (n.toNat : Int) = n := by omega
      rw [← tooSmall_eq, this]
      cases h; rfl
    · repeat' split at h
      all_goals cases h
  · rintro ⟨k, rfl, hlt, rfl⟩
    unfold rawGet
    rw [if_pos (by omega), tooSmall_eq]

example : rawGet ⟨[1, 2, 3], .eof⟩ [] (byteArray 2) 0 3 =
    .refused (text "buffer to small: buffer.size (which is 2) < n (which is 3)") := by decide +kernel

/-- C98: for a buffer without gaps nothing is written outside of it.  What has been done is: the bytes of the file from the
offset on, at most `n` of them, are the first bytes of the buffer, and all else is as before.  If it raises, at most `n`
bytes of the buffer are changed. -/
theorem c98_kept (src : Source) (torn : Bytes) (v : RawView) (off n : Int) (hi : Spec.RawInside v)
    (hd : Spec.RawDense v) (hs : v.start ≤ v.mem.length) :
    match rawGet src torn v off n with
    | .refused _ => True
    | .outside => False
    | .done r m => ∃ o k : Nat, off = o ∧ n = k ∧ r = min k (src.data.length - o) ∧
        Spec.RawKept v ((src.data.drop o).take k) m
    | .raised m => ∃ bs : Bytes, bs.length ≤ n.toNat ∧ Spec.RawKept v bs m := by
  have keep : ∀ bs : Bytes, (bs.length : Int) ≤ n → ¬ (v.count : Int) < n →
      ∃ m, v.store bs = some m := fun bs h1 h2 => rawStore_room hi hd hs (by omega)
  have same : Spec.RawKept v [] v.mem := ⟨rfl, by simp, by simp⟩
  unfold rawGet
  by_cases h1 : (v.count : Int) < n
  · rw [if_pos h1]; trivial
  rw [if_neg h1]
  by_cases h2 : off < 0
  · rw [if_pos h2]; exact ⟨[], by simp, same⟩
  rw [if_neg h2]
  by_cases h3 : (!seekOk src off.toNat) = true
  · rw [if_pos h3]; exact ⟨[], by simp, same⟩
  rw [if_neg h3]
  by_cases h4 : n < 0
  · rw [if_pos h4]; exact ⟨[], by simp, same⟩
  rw [if_neg h4]
  have fin : ∀ bs : Bytes, (readAt src off.toNat n.toNat = .ok bs ∨ readAt src off.toNat n.toNat = .eof bs) →
      ∃ m, v.store bs = some m ∧ ∃ o k : Nat, off = o ∧ n = k ∧ bs.length = min k (src.data.length - o) ∧
        Spec.RawKept v ((src.data.drop o).take k) m := by
    intro bs h
    have hb := readAt_bytes h
    have hl : bs.length = min n.toNat (src.data.length - off.toNat) := by rw [hb]; simp
    obtain ⟨m, hm⟩ := keep bs (by omega) h1
    exact ⟨m, hm, off.toNat, n.toNat, by omega, by omega, hl, hb ▸ rawStore_kept hd hm⟩
  cases hr : readAt src off.toNat n.toNat with
  | ok bs => obtain ⟨m, hm, h⟩ := fin bs (.inl hr); simp only [hm]; exact h
  | eof bs => obtain ⟨m, hm, h⟩ := fin bs (.inr hr); simp only [hm]; exact h
  | error =>
    have hl : (torn.take n.toNat).length ≤ n.toNat := by simp
    obtain ⟨m, hm⟩ := keep (torn.take n.toNat) (by omega) h1
    simp only [hm]
    exact ⟨_, hl, rawStore_kept hd hm⟩

/-- Two items of two bytes, in the middle of a larger memory. -/
def rawMiddle : RawView := ⟨[9, 9, 9, 9, 9, 9], 1, 2, 2, 2, false⟩

example : Spec.RawInside rawMiddle ∧ Spec.RawDense rawMiddle ∧ rawMiddle.start ≤ rawMiddle.mem.length ∧
    rawGet ⟨[1, 2, 3], .eof⟩ [] rawMiddle 1 2 = .done 2 [9, 2, 3, 9, 9, 9] ∧
    rawGet ⟨[1, 2, 3], .eof⟩ [] rawMiddle 2 2 = .done 1 [9, 3, 9, 9, 9, 9] ∧
    rawGet ⟨[1, 2, 3], .broken false⟩ [3] rawMiddle 2 2 = .raised [9, 3, 9, 9, 9, 9] ∧
    rawGet ⟨[1, 2, 3], .eof⟩ [] rawMiddle (-1) 2 = .raised [9, 9, 9, 9, 9, 9] ∧
    rawGet ⟨[1, 2, 3], .eof⟩ [] rawMiddle 0 (-1) = .raised [9, 9, 9, 9, 9, 9] := by
  refine ⟨⟨by decide, by decide⟩, rfl, ?_, ?_, ?_, ?_, ?_, ?_⟩ <;> decide +kernel

/-- C98: when it is done.  The bytes asked for have to fit into the buffer and to be in the file, or the file to end regularly. -/
theorem c98_done (src : Source) (torn : Bytes) (v : RawView) (o k : Nat) (hi : Spec.RawInside v)
    (hd : Spec.RawDense v) (hs : v.start ≤ v.mem.length) :
    (∃ r m, rawGet src torn v o k = .done r m) ↔
      k ≤ v.count ∧ seekOk src o = true ∧ (k = 0 ∨ o + k ≤ src.data.length ∨ src.ending = .eof) := by
  unfold rawGet
  by_cases h1 : (v.count : Int) < k
  · rw [if_pos h1]
    constructor
    · rintro ⟨_, _, h⟩; cases h
    · rintro ⟨h, _⟩; omega
  rw [if_neg h1, if_neg (by omega), Int.toNat_natCast, Int.toNat_natCast]
  have hc : k ≤ v.count := by omega
  cases hq : seekOk src o with
  | false => simp
  | true =>
    simp only [Bool.not_true, Bool.false_eq_true, if_false]
    rw [if_neg (by omega)]
    cases hr : readAt src o k with
    | ok bs =>
      have h2 : k = 0 ∨ o + k ≤ src.data.length := by
        by_cases h0 : k = 0
        · exact .inl h0
        · exact .inr (readAt_ok hr h0).1
      obtain ⟨m, hm⟩ := rawStore_room hi hd hs (bs := bs) (by rw [readAt_length hr]; exact hc)
      simp only [hm]
      exact ⟨fun _ => ⟨hc, trivial, by tauto⟩, fun _ => ⟨_, _, rfl⟩⟩
    | eof bs =>
      have h2 : src.ending = .eof := by
        unfold readAt at hr
        repeat' split at hr
        all_goals first | assumption | cases hr
      obtain ⟨m, hm⟩ := rawStore_room hi hd hs (bs := bs) (by rw [readAt_bytes (.inr hr)]; simp; omega)
      simp only [hm]
      exact ⟨fun _ => ⟨hc, trivial, .inr (.inr h2)⟩, fun _ => ⟨_, _, rfl⟩⟩
    | error =>
      have h2 : ¬ (k = 0 ∨ o + k ≤ src.data.length ∨ src.ending = .eof) := by
        unfold readAt at hr
        split at hr
        · cases hr
        · split at hr
          · cases hr
          · split at hr
            · cases hr
            · rename_i h0 h2 _ he
              rw [he]; simp; omega
      cases v.store (torn.take k) with
      | none => simp only [h2]; simp
      | some m => simp only [h2]; simp

example : (∃ r m, rawGet ⟨[1, 2, 3], .eof⟩ [] (byteArray 4) (2 : Nat) (4 : Nat) = .done r m) ∧
    ¬ ∃ r m, rawGet ⟨[1, 2, 3], .broken false⟩ [] (byteArray 4) (2 : Nat) (4 : Nat) = .done r m := by
  have hi : Spec.RawInside (byteArray 4) := ⟨by decide, by decide⟩
  rw [c98_done _ _ _ _ _ hi rfl (by decide), c98_done _ _ _ _ _ hi rfl (by decide)]
  decide

/-- C98: what `lis_stream.read` gives is the buffer, with the bytes of the file in it; how many there are is
not said, so that files of different lengths give the same (see `c98_lis_defect`). -/
theorem c98_lis_partial (src : Source) (torn : Bytes) (v : RawView) (o k : Nat) (m : Bytes) (hi : Spec.RawInside v)
    (hd : Spec.RawDense v) (hs : v.start ≤ v.mem.length) (h : (rawGet src torn v o k).buffer = some m) :
    Spec.RawKept v ((src.data.drop o).take k) m := by
  have hk := c98_kept src torn v o k hi hd hs
  revert hk h
  cases rawGet src torn v o k with
  | done r m' =>
    rintro ⟨⟩ ⟨o', k', ho, hk, _, h⟩
    cases Int.natCast_inj.mp ho
    cases Int.natCast_inj.mp hk
    exact h
  | _ => intro h; cases h

example : (rawGet ⟨[1, 2, 3], .eof⟩ [] rawMiddle (1 : Nat) (2 : Nat)).buffer = some [9, 2, 3, 9, 9, 9] := by
  decide +kernel

/-- C98 is false: what `lis_stream.read` gives for a file that ends too early is the same as for one with
a zero there. -/
theorem c98_lis_defect (data : Bytes) : let n : Nat := data.length + 1
    (rawGet ⟨data, .eof⟩ [] (byteArray n) (0 : Nat) n).buffer =
      (rawGet ⟨data ++ [0], .eof⟩ [] (byteArray n) (0 : Nat) n).buffer ∧
    (rawGet ⟨data, .eof⟩ [] (byteArray n) (0 : Nat) n).buffer = some (data ++ [0]) := by
  have h : ¬ ((data.length : Int) + 1 < 0) := by omega
  have ht : List.take (data.length + 1) (data ++ [0#8]) = data ++ [0#8] := List.take_of_length_le (by simp)
  constructor <;> simp [rawGet, byteArray, seekOk, readAt, RawView.store, RawOutcome.buffer, h, ht]

example : (rawGet ⟨[1], .eof⟩ [] (byteArray 2) 0 2).buffer = some [1, 0] ∧
    (rawGet ⟨[1, 0], .eof⟩ [] (byteArray 2) 0 2).buffer = some [1, 0] := by decide +kernel

/-- C98 is false: for a buffer that goes backwards through the memory, bytes are written behind the end of it. -/
theorem c98_reversed_defect (mem data torn : Bytes) (n : Nat) (h2 : 2 ≤ n) (hn : n ≤ mem.length)
    (hd : n ≤ data.length) : let v : RawView := ⟨mem, mem.length - 1, mem.length, 1, -1, false⟩
    Spec.RawInside v ∧ rawGet ⟨data, .eof⟩ torn v (0 : Nat) n = .outside := by
  refine ⟨⟨by simp, fun j hj => ?_⟩, ?_⟩
  · simp only [Nat.mul_one] at hj
    simp only [Spec.rawPlace, Nat.div_one, Nat.mod_one]
    omega
  · have h3 : ¬ (mem.length : Int) < n := by omega
    have h4 : ¬ (n = 0) := by omega
    have h5 : ¬ (mem.length - 1 + n ≤ mem.length) := by omega
    have h6 : ¬ mem.length < n := by omega
    have h7 : ¬ (n : Int) < 0 := by omega
    simp [rawGet, seekOk, readAt, RawView.store, hd, h4, h5, h6, h7]

example : rawGet ⟨[1, 2], .eof⟩ [] ⟨[9, 9], 1, 2, 1, -1, false⟩ 0 2 = .outside := by decide +kernel

/-- C98 is false: for a buffer with gaps, the bytes between the items are overwritten, and the items do not get
the bytes of the file. -/
theorem c98_gaps_defect : ∃ (v : RawView) (m : Bytes), Spec.RawInside v ∧ v.readonly = false ∧
    rawGet ⟨[1, 2], .eof⟩ [] v 0 2 = .done 2 m ∧
    (∀ j < v.count * v.itemsize, Spec.rawPlace v j ≠ 1) ∧ m[1]? ≠ v.mem[1]? ∧
    Spec.rawPlace v 1 = 2 ∧ m[2]? ≠ some 2 := by
  refine ⟨⟨[9, 9, 9, 9], 0, 2, 1, 2, false⟩, [1, 2, 9, 9], ⟨by decide, by decide⟩, ?_⟩
  decide +kernel

/-- C98 is false: memory that must not be written (`bytes`) is written like any other. -/
theorem c98_readonly_defect (src : Source) (torn : Bytes) (v : RawView) (off n : Int) :
    rawGet src torn { v with readonly := true } off n = rawGet src torn { v with readonly := false } off n ∧
    ∃ m, rawGet ⟨[1, 2], .eof⟩ [] ⟨[9, 9], 0, 2, 1, 1, true⟩ 0 2 = .done 2 m ∧ m ≠ [9, 9] :=
  ⟨rfl, [1, 2], by decide +kernel, by decide⟩

/-- A `bytearray` is without gaps. -/
theorem byteArray_dense (k : Nat) : Spec.RawInside (byteArray k) ∧ Spec.RawDense (byteArray k) ∧
    (byteArray k).start ≤ (byteArray k).mem.length := by
  refine ⟨⟨by simp [byteArray], fun j hj => ?_⟩, rfl, by simp [byteArray]⟩
  simp only [byteArray, Nat.mul_one] at hj
  simp only [byteArray, Spec.rawPlace, Nat.div_one, Nat.mod_one, List.length_replicate]
  omega

/-- C98: the uses in `load` (load.py:226 and 294) are not refused and write nothing outside of the buffer. -/
theorem c98_load (src : Source) (torn : Bytes) (off : Int) (k : Nat) :
    rawGet src torn (byteArray k) off k ≠ .outside ∧
    ∀ what, rawGet src torn (byteArray k) off k ≠ .refused what := by
  obtain ⟨hi, hd, hs⟩ := byteArray_dense k
  constructor
  · intro h
    have := c98_kept src torn _ off k hi hd hs
    rw [h] at this
    exact this
  · intro what h
    obtain ⟨k', hk, hlt, _⟩ := (c98_refused _ _ _ _ _ _).mp h
    simp only [byteArray] at hlt
    omega

example : rawGet ⟨[7], .eof⟩ [] (byteArray 1) 0 1 = .done 1 [7] ∧
    rawGet ⟨[7], .eof⟩ [] (byteArray 1) 1 1 = .done 0 [0] ∧
    rawGet ⟨[7], .broken true⟩ [] (byteArray 1) 2 1 = .raised [0] := by decide +kernel

/-- C98: the storage unit label that `read_sul` stores (load.py:293-308) is what is read of the buffer of 80 bytes:
all of it, or its first bytes if fewer are read. -/
theorem c98_sul (policy : Dlis.Policy) (l : Dlis.Layer) (torn : Bytes) (p : Nat) (x : Dlis.Indexer)
    (hp : seekOk l.src p = true) :
    match rawGet l.src torn (byteArray 80) p 80 with
    | .done r m => (Dlis.toldReadSul policy l p x).2.2 ≠ .raised →
        (Dlis.toldReadSul policy l p x).2 = ({ x with sul := some (m.take r) }, .done (p + r))
    | _ => (Dlis.toldReadSul policy l p x).2 = (x, .raised) := by
  have store : ∀ bs : Bytes, bs.length ≤ 80 → ∃ m, (byteArray 80).store bs = some m ∧ m.take bs.length = bs := by
    intro bs h
    refine ⟨_, if_pos (by simpa [byteArray] using h), ?_⟩
    simp [byteArray]
  have hb : ∀ bs, readAt l.src p 80 = .ok bs ∨ readAt l.src p 80 = .eof bs → bs.length ≤ 80 := by
    intro bs h
    rw [readAt_bytes h]; simp
  unfold rawGet
  rw [if_neg (by simp [byteArray]), if_neg (by omega), Int.toNat_natCast, hp]
  simp only [Bool.not_true, Bool.false_eq_true, if_false]
  rw [if_neg (by omega), show (80 : Int).toNat = 80 from rfl]
  unfold Dlis.toldReadSul
  cases hr : readAt l.src p 80 with
  | ok bs =>
    obtain ⟨m, hm, ht⟩ := store bs (hb bs (.inl hr))
    simp only [hm, ht]
    intro _; trivial
  | eof bs =>
    obtain ⟨m, hm, ht⟩ := store bs (hb bs (.inr hr))
    simp only [hm, ht]
    intro h
    split at h
    · exact absurd rfl h
    · rename_i hc; rw [if_neg hc]
  | error =>
    obtain ⟨m, hm, _⟩ := store (torn.take 80) (by simp)
    simp only [hm]

/-- A label of three bytes: the handler is told, and the rest of the buffer is cut off. -/
example : rawGet ⟨[1, 2, 3], .eof⟩ [] (byteArray 80) 0 80 = .done 3 ([1, 2, 3] ++ List.replicate 77 0) := by
  decide +kernel

/-- Nothing has been read yet. -/
def rawFresh : Dlis.Indexer := ⟨0, false, none, some 0, [], 1, []⟩

example : (Dlis.toldReadSul (fun _ => false) ⟨⟨[1, 2, 3], .eof⟩, id, 3, true⟩ 0 rawFresh).2.1.sul = some [1, 2, 3] ∧
    (Dlis.toldReadSul (fun _ => false) ⟨⟨[1, 2, 3], .broken false⟩, id, 3, true⟩ 0 rawFresh).2.1.sul = none := by
  decide +kernel

/-- C98: `logical_eof` (load.py:224-247) says nothing exactly if the one byte can be asked for, and finds the end
exactly if it is not there. -/
theorem c98_eof (w : Dlis.LoadWhats) (policy : Dlis.Policy) (l : Dlis.Layer) (torn : Bytes) (p : Nat)
    (x : Dlis.Indexer) :
    ((Dlis.toldEof w policy l p x).1 = [] ↔ ∃ r m, rawGet l.src torn (byteArray 1) p 1 = .done r m) ∧
    ((Dlis.toldEof w policy l p x).2.2 = .done false ↔
      ∃ m, rawGet l.src torn (byteArray 1) p 1 = .done 1 m) := by
  have store : ∀ bs : Bytes, bs.length ≤ 1 → ∃ m, (byteArray 1).store bs = some m := by
    intro bs h
    exact ⟨_, if_pos (by simpa [byteArray] using h)⟩
  have hb : ∀ bs, readAt l.src p 1 = .ok bs ∨ readAt l.src p 1 = .eof bs → bs.length ≤ 1 := by
    intro bs h
    rw [readAt_bytes h]; simp
  have he : rawGet l.src torn (byteArray 1) p 1 = if !seekOk l.src p then .raised (byteArray 1).mem else
      match readAt l.src p 1 with
      | .ok bs | .eof bs =>
        match (byteArray 1).store bs with
        | none => .outside
        | some m => .done bs.length m
      | .error =>
        match (byteArray 1).store (torn.take 1) with
        | none => .outside
        | some m => .raised m := by
    unfold rawGet
    rw [if_neg (by simp [byteArray]), if_neg (by omega), Int.toNat_natCast]
    rfl
  rw [he]
  unfold Dlis.toldEof
  cases hp : seekOk l.src p with
  | false => cases policy .critical <;> simp
  | true =>
    simp only [Bool.not_true, Bool.false_eq_true, if_false, if_true]
    cases hr : readAt l.src p 1 with
    | ok bs =>
      obtain ⟨m, hm⟩ := store bs (hb bs (.inl hr))
      have := readAt_length hr
      simp [hm, this]
    | eof bs =>
      obtain ⟨m, hm⟩ := store bs (hb bs (.inr hr))
      have hl : bs.length ≠ 1 := by
        rw [readAt_bytes (.inr hr)]
        intro h
        unfold readAt at hr
        rw [if_neg (by omega)] at hr
        split at hr
        · cases hr
        · simp at h; omega
      cases l.peof <;> simp [hm, hl]
    | error =>
      obtain ⟨m, hm⟩ := store (torn.take 1) (by simp)
      cases policy .critical <;> simp [hm]

example (w : Dlis.LoadWhats) :
    (Dlis.toldEof w (fun _ => false) ⟨⟨[7], .eof⟩, id, 1, true⟩ 0 rawFresh).2.2 = .done false ∧
    (Dlis.toldEof w (fun _ => false) ⟨⟨[7], .eof⟩, id, 1, true⟩ 1 rawFresh).2.2 = .done true ∧
    rawGet ⟨[7], .eof⟩ [] (byteArray 1) (1 : Nat) 1 = .done 0 [0] :=
  ⟨rfl, rfl, by decide +kernel⟩

/-! ### Reading the storage unit label from a buffer -/

/-- `storage_label`, ext/dlis.cpp:188-212: the number of items is looked at, and then 80 bytes are read from `info.ptr` on;
`none` if some of them are outside of the memory. -/
def rawLabel (v : RawView) : Option Dlis.LabelResult :=
  if v.count < 80 then some .tooSmall
  else if v.start + 80 ≤ v.mem.length then some (Dlis.storageLabel ((v.mem.drop v.start).take 80))
  else none

/-- `xs` are the bytes of the buffer, in their order. -/
def Spec.RawHolds (v : RawView) (xs : Bytes) : Prop :=
  xs.length = v.count * v.itemsize ∧ ∀ j < xs.length, ∃ p : Nat, Spec.rawPlace v j = p ∧ xs[j]? = v.mem[p]?

/-- Only the first 80 bytes count. -/
theorem storageLabel_take (xs : Bytes) (h : 80 ≤ xs.length) :
    Dlis.storageLabel (xs.take 80) = Dlis.storageLabel xs := by
  have e : ∀ k m, k + m ≤ 80 → ((xs.take 80).drop k).take m = (xs.drop k).take m := by
    intro k m hk
    rw [List.drop_take, List.take_take, Nat.min_eq_left (by omega)]
  have e0 : (xs.take 80).take 4 = xs.take 4 := by simp [List.take_take]
  have hs : ∀ o, Dlis.sulv1 (xs.take 80) o = Dlis.sulv1 xs o := by
    intro o
    unfold Dlis.sulv1
    rw [e0, e 15 5 (by omega), e 9 6 (by omega), e 20 60 (by omega)]
  have hd : ∀ o, Dlis.dlisSul (xs.take 80) o = Dlis.dlisSul xs o := by
    intro o
    unfold Dlis.dlisSul
    rw [e 4 5 (by omega), hs]
  unfold Dlis.storageLabel
  simp only [hd, List.length_take, Nat.min_eq_left h]
  rw [if_neg (by omega), if_neg (by omega)]

/-- C98: from a buffer without gaps that has 80 items or items of one byte, the label read is that of the bytes of the buffer. -/
theorem c98_label_partial (v : RawView) (xs : Bytes) (hi : Spec.RawInside v) (hd : Spec.RawDense v)
    (hx : Spec.RawHolds v xs) (hc : 80 ≤ v.count ∨ v.itemsize = 1) :
    rawLabel v = some (Dlis.storageLabel xs) := by
  have hpos := hi.1
  unfold rawLabel
  by_cases h : v.count < 80
  · rw [if_pos h]
    have h1 : v.itemsize = 1 := by omega
    have hl := hx.1
    rw [h1, Nat.mul_one] at hl
    unfold Dlis.storageLabel
    rw [if_pos (by omega)]
  · have hroom := rawDense_room hi hd (k := 80) (by omega) (by omega)
    have hl : v.count ≤ xs.length := by rw [hx.1]; exact Nat.le_mul_of_pos_right _ hpos
    rw [if_neg h, if_pos hroom, ← storageLabel_take xs (by omega)]
    congr 2
    apply List.ext_getElem?
    intro j
    by_cases hj : j < 80
    · obtain ⟨p, hp, hq⟩ := hx.2 j (by omega)
      rw [rawPlace_dense hd] at hp
      rw [List.getElem?_take, List.getElem?_take, if_pos hj, if_pos hj, List.getElem?_drop, hq]
      congr 1
      omega
    · rw [List.getElem?_eq_none (by simp; omega), List.getElem?_eq_none (by simp; omega)]

example : rawLabel (byteArray 79) = some .tooSmall ∧ rawLabel (byteArray 80) = some (.label true (-1) 1 0 false 0 []) := by
  decide +kernel

/-- C98 is false of labels: a buffer with enough bytes is refused if its items have more than one byte, and from one that
goes backwards through its memory bytes behind the end are read. -/
theorem c98_label_defect : (∃ (v : RawView) (xs : Bytes), Spec.RawInside v ∧ Spec.RawDense v ∧ Spec.RawHolds v xs ∧
      rawLabel v = some .tooSmall ∧ Dlis.storageLabel xs ≠ .tooSmall) ∧
    ∀ mem : Bytes, 80 ≤ mem.length →
      let v : RawView := ⟨mem, mem.length - 1, mem.length, 1, -1, false⟩
      Spec.RawInside v ∧ rawLabel v = none := by
  constructor
  · refine ⟨⟨List.replicate 80 0, 0, 40, 2, 2, false⟩, List.replicate 80 0, ⟨by decide, ?_⟩, rfl,
      ⟨by simp, fun j hj => ⟨j, ?_, rfl⟩⟩, by decide, by decide +kernel⟩
    · intro j hj
      have hj : j < 40 * 2 := hj
      rw [rawPlace_dense (by rfl)]
      simp only [List.length_replicate]
      omega
    · rw [rawPlace_dense (by rfl)]
      simp
  · intro mem h
    refine ⟨⟨by simp, fun j hj => ?_⟩, ?_⟩
    · simp only [Nat.mul_one] at hj
      simp only [Spec.rawPlace, Nat.div_one, Nat.mod_one]
      omega
    · unfold rawLabel
      rw [if_neg (by simp only []; omega), if_neg (by simp only []; omega)]

example : rawLabel ⟨List.replicate 80 0, 79, 80, 1, -1, false⟩ = none := by decide +kernel

end Dlisio
