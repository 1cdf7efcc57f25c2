/-
Loading: C40.
-/
import Mathlib.Data.List.Perm.Basic
import Mathlib.Data.List.Range
import Verif.Dlis.Load
import Verif.Dlis.FdataProps
import Verif.Dlis.HeaderProps

namespace Dlisio.Dlis

open _root_.Dlisio.Dlis.Spec

/-! ## Handles -/

/-- Everything that was opened is closed, or belongs to a logical file that is returned, but
not both, and nothing is closed twice. -/
def Spec.Accounted (x : Indexer) : Prop :=
  (x.closed ++ x.files.map (·.handle)).Perm (List.range x.opened)

/-- Every handle that was opened is closed, once. -/
def Spec.AllClosed (x : Indexer) : Prop := x.closed.Perm (List.range x.opened)

/-- Within a round: one more handle is open, that of the stream. -/
def Busy (x : Indexer) : Prop :=
  ∃ h, x.stream = some h ∧ (x.closed ++ x.files.map (·.handle) ++ [h]).Perm (List.range x.opened)

/-- The handles are the same. -/
def SameHandles (x y : Indexer) : Prop :=
  y.closed = x.closed ∧ y.files = x.files ∧ y.stream = x.stream ∧ y.opened = x.opened

theorem SameHandles.busy {x y : Indexer} (h : SameHandles x y) (hb : Busy x) : Busy y := by
  obtain ⟨h1, h2, h3, h4⟩ := h
  unfold Busy
  rw [h1, h2, h3, h4]
  exact hb

theorem logicalEof_same {policy : Policy} {l : Layer} {pos : Nat} (x : Indexer) :
    SameHandles x (logicalEof policy l pos x).1 := by
  unfold logicalEof
  split
  · split <;> exact ⟨rfl, rfl, rfl, rfl⟩
  · split <;> exact ⟨rfl, rfl, rfl, rfl⟩
  · exact ⟨rfl, rfl, rfl, rfl⟩

theorem findReadSul_same {policy : Policy} {l : Layer} (x : Indexer) :
    SameHandles x (findReadSul policy l x).1 := by
  unfold findReadSul
  simp only
  split
  · split
    · exact ⟨rfl, rfl, rfl, rfl⟩
    · split
      · exact ⟨rfl, rfl, rfl, rfl⟩
      · split <;> exact ⟨rfl, rfl, rfl, rfl⟩
      · exact ⟨rfl, rfl, rfl, rfl⟩
  · exact ⟨rfl, rfl, rfl, rfl⟩
  · split <;> exact ⟨rfl, rfl, rfl, rfl⟩

/-- What is true after a part of a round. -/
def Kept : Indexer × Work Unit → Prop
  | (x, .done ()) => Spec.Accounted x
  | (x, _) => Busy x

theorem parseLogicalFile_kept {policy : Policy} {stale : Nat → Bytes} {t : Bool} {l : Layer}
    (x : Indexer) (h : Busy x) : Kept (parseLogicalFile policy stale t l x) := by
  unfold parseLogicalFile
  split
  · exact h
  · simp only
    split
    · exact h
    · exact h
    · obtain ⟨k, hk, hp⟩ := h
      simp only [Kept, Spec.Accounted, hk, Option.getD_some, List.map_append, List.map_cons,
        List.map_nil, ← List.append_assoc]
      exact hp

theorem closeStream_accounted {x : Indexer} (h : Busy x) : Spec.Accounted x.closeStream := by
  obtain ⟨k, hk, hp⟩ := h
  simp only [Spec.Accounted, Indexer.closeStream, hk, Option.toList_some, List.append_assoc]
  refine List.Perm.trans ?_ hp
  rw [List.append_assoc]
  exact List.Perm.append_left _ List.perm_append_comm

theorem afterSul_kept {d : Disk} {policy : Policy} {stale : Nat → Bytes} {l : Layer} {pos : Nat}
    (x : Indexer) (h : Busy x) : Kept (afterSul d policy stale l pos x) := by
  have h1 := (logicalEof_same (policy := policy) (l := l) (pos := pos) x).busy h
  unfold afterSul
  rcases hr : logicalEof policy l pos x with ⟨y, r⟩
  rw [hr] at h1
  match r with
  | .raised => exact h1
  | .undefined => exact h1
  | .done true => exact closeStream_accounted h1
  | .done false =>
    dsimp only
    split
    · split
      · exact h1
      · exact parseLogicalFile_kept y h1
    · exact h1

theorem iteration_kept {d : Disk} {policy : Policy} {stale : Nat → Bytes}
    (x : Indexer) (hopen : d.opens x.next = true) (h : Spec.Accounted x) :
    Kept (iteration d policy stale x) := by
  unfold iteration
  rw [hopen]
  simp only [Bool.not_true, Bool.false_eq_true, if_false]
  have hb : Busy { x with stream := some x.opened, opened := x.opened + 1 } := by
    refine ⟨x.opened, rfl, ?_⟩
    rw [List.range_succ]
    exact List.Perm.append_right _ h
  split
  · exact hb
  · generalize ({ x with stream := some x.opened, opened := x.opened + 1 } : Indexer) = y at hb ⊢
    have h1 := (logicalEof_same (policy := policy) (l := d.layer x.next) (pos := 0) y).busy hb
    rcases hr : logicalEof policy (d.layer x.next) 0 y with ⟨z, r⟩
    rw [hr] at h1
    match r with
    | .raised => exact h1
    | .undefined => exact h1
    | .done true => exact closeStream_accounted h1
    | .done false =>
      dsimp only
      have h2 := (findReadSul_same (policy := policy) (l := d.layer x.next) z).busy h1
      rcases hr2 : findReadSul policy (d.layer x.next) z with ⟨w, r2⟩
      rw [hr2] at h2
      match r2 with
      | .raised => exact h2
      | .undefined => exact h2
      | .done pos => exact afterSul_kept w h2

theorem close_all {x : Indexer} (h : Busy x) : Spec.AllClosed x.close := by
  obtain ⟨k, hk, hp⟩ := h
  simp only [Spec.AllClosed, Indexer.close, Indexer.closeStream, hk, Option.toList_some]
  refine List.Perm.trans ?_ hp
  rw [List.append_assoc, List.append_assoc]
  exact List.Perm.append_left _ List.perm_append_comm

theorem loadLoop_kept {d : Disk} {policy : Policy} {stale : Nat → Bytes}
    (hopen : ∀ k, d.opens k = true) (n : Nat) (x : Indexer) (h : Spec.Accounted x) :
    ((loadLoop d policy stale n x).2 = .raised → Spec.AllClosed (loadLoop d policy stale n x).1) ∧
    ((loadLoop d policy stale n x).2 = .files →
      Spec.Accounted (loadLoop d policy stale n x).1) := by
  induction n generalizing x with
  | zero => exact ⟨by simp [loadLoop], by simp [loadLoop]⟩
  | succ n ih =>
    unfold loadLoop
    split
    · exact ⟨by simp, fun _ => h⟩
    · have h1 := iteration_kept (policy := policy) (stale := stale) x (hopen _) h
      rcases hr : iteration d policy stale x with ⟨y, r⟩
      rw [hr] at h1
      match r with
      | .done () => exact ih y h1
      | .raised => exact ⟨fun _ => close_all h1, by simp⟩
      | .undefined => exact ⟨by simp, by simp⟩

/-- C40.  Whatever the file contains and whatever fails in whatever round: if loading raises an
exception, every handle that was opened is closed exactly once.  If it succeeds, the handles of
the logical files are open and all others are closed.  Missing: a first tape mark that cannot be
read, and a file that cannot be opened a second time; see `c40_short_file_defect` and
`c40_closed_twice_defect`. -/
theorem c40_handles_partial (d : Disk) (policy : Policy) (stale : Nat → Bytes) (n : Nat)
    (tm : Tapemark) (hm : d.mark = .ok tm) (hopen : ∀ k, d.opens k = true) :
    ((load d policy stale n).2 = .raised → Spec.AllClosed (load d policy stale n).1) ∧
    ((load d policy stale n).2 = .files → Spec.Accounted (load d policy stale n).1) := by
  unfold load
  rw [hm]
  exact loadLoop_kept hopen n _ (by simp [Spec.Accounted, Indexer.new])

/-- C40 is violated for files of fewer than 12 bytes: loading fails, and the stream that was
opened is not closed. -/
theorem c40_short_file_defect (file : Bytes) (h : file.length < 12) (policy : Policy)
    (stale : Nat → Bytes) (n : Nat) :
    (load (rawDisk file) policy stale n).2 = .raised ∧
    (load (rawDisk file) policy stale n).1.opened = 1 ∧
    (load (rawDisk file) policy stale n).1.closed = [] := by
  have : (rawDisk file).mark = .eofError := by
    simp only [rawDisk, readTapemark, readAt]
    rw [if_neg (by omega), if_neg (by simp; omega)]
  unfold load
  rw [this]
  exact ⟨rfl, rfl, rfl⟩

/-! ## Loading comes to an end -/

theorem findoffsetsLoop_next (src : Source) (ofs : Offsets) (lr lrs : Nat) (hs : Bool)
    (h0 : ofs.explicits ≠ [] → 4 ≤ lrs) (p : Nat)
    (hp : (findoffsetsLoop src ofs lr lrs hs).next = some p) :
    4 ≤ p ∧ p + 4 ≤ src.data.length := by
  induction hk : src.data.length - lrs using Nat.strongRecOn generalizing ofs lr lrs hs with
  | _ k ih =>
    rw [findoffsetsLoop_eq] at hp
    cases hrd : readAt src lrs 4 with
    | error => rw [hrd] at hp; cases hp
    | eof bs =>
      rw [hrd] at hp
      simp only at hp
      split at hp
      · split at hp <;> cases hp
      · cases hp
    | ok buf =>
      have hle := (readAt_ok hrd (by omega)).1
      rw [hrd] at hp
      simp only at hp
      split at hp
      · cases hp
      · rename_i hd _
        split at hp
        · cases hp
        · rename_i hlen
          split at hp
          · rename_i hst
            split at hp
            · cases hp
            · cases hp
              simp only [Bool.and_eq_true, decide_eq_true_eq, ne_eq, List.length_eq_zero_iff]
                at hst
              exact ⟨h0 hst.2, hle⟩
          · split at hp
            · cases hp
            · split at hp
              · cases hp
              · split at hp
                · exact ih _ (by omega) _ _ _ _ (fun _ => by omega) hp rfl
                · exact ih _ (by omega) _ _ _ _ (fun _ => by omega) hp rfl

theorem visible_cons (pos : Nat) (l1 l0 ff v : Byte) (rest : Bytes) :
    visible pos (l1 :: l0 :: ff :: v :: rest) =
      if ff ≠ 0xFF ∨ v ≠ 0x01 ∨ l1.toNat * 256 + l0.toNat < 4 then ([], .broken true)
      else if rest.length < l1.toNat * 256 + l0.toNat - 4 then ([(pos + 4, rest)], .broken true)
      else ((pos + 4, rest.take (l1.toNat * 256 + l0.toNat - 4)) ::
          (visible (pos + (l1.toNat * 256 + l0.toNat))
            (rest.drop (l1.toNat * 256 + l0.toNat - 4))).1,
        (visible (pos + (l1.toNat * 256 + l0.toNat))
            (rest.drop (l1.toNat * 256 + l0.toNat - 4))).2) := by
  rw [visible]

theorem visible_short (pos : Nat) (bs : Bytes) (h : bs.length < 4) : (visible pos bs).1 = [] := by
  match bs, h with
  | [], _ => rw [visible]
  | [_], _ => rw [visible] <;> simp
  | [_, _], _ => rw [visible] <;> simp
  | [_, _, _], _ => rw [visible] <;> simp
  | _ :: _ :: _ :: _ :: _, h => simp at h; omega

theorem tellIn_ge (endTell : Nat) (pos : Nat) (bs : Bytes) (p : Nat)
    (hp : p < ((visible pos bs).1.flatMap (·.2)).length) :
    pos + 4 + p ≤ tellIn endTell (visible pos bs).1 p := by
  induction hk : bs.length using Nat.strongRecOn generalizing pos bs p with
  | _ k ih =>
    by_cases hs : bs.length < 4
    · rw [visible_short _ _ hs] at hp
      simp at hp
    · match bs, hs with
      | [], hs => simp at hs
      | [_], hs => simp at hs
      | [_, _], hs => simp at hs
      | [_, _, _], hs => simp at hs
      | l1 :: l0 :: ff :: v :: rest, _ =>
        rw [visible_cons] at hp ⊢
        by_cases hc : ff ≠ 0xFF ∨ v ≠ 0x01 ∨ l1.toNat * 256 + l0.toNat < 4
        · rw [if_pos hc] at hp
          simp at hp
        · rw [if_neg hc] at hp ⊢
          by_cases hsh : rest.length < l1.toNat * 256 + l0.toNat - 4
          · rw [if_pos hsh] at hp ⊢
            simp only [List.flatMap_cons, List.flatMap_nil, List.append_nil] at hp
            simp only [tellIn, if_pos hp]
            omega
          · rw [if_neg hsh] at hp ⊢
            simp only [tellIn]
            split
            · omega
            · rename_i hge
              simp only [List.flatMap_cons, List.length_append] at hp
              have := ih _ (by
                  simp only [List.length_cons, List.length_drop] at hk ⊢
                  omega)
                (pos + (l1.toNat * 256 + l0.toNat))
                (rest.drop (l1.toNat * 256 + l0.toNat - 4))
                (p - (rest.take (l1.toNat * 256 + l0.toNat - 4)).length) (by omega) rfl
              simp only [List.length_take] at this hge ⊢
              omega

theorem raw_logicalEof {file : Bytes} {policy : Policy} {k pos : Nat} {x : Indexer} :
    (∃ b, logicalEof policy ((rawDisk file).layer k) pos x = (x, .done false) ∧
      k + pos < file.length ∧ (file.drop k)[pos]? = some b) ∨
    logicalEof policy ((rawDisk file).layer k) pos x = ({ x with dataEnd := true }, .done true) ∧
      file.length ≤ k + pos := by
  have hs : seekOk ⟨file.drop k, .eof⟩ pos = true := by unfold seekOk; split <;> rfl
  unfold logicalEof
  simp only [rawDisk, hs, if_true]
  unfold readAt
  rw [if_neg (by omega)]
  by_cases h : pos + 1 ≤ (file.drop k).length
  · left
    have h' := h
    simp only [List.length_drop] at h'
    refine ⟨(file.drop k)[pos], ?_, by omega, by rw [List.getElem?_eq_getElem (by omega)]⟩
    simp only [if_pos h]
  · right
    refine ⟨?_, by simp only [List.length_drop] at h; omega⟩
    simp only [if_neg h]

/-- The file is opened at greater and greater offsets. -/
structure Moves (d : Disk) (size k : Nat) : Prop where
  mark : (d.layer k).peof = false → k < size ∧ k < (d.layer k).endTell
  data : 0 < (d.layer k).src.data.length → k < size
  file : ∀ q r, d.rp66 k q = some r → 0 < (d.layer k).src.data.length → k < r.endTell ∧
    ∀ p, 4 ≤ p → p + 4 ≤ r.src.data.length → k < r.ptell p - 4 - (if d.isTif then 12 else 0)

theorem logicalEof_cases {policy : Policy} {l : Layer} {pos : Nat} {x y : Indexer} {r : Bool}
    (h : logicalEof policy l pos x = (y, .done r)) :
    (r = false ∧ y = x ∧ 0 < l.src.data.length) ∨
    (r = true ∧ y.dataEnd = true) ∨ (r = true ∧ l.peof = false ∧ y = { x with next := l.endTell }) := by
  unfold logicalEof at h
  split at h
  · split at h
    · cases h
    · cases h; exact .inr (.inl ⟨rfl, rfl⟩)
  · split at h
    · cases h; exact .inr (.inl ⟨rfl, rfl⟩)
    · rename_i hp
      cases h; exact .inr (.inr ⟨rfl, by simpa using hp, rfl⟩)
  · rename_i bs hr
    cases h
    left
    split at hr
    · have := (readAt_ok hr (by omega)).1
      exact ⟨rfl, rfl, by omega⟩
    · cases hr

theorem findReadSul_next {policy : Policy} {l : Layer} (x : Indexer) :
    (findReadSul policy l x).1.next = x.next ∧
    (findReadSul policy l x).1.dataEnd = x.dataEnd := by
  unfold findReadSul
  simp only
  split
  · split
    · exact ⟨rfl, rfl⟩
    · split
      · exact ⟨rfl, rfl⟩
      · split <;> exact ⟨rfl, rfl⟩
      · exact ⟨rfl, rfl⟩
  · exact ⟨rfl, rfl⟩
  · split <;> exact ⟨rfl, rfl⟩

theorem parse_progress {policy : Policy} {stale : Nat → Bytes} {isTif : Bool} {l : Layer}
    (x y : Indexer) (hk : x.next < l.endTell)
    (hp : ∀ p, 4 ≤ p → p + 4 ≤ l.src.data.length →
      x.next < l.ptell p - 4 - (if isTif then 12 else 0))
    (h : parseLogicalFile policy stale isTif l x = (y, .done ())) :
    x.next < y.next := by
  unfold parseLogicalFile at h
  split at h
  · cases h
  · rename_i ix hix
    simp only at h
    split at h
    · cases h
    · cases h
    · cases h
      simp only
      cases hn : ix.next with
      | none => exact hk
      | some p =>
        have hraw : findoffsetsRaw l.src = ix := by
          unfold findoffsets at hix
          simp only at hix
          split at hix
          · cases hix
          · cases hix; rfl
        rw [← hraw] at hn
        obtain ⟨h4, hlen⟩ := findoffsetsLoop_next _ _ _ _ _ (by simp) p hn
        exact hp p h4 hlen

theorem iteration_progress {d : Disk} {policy : Policy} {stale : Nat → Bytes} {size : Nat}
    (x y : Indexer) (hm : Moves d size x.next)
    (h : iteration d policy stale x = (y, .done ())) :
    y.dataEnd = true ∨ (x.next < size ∧ x.next < y.next) := by
  unfold iteration at h
  split at h
  · cases h
  · simp only at h
    split at h
    · cases h
    · generalize hx' : ({ x with stream := some x.opened, opened := x.opened + 1 } : Indexer) = x' at h
      have hnext : x'.next = x.next := by rw [← hx']
      rcases hr1 : logicalEof policy (d.layer x.next) 0 x' with ⟨w, r⟩
      rw [hr1] at h
      match r, h with
      | .done true, h =>
        simp only at h
        cases h
        rcases logicalEof_cases hr1 with ⟨h1, -, -⟩ | ⟨-, h1⟩ | ⟨-, h1, rfl⟩
        · cases h1
        · exact .inl h1
        · exact .inr (hm.mark h1)
      | .done false, ha =>
        simp only at ha
        rcases logicalEof_cases hr1 with ⟨-, rfl, hpos⟩ | ⟨h1, -⟩ | ⟨h1, -, -⟩
        · rcases hr2 : findReadSul policy (d.layer x.next) w with ⟨v, r2⟩
          have h3 := findReadSul_next (policy := policy) (l := d.layer x.next) w
          rw [hr2] at ha h3
          match r2, ha with
          | .done pos, hb =>
            simp only at hb h3
            unfold afterSul at hb
            rcases hr4 : logicalEof policy (d.layer x.next) pos v with ⟨u, r4⟩
            rw [hr4] at hb
            match r4, hb with
            | .done true, hc =>
              simp only at hc
              cases hc
              rcases logicalEof_cases hr4 with ⟨h1, -, -⟩ | ⟨-, h1⟩ | ⟨-, h1, rfl⟩
              · cases h1
              · exact .inl h1
              · exact .inr (hm.mark h1)
            | .done false, hc =>
              simp only at hc
              rcases logicalEof_cases hr4 with ⟨-, rfl, -⟩ | ⟨h1, -⟩ | ⟨h1, -, -⟩
              · have hu : u.next = x.next := h3.1.trans hnext
                cases hv : findvrl policy (d.layer x.next).src pos with
                | found q _ =>
                  rw [hv] at hc
                  simp only [hu] at hc
                  cases hrp : d.rp66 x.next q with
                  | none => rw [hrp] at hc; cases hc
                  | some l =>
                    rw [hrp] at hc
                    simp only at hc
                    right
                    obtain ⟨g1, g2⟩ := hm.file q l hrp hpos
                    have := parse_progress u y (by omega) (by rw [hu]; exact g2) hc
                    exact ⟨hm.data hpos, by omega⟩
                | _ => rw [hv] at hc; cases hc
              · cases h1
              · cases h1
        · cases h1
        · cases h1

theorem loadLoop_ends {d : Disk} {policy : Policy} {stale : Nat → Bytes} {size : Nat}
    (hm : ∀ k, Moves d size k) (n : Nat) (x : Indexer) (hn : size - x.next + 2 ≤ n) :
    (loadLoop d policy stale n x).2 ≠ .running := by
  induction n generalizing x with
  | zero => omega
  | succ n ih =>
    unfold loadLoop
    split
    · simp
    · rcases hr : iteration d policy stale x with ⟨y, r⟩
      match r with
      | .raised => simp
      | .undefined => simp
      | .done () =>
        simp only
        rcases iteration_progress x y (hm x.next) hr with h | ⟨h1, h2⟩
        · cases n with
          | zero => omega
          | succ n => unfold loadLoop; rw [if_pos h]; simp
        · exact ih y (by omega)

theorem raw_moves {file : Bytes} (ht : (rawDisk file).isTif = false) (k : Nat) :
    Moves (rawDisk file) file.length k where
  mark h := by cases h
  data h := by
    simp only [rawDisk, List.length_drop] at h
    omega
  file q r h hpos := by
    simp only [rawDisk, List.length_drop] at hpos
    cases h
    refine ⟨by simp only [rawRp66]; omega, fun p h4 hlen => ?_⟩
    have := tellIn_ge file.length (k + q) (file.drop (k + q)) p (by
      simp only [rawRp66] at hlen
      omega)
    rw [ht]
    simp only [rawRp66, Bool.false_eq_true, if_false]
    omega

theorem loadLoop_stable {d : Disk} {policy : Policy} {stale : Nat → Bytes} (n m : Nat)
    (x : Indexer) (h : (loadLoop d policy stale n x).2 ≠ .running) (hm : n ≤ m) :
    loadLoop d policy stale m x = loadLoop d policy stale n x := by
  induction n generalizing x m with
  | zero => simp [loadLoop] at h
  | succ n ih =>
    obtain ⟨m, rfl⟩ : ∃ k, m = k + 1 := ⟨m - 1, by omega⟩
    unfold loadLoop at h ⊢
    by_cases hd : x.dataEnd
    · simp [hd]
    · simp only [hd, Bool.false_eq_true, if_false] at h ⊢
      rcases hr : iteration d policy stale x with ⟨y, r⟩
      rw [hr] at h
      match r, h with
      | .done (), h => exact ih m y h (by omega)
      | .raised, _ => rfl
      | .undefined, _ => rfl

/-- C40.  Loading a file without tape marks comes to an end after at most as many rounds as the
file has bytes, plus two, whatever the file contains and whatever the error handler does; more
time changes nothing. -/
theorem c40_ends (file : Bytes) (policy : Policy) (stale : Nat → Bytes)
    (ht : (rawDisk file).isTif = false) :
    (load (rawDisk file) policy stale (file.length + 2)).2 ≠ .running ∧
    ∀ n, file.length + 2 ≤ n →
      load (rawDisk file) policy stale n = load (rawDisk file) policy stale (file.length + 2) := by
  unfold load
  split
  · have := loadLoop_ends (policy := policy) (stale := stale) (raw_moves ht) (file.length + 2)
      { Indexer.new with closed := [0] } (by simp [Indexer.new])
    exact ⟨this, fun n hn => loadLoop_stable _ _ _ this hn⟩
  · exact ⟨by simp, fun _ _ => rfl⟩

end Dlisio.Dlis
