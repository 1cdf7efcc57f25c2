/-
C29 (curve rows) and C31 (no reads past the record).
-/
import Mathlib.Tactic.IntervalCases
import Verif.Dlis.Curves
import Verif.Dlis.PackProps
import Verif.Dlis.FdataProps

namespace Dlisio.Dlis

/-! ### Specification -/

namespace Spec

/-- Codes whose values become Python objects. -/
def isObject : Reprc → Bool
  | .fsing1 | .fsing2 | .fdoub1 | .fdoub2 | .ascii | .obname | .objref | .attref | .dtime => true
  | _ => false

/-- Codes whose values become bounded-length texts. -/
def isText : Reprc → Bool
  | .ident | .units => true
  | _ => false

/-- Bytes that a value of the code takes in a row. -/
def colSize (c : Reprc) : Nat :=
  if isObject c then 8 else if isText c then 255 * 4 else (memSize c).toNat

/-- Bytes of a row. -/
def rowSize (cs : List Reprc) : Nat := (cs.map colSize).sum

/-- What a value looks like in the array. -/
def items (c : Reprc) (v : Val) : List Item :=
  if isObject c then [.obj v]
  else match v with
    | .str s => [.text (textUnits s)]
    | v => v.cells.map .host

/-- The value can be turned into a Python object: texts are UTF-8, dates exist. -/
def Accepted : Reprc → Val → Prop
  | .ascii, .str s => ∃ cs, Dlisio.Spec.Utf8 cs s
  | .dtime, .dtime t => dateOk t = true
  | _, _ => True

/-- `e` is a frame of channels with the codes `cs`, and `row` its row. -/
inductive RowEnc : List Reprc → List Item → Bytes → Prop
  | nil : RowEnc [] [] []
  | cons {c v e cs row es} : Spec.Enc c v e → Accepted c v → RowEnc cs row es →
      RowEnc (c :: cs) (items c v ++ row) (e ++ es)

/-- `e` is a sequence of frames, with these rows. -/
inductive RowsEnc (cs : List Reprc) : List (List Item) → Bytes → Prop
  | nil : RowsEnc cs [] []
  | cons {row e rows es} : RowEnc cs row e → RowsEnc cs rows es →
      RowsEnc cs (row :: rows) (e ++ es)

/-- Codes for which the size is compared with what is left of the record. -/
def isChecked (c : Reprc) : Bool := !isObject c && !isText c

/-- What is left of a record is not a frame: some value of a checked code is cut off, or
some value cannot be converted. -/
inductive BadFrame : List Reprc → Bytes → Prop
  | short {c cs bs} : isChecked c = true → (∀ v e r, Spec.Enc c v e → bs ≠ e ++ r) →
      BadFrame (c :: cs) bs
  | rejected {c v e cs r} : Spec.Enc c v e → ¬ Accepted c v → BadFrame (c :: cs) (e ++ r)
  | later {c v e cs r} : Spec.Enc c v e → Accepted c v → BadFrame cs r →
      BadFrame (c :: cs) (e ++ r)

/-- The items lie in memory one after the other from `o` on. -/
def RowAt (mem : Nat → Option (Item × Nat)) : Nat → List Item → Prop
  | _, [] => True
  | o, it :: its => (∀ k, k < it.size → mem (o + k) = some (it, k)) ∧ RowAt mem (o + it.size) its

/-- Bytes taken by a list of items. -/
def itemBytes (its : List Item) : Nat := (its.map Item.size).sum

end Spec

open _root_.Dlisio.Dlis.Spec

/-! ### Samples -/

theorem items_size {c : Reprc} {v : Val} {e : Bytes} (h : Spec.Enc c v e) :
    itemBytes (items c v) = colSize c := by
  by_cases ho : isObject c = true
  · simp [items, ho, itemBytes, Item.size, colSize]
  · by_cases ht : isText c = true
    · cases c <;> simp [isText] at ht
      all_goals
        obtain ⟨s, rfl, -⟩ := h
        simp [items, isObject, itemBytes, Item.size, colSize, isText]
    · have hs : Spec.isString c = false := by
        cases c <;> simp_all [isObject, isText, Spec.isString]
      have h1 := uvari_cells h hs
      have h2 : items c v = v.cells.map .host := by
        unfold items
        rw [if_neg ho]
        cases c <;> simp [isObject, isText] at ho ht <;> simp only [Spec.Enc] at h <;>
          first
          | (obtain ⟨-, rfl⟩ := h; rfl)
          | (obtain ⟨n, rfl, -⟩ := h; rfl)
      have h3 : itemBytes (v.cells.map .host) = Spec.bytes v.cells := by
        simp [itemBytes, Spec.bytes, Item.size, Function.comp_def]
      rw [h2, h3, colSize, if_neg ho, if_neg ht, ← h1]
      simp

theorem packflen_one {c : Reprc} {v : Val} {e r : Bytes} (h : Spec.Enc c v e) :
    ∃ w, packflen [c.fmtChar] (e ++ r) = some (.ok, e.length, w) := by
  refine ⟨_, (c11_packflen_ok _ _ _ _).2 ⟨[c], [v], e, r, rfl, ?_, rfl, rfl, rfl⟩⟩
  simpa using Spec.EncSeq.cons h Spec.EncSeq.nil

theorem packf_one {c : Reprc} {v : Val} {e r : Bytes} (h : Spec.Enc c v e) :
    packf [c.fmtChar] (e ++ r) = some (.ok, v.cells) := by
  refine (c11_packf_ok _ _ _).2 ⟨[c], [v], e, r, rfl, ?_, rfl, by simp⟩
  simpa using Spec.EncSeq.cons h Spec.EncSeq.nil

theorem readCurveSample_checked {c : Reprc} (hc : isChecked c = true) (behind : Nat) (xs : Bytes) :
    readCurveSample behind c.fmtChar xs = readHost behind c.fmtChar xs := by
  cases c <;> simp [isChecked, isObject, isText] at hc <;> rfl

theorem items_checked {c : Reprc} {v : Val} {e : Bytes} (hc : isChecked c = true)
    (h : Spec.Enc c v e) : items c v = v.cells.map .host := by
  unfold items
  simp only [isChecked, Bool.and_eq_true, Bool.not_eq_true'] at hc
  rw [if_neg (by simp [hc.1])]
  cases c <;> simp [isObject, isText] at hc <;> simp only [Spec.Enc] at h <;>
    first
    | (obtain ⟨-, rfl⟩ := h; rfl)
    | (obtain ⟨n, rfl, -⟩ := h; rfl)

theorem readObject_ok {c : Reprc} {v : Val} {e r : Bytes} (h : Spec.Enc c v e) :
    readObject c (e ++ r) = .ok ([.obj v], r) := by
  unfold readObject
  rw [(c09_decodeVal c _ _ _).2 ⟨e, h, rfl⟩]

theorem decode_ident {s e r : Bytes} (h : Spec.Ident s e) : ident (e ++ r) = some (s, r) := by
  have := (c09_decodeVal .ident (e ++ r) (.str s) r).2 ⟨e, ⟨s, rfl, h⟩, rfl⟩
  simp only [decodeVal, Option.map_eq_some_iff] at this
  obtain ⟨⟨s', r'⟩, h1, h2⟩ := this
  simp at h2
  rw [h1, h2.1, h2.2]

theorem decode_ascii {s e r : Bytes} (h : Spec.Ascii s e) : ascii (e ++ r) = some (s, r) := by
  have := (c09_decodeVal .ascii (e ++ r) (.str s) r).2 ⟨e, ⟨s, rfl, h⟩, rfl⟩
  simp only [decodeVal, Option.map_eq_some_iff] at this
  obtain ⟨⟨s', r'⟩, h1, h2⟩ := this
  simp at h2
  rw [h1, h2.1, h2.2]

theorem decode_dtime {t : DTime} {e r : Bytes} (h : Spec.Enc .dtime (.dtime t) e) :
    dtime (e ++ r) = some (t, r) := by
  have := (c09_decodeVal .dtime (e ++ r) (.dtime t) r).2 ⟨e, h, rfl⟩
  simp only [decodeVal, Option.map_eq_some_iff] at this
  obtain ⟨⟨s', r'⟩, h1, h2⟩ := this
  simp at h2
  rw [h1, h2.1, h2.2]

/-- A sample that is complete and can be converted is read. -/
theorem sample_ok {c : Reprc} {v : Val} {e r : Bytes} (behind : Nat) (h : Spec.Enc c v e)
    (ha : Accepted c v) (hr : behind ≤ r.length) :
    readCurveSample behind c.fmtChar (e ++ r) = .ok (items c v, r) := by
  by_cases hc : isChecked c = true
  · rw [readCurveSample_checked hc, readHost]
    obtain ⟨w, hw⟩ := packflen_one (r := r) h
    rw [hw]
    dsimp only
    rw [if_neg (by simp; omega), packf_one h]
    simp [items_checked hc h]
  · cases c <;> simp [isChecked, isObject, isText] at hc
    case ident =>
      obtain ⟨s, rfl, hs⟩ := h
      show readText _ = _
      simp [readText, decode_ident hs, items, isObject]
    case units =>
      obtain ⟨s, rfl, hs⟩ := h
      show readText _ = _
      simp [readText, decode_ident hs, items, isObject]
    case ascii =>
      obtain ⟨s, rfl, hs⟩ := h
      show readAscii _ = _
      obtain ⟨cs, hcs⟩ := ha
      simp [readAscii, decode_ascii hs, items, isObject, (utf8Decode_iff _ _).2 hcs]
    case dtime =>
      have h' := h
      obtain ⟨-, rfl⟩ := h
      show readDtime _ = _
      simp only [readDtime, decode_dtime h', items, isObject]
      rw [if_pos (by exact ha)]; rfl
    all_goals exact readObject_ok h

/-- A sample that cannot be converted makes an exception. -/
theorem sample_rejected {c : Reprc} {v : Val} {e r : Bytes} (behind : Nat) (h : Spec.Enc c v e)
    (ha : ¬ Accepted c v) :
    readCurveSample behind c.fmtChar (e ++ r) = .error .threw ∨
    readCurveSample behind c.fmtChar (e ++ r) = .error .released := by
  cases c
  case ascii =>
    left
    obtain ⟨s, rfl, hs⟩ := h
    show readAscii _ = _
    have : utf8Decode s = none := by
      rw [Option.eq_none_iff_forall_ne_some]
      intro cs hcs
      exact ha ⟨cs, (utf8Decode_iff _ _).1 hcs⟩
    simp [readAscii, decode_ascii hs, this]
  case dtime =>
    right
    have h' := h
    obtain ⟨-, rfl⟩ := h
    show readDtime _ = _
    simp only [readDtime, decode_dtime h']
    rw [if_neg (by exact ha)]
  all_goals exact absurd (by simp [Accepted]) ha

/-- Codes that are checked are decoded from at most 16 bytes. -/
theorem decode_checked {c : Reprc} (hc : isChecked c = true) (xs : Bytes) (hx : 24 ≤ xs.length) :
    ∃ v r, decodeVal c xs = some (v, r) := by
  by_cases hs : sizeofType c.code = 0
  · have : c = .uvari ∨ c = .origin := by
      cases c <;> simp [isChecked, isObject, isText] at hc <;> simp [sizeofType, Reprc.code] at hs <;>
        simp
    have key : ∃ n r, uvari xs = some (n, r) := by
      unfold uvari
      rcases xs with _ | ⟨b0, _ | ⟨b1, _ | ⟨b2, _ | ⟨b3, xs⟩⟩⟩⟩ <;> simp at hx
      dsimp only
      split <;> exact ⟨_, _, rfl⟩
    obtain ⟨n, r, hn⟩ := key
    rcases this with rfl | rfl
    · exact ⟨.int 4 n, r, by simp [decodeVal, hn]⟩
    · exact ⟨.int 4 n, r, by simp [decodeVal, origin, hn]⟩
  · have hle : 0 ≤ sizeofType c.code ∧ sizeofType c.code ≤ 24 := by
      cases c <;> decide
    have hl : ((xs.take (sizeofType c.code).toNat).length : Int) = sizeofType c.code := by
      rw [List.length_take]; omega
    obtain ⟨v, hv⟩ := enc_of_length hs hl
    exact ⟨v, _, (c09_decodeVal c _ _ _).2 ⟨_, hv, (List.take_append_drop _ _).symm⟩⟩

/-- A checked sample that is cut off by the end of the record is reported. -/
theorem sample_short {c : Reprc} (hc : isChecked c = true) (bs stale : Bytes)
    (hst : 24 ≤ stale.length) (hb : ∀ v e r, Spec.Enc c v e → bs ≠ e ++ r) :
    readCurveSample stale.length c.fmtChar (bs ++ stale) = .error .threw := by
  obtain ⟨v, r, hd⟩ := decode_checked hc (bs ++ stale) (by simp; omega)
  obtain ⟨e, he, heq⟩ := (c09_decodeVal c _ _ _).1 hd
  have hlen : bs.length < e.length := by
    by_contra hle
    have h1 : e <+: bs ++ stale := ⟨r, heq.symm⟩
    obtain ⟨t, ht⟩ := List.prefix_of_prefix_length_le h1 (List.prefix_append bs stale) (by omega)
    exact hb v e t he ht.symm
  rw [readCurveSample_checked hc, readHost]
  obtain ⟨w, hw⟩ := packflen_one (r := r) he
  rw [heq, hw]
  dsimp only
  rw [if_pos]
  rw [← heq, List.length_append]; omega

/-- What is read is what is there, for any bytes. -/
theorem sample_sound {behind : Nat} {ch : Char} {xs r : Bytes} {its : List Item}
    (h : readCurveSample behind ch xs = .ok (its, r)) :
    ∃ c v e, ch = Reprc.fmtChar c ∧ Spec.Enc c v e ∧ Accepted c v ∧ xs = e ++ r ∧
      its = items c v ∧ (isChecked c = true → behind ≤ r.length) := by
  match hch : Reprc.ofFmtChar ch with
  | none => simp [readCurveSample, hch] at h
  | some c =>
    obtain rfl := ((ofFmtChar_eq_some _ _).1 hch)
    have hobj : ∀ c, isObject c = true → (∀ v, Accepted c v) → readObject c xs = .ok (its, r) →
        ∃ v e, Spec.Enc c v e ∧ Accepted c v ∧ xs = e ++ r ∧
          its = items c v ∧ (isChecked c = true → behind ≤ r.length) := by
      intro c hc hacc h
      unfold readObject at h
      split at h
      · cases h
      · rename_i v xs' hd
        simp only [Except.ok.injEq, Prod.mk.injEq] at h
        obtain ⟨rfl, rfl⟩ := h
        obtain ⟨e, he, rfl⟩ := (c09_decodeVal c _ _ _).1 hd
        exact ⟨v, e, he, hacc v, rfl, by simp [items, hc], by simp [isChecked, hc]⟩
    by_cases hc : isChecked c = true
    · rw [readCurveSample_checked hc, readHost] at h
      match hp : packflen [c.fmtChar] xs with
      | none => rw [hp] at h; cases h
      | some (err, n, w) =>
        rw [hp] at h
        dsimp only at h
        split at h
        · cases h
        · rename_i hlen
          match hpf : packf [c.fmtChar] xs with
          | none => rw [hpf] at h; cases h
          | some (err', cells) =>
            have hok : err' = .ok := by
              by_contra hne
              have hne' : err' ≠ .ok := hne
              unfold packf at hpf
              simp only [Option.bind_eq_bind, Option.bind_eq_some_iff] at hpf
              obtain ⟨cur, hw, hcur⟩ := hpf
              obtain ⟨vs, e, r', -, -, rfl⟩ := (worker_format [c] xs _ cur).1 hw
              simp at hcur; exact hne' hcur.1.symm
            subst hok
            have hok2 : err = .ok := by
              have := (c11_agree [c.fmtChar] xs).1
              rw [hpf, hp] at this; simpa using this.symm
            subst hok2
            obtain ⟨cs, vs, e, r1, hf, hE, rfl, hn, -⟩ := (c11_packflen_ok _ _ _ _).1 hp
            obtain rfl : [c] = cs := format_injective (by simpa [Spec.format] using hf)
            rcases hE with _ | ⟨hv, hE⟩
            rcases hE with _ | _
            rename_i v e
            simp only [List.append_nil] at hn hpf h hlen ⊢
            rw [hpf] at h
            simp only [Except.ok.injEq, Prod.mk.injEq] at h
            obtain ⟨rfl, rfl⟩ := h
            rw [packf_one hv] at hpf
            simp only [Option.some.injEq, Prod.mk.injEq, true_and] at hpf
            subst hpf
            refine ⟨c, v, e, rfl, hv, ?_, ?_, (items_checked hc hv).symm, fun _ => ?_⟩
            · cases c <;> simp [isChecked, isObject, isText] at hc <;> simp [Accepted]
            · simp [hn]
            · simp [hn] at hlen ⊢; omega
    · cases c <;> simp [isChecked, isObject, isText] at hc
      case ident =>
        change readText xs = _ at h
        unfold readText at h
        split at h
        · cases h
        · rename_i s r' hd
          simp only [Except.ok.injEq, Prod.mk.injEq] at h
          obtain ⟨rfl, rfl⟩ := h
          obtain ⟨e, he, rfl⟩ := (c09_decodeVal .ident xs (.str s) r').1 (by simp [decodeVal, hd])
          exact ⟨.ident, _, e, rfl, he, by simp [Accepted], rfl, rfl, by simp [isChecked, isText]⟩
      case units =>
        change readText xs = _ at h
        unfold readText at h
        split at h
        · cases h
        · rename_i s r' hd
          simp only [Except.ok.injEq, Prod.mk.injEq] at h
          obtain ⟨rfl, rfl⟩ := h
          obtain ⟨e, he, rfl⟩ := (c09_decodeVal .units xs (.str s) r').1
            (by simp only [decodeVal, units]; simp only [ident] at hd; rw [hd]; rfl)
          exact ⟨.units, _, e, rfl, he, by simp [Accepted], rfl, rfl, by simp [isChecked, isText]⟩
      case ascii =>
        change readAscii xs = _ at h
        unfold readAscii at h
        split at h
        · cases h
        · rename_i s r' hd
          split at h
          · rename_i hu
            simp only [Except.ok.injEq, Prod.mk.injEq] at h
            obtain ⟨rfl, rfl⟩ := h
            obtain ⟨e, he, rfl⟩ := (c09_decodeVal .ascii xs (.str s) r').1 (by simp [decodeVal, hd])
            obtain ⟨cs, hcs⟩ := Option.isSome_iff_exists.1 hu
            exact ⟨.ascii, _, e, rfl, he, ⟨cs, (utf8Decode_iff _ _).1 hcs⟩, rfl, rfl,
              by simp [isChecked, isObject]⟩
          · cases h
      case dtime =>
        change readDtime xs = _ at h
        unfold readDtime at h
        split at h
        · cases h
        · rename_i s r' hd
          split at h
          · rename_i hu
            simp only [Except.ok.injEq, Prod.mk.injEq] at h
            obtain ⟨rfl, rfl⟩ := h
            obtain ⟨e, he, rfl⟩ := (c09_decodeVal .dtime xs (.dtime s) r').1 (by simp [decodeVal, hd])
            exact ⟨.dtime, _, e, rfl, he, hu, rfl, rfl, by simp [isChecked, isObject]⟩
          · cases h
      case fsing1 =>
        obtain ⟨v, e, h⟩ := hobj .fsing1 rfl (fun _ => by simp [Accepted]) h
        exact ⟨.fsing1, v, e, rfl, h⟩
      case fsing2 =>
        obtain ⟨v, e, h⟩ := hobj .fsing2 rfl (fun _ => by simp [Accepted]) h
        exact ⟨.fsing2, v, e, rfl, h⟩
      case fdoub1 =>
        obtain ⟨v, e, h⟩ := hobj .fdoub1 rfl (fun _ => by simp [Accepted]) h
        exact ⟨.fdoub1, v, e, rfl, h⟩
      case fdoub2 =>
        obtain ⟨v, e, h⟩ := hobj .fdoub2 rfl (fun _ => by simp [Accepted]) h
        exact ⟨.fdoub2, v, e, rfl, h⟩
      case obname =>
        obtain ⟨v, e, h⟩ := hobj .obname rfl (fun _ => by simp [Accepted]) h
        exact ⟨.obname, v, e, rfl, h⟩
      case objref =>
        obtain ⟨v, e, h⟩ := hobj .objref rfl (fun _ => by simp [Accepted]) h
        exact ⟨.objref, v, e, rfl, h⟩
      case attref =>
        obtain ⟨v, e, h⟩ := hobj .attref rfl (fun _ => by simp [Accepted]) h
        exact ⟨.attref, v, e, rfl, h⟩

/-! ### Rows -/

theorem itemBytes_nil : itemBytes [] = 0 := rfl
theorem itemBytes_cons (it : Item) (its : List Item) :
    itemBytes (it :: its) = it.size + itemBytes its := by simp [itemBytes]
theorem itemBytes_append (a b : List Item) : itemBytes (a ++ b) = itemBytes a + itemBytes b := by
  simp [itemBytes]

theorem rowAt_congr {m m' : Nat → Option (Item × Nat)} (its : List Item) : ∀ (o : Nat),
    (∀ k, o ≤ k → k < o + itemBytes its → m k = m' k) → RowAt m o its → RowAt m' o its := by
  induction its with
  | nil => intro o _ _; trivial
  | cons it its ih =>
    intro o h hr
    rw [itemBytes_cons] at h
    refine ⟨fun k hk => ?_, ih _ (fun k h1 h2 => h k (by omega) (by omega)) hr.2⟩
    rw [← h _ (by omega) (by omega)]; exact hr.1 k hk

theorem rowAt_append {m : Nat → Option (Item × Nat)} (a b : List Item) : ∀ (o : Nat),
    RowAt m o (a ++ b) ↔ RowAt m o a ∧ RowAt m (o + itemBytes a) b := by
  induction a with
  | nil => intro o; simp [RowAt, itemBytes_nil]
  | cons it its ih =>
    intro o
    simp only [List.cons_append, RowAt, ih, itemBytes_cons, Nat.add_assoc, and_assoc]

/-- What writing some bytes from `d.pos` on may change. -/
structure Wrote (itemsize n : Nat) (d d' : Dst) : Prop where
  frames : d'.frames = d.frames
  allocated : d'.allocated = d.allocated
  before : ∀ k, k < d.pos → d'.mem k = d.mem k
  after : ∀ k, d.pos + n ≤ k → d'.mem k = d.mem k
  overrun : d.pos + n ≤ d.allocated * itemsize → d'.overrun = d.overrun

theorem putAll (itemsize : Nat) (its : List Item) : ∀ d : Dst,
    Wrote itemsize (itemBytes its) d (its.foldl (Dst.put itemsize) d) ∧
    (its.foldl (Dst.put itemsize) d).pos = d.pos + itemBytes its ∧
    RowAt (its.foldl (Dst.put itemsize) d).mem d.pos its := by
  induction its with
  | nil => intro d; exact ⟨⟨rfl, rfl, fun _ _ => rfl, fun _ _ => rfl, fun _ => rfl⟩, by simp [itemBytes], trivial⟩
  | cons it its ih =>
    intro d
    obtain ⟨w, hp, hr⟩ := ih (d.put itemsize it)
    have hpos : (d.put itemsize it).pos = d.pos + it.size := rfl
    have hmem : ∀ k, (d.put itemsize it).mem k =
      if d.pos ≤ k ∧ k < d.pos + it.size then some (it, k - d.pos) else d.mem k := fun _ => rfl
    rw [List.foldl_cons, itemBytes_cons]
    rw [hpos] at hp hr
    refine ⟨⟨w.frames, w.allocated, fun k hk => ?_, fun k hk => ?_, fun h => ?_⟩, by omega, ?_, hr⟩
    · rw [w.before k (by omega), hmem, if_neg (by omega)]
    · rw [w.after k (by omega), hmem, if_neg (by omega)]
    · rw [w.overrun (by rw [hpos]; show _ ≤ d.allocated * itemsize; omega)]
      show (d.overrun || decide _) = _
      rw [decide_eq_false (by omega), Bool.or_false]
    · intro k hk
      rw [w.before _ (by omega), hmem, if_pos (by omega)]
      simp

theorem rowSize_cons (c : Reprc) (cs : List Reprc) : rowSize (c :: cs) = colSize c + rowSize cs := by
  simp [rowSize]

theorem row_size {cs : List Reprc} {row : List Item} {e : Bytes} (h : RowEnc cs row e) :
    itemBytes row = rowSize cs := by
  induction h with
  | nil => rfl
  | cons h _ _ ih => rw [itemBytes_append, items_size h, rowSize_cons, ih]

theorem released_dtime {behind : Nat} {c : Reprc} {xs : Bytes}
    (hs : readCurveSample behind c.fmtChar xs = .error .released) : c = .dtime := by
  unfold readCurveSample at hs
  rw [ofFmtChar_fmtChar] at hs
  cases c <;> dsimp only at hs <;>
    (try rfl) <;> exfalso <;>
    simp only [readObject, readText, readAscii, readHost] at hs <;>
    revert hs <;> (repeat' split) <;> simp

/-- Whatever the bytes are, a frame is written inside its row. -/
theorem frame_writes (itemsize behind : Nat) : ∀ (cs : List Reprc) (xs : Bytes) (d : Dst),
    Wrote itemsize (rowSize cs) d (readFdataFrame itemsize behind (Spec.format cs) xs d).1 := by
  intro cs
  induction cs with
  | nil => intro xs d; exact ⟨rfl, rfl, fun _ _ => rfl, fun _ _ => rfl, fun _ => rfl⟩
  | cons c cs ih =>
    intro xs d
    have hf : Spec.format (c :: cs) = c.fmtChar :: Spec.format cs := rfl
    rw [hf, readFdataFrame, rowSize_cons]
    match hs : readCurveSample behind c.fmtChar xs with
    | .error .threw => exact ⟨rfl, rfl, fun _ _ => rfl, fun _ _ => rfl, fun _ => rfl⟩
    | .error .undefined => exact ⟨rfl, rfl, fun _ _ => rfl, fun _ _ => rfl, fun _ => rfl⟩
    | .error .released =>
      have hc : 8 ≤ colSize c := by
        obtain rfl := released_dtime hs
        decide
      refine ⟨rfl, rfl, fun k hk => ?_, fun k hk => ?_, fun h => ?_⟩
      · show (if _ then _ else _) = _; rw [if_neg (by omega)]
      · show (if _ then _ else _) = _; rw [if_neg]; simp only [Item.size]; omega
      · show (d.overrun || decide _) = _
        rw [decide_eq_false, Bool.or_false]; simp only [Item.size]; omega
    | .ok (its, r) =>
      dsimp only
      obtain ⟨c', v, e, hc, he, -, -, hits, -⟩ := sample_sound hs
      obtain rfl : c = c' := fmtChar_injective hc
      obtain ⟨w, hp, -⟩ := putAll itemsize its d
      have w2 := ih r (its.foldl (Dst.put itemsize) d)
      have hsz : itemBytes its = colSize c := by rw [hits, items_size he]
      rw [hsz] at w hp
      refine ⟨w2.frames.trans w.frames, w2.allocated.trans w.allocated, fun k hk => ?_,
        fun k hk => ?_, fun h => ?_⟩
      · rw [w2.before k (by omega), w.before k hk]
      · rw [w2.after k (by omega), w.after k (by omega)]
      · rw [w2.overrun (by rw [hp, w.allocated]; omega), w.overrun (by omega)]

/-- A frame that is read is there, and is written to its row. -/
theorem frame_sound (itemsize behind : Nat) : ∀ (cs : List Reprc) (xs r : Bytes) (d d' : Dst),
    readFdataFrame itemsize behind (Spec.format cs) xs d = (d', .ok r) →
    ∃ row e, RowEnc cs row e ∧ xs = e ++ r ∧ d'.pos = d.pos + rowSize cs ∧
      RowAt d'.mem d.pos row := by
  intro cs
  induction cs with
  | nil =>
    intro xs r d d' h
    simp [Spec.format, readFdataFrame] at h
    obtain ⟨rfl, rfl⟩ := h
    exact ⟨[], [], .nil, rfl, rfl, trivial⟩
  | cons c cs ih =>
    intro xs r d d' h
    have hf : Spec.format (c :: cs) = c.fmtChar :: Spec.format cs := rfl
    rw [hf, readFdataFrame] at h
    match hs : readCurveSample behind c.fmtChar xs with
    | .error .threw => rw [hs] at h; simp at h
    | .error .undefined => rw [hs] at h; simp at h
    | .error .released => rw [hs] at h; simp at h
    | .ok (its, r1) =>
      rw [hs] at h
      dsimp only at h
      obtain ⟨c', v, e, hc, he, hacc, rfl, hits, -⟩ := sample_sound hs
      obtain rfl : c = c' := fmtChar_injective hc
      obtain ⟨w, hp, hr⟩ := putAll itemsize its d
      obtain ⟨row, es, hrow, rfl, hp2, hr2⟩ := ih _ _ _ _ h
      have hsz : itemBytes its = colSize c := by rw [hits, items_size he]
      have w2 := frame_writes itemsize behind cs (es ++ r) (its.foldl (Dst.put itemsize) d)
      rw [h] at w2
      refine ⟨its ++ row, e ++ es, hits ▸ .cons he hacc hrow, by simp, ?_, ?_⟩
      · rw [hp2, hp, rowSize_cons]; omega
      · rw [rowAt_append]
        refine ⟨rowAt_congr its _ (fun k h1 h2 => ?_) hr, by rw [← hp]; exact hr2⟩
        exact (w2.before k (by rw [hp]; exact h2)).symm

theorem frame_ok (itemsize behind : Nat) {cs : List Reprc} {row : List Item} {e : Bytes}
    (h : RowEnc cs row e) : ∀ (r : Bytes) (d : Dst), behind ≤ r.length →
    ∃ d', readFdataFrame itemsize behind (Spec.format cs) (e ++ r) d = (d', .ok r) ∧
      d'.pos = d.pos + rowSize cs ∧ RowAt d'.mem d.pos row := by
  induction h with
  | nil => intro r d _; exact ⟨d, rfl, rfl, trivial⟩
  | @cons c v e cs row es he hacc hrow ih =>
    intro r d hr
    have hf : Spec.format (c :: cs) = c.fmtChar :: Spec.format cs := rfl
    rw [hf, readFdataFrame, List.append_assoc, sample_ok behind he hacc (by simp; omega)]
    dsimp only
    obtain ⟨w, hp, hr1⟩ := putAll itemsize (items c v) d
    obtain ⟨d', h1, h2, h3⟩ := ih r _ hr
    have w2 := frame_writes itemsize behind cs (es ++ r) ((items c v).foldl (Dst.put itemsize) d)
    rw [h1] at w2
    rw [h1]
    refine ⟨d', rfl, ?_, ?_⟩
    · rw [h2, hp, rowSize_cons, items_size he]; omega
    · rw [rowAt_append]
      refine ⟨rowAt_congr _ _ (fun k h1 h2 => ?_) hr1, by rw [← hp]; exact h3⟩
      exact (w2.before k (by rw [hp]; exact h2)).symm

theorem frame_bad (itemsize : Nat) {cs : List Reprc} {bs : Bytes} (h : BadFrame cs bs)
    (stale : Bytes) (hst : 24 ≤ stale.length) : ∀ d : Dst, ∃ d' err,
    readFdataFrame itemsize stale.length (Spec.format cs) (bs ++ stale) d = (d', .error err) ∧
      err ≠ .undefined := by
  induction h with
  | @short c cs bs hc hb =>
    intro d
    have hf : Spec.format (c :: cs) = c.fmtChar :: Spec.format cs := rfl
    rw [hf, readFdataFrame, sample_short hc bs stale hst hb]
    exact ⟨_, _, rfl, by simp⟩
  | @rejected c v e cs r he hacc =>
    intro d
    have hf : Spec.format (c :: cs) = c.fmtChar :: Spec.format cs := rfl
    rw [hf, readFdataFrame, List.append_assoc]
    rcases sample_rejected (r := r ++ stale) stale.length he hacc with h | h <;> rw [h] <;>
      exact ⟨_, _, rfl, by simp⟩
  | @later c v e cs r he hacc hbad ih =>
    intro d
    have hf : Spec.format (c :: cs) = c.fmtChar :: Spec.format cs := rfl
    rw [hf, readFdataFrame, List.append_assoc, sample_ok _ he hacc (by simp)]
    exact ih _

/-! ### Records -/

/-- The array holds these rows and nothing has been written outside of it. -/
structure Inv (itemsize : Nat) (d : Dst) (rows : List (List Item)) : Prop where
  frames : d.frames = rows.length
  pos : d.pos = rows.length * itemsize
  fits : rows.length ≤ d.allocated
  nonempty : 1 ≤ d.allocated
  overrun : d.overrun = false
  rows : ∀ i row, rows[i]? = some row → RowAt d.mem (i * itemsize) row ∧ itemBytes row = itemsize

theorem Inv.grow {itemsize : Nat} {d : Dst} {rows : List (List Item)} (h : Inv itemsize d rows) :
    Inv itemsize (d.grow itemsize) rows ∧ rows.length < (d.grow itemsize).allocated := by
  unfold Dst.grow
  have := h.frames; have := h.fits; have := h.nonempty
  split
  · refine ⟨⟨h.frames, by rw [h.frames], ?_, ?_, h.overrun, h.rows⟩, ?_⟩ <;> dsimp only <;> omega
  · exact ⟨h, by omega⟩

theorem Inv.frame_any {itemsize : Nat} {d : Dst} {rows : List (List Item)} (h : Inv itemsize d rows)
    (hlt : rows.length < d.allocated) {cs : List Reprc} (hsz : rowSize cs = itemsize)
    (behind : Nat) (xs : Bytes) :
    ∀ d', (readFdataFrame itemsize behind (Spec.format cs) xs d).1 = d' →
    Inv itemsize (d'.rewind itemsize) rows ∧ d'.allocated = d.allocated := by
  rintro d' rfl
  have w := frame_writes itemsize behind cs xs d
  rw [hsz] at w
  have hle : (rows.length + 1) * itemsize ≤ d.allocated * itemsize := Nat.mul_le_mul_right _ hlt
  rw [Nat.add_mul, Nat.one_mul, ← h.pos] at hle
  refine ⟨⟨w.frames.trans h.frames, ?_, ?_, ?_, (w.overrun hle).trans h.overrun, ?_⟩, w.allocated⟩
  · show _ * _ = _; rw [w.frames, h.frames]
  · exact le_of_le_of_eq h.fits w.allocated.symm
  · exact le_of_le_of_eq h.nonempty w.allocated.symm
  · intro i row hi
    obtain ⟨h1, h2⟩ := h.rows i row hi
    refine ⟨rowAt_congr row _ (fun k _ hk => (w.before k ?_).symm) h1, h2⟩
    have hi' : i + 1 ≤ rows.length := (List.getElem?_eq_some_iff.1 hi).1
    have := Nat.mul_le_mul_right itemsize hi'
    rw [Nat.add_mul, Nat.one_mul, ← h.pos] at this
    omega

theorem Inv.push {itemsize : Nat} {d d' : Dst} {rows : List (List Item)} {row : List Item}
    (h : Inv itemsize (d'.rewind itemsize) rows) (hpos : d.pos = rows.length * itemsize)
    (hlt : rows.length < d'.allocated) (hp : d'.pos = d.pos + itemsize)
    (hr : RowAt d'.mem d.pos row) (hb : itemBytes row = itemsize) :
    Inv itemsize { d' with frames := d'.frames + 1 } (rows ++ [row]) := by
  refine ⟨?_, ?_, ?_, h.nonempty, h.overrun, ?_⟩
  · have := h.frames
    simp only [Dst.rewind] at this
    simp [this]
  · simp [hp, hpos, Nat.add_mul]
  · rw [List.length_append]; exact hlt
  · intro i r hi
    rw [List.getElem?_append] at hi
    split at hi
    · exact h.rows i r hi
    · rename_i hge
      have : i = rows.length := by
        have := (List.getElem?_eq_some_iff.1 hi).1
        simp at this; omega
      subst this
      simp at hi; subst hi
      exact ⟨by rw [← hpos]; exact hr, hb⟩

theorem rowEnc_ne_nil {cs : List Reprc} {row : List Item} {e : Bytes} (h : RowEnc cs row e)
    (hcs : cs ≠ []) : e ≠ [] := by
  cases h with
  | nil => exact absurd rfl hcs
  | cons he _ _ => have := he.ne_nil; simp [this]

/-- What happens to a record: its rows are appended, until its end or until a frame is not
read; no matter what the bytes are. -/
theorem record_any {itemsize : Nat} {cs : List Reprc} (hcs : cs ≠ []) (hsz : rowSize cs = itemsize)
    (behind : Nat) : ∀ (n : Nat) (xs : Bytes) (d : Dst) (rows : List (List Item)),
    Inv itemsize d rows → xs.length < n →
    ∀ d' res, readFdataRecord itemsize behind (Spec.format cs) n xs d = (d', res) →
    ∃ more e r, RowsEnc cs more e ∧ xs = e ++ r ∧ Inv itemsize (d'.rewind itemsize) (rows ++ more) ∧
      ((res = .ok () ∧ d'.rewind itemsize = d' ∧ r.length ≤ behind) ∨
       ∃ err d1, res = .error err ∧ behind < r.length ∧
        (readFdataFrame itemsize behind (Spec.format cs) r d1).2 = .error err) := by
  intro n
  induction n with
  | zero => intro xs d rows _ h; omega
  | succ n ih =>
    intro xs d rows hinv hlt d' res h
    rw [readFdataRecord] at h
    have hrew : ∀ {d rows}, Inv itemsize d rows → d.rewind itemsize = d := by
      intro d rows h; unfold Dst.rewind; rw [h.frames, ← h.pos, ← h.frames]
    split at h
    · rename_i hle
      simp only [Prod.mk.injEq] at h
      obtain ⟨rfl, rfl⟩ := h
      refine ⟨[], [], xs, .nil, rfl, by rw [hrew hinv]; simpa using hinv, Or.inl ⟨rfl, hrew hinv, hle⟩⟩
    · rename_i hgt
      obtain ⟨hg, hroom⟩ := hinv.grow
      match hfr : readFdataFrame itemsize behind (Spec.format cs) xs (d.grow itemsize) with
      | (d1, .error err) =>
        rw [hfr] at h
        simp only [Prod.mk.injEq] at h
        obtain ⟨rfl, rfl⟩ := h
        obtain ⟨h1, -⟩ := hg.frame_any hroom hsz behind xs d1 (by rw [hfr])
        exact ⟨[], [], xs, .nil, rfl, by simpa using h1,
          Or.inr ⟨err, d.grow itemsize, rfl, by omega, by rw [hfr]⟩⟩
      | (d1, .ok r1) =>
        rw [hfr] at h
        dsimp only at h
        obtain ⟨row, e, hrow, rfl, hp, hat⟩ := frame_sound _ _ _ _ _ _ _ hfr
        obtain ⟨h1, h2⟩ := hg.frame_any hroom hsz behind _ d1 (by rw [hfr])
        have hpush := Inv.push (d := d.grow itemsize) h1 hg.pos (by omega) (by rw [hp, hsz]) hat
          (by rw [row_size hrow, hsz])
        have hne := rowEnc_ne_nil hrow hcs
        have hpos : 0 < e.length := List.length_pos_iff.2 hne
        obtain ⟨more, e2, r, hm, rfl, hinv2, hres⟩ := ih r1 _ _ hpush
          (by simp at hlt; omega) _ _ h
        refine ⟨row :: more, e ++ e2, r, .cons hrow hm, by simp, ?_, hres⟩
        simpa using hinv2

theorem record_ok {itemsize : Nat} {cs : List Reprc} (hcs : cs ≠ []) (hsz : rowSize cs = itemsize)
    {more : List (List Item)} {e : Bytes} (h : RowsEnc cs more e) :
    ∀ (n : Nat) (rest stale : Bytes) (d : Dst) (rows : List (List Item)),
    Inv itemsize d rows → (e ++ rest).length < n →
    ∃ m d', rest.length < m ∧ Inv itemsize d' (rows ++ more) ∧
      readFdataRecord itemsize stale.length (Spec.format cs) n (e ++ (rest ++ stale)) d =
      readFdataRecord itemsize stale.length (Spec.format cs) m (rest ++ stale) d' := by
  induction h with
  | nil => intro n rest stale d rows hinv hn; exact ⟨n, d, by simpa using hn, by simpa using hinv, rfl⟩
  | @cons row e more es hrow _ ih =>
    intro n rest stale d rows hinv hn
    obtain ⟨n, rfl⟩ : ∃ k, n = k + 1 := ⟨n - 1, by omega⟩
    have hne := List.length_pos_iff.2 (rowEnc_ne_nil hrow hcs)
    simp only [List.length_append] at hn
    obtain ⟨hg, hroom⟩ := hinv.grow
    obtain ⟨d1, hfr, hp, hat⟩ := frame_ok itemsize stale.length hrow (es ++ (rest ++ stale))
      (d.grow itemsize) (by simp; omega)
    obtain ⟨h1, h2⟩ := hg.frame_any hroom hsz stale.length (e ++ (es ++ (rest ++ stale))) d1
      (by rw [hfr])
    have hpush := Inv.push (d := d.grow itemsize) h1 hg.pos (by omega) (by rw [hp, hsz]) hat
      (by rw [row_size hrow, hsz])
    obtain ⟨m, d', hm, hinv', heq⟩ := ih n rest stale _ _ hpush (by simp; omega)
    refine ⟨m, d', hm, by simpa using hinv', ?_⟩
    rw [List.append_assoc, readFdataRecord, if_neg (by simp; omega), hfr]
    exact heq

theorem record_end {itemsize : Nat} {cs : List Reprc} (n : Nat) (stale : Bytes) (d : Dst) :
    readFdataRecord itemsize stale.length (Spec.format cs) (n + 1) ([] ++ stale) d = (d, .ok ()) := by
  rw [readFdataRecord, if_pos (by simp)]

theorem badFrame_ne_nil {cs : List Reprc} {r : Bytes} (h : BadFrame cs r) (hr : r = []) :
    ∃ c, cs.head? = some c ∧ isChecked c = true := by
  cases h with
  | short hc => exact ⟨_, rfl, hc⟩
  | rejected he => exact absurd (List.append_eq_nil_iff.1 hr).1 he.ne_nil
  | later he => exact absurd (List.append_eq_nil_iff.1 hr).1 he.ne_nil

theorem record_bad {itemsize : Nat} {cs : List Reprc} (hsz : rowSize cs = itemsize)
    {rest : Bytes} (h : BadFrame cs rest) (hr : rest ≠ []) (n : Nat) (stale : Bytes)
    (hst : 24 ≤ stale.length) (d : Dst) (rows : List (List Item)) (hinv : Inv itemsize d rows) :
    ∃ d' err, readFdataRecord itemsize stale.length (Spec.format cs) (n + 1) (rest ++ stale) d =
      (d', .error err) ∧ err ≠ .undefined ∧ Inv itemsize (d'.rewind itemsize) rows := by
  obtain ⟨hg, hroom⟩ := hinv.grow
  obtain ⟨d1, err, hfr, herr⟩ := frame_bad itemsize h stale hst (d.grow itemsize)
  obtain ⟨h1, h2⟩ := hg.frame_any hroom hsz stale.length (rest ++ stale) d1 (by rw [hfr])
  refine ⟨d1, err, ?_, herr, h1⟩
  have := List.length_pos_iff.2 hr
  rw [readFdataRecord, if_neg (by simp; omega), hfr]

/-! ### All records -/

namespace Spec

/-- The rows that the record at an offset has to contribute, and what is logged about it. -/
inductive Contributes (policy : Policy) (src : Source) (cs : List Reprc) (tell : Nat) :
    List (List Item) → List Severity → Prop
  /-- the record is a name and whole frames -/
  | intact {rec l} {o : Dlis.Obname} {ne rows body} : extract policy src tell = .ok (rec, l) →
      rec.isencrypted = false → rec.data = ne ++ body → Spec.Obname o.origin o.copy o.id ne → RowsEnc cs rows body →
      Contributes policy src cs tell rows (List.replicate l .minor)
  /-- after some frames there is something that is not a frame -/
  | damaged {rec l} {o : Dlis.Obname} {ne rows good rest} : extract policy src tell = .ok (rec, l) →
      rec.isencrypted = false → rec.data = ne ++ (good ++ rest) → Spec.Obname o.origin o.copy o.id ne →
      RowsEnc cs rows good → rest ≠ [] → BadFrame cs rest →
      Contributes policy src cs tell rows (List.replicate l .minor ++ [.critical])
  /-- the record cannot be extracted -/
  | broken {e} : extract policy src tell = .error e → e ≠ .outOfBounds →
      Contributes policy src cs tell [] [.critical]
  | encrypted {rec l} : extract policy src tell = .ok (rec, l) → rec.isencrypted = true →
      Contributes policy src cs tell [] (List.replicate l .minor ++ [.critical])

end Spec

theorem fdataLoop_rows (policy : Policy) (src : Source)
    (stale : Nat → Bytes) (hst : ∀ t, 24 ≤ (stale t).length) {itemsize : Nat} {cs : List Reprc}
    (hcs : cs ≠ []) (hsz : rowSize cs = itemsize) : ∀ (tells : List Nat)
    (per : List (List (List Item) × List Severity)),
    List.Forall₂ (fun t p => Contributes policy src cs t p.1 p.2) tells per →
    (policy .critical = false ∨ ∀ p ∈ per, Severity.critical ∉ p.2) → ∀ (d : Dst) (rows : List (List Item)) (logs : List Severity), Inv itemsize d rows →
    ∃ d', Inv itemsize d' (rows ++ per.flatMap Prod.fst) ∧
      readFdataLoop policy src stale itemsize (Spec.format cs) tells d logs =
        .array d'.shrink (logs ++ per.flatMap Prod.snd) := by
  intro tells per h
  induction h with
  | nil => intro _ d rows logs hinv; exact ⟨d, by simpa using hinv, by simp [readFdataLoop]⟩
  | @cons tell p tells per hc _ ih =>
    intro hp d rows logs hinv
    replace ih := ih (hp.imp id fun h q hq => h q (by simp [hq]))
    replace hp : policy .critical = false ∨ Severity.critical ∉ p.2 :=
      hp.imp id fun h => h p (by simp)
    obtain ⟨prows, plogs⟩ := p
    rw [readFdataLoop]
    simp only [List.flatMap_cons] at ih ⊢
    dsimp only at hc
    cases hc with
    | broken he hne =>
      have hp := hp.resolve_right (by simp)
      rw [he]
      obtain ⟨d', h1, h2⟩ := ih d rows (logs ++ [.critical]) hinv
      refine ⟨d', by simpa using h1, ?_⟩
      rename_i e
      cases e <;> first | exact absurd rfl hne | (simp [hp]; simpa using h2)
    | @encrypted rec l he henc =>
      have hp := hp.resolve_right (by simp)
      rw [he]
      obtain ⟨d', h1, h2⟩ := ih d rows (logs ++ List.replicate l .minor ++ [.critical]) hinv
      refine ⟨d', by simpa using h1, ?_⟩
      simp only [henc, if_true, hp]
      simpa using h2
    | @intact rec l o ne _ body he henc hdata hname hrows =>
      rw [he]
      simp only [henc, hdata]
      have hob : obname (ne ++ body ++ stale tell) = some (o, body ++ stale tell) :=
        (c05_obname_decodes _ _ _).2 ⟨ne, hname, by simp⟩
      simp only [hob]
      obtain ⟨m, d1, hm, hinv1, heq⟩ := record_ok hcs hsz hrows
        ((ne ++ body ++ stale tell).length + 1) [] (stale tell) d rows hinv (by simp; omega)
      obtain ⟨m, rfl⟩ : ∃ k, m = k + 1 := ⟨m - 1, by simp at hm; omega⟩
      rw [record_end] at heq
      simp only [List.nil_append] at heq
      rw [heq]
      obtain ⟨d', h1, h2⟩ := ih d1 _ (logs ++ List.replicate l .minor) hinv1
      exact ⟨d', by simpa using h1, by simpa using h2⟩
    | @damaged rec l o ne _ good rest he henc hdata hname hrows hne hbad =>
      have hp := hp.resolve_right (by simp)
      rw [he]
      simp only [henc, hdata]
      have hob : obname (ne ++ (good ++ rest) ++ stale tell) = some (o, good ++ (rest ++ stale tell)) :=
        (c05_obname_decodes _ _ _).2 ⟨ne, hname, by simp⟩
      simp only [hob]
      obtain ⟨m, d1, hm, hinv1, heq⟩ := record_ok hcs hsz hrows
        ((ne ++ (good ++ rest) ++ stale tell).length + 1) rest (stale tell) d rows hinv (by simp; omega)
      obtain ⟨m, rfl⟩ : ∃ k, m = k + 1 := ⟨m - 1, by omega⟩
      obtain ⟨d2, err, h2, herr, hinv2⟩ := record_bad hsz hbad hne m (stale tell) (hst tell) d1 _ hinv1
      rw [heq, h2]
      obtain ⟨d', h3, h4⟩ := ih _ _ (logs ++ List.replicate l .minor ++ [.critical]) hinv2
      refine ⟨d', by simpa using h3, ?_⟩
      cases err
      · simp [hp]; simpa using h4
      · simp [hp]; simpa using h4
      · exact absurd rfl herr

theorem Inv.shrink {itemsize : Nat} {d : Dst} {rows : List (List Item)} (h : Inv itemsize d rows) :
    d.shrink.allocated = rows.length ∧ d.shrink.overrun = false ∧
    ∀ i row, rows[i]? = some row → RowAt d.shrink.mem (i * itemsize) row := by
  have := h.frames; have := h.fits
  unfold Dst.shrink
  split
  · exact ⟨h.frames, h.overrun, fun i row hi => (h.rows i row hi).1⟩
  · exact ⟨by omega, h.overrun, fun i row hi => (h.rows i row hi).1⟩

/-- C29: one row per frame, in order: the array has exactly the rows that the records
contribute, row `i` at `i * itemsize`, and nothing is written outside the allocated rows.
One critical problem is logged per record that is broken, encrypted or damaged; if the error
handler raises for critical problems there must be none. -/
theorem c29_rows (policy : Policy) (src : Source)
    (stale : Nat → Bytes) (hst : ∀ t, 24 ≤ (stale t).length) (cs : List Reprc) (hcs : cs ≠ [])
    (tells : List Nat) (per : List (List (List Item) × List Severity))
    (hp : policy .critical = false ∨ ∀ p ∈ per, Severity.critical ∉ p.2)
    (h : List.Forall₂ (fun t p => Contributes policy src cs t p.1 p.2) tells per) :
    ∃ d, readFdata policy src stale (rowSize cs) (Spec.format cs) tells =
        .array d (per.flatMap Prod.snd) ∧
      d.allocated = (per.flatMap Prod.fst).length ∧ d.overrun = false ∧
      ∀ i row, (per.flatMap Prod.fst)[i]? = some row → RowAt d.mem (i * rowSize cs) row := by
  unfold readFdata
  rcases tells with _ | ⟨t, tells⟩
  · cases h
    exact ⟨_, rfl, rfl, rfl, by simp⟩
  · obtain ⟨d', h1, h2⟩ := fdataLoop_rows policy src stale hst hcs rfl _ _ h hp
      ⟨fun _ => none, 0, 0, (t :: tells).length, false⟩ [] []
      ⟨rfl, by simp, by simp, by simp, rfl, by simp⟩
    exact ⟨_, by simpa using h2, by simpa using h1.shrink⟩

/-- C29: a strict policy raises as soon as a record is not intact. -/
theorem c29_strict (policy : Policy) (hp : policy .critical = true) (src : Source)
    (stale : Nat → Bytes) (hst : ∀ t, 24 ≤ (stale t).length) (cs : List Reprc) (hcs : cs ≠ [])
    (pre : List Nat) (t : Nat) (post : List Nat) (per : List (List (List Item) × List Severity))
    (h : List.Forall₂ (fun t p => Contributes policy src cs t p.1 p.2 ∧ Severity.critical ∉ p.2)
      pre per)
    (rows : List (List Item)) (logs : List Severity)
    (ht : Contributes policy src cs t rows logs) (hl : Severity.critical ∈ logs) :
    readFdata policy src stale (rowSize cs) (Spec.format cs) (pre ++ t :: post) = .raised := by
  have key : ∀ (d : Dst) (old : List (List Item)) (lg : List Severity), Inv (rowSize cs) d old →
      readFdataLoop policy src stale (rowSize cs) (Spec.format cs) (pre ++ t :: post) d lg =
        .raised := by
    induction h with
    | nil =>
      intro d old lg hinv
      rw [List.nil_append, readFdataLoop]
      cases ht with
      | broken he hne =>
        rw [he]
        rename_i e
        cases e <;> first | exact absurd rfl hne | simp [hp]
      | @encrypted rec l he henc => rw [he]; simp [henc, hp]
      | @intact rec l o ne _ body he henc hdata hname hrows => simp at hl
      | @damaged rec l o ne _ good rest he henc hdata hname hrows hne hbad =>
        rw [he]
        simp only [henc, hdata]
        have hob : obname (ne ++ (good ++ rest) ++ stale t) = some (o, good ++ (rest ++ stale t)) :=
          (c05_obname_decodes _ _ _).2 ⟨ne, hname, by simp⟩
        simp only [hob]
        obtain ⟨m, d1, hm, hinv1, heq⟩ := record_ok hcs rfl hrows
          ((ne ++ (good ++ rest) ++ stale t).length + 1) rest (stale t) d old hinv (by simp; omega)
        obtain ⟨m, rfl⟩ : ∃ k, m = k + 1 := ⟨m - 1, by omega⟩
        obtain ⟨d2, err, h2, herr, hinv2⟩ := record_bad rfl hbad hne m (stale t) (hst t) d1 _ hinv1
        rw [heq, h2]
        cases err
        · simp [hp]
        · simp [hp]
        · exact absurd rfl herr
    | @cons tell p tells per hc _ ih =>
      intro d old lg hinv
      obtain ⟨prows, plogs⟩ := p
      obtain ⟨hc, hno⟩ := hc
      rw [List.cons_append, readFdataLoop]
      cases hc with
      | broken he hne => simp at hno
      | encrypted he henc => simp at hno
      | damaged => simp at hno
      | @intact rec l o ne _ body he henc hdata hname hrows =>
        rw [he]
        simp only [henc, hdata]
        have hob : obname (ne ++ body ++ stale tell) = some (o, body ++ stale tell) :=
          (c05_obname_decodes _ _ _).2 ⟨ne, hname, by simp⟩
        simp only [hob]
        obtain ⟨m, d1, hm, hinv1, heq⟩ := record_ok hcs rfl hrows
          ((ne ++ body ++ stale tell).length + 1) [] (stale tell) d old hinv (by simp; omega)
        obtain ⟨m, rfl⟩ : ∃ k, m = k + 1 := ⟨m - 1, by simp at hm; omega⟩
        rw [record_end] at heq
        simp only [List.nil_append] at heq
        rw [heq]
        exact ih d1 _ _ hinv1
  unfold readFdata
  exact key _ [] _ ⟨rfl, by simp, by simp, by simp; omega, rfl, by simp⟩

/-- C29: whatever the records are, nothing is written outside the allocated rows, and the
rows of the array are frames. -/
theorem c29_in_bounds (policy : Policy) (src : Source) (stale : Nat → Bytes) (cs : List Reprc)
    (hcs : cs ≠ []) (tells : List Nat) (d : Dst) (logs : List Severity)
    (h : readFdata policy src stale (rowSize cs) (Spec.format cs) tells = .array d logs) :
    d.overrun = false ∧ ∃ rows : List (List Item), d.allocated = rows.length ∧
      ∀ i row, rows[i]? = some row →
        RowAt d.mem (i * rowSize cs) row ∧ ∃ e, RowEnc cs row e := by
  have key : ∀ (tells : List Nat) (d0 : Dst) (rows : List (List Item)) (lg : List Severity),
      Inv (rowSize cs) d0 rows → (∀ row ∈ rows, ∃ e, RowEnc cs row e) →
      readFdataLoop policy src stale (rowSize cs) (Spec.format cs) tells d0 lg = .array d logs →
      d.overrun = false ∧ ∃ rows : List (List Item), d.allocated = rows.length ∧
        ∀ i row, rows[i]? = some row → RowAt d.mem (i * rowSize cs) row ∧ ∃ e, RowEnc cs row e := by
    intro tells
    induction tells with
    | nil =>
      intro d0 rows lg hinv hr h
      simp only [readFdataLoop, FdataResult.array.injEq] at h
      obtain ⟨rfl, -⟩ := h
      obtain ⟨h1, h2, h3⟩ := hinv.shrink
      exact ⟨h2, rows, h1, fun i row hi => ⟨h3 i row hi, hr row (List.mem_of_getElem? hi)⟩⟩
    | cons tell tells ih =>
      intro d0 rows lg hinv hr h
      rw [readFdataLoop] at h
      match hx : extract policy src tell with
      | .error e =>
        rw [hx] at h
        cases e
        all_goals first
          | (dsimp only at h; cases h)
          | (dsimp only at h; split at h
             · cases h
             · exact ih _ _ _ hinv hr h)
      | .ok (rec, l) =>
        rw [hx] at h
        dsimp only at h
        split at h
        · split at h
          · cases h
          · exact ih _ _ _ hinv hr h
        · split at h
          · cases h
          · rename_i o ptr hob
            have hlen : ptr.length < (rec.data ++ stale tell).length + 1 := by
              obtain ⟨e, -, heq⟩ := (c05_obname_decodes _ _ _).1 hob
              rw [heq]; simp; omega
            match hrec : readFdataRecord (rowSize cs) (stale tell).length (Spec.format cs)
                ((rec.data ++ stale tell).length + 1) ptr d0 with
            | (d1, res) =>
              obtain ⟨more, e, r, hm, -, hinv2, hres⟩ :=
                record_any hcs rfl _ _ _ _ _ hinv hlen _ _ hrec
              have hr' : ∀ row ∈ rows ++ more, ∃ e, RowEnc cs row e := by
                intro row hrow
                rcases List.mem_append.1 hrow with h1 | h1
                · exact hr row h1
                · clear h hrec hinv2 hres
                  induction hm with
                  | nil => simp at h1
                  | cons hx _ ih =>
                    rcases List.mem_cons.1 h1 with rfl | h2
                    · exact ⟨_, hx⟩
                    · exact ih (by rcases List.mem_append.1 hrow with h | h <;> simp [h2]) h2
              rw [hrec] at h
              rcases hres with ⟨rfl, hrew, -⟩ | ⟨err, d1', rfl, -⟩
              · rw [hrew] at hinv2
                exact ih _ _ _ hinv2 hr' h
              · cases err
                · dsimp only at h
                  split at h
                  · cases h
                  · exact ih _ _ _ hinv2 hr' h
                · dsimp only at h
                  split at h
                  · cases h
                  · exact ih _ _ _ hinv2 hr' h
                · cases h
  unfold readFdata at h
  rcases tells with _ | ⟨t, tells⟩
  · simp only [readFdataLoop, FdataResult.array.injEq] at h
    obtain ⟨rfl, -⟩ := h
    exact ⟨rfl, [], rfl, by simp⟩
  · exact key _ _ [] _ ⟨rfl, by simp, by simp, by simp, rfl, by simp⟩ (by simp) h

/-- C29, for identifiers of ASCII characters (`c29_text_defect`): the text is the
characters, padded with zeros to 255 characters. -/
theorem c29_text_partial (s : Bytes) (hs : ∀ b ∈ s, b.toNat < 128) (hl : s.length ≤ 255) :
    (textUnits s).length = 255 ∧
    ∀ i, i < 255 → ((textUnits s)[i]?.map BitVec.toNat) = some ((s[i]?.map BitVec.toNat).getD 0) := by
  refine ⟨by simp [textUnits]; omega, fun i hi => ?_⟩
  unfold textUnits
  rw [List.getElem?_append]
  split
  · rename_i h
    simp only [List.length_map] at h
    rw [List.getElem?_map, List.getElem?_eq_getElem h]
    have := hs _ (List.getElem_mem h)
    simp only [Option.map_some, Option.getD_some, Option.some.injEq]
    rw [BitVec.toNat_signExtend]
    have hm : (s[i]).msb = false := by
      rw [BitVec.msb_eq_decide]; simpa using this
    simp only [hm]
    rw [BitVec.toNat_setWidth]
    simp; omega
  · rename_i h
    simp only [List.length_map] at h
    rw [List.getElem?_replicate, List.getElem?_eq_none (by omega)]
    simp; omega

/-- C29: a byte beyond ASCII becomes a code unit that is no character at all. -/
theorem c29_text_defect : ∃ s : Bytes, s.length = 1 ∧
    (textUnits s)[0]? = some 0xFFFFFFE6#32 ∧ ¬ (0xFFFFFFE6#32).toNat < 0x110000 :=
  ⟨[0xE6], rfl, by decide, by decide⟩

/-- The days of the months of a common year. -/
def Spec.monthLengths : List Nat := [31, 28, 31, 30, 31, 30, 31, 31, 30, 31, 30, 31]

/-- C29, date and time: what is accepted is a time of a day that exists in the Gregorian
calendar.  The years are those from 1900 to 2155, in which every fourth is a leap year except
1900 and 2100. -/
theorem c29_dates (t : DTime) (hY : t.Y < 256) :
    dateOk t = true ↔ (∃ len, Spec.monthLengths[t.M - 1]? = some len ∧ 1 ≤ t.M ∧ 1 ≤ t.D ∧
      (t.D ≤ len ∨ t.M = 2 ∧ t.D = 29 ∧ t.Y % 4 = 0 ∧ t.Y ≠ 0 ∧ t.Y ≠ 200)) ∧
      t.H < 24 ∧ t.MN < 60 ∧ t.S < 60 ∧ t.MS < 1000 := by
  obtain ⟨Y, TZ, M, D, H, MN, S, MS⟩ := t
  simp only at hY ⊢
  have hy : (year Y).toNat = 1900 + Y := by unfold year; omega
  unfold dateOk
  simp only [hy, Bool.and_eq_true, decide_eq_true_eq, and_assoc]
  have hm : (1 ≤ M ∧ M ≤ 12 ∧ 1 ≤ D ∧ D ≤ daysInMonth (1900 + Y) M) ↔
      ∃ len, Spec.monthLengths[M - 1]? = some len ∧ 1 ≤ M ∧ 1 ≤ D ∧
      (D ≤ len ∨ M = 2 ∧ D = 29 ∧ Y % 4 = 0 ∧ Y ≠ 0 ∧ Y ≠ 200) := by
    by_cases h12 : M ≤ 12
    · interval_cases M
      case «2» =>
        simp only [Spec.monthLengths, daysInMonth, if_true, List.getElem?_cons_succ,
          List.getElem?_cons_zero, Nat.reduceSub, Option.some.injEq, exists_eq_left']
        have hl : ∀ y < 256, ((1900 + y) % 4 = 0 ∧ ((1900 + y) % 100 ≠ 0 ∨ (1900 + y) % 400 = 0)) ↔
            (y % 4 = 0 ∧ y ≠ 0 ∧ y ≠ 200) := by decide +kernel
        have hl := hl Y hY
        by_cases hc : Y % 4 = 0 ∧ Y ≠ 0 ∧ Y ≠ 200
        · rw [if_pos (hl.2 hc)]
          obtain ⟨c1, c2, c3⟩ := hc
          simp only [c1]
          simp
          omega
        · rw [if_neg fun h => hc (hl.1 h)]
          simp only [hc]
          clear hl hc
          simp
      all_goals simp [Spec.monthLengths, daysInMonth]
    · constructor
      · omega
      · rintro ⟨len, h, _⟩
        have := (List.getElem?_eq_some_iff.1 h).1
        simp [Spec.monthLengths] at this
        omega
  rw [← hm]
  omega

/-- Case: 29 February 2000 and 2024 exist, in 1900, 2023 and 2100 there was none. -/
example : [100, 124, 0, 123, 200].map (fun y => dateOk ⟨y, 0, 2, 29, 12, 0, 0, 0⟩) =
    [true, true, false, false, false] := by decide

/-! ### C31 -/

/-- What a checked sample gives does not depend on the memory behind the record. -/
theorem sample_stale {c : Reprc} (hc : isChecked c = true) (bs : Bytes) :
    (∀ stale : Bytes, 24 ≤ stale.length →
      readCurveSample stale.length c.fmtChar (bs ++ stale) = .error .threw) ∨
    ∃ its r, ∀ stale : Bytes,
      readCurveSample stale.length c.fmtChar (bs ++ stale) = .ok (its, r ++ stale) := by
  by_cases h : ∃ v e r, Spec.Enc c v e ∧ bs = e ++ r
  · obtain ⟨v, e, r, he, rfl⟩ := h
    right
    refine ⟨items c v, r, fun stale => ?_⟩
    rw [List.append_assoc]
    refine sample_ok _ he ?_ (by simp)
    cases c <;> simp [isChecked, isObject, isText] at hc <;> simp [Accepted]
  · left
    intro stale hst
    refine sample_short hc bs stale hst (fun v e r he heq => h ⟨v, e, r, he, heq⟩)

theorem frame_stale (itemsize : Nat) : ∀ (cs : List Reprc), (∀ c ∈ cs, isChecked c = true) →
    ∀ (bs : Bytes) (d : Dst), ∃ d', 
    (∀ stale : Bytes, 24 ≤ stale.length →
      readFdataFrame itemsize stale.length (Spec.format cs) (bs ++ stale) d = (d', .error .threw)) ∨
    ∃ r, ∀ stale : Bytes, 24 ≤ stale.length →
      readFdataFrame itemsize stale.length (Spec.format cs) (bs ++ stale) d = (d', .ok (r ++ stale)) := by
  intro cs
  induction cs with
  | nil => intro _ bs d; exact ⟨d, Or.inr ⟨bs, fun _ _ => rfl⟩⟩
  | cons c cs ih =>
    intro hc bs d
    have hf : Spec.format (c :: cs) = c.fmtChar :: Spec.format cs := rfl
    rcases sample_stale (hc c (by simp)) bs with h | ⟨its, r, h⟩
    · exact ⟨d, Or.inl fun stale hst => by rw [hf, readFdataFrame, h stale hst]⟩
    · obtain ⟨d', h'⟩ := ih (fun c h => hc c (by simp [h])) r (its.foldl (Dst.put itemsize) d)
      refine ⟨d', ?_⟩
      rcases h' with h' | ⟨r', h'⟩
      · exact Or.inl fun stale hst => by rw [hf, readFdataFrame, h stale]; exact h' stale hst
      · exact Or.inr ⟨r', fun stale hst => by rw [hf, readFdataFrame, h stale]; exact h' stale hst⟩

/-- Enough rounds: more of them do not change the result. -/
theorem record_fuel {itemsize : Nat} {cs : List Reprc} (hcs : cs ≠ []) (behind : Nat) :
    ∀ (n m : Nat) (xs : Bytes) (d : Dst), xs.length < n → xs.length < m →
    readFdataRecord itemsize behind (Spec.format cs) n xs d =
    readFdataRecord itemsize behind (Spec.format cs) m xs d := by
  intro n
  induction n with
  | zero => intro m xs d h; omega
  | succ n ih =>
    intro m xs d hn hm
    obtain ⟨m, rfl⟩ : ∃ k, m = k + 1 := ⟨m - 1, by omega⟩
    rw [readFdataRecord, readFdataRecord]
    split
    · rfl
    · match hfr : readFdataFrame itemsize behind (Spec.format cs) xs (d.grow itemsize) with
      | (d1, .error err) => rfl
      | (d1, .ok r1) =>
        obtain ⟨row, e, hrow, rfl, -⟩ := frame_sound _ _ _ _ _ _ _ hfr
        have := List.length_pos_iff.2 (rowEnc_ne_nil hrow hcs)
        simp only [List.length_append] at hn hm
        exact ih m r1 _ (by omega) (by omega)

/-- C29: the loop over the frames of a record ends: the bound on the number of rounds of the
model is never reached. -/
theorem c29_rounds {itemsize : Nat} {cs : List Reprc} (hcs : cs ≠ []) (behind n k : Nat) (xs : Bytes)
    (d : Dst) (h : xs.length < n) :
    readFdataRecord itemsize behind (Spec.format cs) (n + k) xs d =
    readFdataRecord itemsize behind (Spec.format cs) n xs d :=
  record_fuel hcs behind _ _ _ _ (by omega) h

theorem record_stale {itemsize : Nat} {cs : List Reprc} (hcs : cs ≠ [])
    (hc : ∀ c ∈ cs, isChecked c = true) (stale stale' : Bytes) (h : 24 ≤ stale.length)
    (h' : 24 ≤ stale'.length) : ∀ (k : Nat) (bs : Bytes) (d : Dst) (n m : Nat), bs.length = k →
    (bs ++ stale).length < n → (bs ++ stale').length < m →
    readFdataRecord itemsize stale.length (Spec.format cs) n (bs ++ stale) d =
    readFdataRecord itemsize stale'.length (Spec.format cs) m (bs ++ stale') d := by
  intro k
  induction k using Nat.strongRecOn with
  | _ k ih =>
    intro bs d n m hk hn hm
    obtain ⟨n, rfl⟩ : ∃ j, n = j + 1 := ⟨n - 1, by omega⟩
    obtain ⟨m, rfl⟩ : ∃ j, m = j + 1 := ⟨m - 1, by omega⟩
    rw [readFdataRecord, readFdataRecord]
    by_cases hb : bs = []
    · subst hb; rw [if_pos (by simp), if_pos (by simp)]
    · have hpos := List.length_pos_iff.2 hb
      rw [if_neg (by simp; omega), if_neg (by simp; omega)]
      obtain ⟨d', hf | ⟨r, hf⟩⟩ := frame_stale itemsize cs hc bs (d.grow itemsize)
      · rw [hf _ h, hf _ h']
      · obtain ⟨row, e, hrow, heq, -⟩ := frame_sound _ _ _ _ _ _ _ (hf _ h)
        have hne := List.length_pos_iff.2 (rowEnc_ne_nil hrow hcs)
        have hl : bs.length = e.length + r.length := by
          have := congrArg List.length heq; simp at this; omega
        rw [hf _ h, hf _ h']
        simp only [List.length_append] at hn hm
        exact ih r.length (by omega) r _ n m rfl (by simp; omega) (by simp; omega)

/-- C31, for the codes whose sizes are checked: the result does not depend on the memory
behind the records (of which there must be 24 bytes that can be read: see
`c31_read_before_check_defect`).

Missing: codes that are decoded without a check (`c31_unchecked_defect`), and the fact that
the bytes are read, if not used. -/
theorem c31_no_overread_partial (policy : Policy) (src : Source) (stale stale' : Nat → Bytes)
    (h : ∀ t, 24 ≤ (stale t).length) (h' : ∀ t, 24 ≤ (stale' t).length) (itemsize : Nat)
    (cs : List Reprc) (hcs : cs ≠ []) (hc : ∀ c ∈ cs, isChecked c = true) (tells : List Nat)
    (hname : ∀ t ∈ tells, ∀ rec l, extract policy src t = .ok (rec, l) →
      ∃ (o : Obname) (e r : Bytes), Spec.Obname o.origin o.copy o.id e ∧ rec.data = e ++ r) :
    readFdata policy src stale itemsize (Spec.format cs) tells =
    readFdata policy src stale' itemsize (Spec.format cs) tells := by
  unfold readFdata
  generalize ([] : List Severity) = logs
  generalize Dst.mk _ _ _ _ _ = d
  induction tells generalizing d logs with
  | nil => rfl
  | cons t tells ih =>
    have ih := fun d logs => ih (fun t h => hname t (by simp [h])) logs d
    rw [readFdataLoop, readFdataLoop]
    match hx : extract policy src t with
    | .error e => cases e <;> simp [ih]
    | .ok (rec, l) =>
      dsimp only
      split
      · simp [ih]
      · obtain ⟨o, e, r, ho, heq⟩ := hname t (by simp) rec l hx
        have hob : ∀ st : Bytes, obname (rec.data ++ st) = some (o, r ++ st) := fun st =>
          (c05_obname_decodes _ _ _).2 ⟨e, ho, by rw [heq, List.append_assoc]⟩
        rw [hob, hob]
        dsimp only
        rw [record_stale hcs hc (stale t) (stale' t) (h t) (h' t) _ r d _
          ((rec.data ++ stale' t).length + 1) rfl (by rw [heq]; simp; omega)
          (by rw [heq]; simp; omega)]
        generalize readFdataRecord _ _ _ _ _ _ = x
        obtain ⟨d1, res⟩ := x
        cases res with
        | ok u => exact ih _ _
        | error err => cases err <;> simp [ih]

/-- C31 is violated: the size of a value is computed by decoding it, before it is compared
with what is left of the record. With two bytes of a four-byte number left, and nothing
known about the memory behind them, the read is outside the buffer. -/
theorem c31_read_before_check_defect :
    readCurveSample 0 (Reprc.fmtChar .fsingl) [0x42, 0x48] = .error .undefined := by decide +kernel

/-- C31 is violated: identifiers and other unchecked codes are decoded from the memory behind
the record, and become part of the array. The record here ends after the length byte. -/
theorem c31_unchecked_defect : ∃ (cs : List Reprc) (body stale stale' : Bytes),
    stale.length = stale'.length ∧
    (∀ row e r, RowEnc cs row e → body ≠ e ++ r) ∧
    (readFdataFrame (rowSize cs) stale.length (Spec.format cs) (body ++ stale)
      ⟨fun _ => none, 0, 0, 1, false⟩).2.toOption.isSome = true ∧
    (readFdataFrame (rowSize cs) stale.length (Spec.format cs) (body ++ stale)
      ⟨fun _ => none, 0, 0, 1, false⟩).1.mem 0 ≠
    (readFdataFrame (rowSize cs) stale'.length (Spec.format cs) (body ++ stale')
      ⟨fun _ => none, 0, 0, 1, false⟩).1.mem 0 := by
  refine ⟨[.ident], [1], [0x41, 0], [0x42, 0], rfl, ?_, by decide +kernel, by decide +kernel⟩
  intro row e r h heq
  obtain ⟨d, hd, -⟩ := frame_ok 0 0 h r ⟨fun _ => none, 0, 0, 1, false⟩ (by simp)
  rw [← heq] at hd
  have : (readFdataFrame 0 0 (Spec.format [.ident]) [1] ⟨fun _ => none, 0, 0, 1, false⟩).2 =
    .error .undefined := rfl
  rw [hd] at this
  cases this

/-- C31 is violated for each unchecked code, not only for identifiers: nothing of the value is
in the record, and yet it is read. -/
theorem c31_all_unchecked_defect (c : Reprc) (hc : isChecked c = false) :
    ∃ stale its r, readCurveSample (stale : Bytes).length c.fmtChar ([] ++ stale) = .ok (its, r) := by
  have key : ∀ n : Nat, sizeofType c.code = n → n ≠ 0 → (∀ v, Accepted c v) →
      ∃ stale its r,
        readCurveSample (stale : Bytes).length c.fmtChar ([] ++ stale) = .ok (its, r) := by
    intro n hn h0 ha
    obtain ⟨v, hv⟩ := enc_of_length (c := c) (enc := List.replicate n 0) (by omega) (by simp [hn])
    refine ⟨List.replicate n 0, items c v, [], ?_⟩
    cases c <;> simp [isChecked, isObject, isText] at hc <;> first
      | exact absurd (by simp [sizeofType, Reprc.code] at hn; omega) h0
      | (have := readObject_ok (r := []) hv; rw [List.append_nil] at this; exact this)
      | exact absurd (ha (.dtime ⟨0, 0, 0, 0, 0, 0, 0, 0⟩)) (by simp [Accepted, dateOk])
  cases c <;> simp [isChecked, isObject, isText] at hc
  case fsing1 => exact key _ rfl (by decide) (fun _ => by simp [Accepted])
  case fsing2 => exact key _ rfl (by decide) (fun _ => by simp [Accepted])
  case fdoub1 => exact key _ rfl (by decide) (fun _ => by simp [Accepted])
  case fdoub2 => exact key _ rfl (by decide) (fun _ => by simp [Accepted])
  case ascii =>
    have : readAscii [0] = .ok ([.obj (.str [])], []) := by
      have h1 : ascii [0] = some ([], []) := rfl
      have h2 : utf8Decode [] = some [] := by simp [utf8Decode]
      simp only [readAscii, h1, h2]; rfl
    exact ⟨[0], _, _, this⟩
  case dtime =>
    have : ∃ its r, readDtime [0x57, 1, 1, 0, 0, 0, 0, 0] = .ok (its, r) := by
      have h1 : dtime [0x57, 1, 1, 0, 0, 0, 0, 0] = some (⟨87, 0, 1, 1, 0, 0, 0, 0⟩, []) := by
        decide +kernel
      have h2 : dateOk ⟨87, 0, 1, 1, 0, 0, 0, 0⟩ = true := by decide
      simp only [readDtime, h1, h2]
      exact ⟨_, _, rfl⟩
    exact ⟨[0x57, 1, 1, 0, 0, 0, 0, 0], this⟩
  case ident => exact ⟨[0], _, _, rfl⟩
  case units => exact ⟨[0], _, _, rfl⟩
  case obname => exact ⟨[0, 0, 0], _, _, rfl⟩
  case objref => exact ⟨[0, 0, 0, 0], _, _, rfl⟩
  case attref => exact ⟨[0, 0, 0, 0, 0], _, _, rfl⟩

/-! ### C58 -/

theorem items_not_dangling (c : Reprc) (v : Val) : Item.dangling ∉ items c v := by
  unfold items
  split
  · simp
  · split <;> simp

/-- C58 without dates: no slot of the array ever holds a pointer to a released object. -/
theorem c58_no_dangling_partial (policy : Policy) (src : Source) (stale : Nat → Bytes)
    (itemsize : Nat) (cs : List Reprc) (hd : Reprc.dtime ∉ cs) (tells : List Nat) (d : Dst)
    (logs : List Severity)
    (h : readFdata policy src stale itemsize (Spec.format cs) tells = .array d logs) :
    ∀ k j, d.mem k ≠ some (.dangling, j) := by
  have hput : ∀ (its : List Item) (d : Dst), Item.dangling ∉ its →
      (∀ k j, d.mem k ≠ some (.dangling, j)) →
      ∀ k j, (its.foldl (Dst.put itemsize) d).mem k ≠ some (.dangling, j) := by
    intro its
    induction its with
    | nil => intro d _ h; exact h
    | cons it its ih =>
      intro d hn h
      rw [List.foldl_cons]
      simp only [List.mem_cons, not_or] at hn
      refine ih _ hn.2 (fun k j => ?_)
      show (if _ then _ else _) ≠ _
      split
      · intro heq; simp at heq; exact hn.1 heq.1.symm
      · exact h k j
  have hframe : ∀ (behind : Nat) (cs : List Reprc), Reprc.dtime ∉ cs → ∀ (xs : Bytes) (d : Dst),
      (∀ k j, d.mem k ≠ some (.dangling, j)) → ∀ k j,
      (readFdataFrame itemsize behind (Spec.format cs) xs d).1.mem k ≠ some (.dangling, j) := by
    intro behind cs
    induction cs with
    | nil => intro _ xs d h; exact h
    | cons c cs ih =>
      intro hd xs d h
      simp only [List.mem_cons, not_or] at hd
      have hf : Spec.format (c :: cs) = c.fmtChar :: Spec.format cs := rfl
      rw [hf, readFdataFrame]
      match hs : readCurveSample behind c.fmtChar xs with
      | .error .threw => exact h
      | .error .undefined => exact h
      | .error .released => exact absurd (released_dtime hs).symm hd.1
      | .ok (its, r) =>
        obtain ⟨c', v, e, -, -, -, -, rfl, -⟩ := sample_sound hs
        exact ih hd.2 r _ (hput _ _ (items_not_dangling _ _) h)
  have hrec : ∀ (behind n : Nat) (xs : Bytes) (d : Dst),
      (∀ k j, d.mem k ≠ some (.dangling, j)) → ∀ k j,
      (readFdataRecord itemsize behind (Spec.format cs) n xs d).1.mem k ≠ some (.dangling, j) := by
    intro behind n
    induction n with
    | zero => intro xs d h; exact h
    | succ n ih =>
      intro xs d h
      rw [readFdataRecord]
      split
      · exact h
      · have hg : ∀ k j, (d.grow itemsize).mem k ≠ some (.dangling, j) := by
          unfold Dst.grow; split <;> exact h
        have := hframe behind cs hd xs _ hg
        match hfr : readFdataFrame itemsize behind (Spec.format cs) xs (d.grow itemsize) with
        | (d1, .error err) => rw [hfr] at this; exact this
        | (d1, .ok r) => rw [hfr] at this; exact ih _ _ this
  unfold readFdata at h
  revert h
  generalize hlg : ([] : List Severity) = lg
  have h0 : ∀ k j, (Dst.mk (fun _ => none) 0 0 tells.length false).mem k ≠ some (.dangling, j) := by
    simp
  revert h0
  generalize Dst.mk _ _ _ _ _ = d0
  clear hlg
  induction tells generalizing d0 lg with
  | nil =>
    intro h0 h
    simp only [readFdataLoop, FdataResult.array.injEq] at h
    obtain ⟨rfl, -⟩ := h
    unfold Dst.shrink; split <;> exact h0
  | cons t tells ih =>
    intro h0 h
    rw [readFdataLoop] at h
    match hx : extract policy src t with
    | .error e =>
      rw [hx] at h
      cases e
      all_goals first
        | (dsimp only at h; cases h)
        | (dsimp only at h; split at h
           · cases h
           · exact ih _ _ h0 h)
    | .ok (rec, l) =>
      rw [hx] at h
      dsimp only at h
      split at h
      · split at h
        · cases h
        · exact ih _ _ h0 h
      · split at h
        · cases h
        · rename_i ptr hob
          have := hrec (stale t).length ((rec.data ++ stale t).length + 1) ptr d0 h0
          revert this h
          generalize readFdataRecord _ _ _ _ _ _ = x
          obtain ⟨d1, res⟩ := x
          intro h h1
          cases res with
          | ok u => exact ih _ _ h1 h
          | error err =>
            cases err
            · dsimp only at h; split at h
              · cases h
              · exact ih _ (d1.rewind itemsize) h1 h
            · dsimp only at h; split at h
              · cases h
              · exact ih _ (d1.rewind itemsize) h1 h
            · cases h

example : Reprc.dtime ∉ [Reprc.uvari, .fsingl, .ascii] := by decide

/-- C58 is violated: a date that does not exist (30 February) leaves a pointer to a released
object in the array. The next frame (or the destructor of the array) releases it again. -/
theorem c58_released_twice_defect :
    ∃ d, readFdataFrame 8 0 [Reprc.fmtChar .dtime] [0x57, 0x02, 0x1e, 0, 0, 0, 0, 0]
      ⟨fun k => some (.obj (.str []), k), 0, 0, 1, false⟩ = (d, .error .released) ∧
      d.mem 0 = some (.dangling, 0) := by
  have h1 : readDtime [0x57, 0x02, 0x1e, 0, 0, 0, 0, 0] = .error .released := by
    have h1 : dtime [0x57, 0x02, 0x1e, 0, 0, 0, 0, 0] = some (⟨87, 0, 2, 30, 0, 0, 0, 0⟩, []) := by
      decide +kernel
    have h2 : dateOk ⟨87, 0, 2, 30, 0, 0, 0, 0⟩ = false := by decide
    simp only [readDtime, h1, h2]; rfl
  have h2 : readCurveSample 0 (Reprc.fmtChar .dtime) [0x57, 0x02, 0x1e, 0, 0, 0, 0, 0] =
    .error .released := h1
  exact ⟨_, by rw [readFdataFrame, h2], rfl⟩

/-! ### C32 -/

namespace Spec

/-- The data of the record are an object name and then `p`. -/
def Payload (rec : Record) (p : Bytes) : Prop :=
  ∃ origin copy id e, Spec.Obname origin copy id e ∧ rec.data = e ++ p

/-- What the record at an offset adds to the unformatted data, and what is logged. -/
inductive Adds (policy : Policy) (src : Source) (tell : Nat) : Bytes → List Severity → Prop
  | intact {rec l p} : extract policy src tell = .ok (rec, l) → Payload rec p →
      Adds policy src tell p (List.replicate l .minor)
  | broken {e} : extract policy src tell = .error e → e ≠ .outOfBounds →
      Adds policy src tell [] [.critical]

end Spec

/-- C32: the unformatted data are the payloads of the records, one after the other; a record
that cannot be extracted adds nothing, unless the error handler raises for it. -/
theorem c32_concat (policy : Policy) (src : Source)
    (stale : Nat → Bytes) (tells : List Nat) (per : List (Bytes × List Severity))
    (hp : policy .critical = false ∨ ∀ p ∈ per, Severity.critical ∉ p.2)
    (h : List.Forall₂ (fun t p => Adds policy src t p.1 p.2) tells per) :
    readNoform policy src stale tells = .bytes (per.flatMap Prod.fst) (per.flatMap Prod.snd) := by
  have key : ∀ acc logs, readNoformLoop policy src stale tells acc logs =
      .bytes (acc ++ per.flatMap Prod.fst) (logs ++ per.flatMap Prod.snd) := by
    induction h with
    | nil => intro acc logs; simp [readNoformLoop]
    | @cons t p tells per hc _ ih =>
      replace ih := ih (hp.imp id fun h q hq => h q (by simp [hq]))
      replace hp : policy .critical = false ∨ Severity.critical ∉ p.2 :=
        hp.imp id fun h => h p (by simp)
      intro acc logs
      obtain ⟨p1, p2⟩ := p
      rw [readNoformLoop]
      dsimp only at hc
      cases hc with
      | broken he hne =>
        have hp := hp.resolve_right (by simp)
        rw [he]
        rename_i e
        cases e <;> first | exact absurd rfl hne | (simp [hp, ih])
      | @intact rec l _ he hpay =>
        obtain ⟨o, c, i, e, ho, hd⟩ := hpay
        rw [he]
        have hob : obname (rec.data ++ stale t) = some (⟨o, c, i⟩, p1 ++ stale t) :=
          (c05_obname_decodes _ _ _).2 ⟨e, ho, by rw [hd, List.append_assoc]⟩
        simp only [hob]
        rw [if_neg (by simp), ih]
        simp
  have := key [] []
  simpa [readNoform] using this

/-- C32: the unformatted data of the object with a certain fingerprint are the payloads of
exactly those records that belong to it, in the order of the file. -/
theorem c32_noform (policy : Policy) (src : Source)
    (stale stale' : Nat → Bytes) (hst : ∀ t, 262 ≤ (stale t).length) (tells : List Nat)
    (recs : Nat → Record) (hex : ∀ t ∈ tells, ∃ n, extract policy src t = .ok (recs t, n))
    (m : List (Bytes × List Nat)) (logs : List Severity)
    (h : findfdata policy src stale tells = some (m, logs)) (key : Bytes)
    (hits : List Nat) (hsub : hits.Sublist tells)
    (hhits : ∀ t ∈ tells, t ∈ hits ↔ BelongsTo (recs t) key) (hnd : tells.Nodup) :
    ∃ (ps : List Bytes) (lg : List Severity),
      List.Forall₂ (fun t p => Payload (recs t) p) hits ps ∧ Severity.critical ∉ lg ∧
      readNoform policy src stale' (mapGet m key) = .bytes ps.flatten lg := by
  have hidx : mapGet m key = hits := by
    rw [c21_index_of_records policy src stale hst tells recs hex m logs h key]
    have h1 : (tells.filter (fun t => decide (t ∈ hits))) = hits := by
      clear hhits h hex
      induction hsub with
      | slnil => rfl
      | @cons l1 l2 a hs ih =>
        have ha : a ∉ l1 := fun hm => (List.nodup_cons.1 hnd).1 (hs.subset hm)
        rw [List.filter_cons, if_neg (by simpa using ha)]
        exact ih (List.nodup_cons.1 hnd).2
      | @cons_cons l1 l2 a hs ih =>
        rw [List.filter_cons, if_pos (by simp)]
        congr 1
        have h2 := ih (List.nodup_cons.1 hnd).2
        conv_rhs => rw [← h2]
        apply List.filter_congr
        intro x hx
        have : x ≠ a := fun he => (List.nodup_cons.1 hnd).1 (he ▸ hx)
        simp [this]
    conv_rhs => rw [← h1]
    apply List.filter_congr
    intro t ht
    simp only [decide_eq_decide]
    exact (hhits t ht).symm
  rw [hidx]
  have hall : ∀ t ∈ hits, ∃ p lg, Payload (recs t) p ∧ Adds policy src t p lg ∧
      Severity.critical ∉ lg := by
    intro t ht
    obtain ⟨n, hn⟩ := hex t (hsub.subset ht)
    obtain ⟨-, o, c, i, e, r, ho, hd, -⟩ := (hhits t (hsub.subset ht)).1 ht
    exact ⟨r, _, ⟨o, c, i, e, ho, hd⟩, .intact hn ⟨o, c, i, e, ho, hd⟩, by simp⟩
  have hper : ∃ per : List (Bytes × List Severity),
      List.Forall₂ (fun t p => Adds policy src t p.1 p.2) hits per ∧
      List.Forall₂ (fun t p => Payload (recs t) p) hits (per.map Prod.fst) ∧
      ∀ p ∈ per, Severity.critical ∉ p.2 := by
    clear hidx hhits hsub
    induction hits with
    | nil => exact ⟨[], .nil, .nil, by simp⟩
    | cons t hits ih =>
      obtain ⟨per, h1, h2, h3⟩ := ih (fun t h => hall t (by simp [h]))
      obtain ⟨p, lg, h4, h5, h6⟩ := hall t (by simp)
      refine ⟨(p, lg) :: per, .cons h5 h1, .cons h4 h2, ?_⟩
      intro q hq
      rcases List.mem_cons.1 hq with rfl | hq
      · exact h6
      · exact h3 q hq
  obtain ⟨per, h1, h2, h3⟩ := hper
  refine ⟨_, _, h2, ?_, by rw [c32_concat policy src stale' hits per (.inr h3) h1, List.flatMap_def]⟩
  intro hm
  obtain ⟨p, hp1, hp2⟩ := List.mem_flatMap.1 hm
  exact h3 p hp1 hp2

/-- C32: nothing for an object without records. -/
theorem c32_empty (policy : Policy) (src : Source) (stale : Nat → Bytes) :
    readNoform policy src stale [] = .bytes [] [] := rfl

/-! ### A file -/

/-- Three records of frame data: two frames; one frame and half of another; an encrypted one. -/
def caseFile : Source :=
  ⟨[0, 12, 0, 0] ++ [0, 0, 1, 0x46] ++ [1, 7, 2, 8] ++
   ([0, 11, 0, 0] ++ [0, 0, 1, 0x46] ++ [3, 9, 4]) ++
   ([0, 6, 0x10, 0] ++ [0, 0]), .eof⟩

theorem caseFile_extract :
    extract (fun _ => false) caseFile 0 = .ok (⟨0, 0, [0, 0, 1, 0x46, 1, 7, 2, 8]⟩, 0) ∧
    extract (fun _ => false) caseFile 12 = .ok (⟨0, 0, [0, 0, 1, 0x46, 3, 9, 4]⟩, 0) ∧
    extract (fun _ => false) caseFile 23 = .ok (⟨0, 0x10, [0, 0]⟩, 0) := by
  refine ⟨?_, ?_, ?_⟩
  · have h1 : Spec.IsRecord [⟨0, 0, [0, 0, 1, 0x46, 1, 7, 2, 8], [0, 0, 1, 0x46, 1, 7, 2, 8], 0⟩] := by
      refine .last _ ⟨?_, by decide⟩ (by decide)
      refine .plain [0, 0, 1, 0x46, 1, 7, 2, 8] [] ?_
      unfold Spec.Trailer
      rw [if_neg (by decide)]
      exact ⟨[], [], [], rfl, rfl, by decide, by decide⟩
    exact c17_extract (fun _ => false) .eof _ h1 [] ([0, 11, 0, 0] ++ [0, 0, 1, 0x46] ++ [3, 9, 4] ++
      ([0, 6, 0x10, 0] ++ [0, 0])) _ rfl (by decide) (Or.inl rfl)
  · have h1 : Spec.IsRecord [⟨0, 0, [0, 0, 1, 0x46, 3, 9, 4], [0, 0, 1, 0x46, 3, 9, 4], 0⟩] := by
      refine .last _ ⟨?_, by decide⟩ (by decide)
      refine .plain [0, 0, 1, 0x46, 3, 9, 4] [] ?_
      unfold Spec.Trailer
      rw [if_neg (by decide)]
      exact ⟨[], [], [], rfl, rfl, by decide, by decide⟩
    exact c17_extract (fun _ => false) .eof _ h1 ([0, 12, 0, 0] ++ [0, 0, 1, 0x46] ++ [1, 7, 2, 8])
      ([0, 6, 0x10, 0] ++ [0, 0]) _ rfl (by decide) (Or.inl rfl)
  · have h1 : Spec.IsRecord [⟨0x10, 0, [0, 0], [0, 0], 0⟩] := by
      refine .last _ ⟨?_, by decide⟩ (by decide)
      refine .plain [0, 0] [] ?_
      unfold Spec.Trailer
      rw [if_pos (by decide)]
    exact c17_extract (fun _ => false) .eof _ h1 ([0, 12, 0, 0] ++ [0, 0, 1, 0x46] ++ [1, 7, 2, 8] ++
      ([0, 11, 0, 0] ++ [0, 0, 1, 0x46] ++ [3, 9, 4])) [] _ rfl (by decide) (Or.inl rfl)

theorem caseName : Spec.Obname 0 0 [0x46] [0, 0, 1, 0x46] :=
  ⟨[0], [1, 0x46], 0, Or.inl ⟨rfl, by decide, by decide⟩, by decide, ⟨1, by decide, rfl⟩, rfl⟩

theorem caseFrame (n v : Byte) (h : n.toNat < 128) : RowEnc [.uvari, .ushort]
    [.host (.int 4 n.toNat), .host (.int 1 v.toNat)] [n, v] := by
  refine .cons (c := .uvari) (v := .int 4 n.toNat) (e := [n]) (row := [.host (.int 1 v.toNat)])
    (es := [v]) ⟨n.toNat, rfl, Or.inl ⟨rfl, by simp [beNat], by simpa using h⟩⟩ trivial ?_
  exact .cons (c := .ushort) (v := .int 1 v.toNat) (e := [v]) (row := []) (es := [])
    ⟨rfl, by simp [beNat]⟩ trivial .nil

/-- Case: three rows, and two problems. -/
example : ∃ d, readFdata (fun _ => false) caseFile (fun _ => List.replicate 24 0xff) 5
    (Spec.format [.uvari, .ushort]) [0, 12, 23] = .array d [.critical, .critical] ∧
    d.allocated = 3 ∧ d.mem 4 = some (.host (.int 1 7), 0) ∧ d.mem 9 = some (.host (.int 1 8), 0) ∧
    d.mem 10 = some (.host (.int 4 3), 0) := by
  obtain ⟨h0, h1, h2⟩ := caseFile_extract
  obtain ⟨d, hd, ha, -, hr⟩ := c29_rows (fun _ => false) caseFile (fun _ => List.replicate 24 0xff)
    (by simp) [.uvari, .ushort] (by simp) [0, 12, 23]
    [([[.host (.int 4 1), .host (.int 1 7)], [.host (.int 4 2), .host (.int 1 8)]], []),
     ([[.host (.int 4 3), .host (.int 1 9)]], [.critical]), ([], [.critical])] (.inl rfl)
    (.cons (.intact (rows := [_, _]) (o := ⟨0, 0, [0x46]⟩) (ne := [0, 0, 1, 0x46]) h0 rfl rfl caseName
        (.cons (caseFrame 1 7 (by decide)) (.cons (caseFrame 2 8 (by decide)) .nil)))
      (.cons (.damaged (rows := [_]) (o := ⟨0, 0, [0x46]⟩) (ne := [0, 0, 1, 0x46]) (good := [3, 9])
          (rest := [4]) h1 rfl rfl caseName (.cons (caseFrame 3 9 (by decide)) .nil) (by simp)
          (.later (e := [4]) (r := []) (v := .int 4 4)
            ⟨4, rfl, Or.inl ⟨rfl, by decide, by decide⟩⟩ trivial
            (.short rfl (fun v e r he h => he.ne_nil (List.append_eq_nil_iff.1 h.symm).1))))
        (.cons (.encrypted h2 rfl) .nil)))
  refine ⟨d, hd, ha, ?_, ?_, ?_⟩
  · exact (hr 0 _ rfl).2.1 0 (by decide)
  · exact (hr 1 _ rfl).2.1 0 (by decide)
  · exact (hr 2 _ rfl).1 0 (by decide)

/-- Case: the same records as unformatted data. -/
example : readNoform (fun _ => false) caseFile (fun _ => []) [0, 12] =
    .bytes [1, 7, 2, 8, 3, 9, 4] [] := by
  obtain ⟨h0, h1, -⟩ := caseFile_extract
  exact c32_concat (fun _ => false) caseFile _ [0, 12] [([1, 7, 2, 8], []), ([3, 9, 4], [])] (.inl rfl)
    (.cons (.intact h0 ⟨_, _, _, _, caseName, rfl⟩) (.cons (.intact h1 ⟨_, _, _, _, caseName, rfl⟩) .nil))

end Dlisio.Dlis
