/-
C21 (frame data index), and C14 for the searches over streams.
-/
import Verif.Dlis.ExtractProps
import Verif.Dlis.TypesProps
import Verif.Dlis.FingerprintProps

namespace Dlisio.Dlis

namespace Spec

/-- Record `rec` belongs to the frame or no-format object with fingerprint `key`: it is
not encrypted, is of type 0 (frame data) or 1 (no-format data), and its data begins with
an object name whose fingerprint, with type FRAME or NO-FORMAT, is `key`. -/
def BelongsTo (rec : Record) (key : Bytes) : Prop :=
  rec.attributes.toNat / 2 ^ 4 % 2 = 0 ∧
  ∃ origin copy id enc rest, Spec.Obname origin copy id enc ∧ rec.data = enc ++ rest ∧
    (rec.type = 0 ∧ Spec.Fingerprint (Fingerprint.ascii "FRAME") id origin copy key ∨
     rec.type = 1 ∧ Spec.Fingerprint (Fingerprint.ascii "NO-FORMAT") id origin copy key)

end Spec

theorem obname_length {o c : Nat} {i e : Bytes} (h : Spec.Obname o c i e) :
    0 < e.length ∧ e.length ≤ 261 := by
  obtain ⟨u, d, b, hu, -, hi, rfl⟩ := h
  have h1 : u.length ≤ 4 := by
    rcases hu with ⟨h, _⟩ | ⟨h, _⟩ | ⟨h, _⟩ <;> omega
  have h2 : d.length ≤ 256 := by
    obtain ⟨b, hb, rfl⟩ := hi
    have := b.isLt
    simp; omega
  simp; omega

/-- the object name at the beginning of some bytes is unique -/
theorem obname_unique {o c o' c' : Nat} {i i' e e' r r' : Bytes} (h : Spec.Obname o c i e)
    (h' : Spec.Obname o' c' i' e') (he : e ++ r = e' ++ r') :
    o = o' ∧ c = c' ∧ i = i' ∧ e = e' := by
  have h1 := (c05_obname_decodes (e ++ r) ⟨o, c, i⟩ r).2 ⟨e, h, rfl⟩
  have h2 := (c05_obname_decodes (e ++ r) ⟨o', c', i'⟩ r').2 ⟨e', h', he⟩
  rw [h1] at h2
  simp only [Option.some.injEq, Prod.mk.injEq, Obname.mk.injEq] at h2
  obtain ⟨⟨rfl, rfl, rfl⟩, rfl⟩ := h2
  exact ⟨rfl, rfl, rfl, List.append_cancel_right he⟩

/-- decoding never fails when 261 bytes are there -/
theorem obname_total (bs : Bytes) (h : 261 ≤ bs.length) : ∃ o r, obname bs = some (o, r) := by
  have hu : ∃ v r, uvari bs = some (v, r) ∧ 257 ≤ r.length := by
    match bs, h with
    | a :: b :: c :: d :: t, h =>
      simp only [List.length_cons] at h
      simp only [uvari]
      split
      · exact ⟨_, _, rfl, by omega⟩
      · exact ⟨_, _, rfl, by simp; omega⟩
      · exact ⟨_, _, rfl, by simp; omega⟩
  obtain ⟨v, r, hv, hr⟩ := hu
  match r, hr with
  | c :: l :: t, hr =>
    have hl := l.isLt
    simp only [List.length_cons] at hr
    have hi : ident (l :: t) = some (t.take l.toNat, t.drop l.toNat) := by
      refine (c03_ident_decodes _ _ _).2 ⟨l :: t.take l.toNat, ⟨l, ?_, rfl⟩, by simp⟩
      simp; omega
    exact ⟨⟨v, c.toNat, t.take l.toNat⟩, t.drop l.toNat, by simp [obname, origin, hv, ushort, hi]⟩

theorem flag_enc_false (a : Byte) : flag a SEGATTR_ENCRYPT = false ↔ a.toNat / 2 ^ 4 % 2 = 0 := by
  have h := flag_enc a
  cases hf : flag a SEGATTR_ENCRYPT
  · rw [hf] at h; simp only [Bool.false_eq_true, false_iff] at h; simp only [true_iff]; omega
  · rw [hf] at h; simp only [true_iff] at h; simp only [Bool.true_eq_false, false_iff]; omega

theorem belongsTo_unique {rec : Record} {k k' : Bytes} (h : Spec.BelongsTo rec k)
    (h' : Spec.BelongsTo rec k') : k = k' := by
  obtain ⟨-, o, c, i, e, r, h1, h2, h3⟩ := h
  obtain ⟨-, o', c', i', e', r', h1', h2', h3'⟩ := h'
  obtain ⟨rfl, rfl, rfl, -⟩ := obname_unique h1 h1' (h2 ▸ h2')
  have hf : Spec.Fingerprint.ascii "FRAME" ≠ [] := by decide
  have hn : Spec.Fingerprint.ascii "NO-FORMAT" ≠ [] := by decide
  rcases h3 with ⟨ht, h3⟩ | ⟨ht, h3⟩ <;> rcases h3' with ⟨ht', h3'⟩ | ⟨ht', h3'⟩
  · rw [← c22_text _ _ _ _ hf] at h3 h3'; rw [h3] at h3'; exact Option.some.inj h3'
  · omega
  · omega
  · rw [← c22_text _ _ _ _ hn] at h3 h3'; rw [h3] at h3'; exact Option.some.inj h3'

theorem fdataStep_spec (policy : Policy) (src : Source) (stale : Bytes) (tell : Nat)
    (hst : 262 ≤ stale.length) (rec : Record) (logs : Nat)
    (h : extractN policy src tell 262 = .ok (rec, logs)) :
    (∃ key, fdataStep policy src stale tell = (.file key, logs) ∧ Spec.BelongsTo rec key) ∨
    ((fdataStep policy src stale tell = (.skip, logs) ∨
      fdataStep policy src stale tell = (.problem, logs)) ∧ ∀ key, ¬ Spec.BelongsTo rec key) := by
  unfold fdataStep
  simp only [h]
  by_cases henc : rec.isencrypted = true
  · right
    rw [if_pos henc]
    refine ⟨Or.inl rfl, fun key hb => ?_⟩
    have := (flag_enc_false _).2 hb.1
    unfold Record.isencrypted at henc
    rw [this] at henc; cases henc
  · rw [if_neg henc]
    have henc0 : rec.attributes.toNat / 2 ^ 4 % 2 = 0 := by
      rw [← flag_enc_false, ← Bool.not_eq_true]; exact henc
    by_cases hty : rec.type ≠ 0 ∧ rec.type ≠ 1
    · right
      rw [if_pos hty]
      refine ⟨Or.inl rfl, fun key hb => ?_⟩
      obtain ⟨-, o, c, i, e, r, -, -, h3⟩ := hb
      omega
    · rw [if_neg hty]
      by_cases hlen : rec.data.length = 0
      · right
        rw [if_pos hlen]
        refine ⟨Or.inl rfl, fun key hb => ?_⟩
        obtain ⟨-, o, c, i, e, r, h1, h2, -⟩ := hb
        have := (obname_length h1).1
        rw [h2, List.length_append] at hlen; omega
      · rw [if_neg hlen]
        obtain ⟨o, rest, ho⟩ := obname_total (rec.data ++ stale) (by simp; omega)
        obtain ⟨e, he, hd⟩ := (c05_obname_decodes _ _ _).1 ho
        simp only [ho]
        have hsize : (rec.data ++ stale).length - rest.length = e.length := by
          rw [hd, List.length_append]; omega
        rw [hsize]
        by_cases hbig : e.length > rec.data.length
        · right
          rw [if_pos hbig]
          refine ⟨Or.inr rfl, fun key hb => ?_⟩
          obtain ⟨-, o', c', i', e', r', h1, h2, -⟩ := hb
          have : e ++ rest = e' ++ (r' ++ stale) := by rw [← hd, h2]; simp
          obtain ⟨-, -, -, rfl⟩ := obname_unique he h1 this
          rw [h2, List.length_append] at hbig; omega
        · left
          rw [if_neg hbig]
          have hpre : ∃ r, rec.data = e ++ r := by
            refine ⟨rec.data.drop e.length, ?_⟩
            have : rec.data.take e.length = e := by
              have h1 : (rec.data ++ stale).take e.length = e := by rw [hd]; simp
              rwa [List.take_append_of_le_length (by omega)] at h1
            conv_lhs => rw [← List.take_append_drop e.length rec.data, this]
          obtain ⟨r, hr⟩ := hpre
          have hf : Spec.Fingerprint.ascii "FRAME" = [0x46, 0x52, 0x41, 0x4d, 0x45] := by decide
          have hn : Spec.Fingerprint.ascii "NO-FORMAT" =
            [0x4e, 0x4f, 0x2d, 0x46, 0x4f, 0x52, 0x4d, 0x41, 0x54] := by decide
          by_cases h0 : rec.type = 0
          · simp only [if_pos h0, ← hf]
            have hfp := fingerprint_eq (Spec.Fingerprint.ascii "FRAME") o.id o.origin o.copy
              (by decide)
            rw [hfp]
            exact ⟨_, rfl, henc0, o.origin, o.copy, o.id, e, r, he, hr,
              Or.inl ⟨h0, (c22_text _ _ _ _ (by decide) _).1 hfp⟩⟩
          · simp only [if_neg h0, ← hn]
            have hfp := fingerprint_eq (Spec.Fingerprint.ascii "NO-FORMAT") o.id o.origin o.copy
              (by decide)
            rw [hfp]
            exact ⟨_, rfl, henc0, o.origin, o.copy, o.id, e, r, he, hr,
              Or.inr ⟨by omega, (c22_text _ _ _ _ (by decide) _).1 hfp⟩⟩

theorem mapGet_push (m : List (Bytes × List Nat)) (key k : Bytes) (t : Nat) :
    mapGet (mapPush m key t) k = if key = k then mapGet m k ++ [t] else mapGet m k := by
  induction m with
  | nil => simp [mapPush, mapGet]
  | cons x m ih =>
    obtain ⟨a, v⟩ := x
    unfold mapPush
    by_cases h : a = key
    · subst h
      rw [if_pos rfl]
      unfold mapGet
      by_cases hk : a = k <;> simp [hk]
    · rw [if_neg h]
      unfold mapGet
      by_cases hk : a = k
      · subst hk; rw [if_pos rfl, if_neg (Ne.symm h)]; simp
      · rw [if_neg hk, if_neg hk, ih]

theorem mapPush_keys (m : List (Bytes × List Nat)) (key : Bytes) (t : Nat) (x : Bytes) :
    x ∈ (mapPush m key t).map Prod.fst ↔ x = key ∨ x ∈ m.map Prod.fst := by
  induction m with
  | nil => simp [mapPush]
  | cons y m ih =>
    obtain ⟨a, v⟩ := y
    unfold mapPush
    split
    · rename_i h; subst h; simp
    · simp only [List.map_cons, List.mem_cons, ih]; tauto

theorem mapPush_nodup (m : List (Bytes × List Nat)) (key : Bytes) (t : Nat)
    (h : (m.map Prod.fst).Nodup) : ((mapPush m key t).map Prod.fst).Nodup := by
  induction m with
  | nil => simp [mapPush]
  | cons y m ih =>
    obtain ⟨a, v⟩ := y
    simp only [List.map_cons, List.nodup_cons] at h
    unfold mapPush
    split
    · simpa using h
    · rename_i hne
      simp only [List.map_cons, List.nodup_cons]
      refine ⟨?_, ih h.2⟩
      rw [mapPush_keys]
      rintro (h' | h')
      · exact hne h'
      · exact h.1 h'

/-- the record at `t` (its first 262 bytes) belongs to `key` -/
def HeadBelongs (policy : Policy) (src : Source) (key : Bytes) (t : Nat) : Prop :=
  ∃ rec n, extractN policy src t 262 = .ok (rec, n) ∧ Spec.BelongsTo rec key

open Classical in
theorem findfdataLoop_spec (policy : Policy) (src : Source) (stale : Nat → Bytes)
    (hst : ∀ t, 262 ≤ (stale t).length) (tells : List Nat) (m : List (Bytes × List Nat))
    (logs : List Severity) (m' : List (Bytes × List Nat)) (logs' : List Severity)
    (h : findfdataLoop policy src stale m logs tells = some (m', logs')) :
    (∀ key, mapGet m' key = mapGet m key ++ tells.filter (fun t => HeadBelongs policy src key t)) ∧
    ((m.map Prod.fst).Nodup → (m'.map Prod.fst).Nodup) := by
  induction tells generalizing m logs with
  | nil =>
    simp only [findfdataLoop, Option.some.injEq, Prod.mk.injEq] at h
    obtain ⟨rfl, rfl⟩ := h
    simp
  | cons t ts ih =>
    rw [findfdataLoop] at h
    have hskip : (∀ key, ¬ HeadBelongs policy src key t) → ∀ {L},
        findfdataLoop policy src stale m L ts = some (m', logs') →
        (∀ key, mapGet m' key =
          mapGet m key ++ (t :: ts).filter (fun t => HeadBelongs policy src key t)) ∧
        ((m.map Prod.fst).Nodup → (m'.map Prod.fst).Nodup) := by
      intro hb L hL
      obtain ⟨i1, i2⟩ := ih _ _ hL
      refine ⟨fun key => ?_, i2⟩
      rw [i1 key, List.filter_cons, if_neg (by simpa using hb key)]
    cases hx : extractN policy src t 262 with
    | error er =>
      have hno : ∀ key, ¬ HeadBelongs policy src key t := by
        rintro key ⟨rec, n, he, -⟩; rw [hx] at he; cases he
      have hs : fdataStep policy src (stale t) t = (.undefined, 0) ∨
          fdataStep policy src (stale t) t = (.problem, 0) := by
        unfold fdataStep
        rw [hx]
        cases er <;> simp
      rcases hs with hs | hs
      · rw [hs] at h; cases h
      · rw [hs] at h
        simp only at h
        split at h
        · cases h
        · exact hskip hno h
    | ok x =>
      obtain ⟨rec, n⟩ := x
      rcases fdataStep_spec policy src (stale t) t (hst t) rec n hx with ⟨key, hs, hb⟩ | ⟨hs, hb⟩
      · rw [hs] at h
        simp only at h
        obtain ⟨i1, i2⟩ := ih _ _ h
        refine ⟨fun k => ?_, fun hn => i2 (mapPush_nodup m key t hn)⟩
        rw [i1 k, mapGet_push, List.filter_cons]
        by_cases hk : key = k
        · subst hk
          rw [if_pos rfl, if_pos (by simpa using ⟨rec, n, hx, hb⟩)]; simp
        · rw [if_neg hk, if_neg]
          simp only [decide_eq_true_eq]
          rintro ⟨rec', n', he, hb'⟩
          rw [hx] at he; cases he
          exact hk (belongsTo_unique hb hb')
      · have hno : ∀ key, ¬ HeadBelongs policy src key t := by
          rintro key ⟨rec', n', he, hb'⟩
          rw [hx] at he; cases he
          exact hb key hb'
        rcases hs with hs | hs
        · rw [hs] at h; exact hskip hno h
        · rw [hs] at h
          simp only at h
          split at h
          · cases h
          · exact hskip hno h

/-- keeping 262 bytes of a record does not change the object it belongs to -/
theorem belongs_take (rec : Record) (key : Bytes) :
    Spec.BelongsTo ⟨rec.type, rec.attributes, rec.data.take 262⟩ key ↔ Spec.BelongsTo rec key := by
  constructor
  · rintro ⟨h0, o, c, i, e, r, h1, h2, h3⟩
    refine ⟨h0, o, c, i, e, r ++ rec.data.drop 262, h1, ?_, h3⟩
    simp only at h2
    rw [← List.append_assoc, ← h2, List.take_append_drop]
  · rintro ⟨h0, o, c, i, e, r, h1, h2, h3⟩
    have := (obname_length h1).2
    refine ⟨h0, o, c, i, e, r.take (262 - e.length), h1, ?_, h3⟩
    simp only
    rw [h2, List.take_append, List.take_of_length_le (by omega)]

open Classical in
/-- C21.  When the frame data index is produced, it holds under each key exactly the
offsets, in the order given, of the records (as far as they can be read: their first 262
bytes) that belong to the frame or no-format object with that fingerprint.  Nothing else
is listed, and every key occurs once.  The content of the reused buffer (`stale`) plays
no role. -/
theorem c21_index (policy : Policy) (src : Source) (stale : Nat → Bytes)
    (hst : ∀ t, 262 ≤ (stale t).length) (tells : List Nat) (m : List (Bytes × List Nat))
    (logs : List Severity) (h : findfdata policy src stale tells = some (m, logs)) :
    (∀ key, mapGet m key = tells.filter (fun t => decide (∃ rec n,
      extractN policy src t 262 = .ok (rec, n) ∧ Spec.BelongsTo rec key))) ∧
    (m.map Prod.fst).Nodup := by
  obtain ⟨h1, h2⟩ := findfdataLoop_spec policy src stale hst tells [] [] m logs h
  exact ⟨fun key => by rw [h1 key]; rfl, h2 List.nodup_nil⟩

open Classical in
/-- C21.  For offsets whose records can be extracted completely, the index is given by
the records. -/
theorem c21_index_of_records (policy : Policy) (src : Source) (stale : Nat → Bytes)
    (hst : ∀ t, 262 ≤ (stale t).length) (tells : List Nat) (recs : Nat → Record)
    (hex : ∀ t ∈ tells, ∃ n, extract policy src t = .ok (recs t, n))
    (m : List (Bytes × List Nat)) (logs : List Severity)
    (h : findfdata policy src stale tells = some (m, logs)) (key : Bytes) :
    mapGet m key = tells.filter (fun t => decide (Spec.BelongsTo (recs t) key)) := by
  rw [(c21_index policy src stale hst tells m logs h).1 key]
  apply List.filter_congr
  intro t ht
  obtain ⟨n, hn⟩ := hex t ht
  obtain ⟨n', -, hn'⟩ := c18_partial_is_prefix policy src t 262 (by omega) _ _ hn
  congr 1
  apply propext
  constructor
  · rintro ⟨rec, k, hk, hb⟩
    rw [hn'] at hk; cases hk
    exact (belongs_take _ _).1 hb
  · intro hb
    exact ⟨_, _, hn', (belongs_take _ _).2 hb⟩

/-- C21.  The index is always produced when the error handler does not raise on critical
problems and no record makes the trailer code read in front of its segment (see C16). -/
theorem c21_produced (policy : Policy) (src : Source) (stale : Nat → Bytes)
    (hst : ∀ t, 262 ≤ (stale t).length) (tells : List Nat) (hp : policy .critical = false)
    (hub : ∀ t ∈ tells, extractN policy src t 262 ≠ .error .outOfBounds) :
    ∃ m logs, findfdata policy src stale tells = some (m, logs) := by
  unfold findfdata
  generalize ([] : List (Bytes × List Nat)) = m0
  generalize ([] : List Severity) = l0
  induction tells generalizing m0 l0 with
  | nil => exact ⟨_, _, rfl⟩
  | cons t ts ih =>
    have ih' := fun m l => ih (fun t ht => hub t (by simp [ht])) m l
    rw [findfdataLoop]
    cases hx : extractN policy src t 262 with
    | error er =>
      have hs : fdataStep policy src (stale t) t = (.problem, 0) := by
        have := hub t (by simp)
        unfold fdataStep
        rw [hx] at this ⊢
        cases er <;> simp_all
      rw [hs]
      simp only [hp, Bool.false_eq_true, if_false]
      exact ih' _ _
    | ok x =>
      obtain ⟨rec, n⟩ := x
      rcases fdataStep_spec policy src (stale t) t (hst t) rec n hx with ⟨key, hs, -⟩ | ⟨hs | hs, -⟩
      · rw [hs]; exact ih' _ _
      · rw [hs]; exact ih' _ _
      · rw [hs]
        simp only [hp, Bool.false_eq_true, if_false]
        exact ih' _ _

/-- The record at `t` is left out although it holds data: it cannot be read, or it is data of a frame or
without format that does not begin with the name of an object. -/
def Spec.LeftOut (policy : Policy) (src : Source) (t : Nat) : Prop :=
  (∃ er, extractN policy src t 262 = .error er) ∨
  ∃ rec n, extractN policy src t 262 = .ok (rec, n) ∧ rec.attributes.toNat / 2 ^ 4 % 2 = 0 ∧
    (rec.type = 0 ∨ rec.type = 1) ∧ rec.data ≠ [] ∧ ∀ key, ¬ Spec.BelongsTo rec key

theorem fdataStep_left {policy : Policy} {src : Source} {stale : Bytes} {t : Nat}
    (hst : 262 ≤ stale.length) (hu : ∀ l, fdataStep policy src stale t ≠ (.undefined, l)) :
    Spec.LeftOut policy src t ↔ ∃ l, fdataStep policy src stale t = (.problem, l) := by
  cases hx : extractN policy src t 262 with
  | error er =>
    refine ⟨fun _ => ?_, fun _ => .inl ⟨er, hx⟩⟩
    have := hu 0
    unfold fdataStep at this ⊢
    rw [hx] at this ⊢
    cases er <;> simp_all
  | ok x =>
    obtain ⟨rec, n⟩ := x
    have hspec := fdataStep_spec policy src stale t hst rec n hx
    have hskip : (rec.attributes.toNat / 2 ^ 4 % 2 = 0 ∧ (rec.type = 0 ∨ rec.type = 1) ∧ rec.data ≠ []) ↔
        fdataStep policy src stale t ≠ (.skip, n) := by
      have henc : rec.attributes.toNat / 2 ^ 4 % 2 = 0 ↔ ¬ rec.isencrypted = true := by
        rw [← flag_enc_false, ← Bool.not_eq_true]; rfl
      rw [henc]
      unfold fdataStep
      simp only [hx]
      split_ifs with h1 h2 h3
      · simp [h1]
      · simp only [ne_eq, not_true_eq_false, iff_false]; omega
      · simp only [ne_eq, not_true_eq_false, iff_false]
        exact fun h => h.2.2 (List.eq_nil_of_length_eq_zero h3)
      all_goals
        constructor
        · intro _
          split
          · simp
          · split
            · simp
            · split <;> simp
        · exact fun _ => ⟨h1, by omega, fun h => h3 (by rw [h]; rfl)⟩
    constructor
    · rintro (⟨er, he⟩ | ⟨rec', n', he, h1, h2, h3, h4⟩)
      · rw [hx] at he; cases he
      · rw [hx] at he; cases he
        rcases hspec with ⟨key, -, hb⟩ | ⟨hs | hs, -⟩
        · exact (h4 key hb).elim
        · exact (hskip.1 ⟨h1, h2, h3⟩ hs).elim
        · exact ⟨_, hs⟩
    · rintro ⟨l, hl⟩
      rcases hspec with ⟨key, hs, -⟩ | ⟨-, hb⟩
      · rw [hl] at hs; cases hs
      · have := hskip.2 (by rw [hl]; simp)
        exact .inr ⟨rec, n, hx, this.1, this.2.1, this.2.2, hb⟩

open Classical in
/-- C21.  No data is left out of the index in silence: there is one critical message for each record that
cannot be read, or that does not begin with the name of an object. -/
theorem c21_logged (policy : Policy) (src : Source) (stale : Nat → Bytes)
    (hst : ∀ t, 262 ≤ (stale t).length) (tells : List Nat) (m : List (Bytes × List Nat))
    (logs : List Severity) (h : findfdata policy src stale tells = some (m, logs)) :
    logs.count .critical = (tells.filter fun t => decide (Spec.LeftOut policy src t)).length ∧
    (policy .critical = true → ∀ t ∈ tells, ¬ Spec.LeftOut policy src t) := by
  unfold findfdata at h
  suffices H : ∀ (tells : List Nat) (m0 : List (Bytes × List Nat)) (l0 : List Severity),
      findfdataLoop policy src stale m0 l0 tells = some (m, logs) →
      logs.count .critical = l0.count .critical +
        (tells.filter fun t => decide (Spec.LeftOut policy src t)).length ∧
      (policy .critical = true → ∀ t ∈ tells, ¬ Spec.LeftOut policy src t) by
    simpa using H tells [] [] h
  clear h tells
  intro tells
  induction tells with
  | nil => intro m0 l0 h; cases h; simp
  | cons t ts ih =>
    intro m0 l0 h
    have hrep : ∀ k, (List.replicate k Severity.minor).count .critical = 0 :=
      fun k => List.count_eq_zero.2 fun hm => by cases List.eq_of_mem_replicate hm
    rw [findfdataLoop] at h
    rcases hs : fdataStep policy src (stale t) t with ⟨fp | _ | _ | _, l⟩
    · have hno : ¬ Spec.LeftOut policy src t := by
        rw [fdataStep_left (hst t) (by rw [hs]; simp), hs]; simp
      rw [hs] at h
      obtain ⟨h1, h2⟩ := ih _ _ h
      rw [List.filter_cons, if_neg (by simpa using hno), h1, List.count_append, hrep]
      exact ⟨rfl, fun hp => by simpa [hno] using h2 hp⟩
    · have hno : ¬ Spec.LeftOut policy src t := by
        rw [fdataStep_left (hst t) (by rw [hs]; simp), hs]; simp
      rw [hs] at h
      obtain ⟨h1, h2⟩ := ih _ _ h
      rw [List.filter_cons, if_neg (by simpa using hno), h1, List.count_append, hrep]
      exact ⟨rfl, fun hp => by simpa [hno] using h2 hp⟩
    · have hyes : Spec.LeftOut policy src t := by
        rw [fdataStep_left (hst t) (by rw [hs]; simp), hs]; simp
      rw [hs] at h
      simp only at h
      split at h
      · cases h
      rename_i hp
      obtain ⟨h1, h2⟩ := ih _ _ h
      rw [List.filter_cons, if_pos (by simpa using hyes), h1, List.count_append, List.count_append, hrep]
      refine ⟨by simp; omega, fun hp' => absurd hp' hp⟩
    · rw [hs] at h; cases h

/-- Case: a frame data record for object `A` (origin 1, copy 0), an encrypted copy of it,
and a no-format record for the same name. -/
example (key : Bytes) : Spec.BelongsTo ⟨0, 0, [1, 0, 1, 0x41, 7]⟩ key ↔
    key = Spec.Fingerprint.ascii "T.FRAME-I.A-O.1-C.0" := by
  have hb : Spec.BelongsTo ⟨0, 0, [1, 0, 1, 0x41, 7]⟩
      (Spec.Fingerprint.ascii "T.FRAME-I.A-O.1-C.0") := by
    refine ⟨by decide, 1, 0, [0x41], [1, 0, 1, 0x41], [7], ?_, rfl, Or.inl ⟨rfl, ?_⟩⟩
    · exact ⟨[1], [1, 0x41], 0, Or.inl ⟨rfl, by decide, by decide⟩, by decide, ⟨1, by decide, rfl⟩, rfl⟩
    · exact ⟨[0x31], [0x30], ⟨by unfold Spec.Digits; decide, by decide, by decide, by decide⟩,
        ⟨by unfold Spec.Digits; decide, by decide, by decide, by decide⟩, by decide⟩
  exact ⟨fun h => belongsTo_unique h hb, fun h => h ▸ hb⟩

/-- Case for `c21_logged`: at the end of a file there is no record, and one message. -/
example : ∃ m logs, findfdata (fun _ => false) ⟨[], .eof⟩ (fun _ => List.replicate 262 0) [0] = some (m, logs) ∧
    logs.count .critical = 1 := by
  refine ⟨[], [.critical], by decide +kernel, by decide⟩

/-! ## C14 over streams -/

/-- a search looks at the next `n` bytes, or at fewer at the end of the file -/
theorem findOnce_eof (find : Bytes → Err × Option Nat) (data : Bytes) (pos n : Nat) (hn : n ≠ 0) :
    findOnce find ⟨data, .eof⟩ pos n = match find ((data.drop pos).take n) with
      | (.ok, some o) => .found (pos + o) []
      | (.notFound, _) => .notFound
      | (_, _) => .runtime := by
  unfold findOnce readAt
  rw [if_neg hn]
  by_cases h : pos + n ≤ data.length
  · rw [if_pos h]; rfl
  · rw [if_neg h]
    rw [List.take_of_length_le (by simp; omega)]
    rfl

theorem findOnce_sul (data : Bytes) (pos n p : Nat) (l : List Severity) (hn : n ≠ 0) :
    findOnce findSul ⟨data, .eof⟩ pos n = .found p l ↔
      l = [] ∧ pos ≤ p ∧ Spec.FirstAt Spec.recordText ((data.drop pos).take n) (p - pos + 9) := by
  rw [findOnce_eof _ data pos n hn]
  obtain ⟨h1, h2, h3⟩ := c14_find_sul ((data.drop pos).take n)
  cases hf : findSul ((data.drop pos).take n) with
  | mk e o =>
    have hok : ∀ k, Spec.FirstAt Spec.recordText ((data.drop pos).take n) (k + 9) →
        e = .ok ∧ o = some k := by
      intro k hk
      have := (h1 k).2 hk
      rw [hf] at this; cases this; exact ⟨rfl, rfl⟩
    constructor
    · intro h
      split at h
      · rename_i o' heq
        cases heq
        cases h
        refine ⟨rfl, by omega, ?_⟩
        rw [Nat.add_sub_cancel_left]
        exact (h1 o').1 hf
      · cases h
      · cases h
    · rintro ⟨rfl, hle, hfirst⟩
      obtain ⟨rfl, rfl⟩ := hok _ hfirst
      simp; omega

theorem findOnce_vrl (data : Bytes) (pos n p : Nat) (l : List Severity) (hn : n ≠ 0) :
    findOnce findVrl ⟨data, .eof⟩ pos n = .found p l ↔
      l = [] ∧ pos ≤ p ∧ Spec.FirstAt Spec.ff01 ((data.drop pos).take n) (p - pos + 2) := by
  rw [findOnce_eof _ data pos n hn]
  obtain ⟨h1, h2, h3⟩ := c14_find_vrl ((data.drop pos).take n)
  cases hf : findVrl ((data.drop pos).take n) with
  | mk e o =>
    have hok : ∀ k, Spec.FirstAt Spec.ff01 ((data.drop pos).take n) (k + 2) →
        e = .ok ∧ o = some k := by
      intro k hk
      have := (h1 k).2 hk
      rw [hf] at this; cases this; exact ⟨rfl, rfl⟩
    constructor
    · intro h
      split at h
      · rename_i o' heq
        cases heq
        cases h
        refine ⟨rfl, by omega, ?_⟩
        rw [Nat.add_sub_cancel_left]
        exact (h1 o').1 hf
      · cases h
      · cases h
    · rintro ⟨rfl, hle, hfirst⟩
      obtain ⟨rfl, rfl⟩ := hok _ hfirst
      simp; omega

/-- C14, stream level.  With a regular end of file, the storage label search finds the
label without a complaint exactly when the first `RECORD` in the next 15 bytes is nine
bytes ahead, i.e. the label starts right at the current position. -/
theorem c14_label_here (policy : Policy) (expected : Bool) (data : Bytes) (pos p : Nat) :
    findsul policy expected ⟨data, .eof⟩ pos = .found p [] ↔
      p = pos ∧ Spec.FirstAt Spec.recordText ((data.drop pos).take 15) 9 := by
  have hwin : ∀ k, Spec.FirstAt Spec.recordText ((data.drop pos).take 15) (k + 9) → k = 0 := by
    rintro k ⟨⟨a, b, e, hl⟩, -⟩
    have := congrArg List.length e
    simp [Spec.recordText] at this
    omega
  have h15 := findOnce_sul data pos 15
  unfold findsul
  split
  · rename_i q l hq
    obtain ⟨rfl, hle, hf⟩ := (h15 q l (by omega)).1 hq
    have := hwin _ hf
    have hqp : q = pos := by omega
    subst hqp
    simp only [FindResult.found.injEq, and_true]
    constructor
    · rintro rfl; exact ⟨rfl, by simpa using hf⟩
    · rintro ⟨rfl, -⟩; rfl
  · rename_i hno
    constructor
    · intro h
      split at h
      · cases h
      · split at h
        · split at h <;> cases h
        · rename_i he; rw [h] at he; exact absurd rfl (he p [])
    · rintro ⟨rfl, hf⟩
      exact absurd ((h15 p [] (by omega)).2 ⟨rfl, Nat.le_refl _, by simpa using hf⟩) (hno _ _)

/-- C14, stream level.  Where a label is expected but does not start right here, it is
found, with a minor problem logged, exactly when the first `RECORD` in the next 1700 bytes
is nine bytes behind the reported position. -/
theorem c14_label_later (policy : Policy) (data : Bytes) (pos p : Nat)
    (hp : policy .minor = false) :
    findsul policy true ⟨data, .eof⟩ pos = .found p [.minor] ↔
      ¬ Spec.FirstAt Spec.recordText ((data.drop pos).take 15) 9 ∧ pos ≤ p ∧
        Spec.FirstAt Spec.recordText ((data.drop pos).take 1700) (p - pos + 9) := by
  have here := c14_label_here policy true data pos pos
  have h15 := findOnce_sul data pos 15
  have h17 := findOnce_sul data pos 1700
  have hnot15 : ¬ Spec.FirstAt Spec.recordText ((data.drop pos).take 15) 9 →
      ∀ q l, findOnce findSul ⟨data, .eof⟩ pos 15 ≠ .found q l := by
    intro hn q l hq
    have : findsul policy true ⟨data, .eof⟩ pos = .found q l := by unfold findsul; rw [hq]
    obtain ⟨rfl, hle, hf⟩ := (h15 q l (by omega)).1 hq
    exact hn ((c14_label_here policy true data pos q).1 this).2
  constructor
  · intro h
    have hn : ¬ Spec.FirstAt Spec.recordText ((data.drop pos).take 15) 9 := by
      intro hf
      rw [here.2 ⟨rfl, hf⟩] at h
      simp at h
    refine ⟨hn, ?_⟩
    unfold findsul at h
    split at h
    · rename_i q l hq; exact absurd hq (hnot15 hn q l)
    · simp only [Bool.not_true, Bool.false_eq_true, if_false, hp] at h
      split at h
      · rename_i q l hq
        cases h
        exact ((h17 p l (by omega)).1 hq).2
      · rename_i he
        exact absurd h (he p [.minor])
  · rintro ⟨hn, hle, hf⟩
    have hq := (h17 p [] (by omega)).2 ⟨rfl, hle, hf⟩
    unfold findsul
    split
    · rename_i q l h; exact absurd h (hnot15 hn q l)
    · simp [hq, hp]

/-- C14, stream level.  With a regular end of file, the search for the first visible
record succeeds without a complaint exactly when `FF 01` stands two bytes ahead and not
earlier, i.e. the visible record starts right at the current position. -/
theorem c14_first_vr_here (policy : Policy) (data : Bytes) (pos p : Nat) :
    findvrl policy ⟨data, .eof⟩ pos = .found p [] ↔
      p = pos ∧ Spec.FirstAt Spec.ff01 ((data.drop pos).take 4) 2 := by
  have hwin : ∀ k, Spec.FirstAt Spec.ff01 ((data.drop pos).take 4) (k + 2) → k = 0 := by
    rintro k ⟨⟨a, b, e, hl⟩, -⟩
    have := congrArg List.length e
    simp [Spec.ff01] at this
    omega
  have h15 := findOnce_vrl data pos 4
  unfold findvrl
  split
  · rename_i q l hq
    obtain ⟨rfl, hle, hf⟩ := (h15 q l (by omega)).1 hq
    have := hwin _ hf
    have hqp : q = pos := by omega
    subst hqp
    simp only [FindResult.found.injEq, and_true]
    constructor
    · rintro rfl; exact ⟨rfl, by simpa using hf⟩
    · rintro ⟨rfl, -⟩; rfl
  · rename_i hno
    constructor
    · intro h
      split at h
      · split at h <;> cases h
      · rename_i he; rw [h] at he; exact absurd rfl (he p [])
    · rintro ⟨rfl, hf⟩
      exact absurd ((h15 p [] (by omega)).2 ⟨rfl, Nat.le_refl _, by simpa using hf⟩) (hno _ _)

/-- C14, stream level.  Where no visible record starts right here, one is found, with
a minor problem logged, exactly when the first `FF 01` in the next 200 bytes is two bytes
behind the reported position. -/
theorem c14_first_vr_later (policy : Policy) (data : Bytes) (pos p : Nat)
    (hp : policy .minor = false) :
    findvrl policy ⟨data, .eof⟩ pos = .found p [.minor] ↔
      ¬ Spec.FirstAt Spec.ff01 ((data.drop pos).take 4) 2 ∧ pos ≤ p ∧
        Spec.FirstAt Spec.ff01 ((data.drop pos).take 200) (p - pos + 2) := by
  have here := c14_first_vr_here policy data pos pos
  have h15 := findOnce_vrl data pos 4
  have h17 := findOnce_vrl data pos 200
  have hnot15 : ¬ Spec.FirstAt Spec.ff01 ((data.drop pos).take 4) 2 →
      ∀ q l, findOnce findVrl ⟨data, .eof⟩ pos 4 ≠ .found q l := by
    intro hn q l hq
    have : findvrl policy ⟨data, .eof⟩ pos = .found q l := by unfold findvrl; rw [hq]
    obtain ⟨rfl, hle, hf⟩ := (h15 q l (by omega)).1 hq
    exact hn ((c14_first_vr_here policy data pos q).1 this).2
  constructor
  · intro h
    have hn : ¬ Spec.FirstAt Spec.ff01 ((data.drop pos).take 4) 2 := by
      intro hf
      rw [here.2 ⟨rfl, hf⟩] at h
      simp at h
    refine ⟨hn, ?_⟩
    unfold findvrl at h
    split at h
    · rename_i q l hq; exact absurd hq (hnot15 hn q l)
    · simp only [hp] at h
      split at h
      · rename_i q l hq
        cases h
        exact ((h17 p l (by omega)).1 hq).2
      · rename_i he
        exact absurd h (he p [.minor])
  · rintro ⟨hn, hle, hf⟩
    have hq := (h17 p [] (by omega)).2 ⟨rfl, hle, hf⟩
    unfold findvrl
    split
    · rename_i q l h; exact absurd h (hnot15 hn q l)
    · simp [hq, hp]

/-- Case: two bytes of garbage in front of a visible record. -/
example : findvrl (fun _ => false) ⟨[7, 7, 0, 8, 0xff, 1, 0, 4], .eof⟩ 0 = .found 2 [.minor] :=
  (c14_first_vr_later _ _ 0 2 rfl).2 ⟨by
    rintro ⟨⟨a, b, e, hl⟩, -⟩
    match a, hl with
    | [x, y], _ => simp [Spec.ff01] at e, by omega, ⟨[7, 7, 0, 8], [0, 4], rfl, rfl⟩, by
    rintro j hj ⟨a, b, e, hl⟩
    have hj : j < 4 := by omega
    subst hl
    match a, hj with
    | [], _ => simp [Spec.ff01] at e
    | [x], _ => simp [Spec.ff01] at e
    | [x, y], _ => simp [Spec.ff01] at e
    | [x, y, z], _ => simp [Spec.ff01] at e⟩

end Dlisio.Dlis
