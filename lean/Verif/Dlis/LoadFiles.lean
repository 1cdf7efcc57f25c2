/-
Loading: C40, files that are stored as they should be, and damaged files.
-/
import Verif.Dlis.IndexProps
import Verif.Dlis.LoadProps

namespace Dlisio.Dlis

open _root_.Dlisio.Dlis.Spec

namespace Spec

/-- A visible record: its length as a 16 bit number, `FF 01`, and its body. -/
def vrBytes (body : Bytes) : Bytes :=
  [BitVec.ofNat 8 ((4 + body.length) / 256), BitVec.ofNat 8 ((4 + body.length) % 256), 0xFF, 0x01]
    ++ body

/-- A logical file as stored: its logical records, and how their bytes are distributed over
visible records. -/
structure Stored where
  recs : List (Bool × List Seg)
  bodies : List Bytes

/-- The bytes on disk. -/
def Stored.bytes (f : Stored) : Bytes := f.bodies.flatMap vrBytes

/-- A record that is not encrypted and has data. -/
def Plain (segs : List Seg) : Prop :=
  recordData segs ≠ [] ∧ ∀ s, segs.head? = some s → s.attrs.toNat / 2 ^ 4 % 2 = 0

instance (segs : List Seg) : Decidable (Plain segs) := by
  unfold Plain
  cases h : segs.head? with
  | none => exact decidable_of_iff (recordData segs ≠ []) (by simp)
  | some s =>
    exact decidable_of_iff (recordData segs ≠ [] ∧ s.attrs.toNat / 2 ^ 4 % 2 = 0) (by simp)

/-- The object sets of a logical file: those of the explicit records that are not encrypted and
have data, as far as they can be read. -/
def setsOf (recs : List (Bool × List Seg)) : List ObjectSet :=
  recs.filterMap (fun r =>
    if r.1 = true ∧ Plain r.2 then (ObjectSet.new (recordData r.2)).toOption else none)

/-- The record at a position, as `extract` gives it. -/
def recordOf (segs : List Seg) : Record :=
  { type := (segs.head?.map (·.type.toNat)).getD 0,
    attributes := fmtEncBits ((segs.head?.map (·.attrs)).getD 0), data := recordData segs }

/-- A well-formed logical file.  The visible records are not empty and have at most 16384 bytes;
the logical records are, one after the other, the bodies of the visible records; the first is a
FILE-HEADER; there are at least 15 bytes, which do not look like a storage label. -/
structure Stored.WF (f : Stored) : Prop where
  content : FileContent f.recs
  sizes : ∀ b ∈ f.bodies, b ≠ [] ∧ b.length ≤ 16380
  same : f.bodies.flatten = fileBytes f.recs
  starts : ∃ fh segs rest, f.recs = (true, fh :: segs) :: rest ∧ fh.FileHeader
  long : 15 ≤ f.bytes.length
  noLabel : ¬ OccursAt recordText (f.bytes.take 15) 9

/-- The contents of the records can be read: the explicit ones are sets of objects, and the
implicit ones start with an object name. -/
structure Stored.Readable (f : Stored) : Prop where
  sets : ∀ r ∈ f.recs, r.1 = true → Plain r.2 → ∃ s, ObjectSet.new (recordData r.2) = .ok s
  fdata : ∀ r ∈ f.recs, r.1 = false → Plain r.2 → (recordOf r.2).type < 2 →
    ∃ o c i e rest, Spec.Obname o c i e ∧ recordData r.2 = e ++ rest

open Classical in
/-- What the logical file returned for a stored one must be like. -/
structure Faithful (policy : Policy) (sul : Option Bytes) (f : Stored) (g : LogFile) : Prop where
  label : g.sul = sul
  explicits : g.explicits = positions true (located 0 f.recs)
  implicits : g.implicits = positions false (located 0 f.recs)
  records : ∀ x ∈ located 0 f.recs, ∃ n, extract policy g.src x.1 = .ok (recordOf x.2.2, n)
  sets : g.sets = setsOf f.recs
  fdata : ∀ key, mapGet g.fdata key = ((located 0 f.recs).filter (fun x =>
    !x.2.1 && decide (BelongsTo (recordOf x.2.2) key))).map (·.1)
  keys : (g.fdata.map Prod.fst).Nodup ∧ ∀ x ∈ g.fdata, x.2 ≠ []

end Spec

/-! ### Visible records -/

/-- the visible records of a file, as found by lfp -/
def located' (pos : Nat) : List Bytes → List (Nat × Bytes)
  | [] => []
  | b :: bs => (pos + 4, b) :: located' (pos + 4 + b.length) bs

theorem vr_length (b : Bytes) : (Spec.vrBytes b).length = 4 + b.length := by
  simp [Spec.vrBytes]; omega

theorem visible_vr (pos : Nat) (b rest : Bytes) (hb : b.length ≤ 16380) :
    visible pos (Spec.vrBytes b ++ rest) =
      ((pos + 4, b) :: (visible (pos + 4 + b.length) rest).1,
        (visible (pos + 4 + b.length) rest).2) := by
  have h1 : (BitVec.ofNat 8 ((4 + b.length) / 256)).toNat = (4 + b.length) / 256 := by
    simp only [BitVec.toNat_ofNat]; omega
  have h2 : (BitVec.ofNat 8 ((4 + b.length) % 256)).toNat = (4 + b.length) % 256 := by
    simp only [BitVec.toNat_ofNat]; omega
  have h3 : (4 + b.length) / 256 * 256 + (4 + b.length) % 256 = 4 + b.length := by omega
  rw [Spec.vrBytes, List.append_assoc]
  simp only [List.cons_append, List.nil_append]
  rw [visible_cons, h1, h2, h3, if_neg (by simp), if_neg (by simp),
    show 4 + b.length - 4 = b.length from by omega, ← Nat.add_assoc]
  simp

theorem visible_bodies (pos : Nat) (bs : List Bytes) (rest : Bytes)
    (hb : ∀ b ∈ bs, b.length ≤ 16380) :
    visible pos (bs.flatMap Spec.vrBytes ++ rest) =
      (located' pos bs ++ (visible (pos + (bs.flatMap Spec.vrBytes).length) rest).1,
        (visible (pos + (bs.flatMap Spec.vrBytes).length) rest).2) := by
  induction bs generalizing pos with
  | nil => simp [located']
  | cons b bs ih =>
    rw [List.flatMap_cons, List.append_assoc, visible_vr _ _ _ (hb b (by simp)),
      ih _ (fun b' h => hb b' (by simp [h]))]
    simp only [located', List.length_append, vr_length, List.cons_append, ← Nat.add_assoc]

theorem located'_data (pos : Nat) (bs : List Bytes) :
    (located' pos bs).flatMap (·.2) = bs.flatten := by
  induction bs generalizing pos with
  | nil => rfl
  | cons b bs ih => simp [located', ih]

theorem tellIn_after (e pos : Nat) (bs : List Bytes) (vs : List (Nat × Bytes)) :
    tellIn e (located' pos bs ++ vs) bs.flatten.length = tellIn e vs 0 := by
  induction bs generalizing pos with
  | nil => rfl
  | cons b bs ih =>
    simp only [located', List.cons_append, tellIn, List.flatten_cons, List.length_append]
    rw [if_neg (by omega), Nat.add_sub_cancel_left]
    exact ih _

/-! ### Contents -/

theorem located_recs (recs : List (Bool × List Spec.Seg)) (pos : Nat) :
    (Spec.located pos recs).map (·.2) = recs := by
  induction recs generalizing pos with
  | nil => rfl
  | cons r rs ih => simp [Spec.located, ih]

theorem body_le {a : Byte} {raw body : Bytes} {n : Nat} (h : Spec.SegContent a raw body n) :
    body.length ≤ raw.length := by
  cases h <;> simp

theorem recordData_le {segs : List Spec.Seg} (h : Spec.IsRecord segs) :
    (Spec.recordData segs).length ≤ (Spec.recordBytes segs).length := by
  induction h with
  | last s hs hc =>
    have := body_le hs.1
    simp only [Spec.recordData, Spec.recordBytes, List.flatMap_cons, List.flatMap_nil,
      List.append_nil, seg_bytes_length]
    omega
  | more s r hs hc hr ih =>
    have := body_le hs.1
    simp only [Spec.recordData, Spec.recordBytes, List.flatMap_cons, List.length_append,
      seg_bytes_length] at ih ⊢
    omega

theorem recordBytes_le {recs : List (Bool × List Spec.Seg)} {r : Bool × List Spec.Seg}
    (h : r ∈ recs) : (Spec.recordBytes r.2).length ≤ (Spec.fileBytes recs).length := by
  induction recs with
  | nil => simp at h
  | cons a l ih =>
    simp only [Spec.fileBytes, List.flatMap_cons, List.length_append] at ih ⊢
    rcases List.mem_cons.1 h with rfl | h
    · omega
    · have := ih h; omega

theorem stored_extract (policy : Policy) (recs : List (Bool × List Spec.Seg))
    (h : Spec.FileContent recs) (post : Bytes) (e : Ending) (hp : policy .minor = false)
    (hl : (Spec.fileBytes recs).length < 2 ^ 63 - 1)
    (x : Nat × Bool × List Spec.Seg) (hx : x ∈ Spec.located 0 recs) :
    ∃ n, extract policy ⟨Spec.fileBytes recs ++ post, e⟩ x.1 = .ok (Spec.recordOf x.2.2, n) := by
  have hm : x.2 ∈ recs := by
    rw [← located_recs recs 0]; exact List.mem_map_of_mem hx
  have h1 := recordData_le (h.records x.2 hm).chained
  have h2 := recordBytes_le hm
  obtain ⟨s0, h0, hx'⟩ := c19_listed_extract policy recs h post e hp x hx (by omega)
  refine ⟨Spec.recordNotes x.2.2, ?_⟩
  rw [hx']
  simp [Spec.recordOf, h0]

theorem extractAll_located (policy : Policy) (src : Source)
    (xs : List (Nat × Bool × List Spec.Seg))
    (h : ∀ x ∈ xs, ∃ n, extract policy src x.1 = .ok (Spec.recordOf x.2.2, n)) :
    extractAll policy src (xs.map (·.1)) =
      .done ((xs.map (fun x => Spec.recordOf x.2.2)).filter (fun r => r.data.length > 0)) := by
  induction xs with
  | nil => rfl
  | cons x xs ih =>
    obtain ⟨n, hn⟩ := h x (by simp)
    rw [List.map_cons, extractAll, hn]
    simp only [ih (fun y hy => h y (by simp [hy])), List.map_cons, List.filter_cons,
      decide_eq_true_eq]

theorem recordOf_encrypted (segs : List Spec.Seg) (h : Spec.recordData segs ≠ []) :
    (Spec.recordOf segs).isencrypted = false ↔ Spec.Plain segs := by
  unfold Spec.Plain Record.isencrypted Spec.recordOf
  cases segs with
  | nil => simp [Spec.recordData] at h
  | cons s r =>
    simp only [List.head?_cons, Option.map_some, Option.getD_some, ne_eq, h, not_false_eq_true,
      true_and, Option.some.injEq, forall_eq']
    rw [flag_enc_false]
    generalize s.attrs = a
    revert a; decide +kernel

theorem objectSets_located (policy : Policy) (rs : List (List Spec.Seg))
    (hub : ∀ r ∈ rs, Spec.Plain r → ObjectSet.new (Spec.recordData r) ≠ .error .outOfBounds)
    (hc : policy .critical = false ∨
      ∀ r ∈ rs, Spec.Plain r → ∃ s, ObjectSet.new (Spec.recordData r) = .ok s) :
    objectSets policy ((rs.map Spec.recordOf).filter (fun r => r.data.length > 0)) =
      .done (rs.filterMap (fun r =>
        if Spec.Plain r then (ObjectSet.new (Spec.recordData r)).toOption else none)) := by
  induction rs with
  | nil => rfl
  | cons r rs ih =>
    have ih' := ih (fun y hy => hub y (by simp [hy]))
      (hc.imp id (fun h y hy => h y (by simp [hy])))
    rw [List.map_cons, List.filter_cons]
    by_cases hd : Spec.recordData r = []
    · rw [if_neg (by simp [Spec.recordOf, hd]), ih', List.filterMap_cons,
        if_neg (fun h => h.1 hd)]
    · rw [if_pos (by simpa [Spec.recordOf, List.length_pos_iff] using hd), objectSets,
        List.filterMap_cons]
      by_cases hpl : Spec.Plain r
      · rw [(recordOf_encrypted r hd).2 hpl, if_pos hpl]
        simp only [Bool.false_eq_true, if_false, Spec.recordOf] at ih' ⊢
        cases ho : ObjectSet.new (Spec.recordData r) with
        | ok s => simp only [ih', Except.toOption]
        | error er =>
          cases er with
          | outOfBounds => exact absurd ho (hub r (by simp) hpl)
          | threw =>
            rcases hc with hc | hc
            · simp only [hc, Bool.false_eq_true, if_false, ih', Except.toOption]
            · obtain ⟨s, hs⟩ := hc r (by simp) hpl
              rw [hs] at ho; cases ho
      · have : (Spec.recordOf r).isencrypted = true := by
          rw [← Bool.not_eq_false]; exact fun h => hpl ((recordOf_encrypted r hd).1 h)
        rw [this, if_pos rfl, ih', if_neg hpl]

theorem fdataStep_problem {policy : Policy} {src : Source} {stale : Bytes} {tell : Nat}
    {rec : Record} {n logs : Nat} (hx : extractN policy src tell 262 = .ok (rec, n))
    (h : fdataStep policy src stale tell = (.problem, logs)) :
    rec.isencrypted = false ∧ rec.type < 2 ∧ rec.data ≠ [] := by
  unfold fdataStep at h
  simp only [hx] at h
  split at h
  · cases h
  · rename_i h1
    split at h
    · cases h
    · rename_i h2
      split at h
      · cases h
      · rename_i h3
        exact ⟨by simpa using h1, by omega, fun h => h3 (by simp [h])⟩

/-- no record stops `findfdata` -/
def NoStop (policy : Policy) (src : Source) (stale : Nat → Bytes) (t : Nat) : Prop :=
  (fdataStep policy src (stale t) t).1 ≠ .undefined ∧
  (policy .critical = true → (fdataStep policy src (stale t) t).1 ≠ .problem)

theorem fdataStop_done {policy : Policy} {src : Source} {stale : Nat → Bytes} {tells : List Nat}
    (h : ∀ t ∈ tells, NoStop policy src stale t) : fdataStop policy src stale tells = .done () := by
  induction tells with
  | nil => rfl
  | cons t ts ih =>
    have ih' := ih (fun u hu => h u (by simp [hu]))
    obtain ⟨h1, h2⟩ := h t (by simp)
    rw [fdataStop]
    cases hs : (fdataStep policy src (stale t) t).1 with
    | undefined => exact absurd hs h1
    | problem =>
      cases hc : policy .critical with
      | false => simpa using ih'
      | true => exact absurd hs (h2 hc)
    | file fp => exact ih'
    | skip => exact ih'

theorem fdata_found {policy : Policy} {src : Source} {stale : Nat → Bytes} {tells : List Nat}
    (h : ∀ t ∈ tells, NoStop policy src stale t) :
    ∃ m logs, findfdata policy src stale tells = some (m, logs) := by
  unfold findfdata
  generalize ([] : List (Bytes × List Nat)) = m0
  generalize ([] : List Severity) = l0
  induction tells generalizing m0 l0 with
  | nil => exact ⟨_, _, rfl⟩
  | cons t ts ih =>
    have ih' := fun m l => ih (fun u hu => h u (by simp [hu])) m l
    obtain ⟨h1, h2⟩ := h t (by simp)
    rw [findfdataLoop]
    rcases hs : fdataStep policy src (stale t) t with ⟨st, l⟩
    rw [hs] at h1 h2
    cases st with
    | undefined => exact absurd rfl h1
    | problem =>
      cases hc : policy .critical with
      | false => simpa using ih' _ _
      | true => exact absurd rfl (h2 hc)
    | file fp => exact ih' _ _
    | skip => exact ih' _ _

theorem mapPush_keyList (m : List (Bytes × List Nat)) (key : Bytes) (tell : Nat) :
    (mapPush m key tell).map Prod.fst =
      if key ∈ m.map Prod.fst then m.map Prod.fst else m.map Prod.fst ++ [key] := by
  induction m with
  | nil => rfl
  | cons x m ih =>
    obtain ⟨k, v⟩ := x
    unfold mapPush
    by_cases h : k = key
    · simp [h]
    · rw [if_neg h, List.map_cons, ih]
      by_cases h2 : key ∈ m.map Prod.fst
      · rw [if_pos h2, if_pos (by simp only [List.map_cons, List.mem_cons]; exact Or.inr h2)]
        rfl
      · rw [if_neg h2, if_neg (by
          simp only [List.map_cons, List.mem_cons, not_or]; exact ⟨fun h' => h h'.symm, h2⟩)]
        rfl

theorem mapPush_values {m : List (Bytes × List Nat)} (h : ∀ x ∈ m, x.2 ≠ []) (key : Bytes)
    (tell : Nat) : ∀ x ∈ mapPush m key tell, x.2 ≠ [] := by
  induction m with
  | nil => simp [mapPush]
  | cons y m ih =>
    obtain ⟨k, v⟩ := y
    unfold mapPush
    split
    · intro x hx
      rcases List.mem_cons.1 hx with rfl | hx
      · simp
      · exact h x (by simp [hx])
    · intro x hx
      rcases List.mem_cons.1 hx with rfl | hx
      · exact h _ (by simp)
      · exact ih (fun z hz => h z (by simp [hz])) x hx

/-- every key of the index is there once, with at least one record -/
theorem findfdata_keys {policy : Policy} {src : Source} {stale : Nat → Bytes} {tells : List Nat}
    {m : List (Bytes × List Nat)} {logs : List Severity}
    (h : findfdata policy src stale tells = some (m, logs)) :
    (m.map Prod.fst).Nodup ∧ ∀ x ∈ m, x.2 ≠ [] := by
  unfold findfdata at h
  have h0 : (([] : List (Bytes × List Nat)).map Prod.fst).Nodup ∧
      ∀ x ∈ ([] : List (Bytes × List Nat)), x.2 ≠ [] := by simp
  generalize ([] : List (Bytes × List Nat)) = m0 at h h0
  generalize ([] : List Severity) = l0 at h
  induction tells generalizing m0 l0 with
  | nil => cases h; exact h0
  | cons t ts ih =>
    rw [findfdataLoop] at h
    rcases hs : fdataStep policy src (stale t) t with ⟨st, l⟩
    rw [hs] at h
    cases st with
    | undefined => cases h
    | problem =>
      simp only at h
      split at h
      · cases h
      · exact ih _ h0 _ h
    | skip => exact ih _ h0 _ h
    | file fp =>
      refine ih _ ⟨?_, mapPush_values h0.2 fp t⟩ _ h
      rw [mapPush_keyList]
      split
      · exact h0.1
      · rename_i hk
        exact List.Nodup.append h0.1 (by simp) (by simpa using hk)

open Classical in
theorem fdata_located {policy : Policy} {src : Source} {stale : Nat → Bytes}
    (hst : ∀ t, 262 ≤ (stale t).length) (xs : List (Nat × Bool × List Spec.Seg))
    (h : ∀ x ∈ xs, ∃ n, extract policy src x.1 = .ok (Spec.recordOf x.2.2, n))
    (hc : policy .critical = false ∨ ∀ x ∈ xs, Spec.Plain x.2.2 →
      (Spec.recordOf x.2.2).type < 2 →
      ∃ o c i e rest, Spec.Obname o c i e ∧ Spec.recordData x.2.2 = e ++ rest) :
    ∃ m, fdataOf policy src stale (xs.map (·.1)) = .done m ∧
      ((m.map Prod.fst).Nodup ∧ ∀ x ∈ m, x.2 ≠ []) ∧
      ∀ key, mapGet m key = (xs.filter (fun x =>
        decide (Spec.BelongsTo (Spec.recordOf x.2.2) key))).map (·.1) := by
  have hns : ∀ t ∈ xs.map (·.1), NoStop policy src stale t := by
    intro t ht
    obtain ⟨x, hx, rfl⟩ := List.mem_map.1 ht
    obtain ⟨n, hn⟩ := h x hx
    obtain ⟨n', -, hn'⟩ := c18_partial_is_prefix policy src x.1 262 (by omega) _ _ hn
    have hsp := fdataStep_spec policy src (stale x.1) x.1 (hst _) _ _ hn'
    refine ⟨?_, fun hcr => ?_⟩
    · rcases hsp with ⟨key, h1, -⟩ | ⟨h1 | h1, -⟩ <;> rw [h1] <;> simp
    · rcases hsp with ⟨key, h1, -⟩ | ⟨h1 | h1, h2⟩
      · rw [h1]; simp
      · rw [h1]; simp
      · exfalso
        obtain ⟨g1, g2, g3⟩ := fdataStep_problem hn' h1
        simp only at g1 g2 g3
        have hd : Spec.recordData x.2.2 ≠ [] := by
          intro h0
          simp [Spec.recordOf, h0] at g3
        have hpl := (recordOf_encrypted x.2.2 hd).1 g1
        rcases hc with hc | hc
        · rw [hc] at hcr; cases hcr
        · obtain ⟨o, c, i, e, rest, k1, k2⟩ := hc x hx hpl g2
          by_cases ht0 : (Spec.recordOf x.2.2).type = 0
          · have hfp := fingerprint_eq (Spec.Fingerprint.ascii "FRAME") i o c (by decide)
            refine h2 _ ((belongs_take (Spec.recordOf x.2.2) _).2
              ⟨(flag_enc_false _).1 g1, o, c, i, e, rest, k1, k2,
              Or.inl ⟨ht0, (c22_text _ _ _ _ (by decide) _).1 hfp⟩⟩)
          · have hfp := fingerprint_eq (Spec.Fingerprint.ascii "NO-FORMAT") i o c (by decide)
            refine h2 _ ((belongs_take (Spec.recordOf x.2.2) _).2
              ⟨(flag_enc_false _).1 g1, o, c, i, e, rest, k1, k2,
              Or.inr ⟨by omega, (c22_text _ _ _ _ (by decide) _).1 hfp⟩⟩)
  obtain ⟨m, logs, hm⟩ := fdata_found hns
  refine ⟨m, ?_, findfdata_keys hm, fun key => ?_⟩
  · unfold fdataOf
    rw [fdataStop_done hns]
    simp [hm]
  · let recs : Nat → Record := fun t =>
      match extract policy src t with
      | .ok rn => rn.1
      | .error _ => ⟨0, 0, []⟩
    have hrecs : ∀ x ∈ xs, recs x.1 = Spec.recordOf x.2.2 := by
      intro x hx
      obtain ⟨n, hn⟩ := h x hx
      simp only [recs, hn]
    rw [c21_index_of_records policy src stale hst _ recs (fun t ht => by
      obtain ⟨x, hx, rfl⟩ := List.mem_map.1 ht
      obtain ⟨n, hn⟩ := h x hx
      exact ⟨n, by rw [hn, hrecs x hx]⟩) m logs hm key, List.filter_map]
    congr 1
    apply List.filter_congr
    intro x hx
    simp only [Function.comp_apply, hrecs x hx]

open Classical in
/-- the contents of a logical file -/
theorem contents_stored {policy : Policy} {stale : Nat → Bytes}
    (hst : ∀ t, 262 ≤ (stale t).length) (f : Spec.Stored) (hf : f.WF)
    (hub : ∀ r ∈ f.recs, r.1 = true → Spec.Plain r.2 →
      ObjectSet.new (Spec.recordData r.2) ≠ .error .outOfBounds)
    (hc : policy .critical = false ∨ f.Readable) (hp : policy .minor = false)
    (hl : (Spec.fileBytes f.recs).length < 2 ^ 63 - 1) (post : Bytes) (e : Ending) (br : List Nat) :
    ∃ m, contents policy ⟨Spec.fileBytes f.recs ++ post, e⟩ stale
        ⟨Spec.positions true (Spec.located 0 f.recs), Spec.positions false (Spec.located 0 f.recs),
          br⟩ = .done (Spec.setsOf f.recs, m) ∧
      ((m.map Prod.fst).Nodup ∧ ∀ x ∈ m, x.2 ≠ []) ∧
      ∀ key, mapGet m key = ((Spec.located 0 f.recs).filter (fun x =>
        !x.2.1 && decide (Spec.BelongsTo (Spec.recordOf x.2.2) key))).map (·.1) := by
  have hx := stored_extract policy f.recs hf.content post e hp hl
  have hmem : ∀ b, ∀ x ∈ (Spec.located 0 f.recs).filter (fun x => x.2.1 == b),
      x.2 ∈ f.recs ∧ x.2.1 = b := by
    intro b x hx
    rw [List.mem_filter] at hx
    refine ⟨?_, by simpa using hx.2⟩
    rw [← located_recs f.recs 0]; exact List.mem_map_of_mem hx.1
  have h1 := extractAll_located policy ⟨Spec.fileBytes f.recs ++ post, e⟩
    ((Spec.located 0 f.recs).filter (fun x => x.2.1 == true))
    (fun x hx' => hx x (List.mem_filter.1 hx').1)
  have h2 := objectSets_located policy
    (((Spec.located 0 f.recs).filter (fun x => x.2.1 == true)).map (·.2.2))
    (by
      intro r hr hpl
      obtain ⟨x, hx', rfl⟩ := List.mem_map.1 hr
      obtain ⟨g1, g2⟩ := hmem _ x hx'
      exact hub x.2 g1 g2 hpl)
    (hc.imp id (by
      intro hr r hr' hpl
      obtain ⟨x, hx', rfl⟩ := List.mem_map.1 hr'
      obtain ⟨g1, g2⟩ := hmem _ x hx'
      exact hr.sets x.2 g1 g2 hpl))
  obtain ⟨m, h3, hk, h4⟩ := fdata_located (policy := policy)
    (src := ⟨Spec.fileBytes f.recs ++ post, e⟩) hst
    ((Spec.located 0 f.recs).filter (fun x => x.2.1 == false))
    (fun x hx' => hx x (List.mem_filter.1 hx').1)
    (hc.imp id (by
      intro hr x hx' hpl hty
      obtain ⟨g1, g2⟩ := hmem _ x hx'
      exact hr.fdata x.2 g1 g2 hpl hty))
  refine ⟨m, ?_, hk, fun key => ?_⟩
  · unfold contents Spec.positions
    simp only [h1]
    rw [List.map_map] at h2
    simp only [Function.comp_def] at h2
    simp only [h2, h3]
    congr 2
    unfold Spec.setsOf
    conv_rhs => rw [← located_recs f.recs 0]
    generalize Spec.located 0 f.recs = l
    induction l with
    | nil => rfl
    | cons a l ih =>
      rw [List.filter_cons]
      cases ha : a.2.1 with
      | false => simpa [ha] using ih
      | true =>
        simp only [beq_self_eq_true, if_true, List.map_cons, List.filterMap_cons, ha, true_and]
        rw [ih]
  · rw [h4, List.filter_filter]
    congr 1
    apply List.filter_congr
    intro x _
    cases x.2.1 <;> simp

/-! ### Rounds -/

/-- What follows a logical file on disk: nothing, or another logical file, possibly damaged: a
visible record (the first 15 bytes of which do not look like a storage label), and among the data
of this and the following visible records there is at least the first segment of a FILE-HEADER. -/
def Spec.Follows (tail : Bytes) : Prop :=
  tail = [] ∨
  (∃ b more, tail = Spec.vrBytes b ++ more ∧ b ≠ [] ∧ b.length ≤ 16380) ∧
  ¬ Spec.OccursAt Spec.recordText (tail.take 15) 9 ∧
  ∃ fh : Spec.Seg, fh.FileHeader ∧ 4 + fh.raw.length < 2 ^ 16 ∧ ∀ pos, ∃ post,
    (visible pos tail).1.flatMap (·.2) = fh.bytes ++ post

theorem stored_nonempty {f : Spec.Stored} (hf : f.WF) :
    ∃ b bs, f.bodies = b :: bs ∧ b ≠ [] ∧ b.length ≤ 16380 := by
  cases hb : f.bodies with
  | nil =>
    obtain ⟨fh, segs, rest, h1, -⟩ := hf.starts
    have := hf.same
    rw [hb, h1] at this
    simp [Spec.fileBytes, Spec.recordBytes, Spec.Seg.bytes] at this
  | cons b bs => exact ⟨b, bs, rfl, (hf.sizes b (by simp [hb])).1, (hf.sizes b (by simp [hb])).2⟩

theorem take15 (a b : Bytes) (h : 15 ≤ a.length) : (a ++ b).take 15 = a.take 15 := by
  rw [List.take_append_of_le_length h]

theorem occurs_bytes {n h : Bytes} {i : Nat} :
    Spec.OccursAt n h i ↔ (h.drop i).take n.length = n ∧ i + n.length ≤ h.length := by
  constructor
  · rintro ⟨pre, post, rfl, rfl⟩
    simp
  · rintro ⟨h1, h2⟩
    refine ⟨h.take i, (h.drop i).drop n.length, ?_, by simp; omega⟩
    conv_lhs => rw [← List.take_append_drop i h, ← List.take_append_drop n.length (h.drop i), h1]
    simp

theorem stored_follows {f : Spec.Stored} (hf : f.WF) (tail : Bytes) :
    Spec.Follows (f.bytes ++ tail) := by
  have hlab : ¬ Spec.OccursAt Spec.recordText ((f.bytes ++ tail).take 15) 9 := by
    rw [take15 _ _ hf.long]; exact hf.noLabel
  obtain ⟨b, bs, h1, h2, h3⟩ := stored_nonempty hf
  refine Or.inr ⟨⟨b, bs.flatMap Spec.vrBytes ++ tail, ?_, h2, h3⟩, hlab, ?_⟩
  · simp [Spec.Stored.bytes, h1]
  · obtain ⟨fh, segs, rest, g1, g2⟩ := hf.starts
    refine ⟨fh, g2, ?_, fun pos => ?_⟩
    · have := (hf.content.records (true, fh :: segs) (by rw [g1]; simp)).chained
      cases this with
      | last _ hs _ => exact hs.2
      | more _ _ hs _ _ => exact hs.2
    · refine ⟨segs.flatMap Spec.Seg.bytes ++ Spec.fileBytes rest ++
        (visible (pos + (f.bodies.flatMap Spec.vrBytes).length) tail).1.flatMap (·.2), ?_⟩
      unfold Spec.Stored.bytes
      rw [visible_bodies _ _ _ (fun b hb => (hf.sizes b hb).2)]
      simp only [List.flatMap_append, located'_data, hf.same, g1]
      simp [Spec.fileBytes, Spec.recordBytes]

theorem findvrl_vr (policy : Policy) (file : Bytes) (k pos : Nat) (b more : Bytes)
    (hb : b.length ≤ 16380) (h : file.drop (k + pos) = Spec.vrBytes b ++ more) :
    findvrl policy ⟨file.drop k, .eof⟩ pos = .found pos [] := by
  have hlen : 4 ≤ file.length - (k + pos) := by
    have := congrArg List.length h
    simp only [List.length_drop, List.length_append, vr_length] at this
    omega
  have hr : readAt ⟨file.drop k, .eof⟩ pos 4 =
      .ok [BitVec.ofNat 8 ((4 + b.length) / 256), BitVec.ofNat 8 ((4 + b.length) % 256), 0xFF, 0x01]
      := by
    unfold readAt
    rw [if_neg (by omega), if_pos (by simp; omega)]
    simp only [List.drop_drop, h, Spec.vrBytes]
    rfl
  have hf : findVrl [BitVec.ofNat 8 ((4 + b.length) / 256), BitVec.ofNat 8 ((4 + b.length) % 256),
      0xFF, 0x01] = (.ok, some 0) := by
    refine ((c14_find_vrl _).1 0).2 ⟨⟨[BitVec.ofNat 8 ((4 + b.length) / 256),
      BitVec.ofNat 8 ((4 + b.length) % 256)], [], ?_, ?_⟩, ?_⟩
    · rfl
    · rfl
    · intro j hj
      rw [occurs_bytes]
      rintro ⟨h1, -⟩
      have hj' : j = 0 ∨ j = 1 := by omega
      rcases hj' with rfl | rfl
      · simp only [Spec.ff01, List.drop_zero, List.length_cons, List.length_nil, List.take_succ_cons,
          List.take_zero, List.cons.injEq, and_true] at h1
        have := congrArg BitVec.toNat h1.1
        rw [BitVec.toNat_ofNat, show (0xff : Byte).toNat = 255 from rfl] at this
        omega
      · simp [Spec.ff01] at h1
  unfold findvrl findOnce
  rw [hr]
  simp only [hf, Nat.add_zero]

theorem tell_follows {tail : Bytes} (hne : tail ≠ []) (h : Spec.Follows tail) (e pos : Nat) :
    tellIn e (visible pos tail).1 0 = pos + 4 := by
  rcases h with h | ⟨⟨b, more, rfl, h2, h3⟩, -⟩
  · exact absurd h hne
  · rw [visible_vr _ _ _ h3]
    simp only [tellIn]
    rw [if_pos (List.length_pos_iff.2 h2), Nat.add_zero]

theorem explicit_head {f : Spec.Stored} (hf : f.WF) : ∃ r ∈ f.recs, r.1 = true := by
  obtain ⟨fh, segs, rest, h1, -⟩ := hf.starts
  exact ⟨(true, fh :: segs), by rw [h1]; simp, rfl⟩

/-- the logical file that is made of a stored one -/
theorem parse_stored {policy : Policy} {stale : Nat → Bytes}
    (hst : ∀ t, 262 ≤ (stale t).length) (f : Spec.Stored) (hf : f.WF)
    (hub : ∀ r ∈ f.recs, r.1 = true → Spec.Plain r.2 →
      ObjectSet.new (Spec.recordData r.2) ≠ .error .outOfBounds)
    (hc : policy .critical = false ∨ f.Readable) (hp : policy .minor = false)
    (file tail : Bytes) (q : Nat) (hl : file.length < 2 ^ 63 - 1) (ht : Spec.Follows tail)
    (hfile : file.drop q = f.bytes ++ tail) (x : Indexer) (sul : Option Bytes) (hs : x.sul = sul)
    (hd : x.dataEnd = false) :
    ∃ g, parseLogicalFile policy stale false (rawRp66 file q) x =
      ({ x with next := q + f.bytes.length, files := x.files ++ [g] }, .done ()) ∧
      Spec.Faithful policy sul f g := by
  have hv : visible q (file.drop q) = (located' q f.bodies ++ (visible (q + f.bytes.length) tail).1,
      (visible (q + f.bytes.length) tail).2) := by
    rw [hfile]
    exact visible_bodies q f.bodies tail (fun b hb => (hf.sizes b hb).2)
  have hlen : file.length - q = f.bytes.length + tail.length := by
    have := congrArg List.length hfile
    simpa using this
  have hbl : (Spec.fileBytes f.recs).length ≤ f.bytes.length := by
    rw [← hf.same, Spec.Stored.bytes]
    generalize f.bodies = bs
    induction bs with
    | nil => simp
    | cons b bs ih =>
      simp only [List.flatten_cons, List.flatMap_cons, List.length_append, vr_length]
      omega
  have hpos : 0 < f.bytes.length := by
    obtain ⟨b, bs, h1, -⟩ := stored_nonempty hf
    rw [Spec.Stored.bytes, h1, List.flatMap_cons, List.length_append, vr_length]; omega
  generalize hvd : (visible (q + f.bytes.length) tail) = vt at hv
  have hsrc : (rawRp66 file q).src = ⟨Spec.fileBytes f.recs ++ vt.1.flatMap (·.2), vt.2⟩ := by
    simp only [rawRp66, hv, List.flatMap_append, located'_data, hf.same]
  have hix : findoffsetsRaw (rawRp66 file q).src =
      ⟨⟨Spec.positions true (Spec.located 0 f.recs), Spec.positions false (Spec.located 0 f.recs),
        []⟩, if tail = [] then none else some (Spec.fileBytes f.recs).length⟩ := by
    rw [hsrc]
    by_cases hte : tail = []
    · subst hte
      rw [visible] at hvd
      rw [← hvd, if_pos rfl]
      simp only [List.flatMap_nil, List.append_nil]
      exact c19_index_last_file f.recs hf.content
    · rcases ht with ht | ⟨-, -, fh, h1, h2, h3⟩
      · exact absurd ht hte
      · obtain ⟨post, h4⟩ := h3 (q + f.bytes.length)
        rw [hvd] at h4
        rw [h4, if_neg hte]
        exact c19_index_next_file f.recs hf.content (explicit_head hf) fh h2 h1 post vt.2
  have hix' : findoffsets policy (rawRp66 file q).src =
      some ⟨⟨Spec.positions true (Spec.located 0 f.recs),
        Spec.positions false (Spec.located 0 f.recs), []⟩,
        if tail = [] then none else some (Spec.fileBytes f.recs).length⟩ := by
    unfold findoffsets
    rw [hix]
    simp
  obtain ⟨m, hcon, hk, hm⟩ := contents_stored (policy := policy) hst f hf hub hc hp (by omega)
    (vt.1.flatMap (·.2)) vt.2 []
  unfold parseLogicalFile
  rw [hix']
  simp only
  rw [hsrc, hcon]
  simp only
  refine ⟨{ src := ⟨Spec.fileBytes f.recs ++ vt.1.flatMap (·.2), vt.2⟩, handle := x.stream.getD 0,
            sul := x.sul, explicits := Spec.positions true (Spec.located 0 f.recs),
            implicits := Spec.positions false (Spec.located 0 f.recs),
            sets := Spec.setsOf f.recs, fdata := m }, ?_, ?_⟩
  · congr 2
    · by_cases hte : tail = []
      · subst hte
        simp only [if_true, rawRp66]
        simp only [List.length_nil] at hlen
        omega
      · simp only [if_neg hte, rawRp66, Bool.false_eq_true, if_false, hv]
        rw [← hf.same, tellIn_after, ← hvd, tell_follows hte ht]
        omega
    · simp [hd]
  · refine ⟨hs, rfl, rfl, ?_, rfl, hm, hk⟩
    exact stored_extract policy f.recs hf.content _ _ hp (by omega)

/-- A storage unit label: 80 bytes, with `RECORD` for the first time at offset 9, that do not start
like a tape mark. -/
structure Spec.StorageLabel (sul : Bytes) : Prop where
  length : sul.length = 80
  text : Spec.FirstAt Spec.recordText sul 9
  noMark : ∀ b, sul.head? = some b → 2 ≤ b.toNat

/-- Conditions under which a stored file can be loaded with this error handler. -/
structure Spec.Loadable (policy : Policy) (f : Spec.Stored) : Prop where
  wf : f.WF
  defined : ∀ r ∈ f.recs, r.1 = true → Spec.Plain r.2 →
    ObjectSet.new (Spec.recordData r.2) ≠ .error .outOfBounds
  readable : policy .critical = false ∨ f.Readable

theorem layer_raw (file : Bytes) (k : Nat) : (rawDisk file).layer k =
    { src := ⟨file.drop k, .eof⟩, ptell := fun l => k + l, endTell := file.length, peof := true } :=
  rfl

theorem iteration_stored {policy : Policy} {stale : Nat → Bytes}
    (hst : ∀ t, 262 ≤ (stale t).length) (f : Spec.Stored) (hf : Spec.Loadable policy f)
    (hp : policy .minor = false) (file tail : Bytes) (hti : (rawDisk file).isTif = false)
    (k pos : Nat) (hl : file.length < 2 ^ 63 - 1) (ht : Spec.Follows tail)
    (hfile : file.drop (k + pos) = f.bytes ++ tail) (x : Indexer) (sul : Option Bytes)
    (hk : x.next = k) (hd : x.dataEnd = false)
    (hsul : ∀ y : Indexer, y.sul = x.sul → y.files = x.files →
      findReadSul policy ((rawDisk file).layer k) y = ({ y with sul := sul }, .done pos)) :
    ∃ g y, iteration (rawDisk file) policy stale x = (y, .done ()) ∧
      y.next = k + pos + f.bytes.length ∧ y.dataEnd = false ∧ y.sul = sul ∧
      y.files = x.files ++ [g] ∧ Spec.Faithful policy sul f g := by
  have hlen : file.length - (k + pos) = f.bytes.length + tail.length := by
    have := congrArg List.length hfile
    simpa using this
  have hlong := hf.wf.long
  obtain ⟨b, bs, hb, -, hb3⟩ := stored_nonempty hf.wf
  unfold iteration
  have ho : (rawDisk file).opens x.next = true := rfl
  rw [ho, hti, hk]
  simp only [Bool.not_true, Bool.false_eq_true, if_false, Bool.not_false, Bool.true_or]
  generalize hx' : (⟨k, x.dataEnd, x.sul, some x.opened, x.files, x.opened + 1, x.closed⟩ :
    Indexer) = x'
  rcases raw_logicalEof (file := file) (policy := policy) (k := k) (pos := 0) (x := x')
    with ⟨-, h1, -, -⟩ | ⟨-, h2⟩
  · rw [h1]
    simp only
    rw [hsul x' (by rw [← hx']) (by rw [← hx'])]
    simp only
    unfold afterSul
    rcases raw_logicalEof (file := file) (policy := policy) (k := k) (pos := pos)
      (x := { x' with sul := sul }) with ⟨-, g1, -, -⟩ | ⟨-, g2⟩
    · rw [g1]
      simp only
      rw [layer_raw]
      simp only
      rw [findvrl_vr policy file k pos b (bs.flatMap Spec.vrBytes ++ tail) hb3 (by
        rw [hfile, Spec.Stored.bytes, hb]; simp)]
      simp only
      have hr : (rawDisk file).rp66 x'.next pos = some (rawRp66 file (k + pos)) := by
        rw [← hx']; rfl
      rw [hr, hti]
      simp only
      obtain ⟨g, hg, hfa⟩ := parse_stored (stale := stale) hst f hf.wf hf.defined hf.readable hp
        file tail (k + pos) hl ht hfile { x' with sul := sul } sul rfl (by rw [← hx']; exact hd)
      refine ⟨g, _, hg, rfl, ?_, rfl, ?_, hfa⟩
      · rw [← hx']; exact hd
      · rw [← hx']
    · omega
  · omega

theorem findsul_none (policy : Policy) (l : Layer) (y : Indexer) (sul : Option Bytes)
    (hs : sul.getD [] ≠ [] ∨ y.files ≠ []) (hy : y.sul = sul) (tail : Bytes) (h15 : 15 ≤ tail.length)
    (hl : l.src = ⟨tail, .eof⟩) (hno : ¬ Spec.OccursAt Spec.recordText (tail.take 15) 9) :
    findReadSul policy l y = ({ y with sul := sul }, .done 0) := by
  have hexp : (decide (y.sul.getD [] = []) && decide (y.files = [])) = false := by
    rcases hs with hs | hs <;> simp [hy, hs]
  have hr : readAt ⟨tail, .eof⟩ 0 15 = .ok (tail.take 15) := by
    unfold readAt
    rw [if_neg (by omega), if_pos (by simp; omega)]
    simp
  have hf : ∀ o, findSul (tail.take 15) ≠ (.ok, some o) := by
    intro o h
    have h1 := ((c14_find_sul (tail.take 15)).1 o).1 h
    have h2 := occurs_bytes.1 h1.1
    simp only [List.length_take, Spec.recordText, List.length_cons, List.length_nil] at h2
    have : o = 0 := by omega
    subst this
    exact hno h1.1
  have hfs : findsul policy false l.src 0 = .generic := by
    unfold findsul findOnce
    rw [hl, hr]
    simp only [Bool.not_false, if_true]
    split
    · rename_i p lg h
      split at h
      · rename_i o ho
        exact absurd ho (hf o)
      · cases h
      · cases h
    · rfl
  unfold findReadSul
  simp only [hexp, hfs, Bool.false_and, Bool.false_eq_true, if_false]
  congr 1
  rw [← hy]

theorem loop_stored {policy : Policy} {stale : Nat → Bytes}
    (hst : ∀ t, 262 ≤ (stale t).length) (hp : policy .minor = false) (file tail : Bytes)
    (hti : (rawDisk file).isTif = false) (hl : file.length < 2 ^ 63 - 1) (ht : Spec.Follows tail)
    (sul : Option Bytes) (n : Nat) (fs : List Spec.Stored)
    (hf : ∀ f ∈ fs, Spec.Loadable policy f) (x : Indexer) (hs : sul.getD [] ≠ [] ∨ x.files ≠ [])
    (hfile : file.drop x.next = fs.flatMap Spec.Stored.bytes ++ tail)
    (hd : x.dataEnd = false) (hxs : x.sul = sul) :
    ∃ gs y, loadLoop (rawDisk file) policy stale (n + fs.length) x =
        loadLoop (rawDisk file) policy stale n y ∧
      y.next = x.next + (fs.flatMap Spec.Stored.bytes).length ∧ y.dataEnd = false ∧
      y.sul = sul ∧ y.files = x.files ++ gs ∧
      List.Forall₂ (Spec.Faithful policy sul) fs gs := by
  induction fs generalizing x with
  | nil => exact ⟨[], x, rfl, by simp, hd, hxs, by simp, .nil⟩
  | cons f fs ih =>
    have hfol : Spec.Follows (fs.flatMap Spec.Stored.bytes ++ tail) := by
      cases fs with
      | nil => simpa using ht
      | cons f' fs' =>
        rw [List.flatMap_cons, List.append_assoc]
        exact stored_follows (hf f' (by simp)).wf _
    rw [List.flatMap_cons, List.append_assoc] at hfile
    obtain ⟨g, y, h1, h2, h3, h4, h5, h6⟩ := iteration_stored (policy := policy) (stale := stale) hst
      f (hf f (by simp)) hp file (fs.flatMap Spec.Stored.bytes ++ tail) hti x.next 0 hl hfol
      (by simpa using hfile) x sul rfl hd (by
        intro y hy hy2
        refine findsul_none policy _ y sul (by rw [hy2]; exact hs) (by rw [hy, hxs])
          (f.bytes ++ (fs.flatMap Spec.Stored.bytes ++ tail)) ?_ ?_ ?_
        · have := (hf f (by simp)).wf.long
          simp only [List.length_append]; omega
        · rw [layer_raw, ← hfile]
        · rw [take15 _ _ (hf f (by simp)).wf.long]; exact (hf f (by simp)).wf.noLabel)
    obtain ⟨gs, z, k1, k2, k3, k4, k5, k6⟩ := ih (fun f' h' => hf f' (by simp [h'])) y
      (.inr (by rw [h5]; simp)) (by
      rw [h2, Nat.add_zero, ← List.drop_drop, hfile, List.drop_left]) h3 h4
    refine ⟨g :: gs, z, ?_, ?_, k3, k4, ?_, .cons h6 k6⟩
    · rw [List.length_cons, ← Nat.add_assoc, loadLoop, hd, h1]
      exact k1
    · rw [k2, h2, List.flatMap_cons, List.length_append]; omega
    · rw [k5, h5]; simp

theorem label_first (policy : Policy) (sul rest : Bytes) (h : Spec.StorageLabel sul) (y : Indexer)
    (hy : y.sul = none) (hfi : y.files = []) :
    findReadSul policy ((rawDisk (sul ++ rest)).layer 0) y =
      ({ y with sul := some sul }, .done 80) := by
  have h80 := h.length
  have hr : readAt ⟨sul ++ rest, .eof⟩ 0 15 = .ok (sul.take 15) := by
    unfold readAt
    rw [if_neg (by omega), if_pos (by simp; omega)]
    simp only [List.drop_zero]
    rw [take15 _ _ (by omega)]
  have hr2 : readAt ⟨sul ++ rest, .eof⟩ 0 80 = .ok sul := by
    unfold readAt
    rw [if_neg (by omega), if_pos (by simp; omega)]
    simp only [List.drop_zero]
    rw [List.take_append_of_le_length (by omega), List.take_of_length_le (by omega)]
  have hocc : ∀ j, j ≤ 9 → (Spec.OccursAt Spec.recordText (sul.take 15) j ↔
      Spec.OccursAt Spec.recordText sul j) := by
    intro j hj
    rw [occurs_bytes, occurs_bytes]
    have h6 : Spec.recordText.length = 6 := rfl
    rw [h6, List.drop_take, List.take_take, List.length_take, Nat.min_eq_left (by omega)]
    constructor
    · rintro ⟨a, b⟩; exact ⟨a, by omega⟩
    · rintro ⟨a, b⟩; exact ⟨a, by omega⟩
  have hf : findSul (sul.take 15) = (.ok, some 0) := by
    refine ((c14_find_sul _).1 0).2 ⟨(hocc _ (by omega)).2 h.text.1, ?_⟩
    intro j hj
    rw [hocc j (by omega)]
    exact h.text.2 j hj
  have hfs : findsul policy true ⟨sul ++ rest, .eof⟩ 0 = .found 0 [] := by
    unfold findsul findOnce
    rw [hr]
    simp only [hf, Nat.add_zero]
  have hexp : (decide (y.sul.getD [] = []) && decide (y.files = [])) = true := by
    simp [hy, hfi]
  unfold findReadSul
  simp only [hexp, layer_raw, List.drop_zero, hfs, hr2, Bool.not_true, Bool.false_and,
    Bool.false_eq_true, if_false, h80, Nat.zero_add]

theorem label_mark (sul rest : Bytes) (h : Spec.StorageLabel sul) :
    (∃ tm, (rawDisk (sul ++ rest)).mark = .ok tm) ∧ (rawDisk (sul ++ rest)).isTif = false := by
  have h80 := h.length
  have hr : readAt ⟨sul ++ rest, .eof⟩ 0 12 = .ok (sul.take 12) := by
    unfold readAt
    rw [if_neg (by omega), if_pos (by simp; omega)]
    simp only [List.drop_zero]
    rw [List.take_append_of_le_length (by omega)]
  match sul, h80, h with
  | a0 :: a1 :: a2 :: a3 :: b0 :: b1 :: b2 :: b3 :: c0 :: c1 :: c2 :: c3 :: s, _, h =>
    have hm : (rawDisk ((a0 :: a1 :: a2 :: a3 :: b0 :: b1 :: b2 :: b3 :: c0 :: c1 :: c2 :: c3 :: s)
        ++ rest)).mark =
        .ok ⟨loadLe32 a0 a1 a2 a3, loadLe32 b0 b1 b2 b3, loadLe32 c0 c1 c2 c3⟩ := by
      simp only [rawDisk, readTapemark, hr]
      rfl
    refine ⟨⟨_, hm⟩, ?_⟩
    unfold Disk.isTif
    rw [hm]
    have h2 := h.noMark a0 rfl
    have h3 := loadLe32_toNat a0 a1 a2 a3
    simp only [validTapemark]
    rw [if_pos]
    simp only [Spec.leNat] at h3
    constructor <;> intro h4 <;> rw [h4] at h3 <;> simp at h3 <;> omega

theorem iteration_eof {policy : Policy} {stale : Nat → Bytes} {file : Bytes}
    (hti : (rawDisk file).isTif = false) (x : Indexer) (hx : x.next = file.length) :
    ∃ y, iteration (rawDisk file) policy stale x = (y, .done ()) ∧ y.dataEnd = true ∧
      y.files = x.files := by
  unfold iteration
  have ho : (rawDisk file).opens x.next = true := rfl
  rw [ho, hti]
  simp only [Bool.not_true, Bool.false_eq_true, if_false, Bool.not_false, Bool.true_or]
  rcases raw_logicalEof (file := file) (policy := policy) (k := x.next) (pos := 0)
    (x := { x with stream := some x.opened, opened := x.opened + 1 })
    with ⟨-, -, h2, -⟩ | ⟨h1, -⟩
  · omega
  · rw [h1]
    exact ⟨_, rfl, rfl, rfl⟩

theorem loop_eof {policy : Policy} {stale : Nat → Bytes} {file : Bytes}
    (hti : (rawDisk file).isTif = false) (x : Indexer) (hx : x.next = file.length)
    (hd : x.dataEnd = false) (n : Nat) :
    ∃ y, loadLoop (rawDisk file) policy stale (n + 2) x = (y, .files) ∧ y.files = x.files := by
  obtain ⟨y, h1, h2, h3⟩ := iteration_eof (policy := policy) (stale := stale) hti x hx
  refine ⟨y, ?_, h3⟩
  rw [loadLoop, hd, h1]
  simp only [Bool.false_eq_true, if_false]
  rw [loadLoop, h2, if_pos rfl]

/-- the state after the label, if there is one, and all files that are in order -/
theorem load_stored {policy : Policy} {stale : Nat → Bytes}
    (hst : ∀ t, 262 ≤ (stale t).length) (hp : policy .minor = false) (lab tail : Bytes)
    (sul : Option Bytes) (ht : Spec.Follows tail) (f : Spec.Stored) (fs : List Spec.Stored)
    (hf : ∀ f' ∈ f :: fs, Spec.Loadable policy f')
    (hl : (lab ++ ((f :: fs).flatMap Spec.Stored.bytes ++ tail)).length < 2 ^ 63 - 1)
    (hmark : (∃ tm, (rawDisk (lab ++ ((f :: fs).flatMap Spec.Stored.bytes ++ tail))).mark = .ok tm) ∧
      (rawDisk (lab ++ ((f :: fs).flatMap Spec.Stored.bytes ++ tail))).isTif = false)
    (hlab : ∀ y : Indexer, y.sul = none → y.files = [] →
      findReadSul policy ((rawDisk (lab ++ ((f :: fs).flatMap Spec.Stored.bytes ++ tail))).layer 0) y =
        ({ y with sul := sul }, .done lab.length)) (n : Nat) :
    ∃ gs y, load (rawDisk (lab ++ ((f :: fs).flatMap Spec.Stored.bytes ++ tail))) policy stale
        (n + (f :: fs).length) =
        loadLoop (rawDisk (lab ++ ((f :: fs).flatMap Spec.Stored.bytes ++ tail))) policy stale n y ∧
      y.next = (lab ++ (f :: fs).flatMap Spec.Stored.bytes).length ∧ y.dataEnd = false ∧
      y.sul = sul ∧ y.files = gs ∧ List.Forall₂ (Spec.Faithful policy sul) (f :: fs) gs := by
  obtain ⟨⟨tm, hm⟩, hti⟩ := hmark
  generalize hfile : lab ++ ((f :: fs).flatMap Spec.Stored.bytes ++ tail) = file at *
  have hfol : Spec.Follows (fs.flatMap Spec.Stored.bytes ++ tail) := by
    cases fs with
    | nil => simpa using ht
    | cons f' fs' =>
      rw [List.flatMap_cons, List.append_assoc]
      exact stored_follows (hf f' (by simp)).wf _
  have hdrop : file.drop lab.length = f.bytes ++ (fs.flatMap Spec.Stored.bytes ++ tail) := by
    rw [← hfile, List.drop_left, List.flatMap_cons, List.append_assoc]
  obtain ⟨g, y, h1, h2, h3, h4, h5, h6⟩ := iteration_stored (policy := policy) (stale := stale) hst
    f (hf f (by simp)) hp file (fs.flatMap Spec.Stored.bytes ++ tail) hti 0 lab.length hl hfol
    (by simpa using hdrop) { Indexer.new with closed := [0] } sul rfl rfl
    (fun y hy hy2 => hlab y hy hy2)
  obtain ⟨gs, z, k1, k2, k3, k4, k5, k6⟩ := loop_stored (policy := policy) (stale := stale) hst hp
    file tail hti hl ht sul n fs
    (fun f' h' => hf f' (by simp [h'])) y (.inr (by rw [h5]; simp)) (by
      rw [h2, Nat.zero_add, ← List.drop_drop, hdrop, List.drop_left]) h3 h4
  refine ⟨g :: gs, z, ?_, ?_, k3, k4, ?_, .cons h6 k6⟩
  · unfold load
    rw [hm]
    simp only
    rw [List.length_cons, ← Nat.add_assoc, loadLoop, h1]
    exact k1
  · rw [k2, h2, List.flatMap_cons, List.length_append, List.length_append]; omega
  · rw [k5, h5]; simp [Indexer.new]

/-- C40.  A file of a storage unit label and any number of well-formed logical files, each
beginning a new visible record: loading gives one logical file for each, in order, each with its
label, its index, its objects and its frame data, and then stops. -/
theorem c40_split (policy : Policy) (stale : Nat → Bytes) (hst : ∀ t, 262 ≤ (stale t).length)
    (hp : policy .minor = false) (sul : Bytes) (hsul : Spec.StorageLabel sul) (fs : List Spec.Stored)
    (hf : ∀ f ∈ fs, Spec.Loadable policy f)
    (hl : (sul ++ fs.flatMap Spec.Stored.bytes).length < 2 ^ 63 - 1) (n : Nat)
    (hn : fs.length + 2 ≤ n) :
    ∃ y, load (rawDisk (sul ++ fs.flatMap Spec.Stored.bytes)) policy stale n = (y, .files) ∧
      List.Forall₂ (Spec.Faithful policy (some sul)) fs y.files := by
  obtain ⟨m, rfl⟩ : ∃ m, n = m + 2 + fs.length := ⟨n - 2 - fs.length, by omega⟩
  cases fs with
  | nil =>
    simp only [List.flatMap_nil, List.append_nil, List.length_nil, Nat.add_zero] at hl ⊢
    obtain ⟨⟨tm, hm⟩, hti⟩ := label_mark sul [] hsul
    have hlab := label_first policy sul [] hsul
    rw [List.append_nil] at hm hti hlab
    have h80 := hsul.length
    unfold load
    rw [hm]
    simp only
    rw [loadLoop]
    simp only [Indexer.new, Bool.false_eq_true, if_false]
    unfold iteration
    have ho : ∀ k, (rawDisk sul).opens k = true := fun _ => rfl
    simp only [ho, hti, Bool.not_true, Bool.false_eq_true, if_false, Bool.not_false, Bool.true_or]
    rcases raw_logicalEof (file := sul) (policy := policy) (k := 0) (pos := 0)
      (x := ⟨0, false, none, some 1, [], 1 + 1, [0]⟩) with ⟨-, h1, -, -⟩ | ⟨-, h2⟩
    · rw [h1]
      simp only
      rw [hlab ⟨0, false, none, some 1, [], 1 + 1, [0]⟩ rfl rfl]
      simp only
      unfold afterSul
      rcases raw_logicalEof (file := sul) (policy := policy) (k := 0) (pos := 80)
        (x := ⟨0, false, some sul, some 1, [], 1 + 1, [0]⟩) with ⟨-, -, h2, -⟩ | ⟨h1, -⟩
      · omega
      · rw [h1]
        simp only [Indexer.closeStream]
        rw [loadLoop, if_pos rfl]
        exact ⟨_, rfl, .nil⟩
    · omega
  | cons f fs =>
    obtain ⟨gs, y, h1, h2, h3, h4, h5, h6⟩ := load_stored (policy := policy) (stale := stale) hst hp
      sul [] (some sul) (Or.inl rfl) f fs hf (by simpa using hl) (label_mark sul _ hsul)
      (by rw [hsul.length]; exact label_first policy sul _ hsul) (m + 2)
    rw [List.append_nil] at h1
    obtain ⟨-, hti⟩ := label_mark sul ((f :: fs).flatMap Spec.Stored.bytes) hsul
    obtain ⟨z, k1, k2⟩ := loop_eof (policy := policy) (stale := stale) hti y h2 h3 m
    exact ⟨z, h1.trans k1, by rw [k2, h5]; exact h6⟩

/-! ### Files without a label -/

/-- No label is found in the first 1700 bytes. -/
def Spec.Unlabelled (bytes : Bytes) : Prop :=
  ∀ j, ¬ Spec.OccursAt Spec.recordText (bytes.take 1700) j

theorem findsul_missing {policy : Policy} (l : Layer) (y : Indexer) (bytes : Bytes)
    (hl : l.src = ⟨bytes, .eof⟩) (hy : y.sul = none) (hfi : y.files = [])
    (hno : Spec.Unlabelled bytes) :
    findReadSul policy l y = if policy .minor then (y, .raised) else (y, .done 0) := by
  have hexp : (decide (y.sul.getD [] = []) && decide (y.files = [])) = true := by
    simp [hy, hfi]
  have hread : ∀ n, 0 < n → readAt ⟨bytes, .eof⟩ 0 n = .ok (bytes.take n) ∨
      readAt ⟨bytes, .eof⟩ 0 n = .eof (bytes.take n) := by
    intro n hn
    unfold readAt
    rw [if_neg (by omega)]
    simp only [Nat.zero_add, List.drop_zero]
    split
    · exact .inl rfl
    · rename_i h
      right
      rw [List.take_of_length_le (by omega)]
  have hnot : ∀ n, n ≤ 1700 → findSul (bytes.take n) = (.notFound, none) := by
    intro n hn
    rw [(c14_find_sul _).2.1]
    intro i h
    apply hno i
    rw [occurs_bytes] at h ⊢
    have h6 : Spec.recordText.length = 6 := rfl
    rw [h6, List.length_take] at h ⊢
    obtain ⟨h1, h2⟩ := h
    refine ⟨?_, by omega⟩
    rw [← h1, List.drop_take, List.drop_take, List.take_take, List.take_take]
    congr 1
    omega
  have hfs : ∀ n, 0 < n → n ≤ 1700 → findOnce findSul ⟨bytes, .eof⟩ 0 n = .notFound := by
    intro n h0 hn
    unfold findOnce
    rcases hread n h0 with h | h <;> rw [h] <;> simp only [hnot n hn]
  have hs : findsul policy true ⟨bytes, .eof⟩ 0 = .notFound := by
    unfold findsul
    rw [hfs 15 (by omega) (by omega), hfs 1700 (by omega) (by omega)]
    rfl
  unfold findReadSul
  simp only [hexp, hl, hs, Bool.true_and]

/-- a file that begins with a visible record does not begin with a tape mark -/
theorem visible_mark {f : Spec.Stored} (hf : f.WF) (rest : Bytes) :
    (∃ tm, (rawDisk (f.bytes ++ rest)).mark = .ok tm) ∧ (rawDisk (f.bytes ++ rest)).isTif = false := by
  obtain ⟨b, bs, hb, -, -⟩ := stored_nonempty hf
  have hlong := hf.long
  have hr : readAt ⟨f.bytes ++ rest, .eof⟩ 0 12 = .ok (f.bytes.take 12) := by
    unfold readAt
    rw [if_neg (by omega), if_pos (by simp; omega)]
    simp only [List.drop_zero]
    rw [List.take_append_of_le_length (by omega)]
  have hhead : f.bytes = Spec.vrBytes b ++ bs.flatMap Spec.vrBytes := by
    rw [Spec.Stored.bytes, hb, List.flatMap_cons]
  have hvr : ∃ l1 l0 ff v : Byte, v.toNat = 1 ∧ Spec.vrBytes b = l1 :: l0 :: ff :: v :: b :=
    ⟨_, _, _, _, rfl, rfl⟩
  obtain ⟨l1, l0, ff, v, hv1, hv⟩ := hvr
  rw [hv] at hhead
  simp only [List.cons_append] at hhead
  generalize b ++ bs.flatMap Spec.vrBytes = t at hhead
  rw [hhead] at hlong hr ⊢
  match t, hlong with
  | b0 :: b1 :: b2 :: b3 :: c0 :: c1 :: c2 :: c3 :: t, _ =>
    have hm : (rawDisk ((l1 :: l0 :: ff :: v :: b0 :: b1 :: b2 :: b3 :: c0 :: c1 :: c2 :: c3 :: t)
        ++ rest)).mark =
        .ok ⟨loadLe32 l1 l0 ff v, loadLe32 b0 b1 b2 b3, loadLe32 c0 c1 c2 c3⟩ := by
      simp only [rawDisk, readTapemark, hr]
      rfl
    refine ⟨⟨_, hm⟩, ?_⟩
    unfold Disk.isTif
    rw [hm]
    have h3 := loadLe32_toNat l1 l0 ff v
    simp only [validTapemark]
    rw [if_pos]
    simp only [Spec.leNat] at h3
    rw [hv1] at h3
    constructor
    · intro h4
      have h5 := congrArg BitVec.toNat h4
      rw [h3] at h5
      change _ = 0 at h5
      omega
    · intro h4
      have h5 := congrArg BitVec.toNat h4
      rw [h3] at h5
      change _ = 1 at h5
      omega
  | [_, _, _, _, _, _, _], h => simp at h
  | [_, _, _, _, _, _], h => simp at h
  | [_, _, _, _, _], h => simp at h
  | [_, _, _, _], h => simp at h
  | [_, _, _], h => simp at h
  | [_, _], h => simp at h
  | [_], h => simp at h
  | [], h => simp at h

/-- C40.  Without a storage unit label, and if there is nothing in the first 1700 bytes that looks
like one, the same logical files are returned, without a label, if the error handler lets minor
problems pass; otherwise loading raises. -/
theorem c40_unlabelled (policy : Policy) (stale : Nat → Bytes) (hst : ∀ t, 262 ≤ (stale t).length)
    (fs : List Spec.Stored) (hne : fs ≠ []) (hf : ∀ f ∈ fs, Spec.Loadable policy f)
    (hno : Spec.Unlabelled (fs.flatMap Spec.Stored.bytes))
    (hl : (fs.flatMap Spec.Stored.bytes).length < 2 ^ 63 - 1) (n : Nat) (hn : fs.length + 2 ≤ n) :
    (policy .minor = false →
      ∃ y, load (rawDisk (fs.flatMap Spec.Stored.bytes)) policy stale n = (y, .files) ∧
        List.Forall₂ (Spec.Faithful policy none) fs y.files) ∧
    (policy .minor = true →
      (load (rawDisk (fs.flatMap Spec.Stored.bytes)) policy stale n).2 = .raised) := by
  obtain ⟨m, rfl⟩ : ∃ m, n = m + 2 + fs.length := ⟨n - 2 - fs.length, by omega⟩
  match fs, hne with
  | f :: fs, _ =>
    have hwf := (hf f (by simp)).wf
    have hmark := visible_mark hwf (fs.flatMap Spec.Stored.bytes)
    rw [← List.flatMap_cons] at hmark
    constructor
    · intro hp
      obtain ⟨gs, y, h1, h2, h3, h4, h5, h6⟩ := load_stored (policy := policy) (stale := stale) hst hp
        [] [] none (Or.inl rfl) f fs hf (by simpa using hl) (by simpa using hmark)
        (by
          intro y hy hy2
          rw [findsul_missing (policy := policy) _ y ((f :: fs).flatMap Spec.Stored.bytes)
            (by simp [layer_raw]) hy hy2 hno, hp]
          rw [← hy]
          rfl) (m + 2)
      rw [List.append_nil, List.nil_append] at h1
      obtain ⟨z, k1, k2⟩ := loop_eof (policy := policy) (stale := stale) hmark.2 y h2 h3 m
      exact ⟨z, h1.trans k1, by rw [k2, h5]; exact h6⟩
    · intro hp
      obtain ⟨⟨tm, hm⟩, hti⟩ := hmark
      unfold load
      rw [hm]
      simp only
      rw [List.length_cons, ← Nat.add_assoc, loadLoop]
      unfold iteration
      have ho : ∀ k, (rawDisk ((f :: fs).flatMap Spec.Stored.bytes)).opens k = true := fun _ => rfl
      simp only [ho, hti, Indexer.new, Bool.not_true, Bool.false_eq_true, if_false, Bool.not_false,
        Bool.true_or]
      rcases raw_logicalEof (file := (f :: fs).flatMap Spec.Stored.bytes) (policy := policy) (k := 0)
        (pos := 0) (x := ⟨0, false, none, some 1, [], 1 + 1, [0]⟩) with ⟨-, h1, -, -⟩ | ⟨-, h2⟩
      · rw [h1]
        simp only
        rw [findsul_missing (policy := policy) _ _ ((f :: fs).flatMap Spec.Stored.bytes)
            (by simp [layer_raw]) rfl rfl hno, hp]
        rfl
      · have := hwf.long
        simp only [List.flatMap_cons, List.length_append] at h2
        omega

/-! ### A damaged last file -/

theorem extractAll_lenient {policy : Policy} (hp : ∀ s, policy s = false) (src : Source)
    (ts : List Nat) : extractAll policy src ts ≠ .raised := by
  induction ts with
  | nil => simp [extractAll]
  | cons t ts ih =>
    rw [extractAll]
    split
    · simp
    · simpa [hp] using ih
    · split
      · simp
      · rename_i hr; exact ih

theorem objectSets_lenient {policy : Policy} (hp : ∀ s, policy s = false) (rs : List Record) :
    objectSets policy rs ≠ .raised := by
  induction rs with
  | nil => simp [objectSets]
  | cons r rs ih =>
    rw [objectSets]
    split
    · exact ih
    · split
      · simp
      · simpa [hp] using ih
      · split
        · simp
        · exact ih

theorem fdataStop_lenient {policy : Policy} (hp : ∀ s, policy s = false) (src : Source)
    (stale : Nat → Bytes) (ts : List Nat) : fdataStop policy src stale ts ≠ .raised := by
  induction ts with
  | nil => simp [fdataStop]
  | cons t ts ih =>
    rw [fdataStop]
    split
    · simp
    · simpa [hp] using ih
    · exact ih

theorem contents_lenient {policy : Policy} (hp : ∀ s, policy s = false) (src : Source)
    (stale : Nat → Bytes) (ofs : Offsets) : contents policy src stale ofs ≠ .raised := by
  have h1 := extractAll_lenient hp src ofs.explicits
  unfold contents
  cases hx : extractAll policy src ofs.explicits with
  | raised => exact absurd hx h1
  | undefined => simp
  | done recs =>
    have h2 := objectSets_lenient hp recs
    simp only
    cases hy : objectSets policy recs with
    | raised => exact absurd hy h2
    | undefined => simp
    | done sets =>
      have h3 := fdataStop_lenient hp src stale ofs.implicits
      simp only [fdataOf]
      cases hz : fdataStop policy src stale ofs.implicits with
      | raised => exact absurd hz h3
      | undefined => simp
      | done u => simp

/-- C40.  A damaged last file: behind well-formed logical files there are bytes that start with a
visible record and the first segment of a FILE-HEADER, followed by anything.  If the error handler
lets everything pass, all files in front of the damaged one are returned, complete and in order, and
the damaged one after them with what was found of it.  Missing: damage that contains the beginning of
yet another FILE-HEADER (see `c40_second_header_defect`), and records that lead to undefined
behaviour (C16, C57). -/
theorem c40_damaged_last_partial (policy : Policy) (stale : Nat → Bytes)
    (hst : ∀ t, 262 ≤ (stale t).length)
    (hp : ∀ s, policy s = false) (sul : Bytes) (hsul : Spec.StorageLabel sul)
    (fs : List Spec.Stored) (hne : fs ≠ []) (hf : ∀ f ∈ fs, Spec.Loadable policy f) (tail : Bytes)
    (ht : Spec.Follows tail) (h15 : 15 ≤ tail.length)
    (hl : (sul ++ (fs.flatMap Spec.Stored.bytes ++ tail)).length < 2 ^ 63 - 1)
    (src : Source) (hsrc : src =
      (rawRp66 (sul ++ (fs.flatMap Spec.Stored.bytes ++ tail))
        (sul ++ fs.flatMap Spec.Stored.bytes).length).src)
    (hnext : (findoffsetsRaw src).next = none)
    (hdef : contents policy src stale (findoffsetsRaw src).ofs ≠ .undefined)
    (n : Nat) (hn : fs.length + 3 ≤ n) :
    ∃ y gs g, load (rawDisk (sul ++ (fs.flatMap Spec.Stored.bytes ++ tail))) policy stale n =
        (y, .files) ∧
      y.files = gs ++ [g] ∧ List.Forall₂ (Spec.Faithful policy (some sul)) fs gs ∧
      g.src = src ∧ g.explicits = (findoffsetsRaw src).ofs.explicits ∧
      g.implicits = (findoffsetsRaw src).ofs.implicits := by
  obtain ⟨m, rfl⟩ : ∃ m, n = m + 3 + fs.length := ⟨n - 3 - fs.length, by omega⟩
  obtain ⟨f, fs, rfl⟩ := List.exists_cons_of_ne_nil hne
  obtain ⟨gs, x, h1, h2, h3, h4, h5, h6⟩ := load_stored (policy := policy) (stale := stale) hst
    (hp _) sul tail (some sul) ht f fs hf hl (label_mark sul _ hsul)
    (by rw [hsul.length]; exact label_first policy sul _ hsul) (m + 3)
  obtain ⟨-, hti⟩ := label_mark sul ((f :: fs).flatMap Spec.Stored.bytes ++ tail) hsul
  have h80 := hsul.length
  have hdrop : (sul ++ ((f :: fs).flatMap Spec.Stored.bytes ++ tail)).drop x.next = tail := by
    rw [h2, ← List.append_assoc, List.drop_left]
  have hflen : (sul ++ ((f :: fs).flatMap Spec.Stored.bytes ++ tail)).length =
      x.next + tail.length := by
    rw [h2, ← List.append_assoc, List.length_append]
  rw [← h2] at hsrc
  rw [h1]
  generalize sul ++ ((f :: fs).flatMap Spec.Stored.bytes ++ tail) = file at *
  obtain ⟨⟨b, more, hb, -, hb3⟩, hlab, -⟩ := ht.resolve_left (by rintro rfl; simp at h15)
  have hiter : ∃ y g, iteration (rawDisk file) policy stale x = (y, .done ()) ∧
      y.files = x.files ++ [g] ∧ (y.dataEnd = false → y.next = file.length) ∧
      g.src = src ∧ g.explicits = (findoffsetsRaw src).ofs.explicits ∧
      g.implicits = (findoffsetsRaw src).ofs.implicits := by
    unfold iteration
    have ho : (rawDisk file).opens x.next = true := rfl
    rw [ho, hti]
    simp only [Bool.not_true, Bool.false_eq_true, if_false, Bool.not_false, Bool.true_or]
    generalize hx' : (⟨x.next, x.dataEnd, x.sul, some x.opened, x.files, x.opened + 1, x.closed⟩ :
      Indexer) = x'
    rcases raw_logicalEof (file := file) (policy := policy) (k := x.next) (pos := 0) (x := x')
      with ⟨-, k1, -, -⟩ | ⟨-, k2⟩
    · rw [k1]
      simp only
      rw [findsul_none policy ((rawDisk file).layer x.next) x' (some sul)
        (.inl (by rw [Option.getD_some]; intro h; simp [h] at h80)) (by rw [← hx', ← h4]) tail h15 (by rw [layer_raw, hdrop]) hlab]
      simp only
      unfold afterSul
      rcases raw_logicalEof (file := file) (policy := policy) (k := x.next) (pos := 0)
        (x := { x' with sul := some sul }) with ⟨-, g1, -, -⟩ | ⟨-, g2⟩
      · rw [g1]
        simp only
        rw [layer_raw]
        simp only
        rw [findvrl_vr policy file x.next 0 b more hb3 (by rw [Nat.add_zero, hdrop, hb])]
        simp only
        have hr : (rawDisk file).rp66 x'.next 0 = some (rawRp66 file x.next) := by
          rw [← hx']; rfl
        rw [hr, hti]
        simp only
        unfold parseLogicalFile
        rw [← hsrc]
        have hfo : findoffsets policy src = some (findoffsetsRaw src) := by
          unfold findoffsets
          simp [hp]
        rw [hfo]
        simp only
        cases hcon : contents policy src stale (findoffsetsRaw src).ofs with
        | raised => exact absurd hcon (contents_lenient hp _ _ _)
        | undefined => exact absurd hcon hdef
        | done c =>
          simp only
          refine ⟨_, ⟨src, x'.stream.getD 0, some sul, (findoffsetsRaw src).ofs.explicits,
            (findoffsetsRaw src).ofs.implicits, c.1, c.2⟩, rfl, ?_, ?_, rfl, rfl, rfl⟩
          · simp only [← hx']
          · intro _
            simp only [hnext]
            rfl
      · omega
    · omega
  obtain ⟨y, g, k1, k2, k3, k4, k5, k6⟩ := hiter
  rw [loadLoop, h3, k1]
  simp only [Bool.false_eq_true, if_false]
  cases hd : y.dataEnd with
  | true =>
    rw [loadLoop, hd, if_pos rfl]
    exact ⟨y, gs, g, rfl, by rw [k2, h5], h6, k4, k5, k6⟩
  | false =>
    obtain ⟨z, j1, j2⟩ := loop_eof (policy := policy) (stale := stale) hti y (k3 hd) hd m
    exact ⟨z, gs, g, j1, by rw [j2, k2, h5], h6, k4, k5, k6⟩

/-! ### Cases and defects -/

/-- A label. -/
def exLabel : Bytes :=
  [0x20, 0x20, 0x20, 0x31, 0x56, 0x31, 0x2e, 0x30, 0x30, 0x52, 0x45, 0x43, 0x4f, 0x52, 0x44] ++
  List.replicate 65 0x20

/-- A segment of a record that is complete. -/
def exSeg (attrs type : Byte) (data : Bytes) : Spec.Seg := ⟨attrs, type, data, data, 0⟩

/-- A file header: a set without objects. -/
def exHeader : Spec.Seg :=
  exSeg 0x80 0 ([0xF0, 0x0B] ++ [0x46, 0x49, 0x4c, 0x45, 0x2d, 0x48, 0x45, 0x41, 0x44, 0x45, 0x52])

/-- A record with frame data. -/
def exData : Spec.Seg := exSeg 0x00 0 [0x01, 0x00, 0x02, 0x46, 0x31, 0x01, 0xAA, 0xBB]

/-- Two logical files; the second record of the first begins in the middle of a visible record
and continues in the next. -/
def exFile1 : Spec.Stored :=
  ⟨[(true, [exHeader]), (false, [exData])],
    [exHeader.bytes ++ exData.bytes.take 5, exData.bytes.drop 5]⟩

def exFile2 : Spec.Stored := ⟨[(true, [exHeader])], [exHeader.bytes]⟩

def exPolicy : Policy := fun s => s == .critical || s == .major

def exStale : Nat → Bytes := fun _ => List.replicate 262 0

theorem exSeg_wf (attrs type : Byte) (data : Bytes) (h : attrs.toNat % 32 = 0)
    (hl : data.length < 2 ^ 15) : (exSeg attrs type data).WF := by
  refine ⟨?_, by simp only [exSeg]; omega⟩
  have : Spec.SegContent attrs (data ++ []) data 0 := by
    refine .plain data [] ?_
    unfold Spec.Trailer
    rw [if_neg (by omega)]
    refine ⟨[], [], [], rfl, ?_, ?_, ?_⟩ <;> rw [if_neg (by omega)] <;> rfl
  simpa [exSeg] using this

theorem exHeader_record : Spec.RecordOf true [exHeader] := by
  refine ⟨.last _ (exSeg_wf _ _ _ (by decide) (by decide)) (by decide), ?_, by simp⟩
  intro s hs
  rw [List.mem_singleton] at hs
  subst hs
  decide

theorem exData_record : Spec.RecordOf false [exData] := by
  refine ⟨.last _ (exSeg_wf _ _ _ (by decide) (by decide)) (by decide), ?_, by simp⟩
  intro s hs
  rw [List.mem_singleton] at hs
  subst hs
  decide

theorem exFile1_loadable : Spec.Loadable exPolicy exFile1 := by
  have hrecs : ∀ r ∈ exFile1.recs, r = (true, [exHeader]) ∨ r = (false, [exData]) := by
    intro r hr
    simpa [exFile1] using hr
  have hset : ∃ s, ObjectSet.new (Spec.recordData [exHeader]) = .ok s := ⟨_, rfl⟩
  refine ⟨⟨⟨?_, ?_⟩, ?_, by decide, ⟨exHeader, [], _, rfl, by unfold Spec.Seg.FileHeader; decide⟩, by decide, ?_⟩, ?_,
    Or.inr ⟨?_, ?_⟩⟩
  · intro r hr
    rcases hrecs r hr with rfl | rfl
    · exact exHeader_record
    · exact exData_record
  · intro r hr s hs
    simp only [exFile1, List.tail_cons, List.mem_singleton] at hr
    subst hr
    simp only [List.head?_cons, Option.some.injEq] at hs
    subst hs
    unfold Spec.Seg.FileHeader
    decide
  · decide
  · rw [occurs_bytes]; decide
  · intro r hr ht _
    rcases hrecs r hr with rfl | rfl
    · obtain ⟨s, hs⟩ := hset
      rw [hs]; simp
    · cases ht
  · intro r hr ht _
    rcases hrecs r hr with rfl | rfl
    · exact hset
    · cases ht
  · intro r hr ht _ _
    rcases hrecs r hr with rfl | rfl
    · cases ht
    · exact ⟨1, 0, [0x46, 0x31], [0x01, 0x00, 0x02, 0x46, 0x31], [0x01, 0xAA, 0xBB],
        ((c05_obname_decodes [0x01, 0x00, 0x02, 0x46, 0x31] ⟨1, 0, [0x46, 0x31]⟩ []).1
          (by decide)).elim (fun e he => by
            obtain ⟨h1, h2⟩ := he
            rw [List.append_nil] at h2
            rw [h2]; exact h1), rfl⟩

theorem exFile2_loadable : Spec.Loadable exPolicy exFile2 := by
  have hrecs : ∀ r ∈ exFile2.recs, r = (true, [exHeader]) := by
    intro r hr
    simpa [exFile2] using hr
  have hset : ∃ s, ObjectSet.new (Spec.recordData [exHeader]) = .ok s := ⟨_, rfl⟩
  refine ⟨⟨⟨?_, by simp [exFile2]⟩, by decide, by decide, ⟨exHeader, [], _, rfl, by unfold Spec.Seg.FileHeader; decide⟩,
    by decide, by rw [occurs_bytes]; decide⟩, ?_, Or.inr ⟨?_, ?_⟩⟩
  · intro r hr
    rw [hrecs r hr]
    exact exHeader_record
  · intro r hr _ _
    obtain ⟨s, hs⟩ := hset
    rw [hrecs r hr, hs]; simp
  · intro r hr _ _
    rw [hrecs r hr]
    exact hset
  · intro r hr ht
    rw [hrecs r hr] at ht
    cases ht

theorem exLabel_label : Spec.StorageLabel exLabel := by
  refine ⟨by decide, ⟨by rw [occurs_bytes]; decide, ?_⟩, ?_⟩
  · intro j hj
    rw [occurs_bytes]
    revert j
    decide
  · intro b hb
    cases hb
    decide

/-- Case: a label and two logical files, with an error handler as the default one. -/
example : ∃ y g1 g2,
    load (rawDisk (exLabel ++ [exFile1, exFile2].flatMap Spec.Stored.bytes)) exPolicy exStale 4 =
      (y, .files) ∧ y.files = [g1, g2] ∧ g1.explicits = [0] ∧ g1.implicits = [17] ∧
    g2.explicits = [0] ∧ g2.implicits = [] := by
  obtain ⟨y, h1, h2⟩ := c40_split exPolicy exStale (fun _ => by rw [exStale, List.length_replicate]) (by decide) exLabel
    exLabel_label [exFile1, exFile2] (by
      intro f hf
      simp only [List.mem_cons, List.not_mem_nil, or_false] at hf
      rcases hf with rfl | rfl
      · exact exFile1_loadable
      · exact exFile2_loadable) (by decide +kernel) 4 (by decide)
  cases h : y.files with
  | nil => rw [h] at h2; cases h2
  | cons g1 gs =>
    rw [h] at h2
    cases h2 with
    | cons a b =>
      cases b with
      | cons b c =>
        cases c
        refine ⟨y, g1, _, h1, h, a.explicits.trans (by decide), a.implicits.trans (by decide),
          b.explicits.trans (by decide), b.implicits.trans (by decide)⟩

/-- Case for `c40_unlabelled`. -/
example :
    (∃ y g1 g2, load (rawDisk ([exFile1, exFile2].flatMap Spec.Stored.bytes)) exPolicy exStale 4 =
      (y, .files) ∧ y.files = [g1, g2] ∧ g1.sul = none ∧ g1.implicits = [17] ∧ g2.explicits = [0]) ∧
    (load (rawDisk ([exFile1, exFile2].flatMap Spec.Stored.bytes)) (fun s => s == .minor) exStale 4).2 =
      .raised := by
  refine ⟨?_, by decide +kernel⟩
  obtain ⟨h, -⟩ := c40_unlabelled exPolicy exStale (fun _ => by rw [exStale, List.length_replicate])
    [exFile1, exFile2] (by simp) (by
      intro f hf
      simp only [List.mem_cons, List.not_mem_nil, or_false] at hf
      rcases hf with rfl | rfl
      · exact exFile1_loadable
      · exact exFile2_loadable) ((c14_find_sul _).2.1.1 (by decide +kernel)) (by decide +kernel) 4
    (by decide)
  obtain ⟨y, h1, h2⟩ := h (by decide)
  cases h : y.files with
  | nil => rw [h] at h2; cases h2
  | cons g1 gs =>
    rw [h] at h2
    cases h2 with
    | cons a b =>
      cases b with
      | cons b c =>
        cases c
        exact ⟨y, g1, _, h1, h, a.label, a.implicits.trans (by decide), b.explicits.trans (by decide)⟩

/-- Frame data with the text `RECORD`. -/
def exText : Spec.Seg :=
  exSeg 0x00 0 ([0x01, 0x00, 0x02, 0x46, 0x31, 0x01] ++ Spec.recordText)

def exFile3 : Spec.Stored :=
  ⟨[(true, [exHeader]), (false, [exText])], [exHeader.bytes ++ exText.bytes]⟩

/-- C40 is violated for files without a label if `RECORD` is somewhere in the first 1700 bytes: 80 bytes
around it are taken for the label, and the logical files up to there are lost; without a label
and without this text they are returned. -/
theorem c40_label_text_defect :
    ((load (rawDisk ([exFile3, exFile1, exFile2, exFile2, exFile1].flatMap Spec.Stored.bytes))
        exPolicy exStale 9).1.files.map (·.implicits) = [[17]] ∧
      (load (rawDisk ([exFile3, exFile1, exFile2, exFile2, exFile1].flatMap Spec.Stored.bytes))
        exPolicy exStale 9).2 = .files) ∧
    (load (rawDisk (exLabel ++ [exFile3, exFile1, exFile2, exFile2, exFile1].flatMap
      Spec.Stored.bytes)) exPolicy exStale 9).1.files.map (·.implicits) = [[17], [17], [], [], [17]] ∧
    (load (rawDisk ([exFile3, exFile2].flatMap Spec.Stored.bytes)) exPolicy exStale 9).2 = .raised := by
  decide +kernel

/-- The bytes of a file with damage: the second logical file is cut off within its second record. -/
def exDamaged : Bytes := Spec.vrBytes exHeader.bytes ++ (Spec.vrBytes exData.bytes).take 9

/-- Case for `c40_damaged_last_partial`: the first file is complete, the second has its header. -/
example :
    let r := load (rawDisk (exLabel ++ ([exFile1].flatMap Spec.Stored.bytes ++ exDamaged)))
      (fun _ => false) exStale 4
    r.2 = .files ∧ r.1.files.map (fun g => (g.explicits, g.implicits)) =
      [([0], [17]), ([0], [])] := by
  decide +kernel

/-- Case: the conditions of `c40_damaged_last_partial` hold for it. -/
example : Spec.Follows exDamaged ∧ 15 ≤ exDamaged.length := by
  refine ⟨Or.inr ⟨⟨_, _, rfl, by decide, by decide⟩,
    by rw [occurs_bytes]; decide, exHeader, by unfold Spec.Seg.FileHeader; decide, by decide,
    fun pos => ⟨exData.bytes.take 5, ?_⟩⟩, by decide⟩
  rw [exDamaged, visible_vr pos _ _ (by decide)]
  have : (Spec.vrBytes exData.bytes).take 9 = 0 :: 16 :: 0xFF :: 1 :: exData.bytes.take 5 := by
    decide
  rw [this, visible_cons, if_neg (by decide), if_pos (by decide)]
  simp

/-- C40 is violated for a damaged last file which contains another FILE-HEADER that does not begin a
visible record: although the error handler lets everything pass, an exception is raised and the
complete first file is lost.  The same happens if two files are in order, but share a visible
record. -/
theorem c40_second_header_defect :
    (load (rawDisk (exLabel ++ exFile1.bytes)) (fun _ => false) exStale 9).2 = .files ∧
    (load (rawDisk (exLabel ++ exFile1.bytes ++ Spec.vrBytes (exHeader.bytes ++ exHeader.bytes)))
      (fun _ => false) exStale 9).2 = .raised ∧
    (load (rawDisk (exLabel ++ Spec.vrBytes (exHeader.bytes ++ exHeader.bytes)))
      (fun _ => false) exStale 9).2 = .raised := by
  decide +kernel

/-- C40 is violated when the file cannot be opened again after the first logical file, e.g. because
there are too many open files: the handle of the first logical file is closed twice. -/
theorem c40_closed_twice_defect :
    let r := load { rawDisk (exLabel ++ exFile1.bytes) with opens := fun k => k == 0 }
      exPolicy exStale 9
    r.2 = .raised ∧ r.1.opened = 2 ∧ r.1.closed = [0, 1, 1] := by
  decide +kernel

/-- Case for `c40_handles_partial`: the second file makes loading fail; all three handles are
closed. -/
example :
    let r := load (rawDisk (exLabel ++ exFile1.bytes ++
      exDamaged)) exPolicy exStale 9
    r.2 = .raised ∧ r.1.opened = 3 ∧ r.1.closed = [0, 2, 1] := by
  decide +kernel

/-- Case for `c40_ends`: a file that is only the beginning of a label, with both kinds of error
handler. -/
example : (load (rawDisk (exLabel.take 40)) (fun _ => false) exStale 42).2 = .files ∧
    (load (rawDisk (exLabel.take 40)) exPolicy exStale 42).2 = .raised := by
  decide +kernel

end Dlisio.Dlis
