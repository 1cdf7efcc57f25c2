/-
C38 (column labels).
-/
import Verif.Dlis.Frame
import Verif.Dlis.CurvesProps
import Verif.Dlis.FingerprintProps

namespace Dlisio.Dlis

namespace Spec

/-- The label of a channel among the channels of a frame: its name if no other channel
has it, else what the format makes of it. -/
def label (fmt : Text → Nat → Nat → Option Text) (chs : List Chan) (ch : Chan) : Option Text :=
  if (chs.map Chan.name).count ch.name ≤ 1 then some ch.name else fmt ch.name ch.origin ch.copy

/-- The column of a channel. -/
def column (fmt : Text → Nat → Nat → Option Text) (chs : List Chan) (ch : Chan) : Option Field :=
  match ch.dtype, label fmt chs ch with
  | some t, some l => some ⟨some ch.fingerprint, l, t⟩
  | _, _ => none

end Spec

/-! ### The loop -/

/-- What `seen` knows about the channels that have been looked at. -/
def SeenOk (done : List Chan) (seen : Seen) : Prop :=
  ∀ n, match seen n with
    | none => n ∉ done.map Chan.name
    | some (some (i, ch)) => ∃ pre post, done = pre ++ ch :: post ∧ i = pre.length + 1 ∧
        ch.name = n ∧ n ∉ pre.map Chan.name ∧ n ∉ post.map Chan.name
    | some none => 2 ≤ (done.map Chan.name).count n

theorem label_append (fmt : Text → Nat → Nat → Option Text) (done : List Chan) (ch x : Chan)
    (h : x.name ≠ ch.name ∨ 2 ≤ (done.map Chan.name).count x.name) :
    Spec.label fmt (done ++ [ch]) x = Spec.label fmt done x := by
  unfold Spec.label
  rcases h with h | h
  · have : ((done ++ [ch]).map Chan.name).count x.name = (done.map Chan.name).count x.name := by
      rw [List.map_append, List.count_append, List.map_singleton, List.count_singleton]
      simp [Ne.symm h]
    rw [this]
  · have : (done.map Chan.name).count x.name ≤ ((done ++ [ch]).map Chan.name).count x.name := by
      rw [List.map_append, List.count_append]; omega
    rw [if_neg (by omega), if_neg (by omega)]

theorem column_append (fmt : Text → Nat → Nat → Option Text) (done : List Chan) (ch x : Chan)
    (h : x.name ≠ ch.name ∨ 2 ≤ (done.map Chan.name).count x.name) :
    Spec.column fmt (done ++ [ch]) x = Spec.column fmt done x := by
  unfold Spec.column
  rw [label_append fmt done ch x h]

theorem label_many (fmt : Text → Nat → Nat → Option Text) (chs : List Chan) (ch : Chan)
    (h : 2 ≤ (chs.map Chan.name).count ch.name) :
    Spec.label fmt chs ch = fmt ch.name ch.origin ch.copy := by
  unfold Spec.label; rw [if_neg (by omega)]

theorem dtypeLoop_spec (fmt : Text → Nat → Nat → Option Text) : ∀ (rest : List (Option Chan))
    (done : List Chan) (seen : Seen) (fields : List Field) (out : List Field),
    SeenOk done seen → done.map (Spec.column fmt done) = fields.map some →
    (dtypeLoop fmt rest (done.length + 1) seen (framenoField :: fields) = some out ↔
      ∃ chs fs, rest = chs.map some ∧
        (done ++ chs).map (Spec.column fmt (done ++ chs)) = fs.map some ∧
        out = framenoField :: fs) := by
  intro rest
  induction rest with
  | nil =>
    intro done seen fields out hseen hcol
    rw [dtypeLoop]
    constructor
    · rintro h
      simp at h
      exact ⟨[], fields, rfl, by simpa using hcol, h.symm⟩
    · rintro ⟨chs, fs, h1, h2, rfl⟩
      obtain rfl : chs = [] := by simpa using h1.symm
      simp only [List.append_nil] at h2
      rw [hcol] at h2
      have : fields = fs := (List.map_injective_iff.2 (Option.some_injective _)) h2
      rw [this]
  | cons c rest ih =>
    intro done seen fields out hseen hcol
    cases c with
    | none =>
      rw [dtypeLoop]
      constructor
      · simp
      · rintro ⟨chs, fs, h1, -⟩
        cases chs <;> simp at h1
    | some ch =>
      -- the statement for the rest, with the channel moved over
      have hmove : ∀ out, (∃ chs fs, some ch :: rest = chs.map some ∧
          (done ++ chs).map (Spec.column fmt (done ++ chs)) = fs.map some ∧
          out = framenoField :: fs) ↔
          ∃ chs fs, rest = chs.map some ∧
          (done ++ [ch] ++ chs).map (Spec.column fmt (done ++ [ch] ++ chs)) = fs.map some ∧
          out = framenoField :: fs := by
        intro out
        constructor
        · rintro ⟨chs, fs, h1, h2, h3⟩
          cases chs with
          | nil => simp at h1
          | cons x chs =>
            simp only [List.map_cons, List.cons.injEq, Option.some.injEq] at h1
            obtain ⟨rfl, h1⟩ := h1
            exact ⟨chs, fs, h1, by simpa using h2, h3⟩
        · rintro ⟨chs, fs, h1, h2, h3⟩
          exact ⟨ch :: chs, fs, by simp [h1], by simpa using h2, h3⟩
      have hcolumn : ∀ (chs : List Chan) (fs : List Field), (done ++ [ch] ++ chs).map (Spec.column fmt (done ++ [ch] ++ chs)) =
          fs.map some → ∀ x ∈ done ++ [ch] ++ chs, Spec.column fmt (done ++ [ch] ++ chs) x ≠ none := by
        intro chs fs h x hx hn
        have : none ∈ (done ++ [ch] ++ chs).map (Spec.column fmt (done ++ [ch] ++ chs)) :=
          List.mem_map.2 ⟨x, hx, hn⟩
        rw [h] at this
        simp at this
      have hmany : ∀ (chs : List Chan) (x : Chan), 2 ≤ ((done ++ [ch]).map Chan.name).count x.name →
          Spec.label fmt (done ++ [ch] ++ chs) x = fmt x.name x.origin x.copy := by
        intro chs x h
        apply label_many
        rw [List.map_append, List.count_append]; omega
      rw [hmove, dtypeLoop]
      have hlen : done.length + 1 + 1 = (done ++ [ch]).length + 1 := by simp
      match ht : ch.dtype with
      | none =>
        simp only [false_iff, reduceCtorEq]
        rintro ⟨chs, fs, -, h2, -⟩
        exact hcolumn chs fs h2 ch (by simp) (by simp [Spec.column, ht])
      | some t =>
        dsimp only
        have hs := hseen ch.name
        match hsn : seen ch.name with
        | none =>
          rw [hsn] at hs
          dsimp only at hs ⊢
          have := ih (done ++ [ch]) (fun n => if n = ch.name then some (some (done.length + 1, ch)) else seen n)
            (fields ++ [⟨some ch.fingerprint, ch.name, t⟩]) out ?_ ?_
          · rw [hlen, ← this]; rfl
          · intro n
            dsimp only
            by_cases hn : n = ch.name
            · rw [if_pos hn]
              exact ⟨done, [], by simp, rfl, hn.symm, by rw [hn]; exact hs, by simp⟩
            · rw [if_neg hn]
              have hs' := hseen n
              match hsn' : seen n with
              | none => rw [hsn'] at hs'; simpa [hn] using hs'
              | some none =>
                rw [hsn'] at hs'; dsimp only at hs' ⊢
                rw [List.map_append, List.count_append]; omega
              | some (some (i, c)) =>
                rw [hsn'] at hs'
                obtain ⟨pre, post, h1, h2, h3, h4, h5⟩ := hs'
                exact ⟨pre, post ++ [ch], by simp [h1], h2, h3, h4, by simpa [hn] using h5⟩
          · rw [List.map_append, List.map_append]
            congr 1
            · rw [← hcol]
              apply List.map_congr_left
              intro x hx
              apply column_append
              left
              rintro h
              exact hs (h ▸ List.mem_map_of_mem hx)
            · have hl : Spec.label fmt (done ++ [ch]) ch = some ch.name := by
                unfold Spec.label
                rw [if_pos]
                rw [List.map_append, List.count_append, List.count_eq_zero.2 hs]
                simp
              simp [Spec.column, ht, hl]
        | some none =>
          rw [hsn] at hs
          dsimp only at hs ⊢
          have h2c : 2 ≤ ((done ++ [ch]).map Chan.name).count ch.name := by
            rw [List.map_append, List.count_append]; omega
          match hf : fmt ch.name ch.origin ch.copy with
          | none =>
            simp only [false_iff, reduceCtorEq]
            rintro ⟨chs, fs, -, h2, -⟩
            refine hcolumn chs fs h2 ch (by simp) ?_
            simp only [Spec.column, ht, hmany chs ch h2c, hf]
          | some l =>
            dsimp only
            have := ih (done ++ [ch]) seen (fields ++ [⟨some ch.fingerprint, l, t⟩]) out ?_ ?_
            · rw [hlen, ← this]; rfl
            · intro n
              have hs' := hseen n
              match hsn' : seen n with
              | none =>
                rw [hsn'] at hs'
                have hn : n ≠ ch.name := by rintro rfl; rw [hsn] at hsn'; cases hsn'
                simpa [hn] using hs'
              | some none =>
                rw [hsn'] at hs'; dsimp only at hs' ⊢
                rw [List.map_append, List.count_append]; omega
              | some (some (i, c)) =>
                rw [hsn'] at hs'
                have hn : n ≠ ch.name := by rintro rfl; rw [hsn] at hsn'; cases hsn'
                obtain ⟨pre, post, h1, h2, h3, h4, h5⟩ := hs'
                exact ⟨pre, post ++ [ch], by simp [h1], h2, h3, h4, by simpa [hn] using h5⟩
            · rw [List.map_append, List.map_append]
              congr 1
              · rw [← hcol]
                apply List.map_congr_left
                intro x hx
                apply column_append
                by_cases hn : x.name = ch.name
                · right; rw [hn]; exact hs
                · left; exact hn
              · simp [Spec.column, ht, label_many fmt _ ch h2c, hf]
        | some (some (i, prev)) =>
          rw [hsn] at hs
          obtain ⟨pre, post, hdone, hi, hpn, hpre, hpost⟩ := hs
          dsimp only
          have h2c : 2 ≤ ((done ++ [ch]).map Chan.name).count ch.name := by
            rw [hdone]
            simp only [List.map_append, List.map_cons, List.count_append, List.count_cons, hpn,
              List.map_nil, List.count_nil, beq_self_eq_true, if_true]
            omega
          have hpt : ∃ pt, prev.dtype = some pt := by
            have : Spec.column fmt done prev ≠ none := by
              intro hn
              have : none ∈ done.map (Spec.column fmt done) :=
                List.mem_map.2 ⟨prev, by simp [hdone], hn⟩
              rw [hcol] at this
              simp at this
            unfold Spec.column at this
            cases h : prev.dtype with
            | none => simp [h] at this
            | some pt => exact ⟨pt, rfl⟩
          obtain ⟨pt, hpt⟩ := hpt
          match hf : fmt ch.name ch.origin ch.copy with
          | none =>
            simp only [false_iff, reduceCtorEq]
            rintro ⟨chs, fs, -, h2, -⟩
            refine hcolumn chs fs h2 ch (by simp) ?_
            simp only [Spec.column, ht, hmany chs ch h2c, hf]
          | some l =>
            match hf' : fmt prev.name prev.origin prev.copy with
            | none =>
              simp only [false_iff, reduceCtorEq]
              rintro ⟨chs, fs, -, h2, -⟩
              refine hcolumn chs fs h2 prev (by simp [hdone]) ?_
              simp only [Spec.column, hmany chs prev (by rw [hpn]; exact h2c), hf', hpt]
            | some pl =>
              rw [hpt]
              dsimp only
              have := ih (done ++ [ch]) (fun n => if n = ch.name then some none else seen n)
                ((fields ++ [(⟨some ch.fingerprint, l, t⟩ : Field)]).set pre.length
                  ⟨some prev.fingerprint, pl, pt⟩) out ?_ ?_
              · rw [hlen, ← this, hi, ← List.set_cons_succ]; rfl
              · intro n
                dsimp only
                by_cases hn : n = ch.name
                · rw [if_pos hn]; rw [hn]; exact h2c
                · rw [if_neg hn]
                  have hs' := hseen n
                  match hsn' : seen n with
                  | none => rw [hsn'] at hs'; simpa [hn] using hs'
                  | some none =>
                    rw [hsn'] at hs'; dsimp only at hs' ⊢
                    rw [List.map_append, List.count_append]; omega
                  | some (some (i, c)) =>
                    rw [hsn'] at hs'
                    obtain ⟨pre, post, h1, h2, h3, h4, h5⟩ := hs'
                    exact ⟨pre, post ++ [ch], by simp [h1], h2, h3, h4, by simpa [hn] using h5⟩
              · have hother : ∀ x ∈ pre ++ post, Spec.column fmt (done ++ [ch]) x =
                    Spec.column fmt done x := by
                  intro x hx
                  apply column_append
                  left
                  intro h
                  rcases List.mem_append.1 hx with hx | hx
                  · exact hpre (h ▸ List.mem_map_of_mem hx)
                  · exact hpost (h ▸ List.mem_map_of_mem hx)
                rw [hdone] at hcol
                simp only [List.map_append, List.map_cons] at hcol
                obtain ⟨fpre, f2, hfields, hfp, hf2⟩ := List.map_eq_append_iff.1 hcol.symm
                obtain ⟨fx, fpost, hf2e, hfx, hfpost⟩ := List.map_eq_cons_iff.1 hf2
                have hlp : fpre.length = pre.length := by
                  have := congrArg List.length hfp; simpa using this
                subst hf2e hfields
                have hset : (fpre ++ fx :: fpost ++ [(⟨some ch.fingerprint, l, t⟩ : Field)]).set
                    pre.length ⟨some prev.fingerprint, pl, pt⟩ =
                    fpre ++ ⟨some prev.fingerprint, pl, pt⟩ :: fpost ++
                      [⟨some ch.fingerprint, l, t⟩] := by
                  rw [List.append_assoc, List.set_append_right _ _ (by omega), hlp]
                  simp
                rw [hset]
                have e1 : Spec.column fmt (done ++ [ch]) ch = some ⟨some ch.fingerprint, l, t⟩ := by
                  simp [Spec.column, ht, label_many fmt _ ch h2c, hf]
                have e2 : Spec.column fmt (done ++ [ch]) prev =
                    some ⟨some prev.fingerprint, pl, pt⟩ := by
                  simp [Spec.column, hpt, label_many fmt _ prev (by rw [hpn]; exact h2c), hf']
                have e3 : pre.map (Spec.column fmt (done ++ [ch])) = fpre.map some := by
                  rw [hfp, hdone]
                  apply List.map_congr_left
                  intro x hx
                  rw [← hdone, hother x (by simp [hx])]
                have e4 : post.map (Spec.column fmt (done ++ [ch])) = fpost.map some := by
                  rw [hfpost, hdone]
                  apply List.map_congr_left
                  intro x hx
                  rw [← hdone, hother x (by simp [hx])]
                rw [List.map_append, List.map_append]
                congr 1
                · conv_lhs => rw [show List.map (Spec.column fmt (done ++ [ch])) done =
                    List.map (Spec.column fmt (done ++ [ch])) (pre ++ prev :: post) from by rw [← hdone]]
                  rw [List.map_append, List.map_cons, e2, e3, e4]
                  simp
                · simp [e1]

/-- The columns are the frame number and one column per channel in order; a name that occurs
once is the label, others are formatted with origin and copy number. -/
theorem c38_labels (fmt : Text → Nat → Nat → Option Text) (channels : List (Option Chan))
    (out : List Field) :
    dtypeLoop fmt channels 1 (fun _ => none) [framenoField] = some out ↔
      ∃ (chs : List Chan) (fs : List Field), channels = chs.map some ∧ chs.map (Spec.column fmt chs) = fs.map some ∧
        out = framenoField :: fs := by
  have := dtypeLoop_spec fmt channels [] (fun _ => none) [] out (fun n => by simp) rfl
  simpa using this


/-! ### np.dtype -/

/-- The names under which a field can be looked up. -/
def Field.keys (f : Field) : List Text := f.name :: f.title.toList

/-- The name that a field gets. -/
def Field.resolved (i : Nat) (f : Field) : Field :=
  { f with name := if f.name = [] then f.title.getD (text "f" ++ Text.ofNat i) else f.name }

theorem npDtypeLoop_spec : ∀ (fs : List Field) (i : Nat) (used : List Text) (dt : List Field),
    npDtypeLoop fs i used = some dt ↔
      dt = fs.mapIdx (fun k f => f.resolved (i + k)) ∧
      dt.Pairwise (fun f g => ∀ t ∈ f.keys, t ∉ g.keys) ∧
      ∀ f ∈ dt, ∀ t ∈ f.keys, t ∉ used := by
  intro fs
  induction fs with
  | nil => intro i used dt; simp [npDtypeLoop, eq_comm]; rintro rfl; simp
  | cons f fs ih =>
    intro i used dt
    rw [npDtypeLoop]
    have hr : ({ f with name := if f.name = [] then f.title.getD (text "f" ++ Text.ofNat i)
      else f.name } : Field) = f.resolved i := rfl
    have hk : (if f.name = [] then f.title.getD (text "f" ++ Text.ofNat i) else f.name) ::
        f.title.toList = (f.resolved i).keys := rfl
    have hmap : (f :: fs).mapIdx (fun k f => f.resolved (i + k)) =
        f.resolved i :: fs.mapIdx (fun k f => f.resolved (i + 1 + k)) := by
      rw [List.mapIdx_cons]
      congr 1
      apply List.ext_getElem?
      intro k
      simp only [List.getElem?_mapIdx]
      congr 2
      funext x
      congr 1
      omega
    have hc : ((if f.name = [] then f.title.getD (text "f" ++ Text.ofNat i) else f.name) ∈ used ∨
        (f.title.any fun x => decide (x ∈ used)) = true) ↔ ∃ t ∈ (f.resolved i).keys, t ∈ used := by
      rw [← hk]
      cases ht : f.title with
      | none => simp
      | some x => simp
    rw [hr, hk, hmap]
    by_cases h : ∃ t ∈ (f.resolved i).keys, t ∈ used
    · rw [if_pos (hc.2 h)]
      simp only [false_iff, reduceCtorEq]
      rintro ⟨rfl, -, h3⟩
      obtain ⟨t, h1, h2⟩ := h
      exact h3 (f.resolved i) (by simp) t h1 h2
    · rw [if_neg (fun hh => h (hc.1 hh))]
      simp only [Option.map_eq_some_iff]
      constructor
      · rintro ⟨d, hd, rfl⟩
        obtain ⟨rfl, h2, h3⟩ := (ih _ _ _).1 hd
        refine ⟨rfl, List.pairwise_cons.2 ⟨fun g hg t ht htg => ?_, h2⟩, ?_⟩
        · exact h3 g hg t htg (by simp [ht])
        · intro g hg t ht hu
          rcases List.mem_cons.1 hg with rfl | hg
          · exact h ⟨t, ht, hu⟩
          · exact h3 g hg t ht (by simp [hu])
      · rintro ⟨rfl, h2, h3⟩
        rw [List.pairwise_cons] at h2
        refine ⟨_, (ih _ _ _).2 ⟨rfl, h2.2, fun g hg t ht hu => ?_⟩, rfl⟩
        rcases List.mem_append.1 hu with hu | hu
        · exact h2.1 g hg t hu ht
        · exact h3 g (by simp [hg]) t ht hu

/-- NumPy accepts the fields iff no name or title is used twice. -/
theorem npDtype_spec (fs dt : List Field) :
    npDtype fs = some dt ↔ dt = fs.mapIdx (fun k f => f.resolved k) ∧
      dt.Pairwise (fun f g => ∀ t ∈ f.keys, t ∉ g.keys) := by
  rw [npDtype, npDtypeLoop_spec]
  simp

theorem mkuniquePass_types (d : Option Text × Text) : ∀ (ts : List Field) (k : Nat),
    (mkuniquePass d ts k).map Field.type = ts.map Field.type := by
  intro ts
  induction ts with
  | nil => intro k; rfl
  | cons f fs ih =>
    intro k
    rw [mkuniquePass]
    split <;> simp [ih]

theorem mkunique_types (ts : List Field) : (mkunique ts).map Field.type = ts.map Field.type := by
  unfold mkunique
  generalize duplicates _ = ds
  induction ds generalizing ts with
  | nil => rfl
  | cons d ds ih => rw [List.foldl_cons, ih, mkuniquePass_types]

theorem npDtype_types {fs dt : List Field} (h : npDtype fs = some dt) :
    dt.map Field.type = fs.map Field.type := by
  obtain ⟨rfl, -⟩ := (npDtype_spec _ _).1 h
  apply List.ext_getElem?
  intro k
  simp only [List.getElem?_map, List.getElem?_mapIdx, Option.map_map]
  rfl

/-- What a type of a frame consists of. -/
theorem frameDtype_types {fmt : Text → Nat → Nat → Option Text} {channels : List (Option Chan)}
    {strict : Bool} {dt : List Field} (h : frameDtype fmt channels strict = some dt) :
    ∃ (chs : List Chan) (fs : List Field), channels = chs.map some ∧
      chs.map (Spec.column fmt chs) = fs.map some ∧
      dt.map Field.type = (framenoField :: fs).map Field.type ∧
      (npDtype (framenoField :: fs) = some dt ∨
        npDtype (framenoField :: fs) = none ∧ strict = false ∧
          npDtype (mkunique (framenoField :: fs)) = some dt) := by
  unfold frameDtype at h
  match hl : dtypeLoop fmt channels 1 (fun _ => none) [framenoField] with
  | none => rw [hl] at h; cases h
  | some types =>
    rw [hl] at h
    obtain ⟨chs, fs, h1, h2, rfl⟩ := (c38_labels _ _ _).1 hl
    dsimp only at h
    match hn : npDtype (framenoField :: fs) with
    | some d =>
      rw [hn] at h
      obtain rfl : d = dt := by simpa using h
      exact ⟨chs, fs, h1, h2, npDtype_types hn, Or.inl hn⟩
    | none =>
      rw [hn] at h
      cases strict with
      | true => simp at h
      | false =>
        simp at h
        exact ⟨chs, fs, h1, h2, by rw [npDtype_types h, mkunique_types], Or.inr ⟨hn, rfl, h⟩⟩

/-- C38: whatever the names are, and whether strict or not: the type has the frame number and
one column for each channel, in order, and all names are different. -/
theorem c38_columns (fmt : Text → Nat → Nat → Option Text) (channels : List (Option Chan))
    (strict : Bool) (dt : List Field) (h : frameDtype fmt channels strict = some dt) :
    ∃ chs : List Chan, channels = chs.map some ∧ dt.length = chs.length + 1 ∧
      (∀ f, dt[0]? = some f → f.type = ⟨.i4, []⟩) ∧
      (∀ j ch, chs[j]? = some ch → (dt[j + 1]?).map Field.type = ch.dtype) ∧
      (dt.map Field.name).Nodup := by
  obtain ⟨chs, fs, h1, h2, h3, h4⟩ := frameDtype_types h
  have hlen : fs.length = chs.length := by
    have := congrArg List.length h2; simpa using this.symm
  have hlen2 : dt.length = fs.length + 1 := by
    have := congrArg List.length h3; simpa using this
  have hget : ∀ j : Nat, (dt[j]?).map Field.type = ((framenoField :: fs)[j]?).map Field.type := by
    intro j
    rw [← List.getElem?_map, h3, List.getElem?_map]
  refine ⟨chs, h1, by omega, ?_, ?_, ?_⟩
  · intro f hf
    have := hget 0
    rw [hf] at this
    simpa [framenoField] using this
  · intro j ch hj
    rw [hget (j + 1), List.getElem?_cons_succ]
    have := congrArg (fun l => l[j]?) h2
    simp only [List.getElem?_map, hj, Option.map_some] at this
    cases hf : fs[j]? with
    | none => rw [hf] at this; simp at this
    | some f =>
      rw [hf] at this
      simp only [Option.map_some, Option.some.injEq] at this
      unfold Spec.column at this
      match hd : ch.dtype with
      | none => rw [hd] at this; simp at this
      | some t =>
        rw [hd] at this
        match hl : Spec.label fmt chs ch with
        | none => rw [hl] at this; simp at this
        | some l => rw [hl] at this; simp at this; simp [← this]
  · have hp : dt.Pairwise (fun f g => ∀ t ∈ f.keys, t ∉ g.keys) := by
      rcases h4 with h | ⟨-, -, h⟩ <;> exact ((npDtype_spec _ _).1 h).2
    rw [List.Nodup, List.pairwise_map]
    exact hp.imp (fun {f g} h heq => h f.name (by simp [Field.keys]) (by simp [Field.keys, heq]))

/-! ### C38: labels that are made unique -/

/-- The digits of a number do not contain the closing bracket. -/
theorem ofNat_digits (n : Nat) : ∀ d ∈ Text.ofNat n, 48 ≤ d ∧ d ≤ 57 := by
  intro d hd
  obtain ⟨b, hb, rfl⟩ := List.mem_map.1 hd
  exact (toDecimal_spec n).1 b hb

theorem ofNat_injective {n m : Nat} (h : Text.ofNat n = Text.ofNat m) : n = m := by
  have h1 : toDecimal n = toDecimal m :=
    List.map_injective_iff.2 (fun a b hab => BitVec.eq_of_toNat_eq hab) h
  have := (toDecimal_spec n).2.2.1
  rw [h1, (toDecimal_spec m).2.2.1] at this
  exact this.symm

/-- A label with a number can be taken apart. -/
theorem tail_injective {a b : Text} {n m : Nat} (h : a ++ tail n = b ++ tail m) :
    a = b ∧ n = m := by
  have e1 : text "(" = [40] := rfl
  have e2 : text ")" = [41] := rfl
  unfold tail at h
  rw [e1, e2, ← List.append_assoc, ← List.append_assoc, ← List.append_assoc, ← List.append_assoc] at h
  have h := List.append_inj_left' h rfl
  have key : ∀ (x y : Text), (∀ d ∈ x, 48 ≤ d ∧ d ≤ 57) → (∀ d ∈ y, 48 ≤ d ∧ d ≤ 57) →
      ∀ a b : Text, a ++ [40] ++ x = b ++ [40] ++ y → x = y := by
    intro x
    induction x using List.reverseRecOn with
    | nil =>
      intro y _ hy a b h
      rcases List.eq_nil_or_concat y with rfl | ⟨y, d, rfl⟩
      · rfl
      · simp only [List.append_nil, List.concat_eq_append, ← List.append_assoc] at h
        have := List.append_inj_right' h rfl
        have hd := hy d (by simp)
        simp at this; omega
    | append_singleton x d ih =>
      intro y hx hy a b h
      rcases List.eq_nil_or_concat y with rfl | ⟨y, d', rfl⟩
      · simp only [List.append_nil, ← List.append_assoc] at h
        have := List.append_inj_right' h rfl
        have hd := hx d (by simp)
        simp at this; omega
      · simp only [List.concat_eq_append, ← List.append_assoc] at h
        have h1 := List.append_inj_right' h rfl
        have h2 := List.append_inj_left' h rfl
        rw [List.concat_eq_append, h1, ih y (fun d hd => hx d (by simp [hd]))
          (fun d hd => hy d (by simp [hd])) a b h2]
  have hx := key _ _ (ofNat_digits n) (ofNat_digits m) _ _ h
  rw [hx] at h
  exact ⟨List.append_cancel_right (List.append_cancel_right h), ofNat_injective hx⟩

theorem tail_last (a : Text) (n : Nat) : (a ++ tail n).getLast? = some 41 := by
  have e2 : text ")" = [41] := rfl
  unfold tail
  rw [e2, ← List.append_assoc]
  simp

/-- A field with a number appended to title and name. -/
def Field.numbered (f : Field) (k : Nat) : Field :=
  { f with title := f.title.map (· ++ tail k), name := f.name ++ tail k }

/-- Number the fields whose keys are in `ds`, given the keys of the fields in front. -/
def renameAll (ds : List (Option Text × Text)) : List (Option Text × Text) → List Field → List Field
  | _, [] => []
  | pre, f :: fs => (if f.key ∈ ds then f.numbered (pre.count f.key) else f) ::
      renameAll ds (f.key :: pre) fs

theorem renameAll_nil : ∀ (fs : List Field) (pre : List (Option Text × Text)),
    renameAll [] pre fs = fs := by
  intro fs
  induction fs with
  | nil => intro pre; rfl
  | cons f fs ih => intro pre; simp [renameAll, ih]

theorem renameAll_congr {ds ds' : List (Option Text × Text)} (h : ∀ k, k ∈ ds ↔ k ∈ ds') :
    ∀ (fs : List Field) (pre : List (Option Text × Text)), renameAll ds pre fs = renameAll ds' pre fs := by
  intro fs
  induction fs with
  | nil => intro pre; rfl
  | cons f fs ih => intro pre; simp only [renameAll, ih, h]

theorem pass_renameAll (ds : List (Option Text × Text)) (d : Option Text × Text) (hd : d ∉ ds)
    (hlast : d.2.getLast? ≠ some 41) : ∀ (fs : List Field) (pre : List (Option Text × Text)),
    mkuniquePass d (renameAll ds pre fs) (pre.count d) = renameAll (d :: ds) pre fs := by
  intro fs
  induction fs with
  | nil => intro pre; rfl
  | cons f fs ih =>
    intro pre
    rw [renameAll, renameAll, mkuniquePass]
    by_cases hm : f.key ∈ ds
    · have hne : f.key ≠ d := fun h => hd (h ▸ hm)
      have h2 : (f.numbered (pre.count f.key)).key ≠ d := by
        intro h
        apply hlast
        rw [← h]
        exact tail_last _ _
      rw [if_pos hm, if_neg h2, if_pos (by simp [hm])]
      congr 1
      rw [← ih]
      congr 1
      rw [List.count_cons, if_neg (by simpa using hne), Nat.add_zero]
    · rw [if_neg hm]
      by_cases hk : f.key = d
      · rw [if_pos hk, if_pos (by simp [hk])]
        have hc : (f.key :: pre).count d = pre.count d + 1 := by simp [hk]
        rw [← ih, hc, hk]
        rfl
      · rw [if_neg hk, if_neg (by simp [hk, hm])]
        congr 1
        rw [← ih]
        congr 1
        rw [List.count_cons, if_neg (by simpa using hk), Nat.add_zero]

theorem foldl_renameAll (fs : List Field) : ∀ (new old : List (Option Text × Text)),
    (∀ d ∈ new, d.2.getLast? ≠ some 41) → (new ++ old).Nodup →
    new.foldl (fun ts d => mkuniquePass d ts 0) (renameAll old [] fs) =
      renameAll (new.reverse ++ old) [] fs := by
  intro new
  induction new with
  | nil => intro old _ _; rfl
  | cons d new ih =>
    intro old h hn
    rw [List.foldl_cons]
    have h1 := pass_renameAll old d (fun hm => by simp [hm] at hn) (h d (by simp)) fs []
    rw [List.count_nil] at h1
    rw [h1, ih (d :: old) (fun x hx => h x (by simp [hx])) (List.perm_middle.nodup_iff.2 hn)]
    simp

theorem mem_duplicates (ls : List (Option Text × Text)) (x : Option Text × Text) :
    x ∈ duplicates ls ↔ 2 ≤ ls.count x := by
  unfold duplicates
  simp only [List.mem_filter, List.mem_reverse, List.mem_dedup, decide_eq_true_eq]
  constructor
  · intro h; omega
  · intro h
    exact ⟨List.count_pos_iff.1 (by omega), by omega⟩

/-- C38: as long as no label ends with a bracket, each label that occurs more than once gets
the number of its occurrence appended, the others stay as they are. -/
theorem c38_mkunique_partial (fs : List Field) (h : ∀ f ∈ fs, f.name.getLast? ≠ some 41)
    (j : Nat) (f : Field) (hj : fs[j]? = some f) :
    (mkunique fs)[j]? = some (if 2 ≤ (fs.map Field.key).count f.key then
      f.numbered (((fs.take j).map Field.key).count f.key) else f) := by
  have h0 : mkunique fs = renameAll (duplicates (fs.map Field.key)) [] fs := by
    unfold mkunique
    have h1 := foldl_renameAll fs (duplicates (fs.map Field.key)) [] (by
      intro d hd
      have := (mem_duplicates _ _).1 hd
      obtain ⟨f, hf, rfl⟩ := List.mem_map.1 (List.count_pos_iff.1 (by omega : 0 < (fs.map Field.key).count d))
      exact h f hf) (by
      rw [List.append_nil]
      apply List.Nodup.filter
      rw [List.nodup_reverse]
      exact List.nodup_dedup _)
    rw [renameAll_nil] at h1
    rw [h1]
    exact renameAll_congr (by simp) _ _
  rw [h0]
  have key : ∀ (gs : List Field) (pre : List (Option Text × Text)) (j : Nat), gs[j]? = some f →
      (renameAll (duplicates (fs.map Field.key)) pre gs)[j]? =
        some (if 2 ≤ (fs.map Field.key).count f.key then
          f.numbered ((((gs.take j).map Field.key).reverse ++ pre).count f.key) else f) := by
    intro gs
    induction gs with
    | nil => intro pre j hj; simp at hj
    | cons g gs ih =>
      intro pre j hj
      cases j with
      | zero =>
        simp at hj; subst hj
        rw [renameAll]
        simp [mem_duplicates]
      | succ j =>
        rw [renameAll, List.getElem?_cons_succ, ih _ j (by simpa using hj)]
        simp
  have := key fs [] j hj
  rw [this]
  simp


/-- C38: a label that occurs once is never changed. -/
theorem c38_mkunique_once (fs : List Field) (j : Nat) (f : Field) (hj : fs[j]? = some f)
    (hc : (fs.map Field.key).count f.key = 1) : (mkunique fs)[j]? = some f := by
  have hpass : ∀ (d : Option Text × Text), f.key ≠ d → ∀ (gs : List Field) (j k : Nat),
      gs[j]? = some f → (mkuniquePass d gs k)[j]? = some f := by
    intro d hd gs
    induction gs with
    | nil => intro j k h; simp at h
    | cons g gs ih =>
      intro j k h
      rw [mkuniquePass]
      cases j with
      | zero =>
        simp at h; subst h
        rw [if_neg hd]; rfl
      | succ j =>
        split <;> (rw [List.getElem?_cons_succ]; exact ih j _ (by simpa using h))
  unfold mkunique
  have hd : ∀ d ∈ duplicates (fs.map Field.key), f.key ≠ d := by
    rintro d hd rfl
    have := (mem_duplicates _ _).1 hd
    omega
  clear hc
  generalize duplicates (fs.map Field.key) = ds at hd
  induction ds generalizing fs with
  | nil => exact hj
  | cons d ds ih =>
    rw [List.foldl_cons]
    exact ih _ (hpass d (hd d (by simp)) _ _ _ hj) (fun x hx => hd x (by simp [hx]))

/-- C38: without strictness, duplicated channels do not make an exception, provided that title
and label determine each other, no label or title ends with a bracket, and no label is a title
or the name of the frame number.

Missing: labels for which one of these fails (`c38_nonstrict_defect`). -/
theorem c38_nonstrict_partial (fs : List Field)
    (htitle : ∀ f ∈ fs, ∃ t, f.title = some t ∧ t.getLast? ≠ some 41 ∧ t ≠ text "FRAMENO")
    (hname : ∀ f ∈ fs, f.name ≠ [] ∧ f.name.getLast? ≠ some 41 ∧ f.name ≠ text "FRAMENO")
    (hdet : ∀ f ∈ fs, ∀ g ∈ fs, f.title = g.title ↔ f.name = g.name)
    (hdisj : ∀ f ∈ fs, ∀ g ∈ fs, f.title ≠ some g.name) :
    ∃ dt, npDtype (mkunique (framenoField :: fs)) = some dt ∧ dt = mkunique (framenoField :: fs) := by
  have hbr : ∀ f ∈ framenoField :: fs, f.name.getLast? ≠ some 41 := by
    intro f hf
    rcases List.mem_cons.1 hf with rfl | hf
    · decide
    · exact (hname f hf).2.1
  have hget := c38_mkunique_partial (framenoField :: fs) hbr
  have hlen : (mkunique (framenoField :: fs)).length = fs.length + 1 := by
    have := congrArg List.length (mkunique_types (framenoField :: fs))
    simpa using this
  -- every field of the result
  have hres : ∀ j g, (mkunique (framenoField :: fs))[j]? = some g →
      ∃ f : Field, (framenoField :: fs)[j]? = some f ∧
        g = if 2 ≤ ((framenoField :: fs).map Field.key).count f.key then
          f.numbered ((((framenoField :: fs).take j).map Field.key).count f.key) else f := by
    intro j g hg
    have hj : j < fs.length + 1 := by
      rw [← hlen]; exact (List.getElem?_eq_some_iff.1 hg).1
    refine ⟨(framenoField :: fs)[j]'(by simpa using hj), List.getElem?_eq_getElem _, ?_⟩
    have := hget j _ (List.getElem?_eq_getElem (by simpa using hj))
    rw [hg] at this
    simpa using this
  have hnonempty : ∀ g ∈ mkunique (framenoField :: fs), g.name ≠ [] := by
    intro g hg
    obtain ⟨j, hj⟩ := List.mem_iff_getElem?.1 hg
    obtain ⟨f, hf, rfl⟩ := hres j g hj
    have hfn : f.name ≠ [] := by
      rcases List.mem_cons.1 (List.mem_of_getElem? hf) with rfl | hf
      · decide
      · exact (hname f hf).1
    split
    · simp [Field.numbered, hfn]
    · exact hfn
  refine ⟨_, (npDtype_spec _ _).2 ⟨rfl, ?_⟩, ?_⟩
  all_goals
    have heq : (mkunique (framenoField :: fs)).mapIdx (fun k f => f.resolved k) =
        mkunique (framenoField :: fs) := by
      apply List.ext_getElem?
      intro k
      rw [List.getElem?_mapIdx]
      cases hk : (mkunique (framenoField :: fs))[k]? with
      | none => rfl
      | some g =>
        have := hnonempty g (List.mem_of_getElem? hk)
        simp [Field.resolved, this]
  swap
  · exact heq
  rw [heq, List.pairwise_iff_getElem]
  intro i j hi hj hij t hti htj
  obtain ⟨f, hf, hfe⟩ := hres i _ (List.getElem?_eq_getElem hi)
  obtain ⟨g, hg, hge⟩ := hres j _ (List.getElem?_eq_getElem hj)
  rw [hfe] at hti
  rw [hge] at htj
  clear hfe hge
  have hcount : ∀ x k, 1 ≤ k → ((((framenoField :: fs).map Field.key).count x) < k ↔
      ((framenoField :: fs).map Field.key).count x < k) := by simp
  -- the keys of a field, before and after
  have hgfs : g ∈ fs := by
    cases j with
    | zero => omega
    | succ j => rw [List.getElem?_cons_succ] at hg; exact List.mem_of_getElem? hg
  obtain ⟨tg, htg, htgl, htgf⟩ := htitle g hgfs
  obtain ⟨hgn, hgl, hgf⟩ := hname g hgfs
  have hkeys_le : f.key = g.key → 2 ≤ ((framenoField :: fs).map Field.key).count g.key ∧
      (((framenoField :: fs).take i).map Field.key).count f.key <
      (((framenoField :: fs).take j).map Field.key).count g.key := by
    intro hk
    have e1 : (((framenoField :: fs).take (i + 1)).map Field.key).count f.key =
        (((framenoField :: fs).take i).map Field.key).count f.key + 1 := by
      rw [List.take_add_one, hf]; simp
    have hsub : ((framenoField :: fs).take (i + 1)).Sublist ((framenoField :: fs).take j) :=
      (List.take_prefix_take_left (by omega) (l := framenoField :: fs)).sublist
    have e2 := (hsub.map Field.key).count_le f.key
    have e3 : (((framenoField :: fs).take (j + 1)).map Field.key).count g.key =
        (((framenoField :: fs).take j).map Field.key).count g.key + 1 := by
      rw [List.take_add_one, hg]; simp
    have e4 := ((List.take_sublist (j + 1) (framenoField :: fs)).map Field.key).count_le g.key
    rw [hk] at e1 e2 ⊢
    exact ⟨by omega, by omega⟩
  by_cases hfr : f = framenoField
  · -- the frame number is never renamed
    have : ¬ 2 ≤ ((framenoField :: fs).map Field.key).count f.key := by
      have : (fs.map Field.key).count f.key = 0 := by
        apply List.count_eq_zero.2
        intro hm
        obtain ⟨x, hx, hxe⟩ := List.mem_map.1 hm
        obtain ⟨tx, htx, -⟩ := htitle x hx
        rw [hfr] at hxe
        simp [Field.key, framenoField, htx] at hxe
      rw [List.map_cons, List.count_cons, this]
      split <;> omega
    rw [if_neg this, hfr] at hti
    have ht : t = text "FRAMENO" := by simpa [Field.keys, framenoField] using hti
    subst ht
    split at htj
    · simp only [Field.numbered, Field.keys, htg, Option.map_some, Option.toList_some,
        List.mem_cons, List.not_mem_nil, or_false] at htj
      rcases htj with h | h
      · have := tail_last g.name (((List.take j (framenoField :: fs)).map Field.key).count g.key)
        rw [← h] at this
        revert this; decide
      · have := tail_last tg (((List.take j (framenoField :: fs)).map Field.key).count g.key)
        rw [← h] at this
        revert this; decide
    · simp only [Field.keys, htg, Option.toList_some, List.mem_cons, List.not_mem_nil,
        or_false] at htj
      rcases htj with h | h
      · exact hgf h.symm
      · exact htgf h.symm
  · have hffs : f ∈ fs := by
      rcases List.mem_cons.1 (List.mem_of_getElem? hf) with h | h
      · exact absurd h hfr
      · exact h
    obtain ⟨tf, htf, htfl, -⟩ := htitle f hffs
    obtain ⟨-, hfl, -⟩ := hname f hffs
    have h1 := hdisj f hffs g hgfs
    have h2 := hdisj g hgfs f hffs
    rw [htf] at h1
    rw [htg] at h2
    have h3 := hdet f hffs g hgfs
    rw [htf, htg] at h3
    simp only [Option.some.injEq] at h3
    have hkey : f.name = g.name → f.key = g.key := by
      intro h
      simp [Field.key, htf, htg, h, h3.2 h]
    split at hti <;> split at htj <;>
      simp only [Field.numbered, Field.keys, htf, htg, Option.map_some, Option.toList_some,
        List.mem_cons, List.not_mem_nil, or_false] at hti htj
    · rcases hti with rfl | rfl <;> rcases htj with h | h <;> obtain ⟨ha, hb⟩ := tail_injective h
      · have := (hkeys_le (hkey ha)).2; omega
      · exact h2 (by rw [ha])
      · exact h1 (by rw [ha])
      · have := (hkeys_le (hkey (h3.1 ha))).2; omega
    · rcases hti with rfl | rfl <;> rcases htj with h | h
      · exact hgl (by rw [← h]; exact tail_last _ _)
      · exact htgl (by rw [← h]; exact tail_last _ _)
      · exact hgl (by rw [← h]; exact tail_last _ _)
      · exact htgl (by rw [← h]; exact tail_last _ _)
    · rcases htj with rfl | rfl <;> rcases hti with h | h
      · exact hfl (by rw [← h]; exact tail_last _ _)
      · exact htfl (by rw [← h]; exact tail_last _ _)
      · exact hfl (by rw [← h]; exact tail_last _ _)
      · exact htfl (by rw [← h]; exact tail_last _ _)
    · rename_i hcg
      rcases hti with rfl | rfl <;> rcases htj with h | h
      · exact hcg (hkeys_le (hkey h)).1
      · exact h2 (by rw [h])
      · exact h1 (by rw [h])
      · exact hcg (hkeys_le (hkey (h3.1 h))).1

/-- A channel for examples. -/
def exChan (name fp : String) (copy : Nat) : Chan := ⟨text name, 0, copy, text fp, some 2, [1]⟩

/-- C38 is violated: two references to the same channel A, which become `A.0.0(0)` and
`A.0.0(1)`, and a channel that has the name `A.0.0(0)`: there is no type even without
strictness. -/
theorem c38_nonstrict_defect :
    frameDtype defaultFmt [some (exChan "A" "T.CHANNEL-I.A-O.0-C.0" 0),
      some (exChan "A" "T.CHANNEL-I.A-O.0-C.0" 0),
      some (exChan "A.0.0(0)" "T.CHANNEL-I.A.0.0(0)-O.0-C.0" 0)] false = none := by
  decide +kernel

/-- C38 is violated: a channel named like the column of the frame number. -/
theorem c38_frameno_defect :
    frameDtype defaultFmt [some (exChan "FRAMENO" "T.CHANNEL-I.FRAMENO-O.0-C.0" 0)] false = none := by
  decide +kernel

/-- Case: two channels A that differ in the copy number, one B. -/
example : (frameDtype defaultFmt [some (exChan "A" "T.CHANNEL-I.A-O.0-C.0" 0),
    some (exChan "B" "T.CHANNEL-I.B-O.0-C.0" 0), some (exChan "A" "T.CHANNEL-I.A-O.0-C.1" 1)]
    true).map (fun dt => dt.map Field.name) =
    some [text "FRAMENO", text "A.0.0", text "B", text "A.0.1"] := by
  decide +kernel

/-- Case: the same channel twice. -/
example : (frameDtype defaultFmt [some (exChan "A" "T.CHANNEL-I.A-O.0-C.0" 0),
    some (exChan "B" "T.CHANNEL-I.B-O.0-C.0" 0), some (exChan "A" "T.CHANNEL-I.A-O.0-C.0" 0)]
    false).map (fun dt => dt.map Field.name) =
    some [text "FRAMENO", text "A.0.0(0)", text "B", text "A.0.0(1)"] := by
  decide +kernel

end Dlisio.Dlis
