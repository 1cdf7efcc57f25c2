/-
The text of the summaries of logical files and of all logical files of a file: `LogicalFile.describe`
and `PhysicalFile.describe` (python/dlisio/dlis/file.py:99-118, 377-382 and 614-656).  What is shown
is modelled in FileSummary.lean, how texts, headers and tables are laid out in Layout.lean.  C84.
-/
import Verif.Dlis.FileSummary
import Verif.Dlis.Layout
import Verif.Dlis.Construct

namespace Dlisio.Dlis

open _root_.Dlisio.Dlis.Spec

/-! ## Model -/

/-- `str` of the value of a property: of `None`, of a text, and of other values, which is given. -/
def formatWith (other : PyResult → Text) : PyResult → Text
  | .none => text "None"
  | .elem (.str (.str t)) => t
  | r => other r

/-- The text that `LogicalFile.__repr__` returns, file.py:377-382. -/
def reprText (other : PyResult → Text) (desc : Option PyResult) : Text :=
  text "LogicalFile(" ++ (match desc with
    | some r => formatWith other r
    | none => text "Unknown") ++ text ")"

/-- The rows of a logical file, file.py:112-115 and 635-638. -/
def briefRows (other : PyResult → Text) (b : Option PyResult × Nat × Nat) :
    List (Text × Written × Text) :=
  [(text "Description", .text (reprText other b.1), []),
   (text "Frames", .text (Text.ofNat b.2.1), []),
   (text "Channels", .text (Text.ofNat b.2.2), [])]

/-- The rows of the types, file.py:645 and 646.  Types that are `bytes` do not come so far, see
`textKeys`. -/
def countRows (d : List (PyStr × Nat)) : List (Text × Written × Text) :=
  d.map fun r => (match r.1 with
    | .str t => t
    | .bytes _ => [], .text (Text.ofNat r.2), [])

/-- A header and a table, if there is something to show, file.py:648-650 and 652-654. -/
def Wrapper.chapter (x : Wrapper) (width n : Nat) (indent title : Text)
    (d : List (Text × Written × Text)) : Option Text :=
  if d = [] then some []
  else match x.describeHeader width n indent title 2, x.describeDict width n indent d with
    | some a, some b => some (a ++ b)
    | _, _ => none

/-- The text of `LogicalFile.describe`, file.py:632-656. -/
def Wrapper.fileText (x : Wrapper) (width n : Nat) (indent : Text) (other : PyResult → Text)
    (sm : FileSummary) : Option Text :=
  match x.describeHeader width n indent (text "Logical File") 1,
    x.describeDict width n indent (briefRows other (sm.description, sm.frames, sm.channels)),
    x.chapter width n indent (text "Known objects") (countRows sm.known),
    x.chapter width n indent (text "Unknown objects") (countRows sm.unknown) with
  | some a, some b, some c, some d => some (a ++ b ++ c ++ d)
  | _, _, _, _ => none

/-- `LogicalFile.describe`, file.py:614-656; `none` if something is raised, or the text is not
complete after so many rounds. -/
def Store.describeFile (e : Env) (x : Wrapper) (width n : Nat) (indent : Text) (other : PyResult → Text)
    (s : Store) : Option Text :=
  match (s.fileSummary e).2 with
  | none => none
  | some sm => x.fileText width n indent other sm

/-- The text of `PhysicalFile.describe`, file.py:105-118. -/
def Wrapper.physicalText (x : Wrapper) (width n : Nat) (indent : Text) (other : PyResult → Text)
    (number : Nat) (bs : List (Option PyResult × Nat × Nat)) : Option Text :=
  match x.describeHeader width n indent (text "Physical File") 1,
    x.describeDict width n indent [(text "Number of Logical Files", .text (Text.ofNat number), [])],
    bs.mapM fun b => x.describeDict width n indent (briefRows other b) with
  | some a, some b, some c => some (a ++ b ++ c.flatten)
  | _, _, _ => none

/-- `PhysicalFile.describe`, file.py:99-118; `none` as for `LogicalFile.describe`. -/
def describePhysical (e : Env) (x : Wrapper) (width n : Nat) (indent : Text)
    (other : PyResult → Text) (ss : List Store) : Option Text :=
  match physicalSummary e ss with
  | none => none
  | some (number, bs) => x.physicalText width n indent other number bs

/-! ## Specification -/

namespace Spec

/-- The text of a number: its decimal digits, without superfluous zeros. -/
def Numeral (n : Nat) (t : Text) : Prop :=
  ∃ ds : Bytes, Fingerprint.Canonical ds n ∧ t = ds.map BitVec.toNat

/-- A title between two lines of dashes. -/
def banner (indent : Text) (title : String) : Text :=
  let dashes := List.replicate title.length 45
  indent ++ dashes ++ [10] ++ indent ++ text title ++ [10] ++ indent ++ dashes ++ [10]

/-- A table: a row for each key and its text, in order, and an empty line.  All texts begin in the
same column, and the longest key is next to it. -/
def Table (space : Nat → Bool) (width : Nat) (indent : Text) (rows : List (Text × Text)) (out : Text) :
    Prop :=
  ∃ column lines, (∃ r ∈ rows, column = indent.length + r.1.length + 3) ∧
    List.Forall₂ (fun r l => Titled space width indent column (r.1, .text r.2, []) l) rows lines ∧
    out = lines.flatten ++ [10]

/-- A table with a title, or nothing. -/
def Chapter (space : Nat → Bool) (width : Nat) (indent title : Text) (rows : List (Text × Text))
    (out : Text) : Prop :=
  (rows = [] ∧ out = []) ∨ ∃ t, rows ≠ [] ∧ Table space width indent rows t ∧
    out = indent ++ title ++ [10] ++ indent ++ text "--" ++ [10] ++ t

/-- What is to be shown of a logical file: the description, the types, and the numbers of objects. -/
structure Contents where
  description : Option PyResult → Prop
  type : Text → Prop
  number : Text → Nat → Prop

/-- The contents in terms of the sets of the logical file. -/
def contents (e : Env) (p : List ObjectSet) : Contents where
  description := Described e p
  type t := HasType e p (.str t)
  number t n := n = numberOf e p (.str t)

/-- The contents in terms of what is recorded: the identification in the header, if there is only
one, and the types of sets and objects. -/
def recordedContents (e : Env) (ss : List ObjSet) : Contents where
  description desc :=
    let headers := (recorded ss).filter fun o => decide (o.type = Fingerprint.ascii "FILE-HEADER")
    (headers.length ≠ 1 → desc = none) ∧ ∀ o, headers = [o] →
      ((∀ c vs, ValuesAre o "ID" c vs → vs = []) → desc = some .none) ∧
      ∀ c v vs, ValuesAre o "ID" c (v :: vs) → ∃ w, Shown e c v w ∧ desc = some (.elem w)
  type t := ∃ s ∈ ss, Dlisio.Spec.Utf8 t s.type
  number t n := ∃ type, Dlisio.Spec.Utf8 t type ∧
    n = ((recorded ss).filter fun o => decide (o.type = type)).length

/-- What is shown of a logical file in a few rows: what is in its only header, and the numbers of
frames and channels. -/
def Shows (other : PyResult → Text) (p : Contents) (rows : List (Text × Text)) : Prop :=
  ∃ desc name f frames c channels, p.description desc ∧
    (desc = none → name = text "Unknown") ∧ (desc = some .none → name = text "None") ∧
    (∀ t, desc = some (.elem (.str (.str t))) → name = t) ∧
    (∀ r, desc = some r → r = .none ∨ (∃ t, r = .elem (.str (.str t))) ∨ name = other r) ∧
    p.number (text "FRAME") f ∧ Numeral f frames ∧ p.number (text "CHANNEL") c ∧ Numeral c channels ∧
    rows = [(text "Description", text "LogicalFile(" ++ name ++ text ")"), (text "Frames", frames),
      (text "Channels", channels)]

/-- A row for each type of the file that is known, or not, and the number of its objects. -/
def Counts (e : Env) (p : Contents) (known : Bool) (rows : List (Text × Text)) : Prop :=
  (rows.map Prod.fst).Nodup ∧ ∀ t v, (t, v) ∈ rows ↔
    e.known (.str t) = known ∧ p.type t ∧ ∃ n, p.number t n ∧ Numeral n v

/-- The summary of a logical file. -/
def FileText (e : Env) (x : Wrapper) (width : Nat) (indent : Text) (other : PyResult → Text)
    (p : Contents) (out : Text) : Prop :=
  ∃ brief known unknown o1 o2 o3, Shows other p brief ∧ Counts e p true known ∧
    Counts e p false unknown ∧ Table x.space width indent brief o1 ∧
    Chapter x.space width indent (text "Known objects") known o2 ∧
    Chapter x.space width indent (text "Unknown objects") unknown o3 ∧
    out = banner indent "Logical File" ++ o1 ++ o2 ++ o3

/-- The characters of ASCII that are printed are not white space. -/
def Printed (x : Wrapper) : Prop := ∀ c, 33 ≤ c → c ≤ 126 → x.space c = false

end Spec

/-! ## Lemmas -/

theorem numeral_iff (n : Nat) (t : Text) : Spec.Numeral n t ↔ t = Text.ofNat n := by
  constructor
  · rintro ⟨ds, h, rfl⟩
    rw [canonical_unique h (toDecimal_canonical n)]
    rfl
  · rintro rfl
    exact ⟨_, toDecimal_canonical n, rfl⟩

variable {x : Wrapper}

theorem table_of (hx : Spec.Wraps x) {width n : Nat} {indent : Text} {rows : List (Text × Text)}
    (hr : rows ≠ []) {out : Text}
    (h : x.describeDict width n indent (rows.map fun r => (r.1, .text r.2, [])) = some out) :
    Spec.Table x.space width indent rows out := by
  obtain ⟨column, lines, ⟨r, h1, h2⟩, h3, h4⟩ := c83_dict hx width n indent _ (by simpa using hr) out h
  obtain ⟨r', hr', rfl⟩ := List.mem_map.1 h1
  exact ⟨column, lines, ⟨r', hr', h2⟩, List.forall₂_map_left_iff.1 h3, h4⟩

theorem tidy_printed (hp : Spec.Printed x) (t : Text) (h1 : ∀ c ∈ t, c ∉ [9, 10, 11, 12, 13])
    (h2 : ∃ c ∈ t.getLast?, 33 ≤ c ∧ c ≤ 126) : Spec.Tidy x.space t := by
  refine ⟨h1, ?_⟩
  obtain ⟨c, hc, h3, h4⟩ := h2
  obtain ⟨u, rfl⟩ := List.getLast?_eq_some_iff.1 hc
  exact ⟨u, c, rfl, hp c h3 h4⟩

theorem header_one (hx : Spec.Wraps x) (hp : Spec.Printed x) {width n : Nat} {indent : Text}
    (title : String) (h1 : ∀ c ∈ text title, c ∉ [9, 10, 11, 12, 13])
    (h2 : ∃ c ∈ (text title).getLast?, 33 ≤ c ∧ c ≤ 126)
    (hw : indent.length + max (text title).length 2 ≤ width) :
    x.describeHeader width (n + 1) indent (text title) 1 = some (Spec.banner indent title) := by
  rw [(c83_header hx width indent n _ (tidy_printed hp _ h1 h2) hw).1]
  have : title.length = (text title).length := by
    rw [text, List.length_map]; exact (String.length_toList ..).symm
  rw [Spec.banner, this]

theorem brief_rows (other : PyResult → Text) (e : Env) (p : List ObjectSet) (desc : Option PyResult)
    (hd : Spec.Described e p desc) :
    ∃ rows, briefRows other (desc, Spec.numberOf e p (.str (text "FRAME")),
        Spec.numberOf e p (.str (text "CHANNEL"))) = rows.map (fun r => (r.1, .text r.2, [])) ∧
      Spec.Shows other (Spec.contents e p) rows := by
  refine ⟨[_, _, _], rfl, desc, _, _, _, _, _, hd, ?_, ?_, ?_, ?_, rfl, (numeral_iff _ _).2 rfl, rfl,
    (numeral_iff _ _).2 rfl, rfl⟩
  · rintro rfl; rfl
  · rintro rfl; rfl
  · rintro t rfl; rfl
  · rintro r rfl
    rcases r with _ | l | v | b
    · exact .inl rfl
    · exact .inr (.inr rfl)
    · rcases v with (t | b) | _ | _
      · exact .inr (.inl ⟨t, rfl⟩)
      all_goals exact .inr (.inr rfl)
    · exact .inr (.inr rfl)

theorem numeral_head (hp : Spec.Printed x) {n : Nat} {t : Text} (h : Spec.Numeral n t) :
    ∃ c u, t = c :: u ∧ x.space c = false := by
  obtain ⟨ds, ⟨h1, h2, -⟩, rfl⟩ := h
  cases ds with
  | nil => exact absurd rfl h2
  | cons d ds =>
    have := h1 d (by simp)
    exact ⟨_, _, rfl, hp _ (by omega) (by omega)⟩

theorem shows_head (hp : Spec.Printed x) {other : PyResult → Text} {p : Spec.Contents}
    {rows : List (Text × Text)} (h : Spec.Shows other p rows) :
    rows ≠ [] ∧ ∀ r ∈ rows, ∃ c t, r.2 = c :: t ∧ x.space c = false := by
  obtain ⟨_, name, _, _, _, _, _, _, _, _, _, _, h1, _, h2, rfl⟩ := h
  simp only [List.mem_cons, List.not_mem_nil, or_false]
  refine ⟨by simp, ?_⟩
  rintro r (rfl | rfl | rfl)
  · exact ⟨76, text "ogicalFile(" ++ name ++ text ")", rfl, hp 76 (by decide) (by decide)⟩
  · exact numeral_head hp h1
  · exact numeral_head hp h2

theorem rows_end (hx : Spec.Wraps x) (width : Nat) (indent : Text) {rows : List (Text × Text)}
    (h : ∀ r ∈ rows, ∃ c t, r.2 = c :: t ∧ x.space c = false) :
    ∃ n₀, ∀ n, n₀ ≤ n → ∃ out,
      x.describeDict width n indent (rows.map fun r => (r.1, Written.text r.2, ([] : Text))) = some out :=
  c83_dict_ends hx width indent _ (.inr fun r hr => by
    obtain ⟨r', h', rfl⟩ := List.mem_map.1 hr
    obtain ⟨c, t, h1, h2⟩ := h r' h'
    exact ⟨c, t, by rw [h1], h2⟩)

theorem chapter_of (hx : Spec.Wraps x) (hp : Spec.Printed x) {width : Nat} {indent : Text}
    (title : String) (h1 : ∀ c ∈ text title, c ∉ [9, 10, 11, 12, 13])
    (h2 : ∃ c ∈ (text title).getLast?, 33 ≤ c ∧ c ≤ 126)
    (hw : indent.length + max (text title).length 2 ≤ width) (rows : List (Text × Text))
    (hr : ∀ r ∈ rows, ∃ c t, r.2 = c :: t ∧ x.space c = false) :
    ∃ n₀, ∀ n, n₀ ≤ n → ∃ out,
      x.chapter width n indent (text title) (rows.map fun r => (r.1, .text r.2, [])) = some out ∧
      Spec.Chapter x.space width indent (text title) rows out := by
  by_cases he : rows = []
  · subst he
    exact ⟨0, fun n _ => ⟨[], rfl, .inl ⟨rfl, rfl⟩⟩⟩
  obtain ⟨n₀, h⟩ := rows_end hx width indent hr
  refine ⟨n₀ + 1, fun n hn => ?_⟩
  obtain ⟨out, ho⟩ := h n (by omega)
  obtain ⟨m, rfl⟩ : ∃ m, n = m + 1 := ⟨n - 1, by omega⟩
  refine ⟨_, ?_, .inr ⟨out, he, table_of hx he ho, rfl⟩⟩
  rw [Wrapper.chapter, if_neg (by simpa using he),
    (c83_header hx width indent m _ (tidy_printed hp _ h1 h2) hw).2, ho]

theorem count_rows (e : Env) (p : List ObjectSet) (known : Bool) (d : List (PyStr × Nat))
    (hnd : (d.map Prod.fst).Nodup) (hstr : ∀ x ∈ p, ∃ t, e.dec x.type = .str t)
    (hd : ∀ t n, (t, n) ∈ d ↔ e.known t = known ∧ Spec.HasType e p t ∧ n = Spec.numberOf e p t) :
    ∃ rows, countRows d = rows.map (fun r => (r.1, .text r.2, [])) ∧ Spec.Counts e (Spec.contents e p) known rows ∧
      ∀ r ∈ rows, ∃ n, Spec.Numeral n r.2 := by
  have hkey : ∀ r ∈ d, ∃ t, r.1 = .str t := by
    intro r hr
    obtain ⟨-, ⟨x, hx, h⟩, -⟩ := (hd r.1 r.2).1 hr
    obtain ⟨t, ht⟩ := hstr x hx
    exact ⟨t, h.symm.trans ht⟩
  have hmem : ∀ t v, (t, v) ∈ d.map (fun r => (match r.1 with
        | .str t => t
        | .bytes _ => [], Text.ofNat r.2)) ↔
      e.known (.str t) = known ∧ Spec.HasType e p (.str t) ∧
        ∃ n, n = Spec.numberOf e p (.str t) ∧ Spec.Numeral n v := by
    intro t v
    simp only [exists_eq_left]
    rw [List.mem_map, numeral_iff]
    constructor
    · rintro ⟨⟨k, n⟩, hr, h⟩
      obtain ⟨u, hu⟩ := hkey _ hr
      simp only at hu
      subst hu
      obtain ⟨h1, h2, h3⟩ := (hd _ n).1 hr
      cases h
      exact ⟨h1, h2, by rw [h3]⟩
    · rintro ⟨h1, h2, rfl⟩
      exact ⟨(.str t, _), (hd _ _).2 ⟨h1, h2, rfl⟩, rfl⟩
  refine ⟨d.map fun r => (match r.1 with
    | .str t => t
    | .bytes _ => [], Text.ofNat r.2), ?_, ⟨?_, hmem⟩, ?_⟩
  · rw [countRows, List.map_map]; rfl
  · clear hd hmem
    rw [List.map_map]
    refine List.Nodup.map_on ?_ hnd.of_map
    intro a ha b hb hab
    obtain ⟨t, ht⟩ := hkey a ha
    obtain ⟨u, hu⟩ := hkey b hb
    simp only [Function.comp_apply, ht, hu] at hab
    exact List.inj_on_of_nodup_map hnd ha hb (by rw [ht, hu, hab])
  · rintro ⟨t, v⟩ hr
    obtain ⟨-, -, n, -, h⟩ := (hmem t v).1 hr
    exact ⟨n, h⟩

theorem holds_number {e : Env} (hd : Spec.ReadsUtf8 e.dec) {policy : Policy} {f : Stored}
    {ss : List Spec.ObjSet} (hs : Spec.HoldsSets f ss) (hl : Spec.Legible policy ss) {T : Bytes}
    (hT : Spec.PlainText T) : Spec.numberOf e (setsOf f.recs) (e.dec T) =
      ((Spec.recorded ss).filter fun o => decide (o.type = T)).length := by
  unfold Spec.numberOf Spec.objectsOf
  rw [holds_objects e hs, List.filter_map, List.length_map]
  congr 1
  apply List.filter_congr
  intro o ho
  exact decide_eq_decide.2
    ⟨fun h => readsUtf8_inj hd (legible_type hl ho) hT h, fun h => congrArg e.dec h⟩

theorem holds_type {e : Env} (hd : Spec.ReadsUtf8 e.dec) {policy : Policy} {f : Stored}
    {ss : List Spec.ObjSet} (hs : Spec.HoldsSets f ss) (hl : Spec.Legible policy ss) (t : Text) :
    Spec.HasType e (setsOf f.recs) (.str t) ↔ ∃ s ∈ ss, Dlisio.Spec.Utf8 t s.type := by
  constructor
  · rintro ⟨y, hy, ht⟩
    obtain ⟨s, hss, hty, -⟩ := holds_mem hs hy
    obtain ⟨h0, u, hu⟩ := hl.types s hss
    rw [hty, hd _ u hu h0] at ht
    cases ht
    exact ⟨s, hss, hu⟩
  · rintro ⟨s, hss, hu⟩
    have : ∃ y ∈ setsOf f.recs, y.type = s.type := by
      have := holds_sets hs
      clear hs
      generalize setsOf f.recs = ys at this
      induction this with
      | nil => cases hss
      | cons a _ ih =>
        rcases List.mem_cons.1 hss with rfl | hss
        · exact ⟨_, by simp, a.1⟩
        · obtain ⟨y, hy, h⟩ := ih ⟨fun s h => hl.types s (by simp [h]), fun s h => hl.names s (by simp [h]),
            fun s h => hl.labels s (by simp [h]), fun s h => hl.roles s (by simp [h]),
            fun s h => hl.empty s (by simp [h]), fun s h => hl.told s (by simp [h])⟩ hss
          exact ⟨y, by simp [hy], h⟩
    obtain ⟨y, hy, h⟩ := this
    exact ⟨y, hy, by rw [h, hd _ t hu (hl.types s hss).1]⟩

theorem holds_description {e : Env} (hd : Spec.ReadsUtf8 e.dec) {f : Stored}
    {ss : List Spec.ObjSet} (hs : Spec.HoldsSets f ss) (hl : Spec.Legible e.policy ss)
    (hid : Spec.HeaderPlain ss) {desc : Option PyResult}
    (h : Spec.Described e (setsOf f.recs) desc) : (Spec.recordedContents e ss).description desc := by
  have hlab : PlainLabel "FILE-HEADER" := by unfold PlainLabel; decide +kernel
  have hpl := plain_ascii hlab.1
  have hdec := (label_dec hd hlab).1
  have hnum := holds_number hd hs hl hpl
  rw [hdec] at hnum
  refine ⟨fun hne => h.2 (by rw [hnum]; exact hne), fun o ho => ?_⟩
  have hobj : Spec.objectsOf e (setsOf f.recs) (.str (text "FILE-HEADER")) = [e.promote o] := by
    unfold Spec.objectsOf
    rw [holds_objects e hs, List.filter_map, ← List.map_singleton, ← ho]
    congr 1
    apply List.filter_congr
    intro o ho
    rw [← hdec]
    exact decide_eq_decide.2
      ⟨fun h => readsUtf8_inj hd (legible_type hl ho) hpl h, fun h => congrArg e.dec h⟩
  obtain ⟨k1, k2⟩ := (c71_header e hd _ (sets_fresh f.recs) (holds_header hd hs hl hid)).2 _ hobj desc h
  have hattic : (e.promote o).attic = o := rfl
  rw [hattic] at k1 k2
  refine ⟨fun hno => ?_, fun c v vs ⟨a, ha, hla, hv⟩ => (k2 a ha hla).2 c v vs hv⟩
  by_cases hex : ∃ a ∈ o.attributes, a.label = Fingerprint.ascii "ID"
  · obtain ⟨a, ha, hla⟩ := hex
    refine (k2 a ha hla).1 ?_
    rcases hv : a.value with _ | ⟨c, vs⟩
    · exact .inl rfl
    · exact .inr ⟨c, by rw [hno c vs ⟨a, ha, hla, hv⟩]⟩
  · exact k1 fun a ha hla => hex ⟨a, ha, hla⟩

theorem holds_shows {e : Env} (hd : Spec.ReadsUtf8 e.dec) {f : Stored}
    {ss : List Spec.ObjSet} (hs : Spec.HoldsSets f ss) (hl : Spec.Legible e.policy ss)
    (hid : Spec.HeaderPlain ss) {other : PyResult → Text} {rows : List (Text × Text)}
    (h : Spec.Shows other (Spec.contents e (setsOf f.recs)) rows) :
    Spec.Shows other (Spec.recordedContents e ss) rows := by
  obtain ⟨desc, name, a, frames, b, channels, h1, h2, h3, h4, h5, h6, h7, h8, h9, h10⟩ := h
  have hnum : ∀ s : String, PlainLabel s → ∀ n, n = Spec.numberOf e (setsOf f.recs) (.str (text s)) →
      (Spec.recordedContents e ss).number (text s) n := by
    intro s hsl n hn
    rw [← (label_dec hd hsl).1, holds_number hd hs hl (plain_ascii hsl.1)] at hn
    refine ⟨Fingerprint.ascii s, ?_, hn⟩
    have := utf8_ascii (bs := Fingerprint.ascii s) fun b hb => (hsl.1 b hb).2
    rwa [hsl.2] at this
  exact ⟨desc, name, a, frames, b, channels, holds_description hd hs hl hid h1, h2, h3, h4, h5,
    hnum "FRAME" (by unfold PlainLabel; decide +kernel) _ h6, h7,
    hnum "CHANNEL" (by unfold PlainLabel; decide +kernel) _ h8, h9, h10⟩

theorem holds_counts {e : Env} (hd : Spec.ReadsUtf8 e.dec) {f : Stored}
    {ss : List Spec.ObjSet} (hs : Spec.HoldsSets f ss) (hl : Spec.Legible e.policy ss)
    {known : Bool} {rows : List (Text × Text)}
    (h : Spec.Counts e (Spec.contents e (setsOf f.recs)) known rows) :
    Spec.Counts e (Spec.recordedContents e ss) known rows := by
  refine ⟨h.1, fun t v => (h.2 t v).trans (and_congr_right fun _ => ?_)⟩
  show Spec.HasType e (setsOf f.recs) (.str t) ∧ _ ↔ (∃ s ∈ ss, Dlisio.Spec.Utf8 t s.type) ∧ _
  rw [holds_type hd hs hl]
  refine and_congr_right fun ⟨s, hss, hu⟩ => ?_
  have hn := holds_number hd hs hl (hl.types s hss)
  rw [hd _ t hu (hl.types s hss).1] at hn
  constructor
  · rintro ⟨n, h1, h2⟩
    exact ⟨n, ⟨s.type, hu, h1.trans hn⟩, h2⟩
  · rintro ⟨n, ⟨T, h0, h1⟩, h2⟩
    have : T = s.type := by rw [← toStd_utf8 t T h0, ← toStd_utf8 t _ hu]
    subst this
    exact ⟨n, h1.trans hn.symm, h2⟩

/-! ## C84 -/

/-- C84.  The summary of a logical file: a header, a table with the description and the numbers of
frames and channels, and one for the known types and one for the others, if there are such types.
Whatever was done before. -/
theorem c84_file_partial (e : Env) (p : List ObjectSet) (hu : Spec.Usable e p)
    (hq : Spec.SetsQuiet e p) (hh : Spec.HeaderReadable e p) (hb : Spec.BriefTypes e)
    (hstr : ∀ y ∈ p, ∃ t, e.dec y.type = .str t) (x : Wrapper) (hx : Spec.Wraps x)
    (hp : Spec.Printed x) (width : Nat) (indent : Text) (other : PyResult → Text)
    (hw : indent.length + 15 ≤ width)
    (hist : List Spec.StoreOp) :
    ∃ n₀, ∀ n, n₀ ≤ n → ∃ out,
      (Spec.after e p hist).describeFile e x width n indent other = some out ∧
      Spec.FileText e x width indent other (Spec.contents e p) out := by
  obtain ⟨sm, h1, h2, h3, h4, h5, h6, h7, -⟩ := c71_summary_partial e p hu hq hh hb hstr hist
  rw [List.map_append] at h5
  obtain ⟨brief, b1, b2⟩ := brief_rows other e p sm.description h2
  obtain ⟨known, k1, k2, k3⟩ := count_rows e p true sm.known (List.nodup_append.1 h5).1 hstr h6
  obtain ⟨unknown, u1, u2, u3⟩ := count_rows e p false sm.unknown (List.nodup_append.1 h5).2.1 hstr h7
  have hbrief := shows_head hp b2
  have l4 : (text "Known objects").length = 13 := by decide
  have l5 : (text "Unknown objects").length = 15 := by decide
  have l6 : (text "Logical File").length = 12 := by decide
  obtain ⟨n₁, e1⟩ := rows_end hx width indent hbrief.2
  obtain ⟨n₂, e2⟩ := chapter_of (width := width) (indent := indent) hx hp "Known objects" (by decide) (by decide) (by rw [l4]; omega) known
    (fun r hr => by obtain ⟨_, h⟩ := k3 r hr; exact numeral_head hp h)
  obtain ⟨n₃, e3⟩ := chapter_of (width := width) (indent := indent) hx hp "Unknown objects" (by decide) (by decide) (by rw [l5]; omega) unknown
    (fun r hr => by obtain ⟨_, h⟩ := u3 r hr; exact numeral_head hp h)
  refine ⟨n₁ + n₂ + n₃ + 1, fun n hn => ?_⟩
  obtain ⟨o1, e1⟩ := e1 n (by omega)
  obtain ⟨o2, e2, e2'⟩ := e2 n (by omega)
  obtain ⟨o3, e3, e3'⟩ := e3 n (by omega)
  have e0 : x.describeHeader width n indent (text "Logical File") 1 =
      some (Spec.banner indent "Logical File") := by
    obtain ⟨m, rfl⟩ : ∃ m, n = m + 1 := ⟨n - 1, by omega⟩
    exact header_one hx hp _ (by decide) (by decide) (by rw [l6]; omega)
  refine ⟨Spec.banner indent "Logical File" ++ o1 ++ o2 ++ o3, ?_, brief, known, unknown, o1, o2, o3, b2,
    k2, u2, table_of hx hbrief.1 e1, e2', e3', rfl⟩
  rw [Store.describeFile, h1]
  simp only [Wrapper.fileText]
  rw [h3, h4, e0, b1, k1, u1, e1, e2, e3]

/-- C84.  The summary of a file: a header, the number of its logical files, and a table for each of
them, in order. -/
theorem c84_physical (e : Env) (hb : Spec.BriefTypes e)
    (files : List (List ObjectSet × List Spec.StoreOp))
    (hf : ∀ f ∈ files, Spec.Usable e f.1 ∧ Spec.SetsQuiet e f.1 ∧ Spec.HeaderReadable e f.1)
    (x : Wrapper) (hx : Spec.Wraps x) (hp : Spec.Printed x) (width : Nat) (indent : Text)
    (other : PyResult → Text) (hw : indent.length + 13 ≤ width) :
    ∃ n₀, ∀ n, n₀ ≤ n → ∃ out number o1 os,
      describePhysical e x width n indent other (files.map fun f => Spec.after e f.1 f.2) = some out ∧
      Spec.Numeral files.length number ∧
      Spec.Table x.space width indent [(text "Number of Logical Files", number)] o1 ∧
      List.Forall₂ (fun f o => ∃ rows, Spec.Shows other (Spec.contents e f.1) rows ∧
        Spec.Table x.space width indent rows o) files os ∧
      out = Spec.banner indent "Physical File" ++ o1 ++ os.flatten := by
  obtain ⟨bs, h1, h2⟩ := c71_physical e hb files hf
  have hbs : ∃ n₀, ∀ n, n₀ ≤ n → ∃ os,
      bs.mapM (fun b => x.describeDict width n indent (briefRows other b)) = some os ∧
      List.Forall₂ (fun f o => ∃ rows, Spec.Shows other (Spec.contents e f.1) rows ∧
        Spec.Table x.space width indent rows o) files os := by
    clear h1 hf
    induction h2 with
    | nil => exact ⟨0, fun n _ => ⟨[], rfl, .nil⟩⟩
    | @cons f b files bs hb' _ ih =>
      obtain ⟨n₁, ih⟩ := ih
      obtain ⟨desc, fr, ch⟩ := b
      obtain ⟨hd, hfr, hch⟩ := hb'
      simp only at hd hfr hch
      subst hfr hch
      obtain ⟨brief, b1, b2⟩ := brief_rows other e f.1 desc hd
      have hbrief := shows_head hp b2
      obtain ⟨n₂, e1⟩ := rows_end hx width indent hbrief.2
      refine ⟨n₁ + n₂, fun n hn => ?_⟩
      obtain ⟨os, i1, i2⟩ := ih n (by omega)
      obtain ⟨o, e1⟩ := e1 n (by omega)
      refine ⟨o :: os, ?_, .cons ⟨brief, b2, table_of hx hbrief.1 e1⟩ i2⟩
      rw [List.mapM_cons, b1, e1, i1]
      rfl
  obtain ⟨n₁, h3⟩ := hbs
  have l2 : (text "Physical File").length = 13 := by decide
  obtain ⟨n₂, e1⟩ := rows_end hx width indent
    (rows := [(text "Number of Logical Files", Text.ofNat files.length)]) (fun r h => by
      rw [List.mem_singleton] at h
      subst h
      exact numeral_head hp ((numeral_iff _ _).2 rfl))
  refine ⟨n₁ + n₂ + 1, fun n hn => ?_⟩
  obtain ⟨os, i1, i2⟩ := h3 n (by omega)
  obtain ⟨o1, e1⟩ := e1 n (by omega)
  have e0 : x.describeHeader width n indent (text "Physical File") 1 =
      some (Spec.banner indent "Physical File") := by
    obtain ⟨m, rfl⟩ : ∃ m, n = m + 1 := ⟨n - 1, by omega⟩
    exact header_one hx hp _ (by decide) (by decide) (by rw [l2]; omega)
  refine ⟨_, _, o1, os, ?_, (numeral_iff _ _).2 rfl, table_of hx (by simp) e1, i2, rfl⟩
  rw [describePhysical, h1]
  simp only [Wrapper.physicalText]
  simp only [List.map_cons, List.map_nil] at e1
  rw [e0, e1, i1]

/-- C84.  Whatever the medium is, it is loaded, and the summary of each logical file shows the
identification, the types, and the numbers of objects that are recorded, whatever was done before. -/
theorem c84_load_partial (e : Env) (hd : Spec.ReadsUtf8 e.dec) (horder : Spec.IsSetOrder e.order)
    (stale : Nat → Bytes) (hst : ∀ t, 262 ≤ (stale t).length) (hm : e.policy .minor = false)
    (disk : Disk) (fs : List (Option Bytes × Stored)) (hmed : Spec.Medium e.policy disk fs)
    (hfs : ∀ f ∈ fs, ∃ ss, Spec.HoldsSets f.2 ss ∧ Spec.Legible e.policy ss ∧ Spec.HeaderPlain ss)
    (x : Wrapper) (hx : Spec.Wraps x) (hp : Spec.Printed x) (width : Nat) (indent : Text)
    (other : PyResult → Text) (hw : indent.length + 15 ≤ width) :
    ∃ n₀, ∀ n, n₀ ≤ n → ∃ y, loadPy e disk stale n = (y, .files) ∧
      List.Forall₂ (fun f g => ∀ ss, Spec.HoldsSets f.2 ss → Spec.Legible e.policy ss →
        Spec.HeaderPlain ss →
        ∀ hist, ∃ m₀, ∀ m, m₀ ≤ m → ∃ out,
          (Spec.after e g.sets hist).describeFile e x width m indent other = some out ∧
          Spec.FileText e x width indent other (Spec.recordedContents e ss) out) fs y.files := by
  obtain ⟨n₀, hload⟩ := c79_load_partial e hd horder stale hst hm disk fs hmed
    (fun f hf => .inr (hfs f hf))
  refine ⟨n₀, fun n hn => ?_⟩
  obtain ⟨y, h1, h2⟩ := hload n hn
  refine ⟨y, h1, h2.imp fun f g ⟨hg, _⟩ ss hs hl hid hist => ?_⟩
  have stable : ∀ s : String, PlainLabel s → Spec.Stable e (.str (text s)) := fun s h => by
    rw [← (label_dec hd h).1]
    exact plain_stable hd (plain_ascii h.1)
  rw [hg.sets]
  have hu := holds_usable hd horder hs hl
  have hdec : ∀ z ∈ setsOf f.2.recs, ∃ s ∈ ss, ∃ t, Dlisio.Spec.Utf8 t s.type ∧ e.dec z.type = .str t := by
    intro z hz
    obtain ⟨s, hss, ht, -⟩ := holds_mem hs hz
    obtain ⟨h0, t, hu⟩ := hl.types s hss
    exact ⟨s, hss, t, hu, by rw [ht, hd _ t hu h0]⟩
  obtain ⟨m₀, hm₀⟩ := c84_file_partial e (setsOf f.2.recs) hu (fun z hz => holds_quiet hs hl hz)
    (c71_header e hd _ hu.fresh (holds_header hd hs hl hid)).1
    ⟨stable _ (by unfold PlainLabel; decide +kernel), stable _ (by unfold PlainLabel; decide +kernel),
      stable _ (by unfold PlainLabel; decide +kernel)⟩
    (fun z hz => by obtain ⟨-, -, t, -, h⟩ := hdec z hz; exact ⟨t, h⟩) x hx hp width indent other hw hist
  refine ⟨m₀, fun m hmm => ?_⟩
  obtain ⟨out, k1, brief, known, unknown, o1, o2, o3, j1, j2, j3, j4, j5, j6, j7⟩ := hm₀ m hmm
  exact ⟨out, k1, brief, known, unknown, o1, o2, o3, holds_shows hd hs hl hid j1,
    holds_counts hd hs hl j2, holds_counts hd hs hl j3, j4, j5, j6, j7⟩

/-! ## Cases -/

namespace SummaryTextCase

open FileSummaryCase

theorem printed_plain : Spec.Printed LayoutCase.plain := by
  intro c h1 h2
  show decide _ = false
  rw [decide_eq_false_iff_not]
  simp only [List.mem_cons, List.not_mem_nil, or_false]
  omega

/-- Case for `c84_file_partial`. -/
example : (Spec.after AccessorsCase.env sets []).describeFile AccessorsCase.env LayoutCase.plain 80 20
    (text " ") (fun _ => []) =
    some (text " ------------\n Logical File\n ------------\n Description : LogicalFile(T)\n" ++
      text " Frames      : 0\n Channels    : 3\n\n Known objects\n --\n FILE-HEADER : 1\n" ++
      text " CHANNEL     : 3\n\n Unknown objects\n --\n 440-X  : 2\n UPDATE : 0\n\n") := by
  decide +kernel

/-- Case for `c84_physical`: a file with two logical files, the second has no header; the texts do
not fit in the line. -/
example : describePhysical AccessorsCase.env LayoutCase.plain 27 20 [] (fun _ => [])
    [Spec.after AccessorsCase.env sets [], Spec.after AccessorsCase.env AccessorsCase.twice []] =
    some (text "-------------\nPhysical File\n-------------\nNumber of Logical Files : 2\n\n" ++
      text "Description : LogicalFile(T\n              )\nFrames      : 0\nChannels    : 3\n\n" ++
      text "Description : LogicalFile(U\n              nknown)\nFrames      : 0\nChannels    : 0\n\n") := by
  decide +kernel

/-- Case for `c84_load_partial`: two channels and two frames are recorded. -/
example (disk : Disk) (h : Spec.Medium StoreCase.env.policy disk [(some exLabel, FromDiskCase.fileOn)]) :
    (Spec.recordedContents StoreCase.env FromDiskCase.setsOn).number (text "CHANNEL") 2 ∧
    (Spec.recordedContents StoreCase.env FromDiskCase.setsOn).number (text "FRAME") 2 ∧
    ∃ n₀, ∀ n, n₀ ≤ n → ∃ y g, loadPy StoreCase.env disk exStale n = (y, .files) ∧ y.files = [g] ∧
      ∀ hist, ∃ m₀, ∀ m, m₀ ≤ m → ∃ out, (Spec.after StoreCase.env g.sets hist).describeFile StoreCase.env
          LayoutCase.plain 80 m (text " ") (fun _ => []) = some out ∧
        Spec.FileText StoreCase.env LayoutCase.plain 80 (text " ") (fun _ => [])
          (Spec.recordedContents StoreCase.env FromDiskCase.setsOn) out := by
  have hid : Spec.HeaderPlain FromDiskCase.setsOn := by
    intro o ho ht c vs hv
    rw [FromDiskCase.recorded_case] at ho
    simp only [List.mem_cons, List.not_mem_nil, or_false] at ho
    rcases ho with rfl | rfl | rfl | rfl | rfl
    · obtain ⟨a, h1, -, h3⟩ := hv
      rw [FromDiskCase.headerObj, List.mem_singleton] at h1
      subst h1
      cases h3
      simp [Spec.DatesOk, Spec.Writable]
    all_goals exact absurd ht (by decide +kernel)
  have hutf : ∀ b : Bytes, b.all (fun b => decide (b.toNat < 128)) = true →
      Dlisio.Spec.Utf8 (b.map (·.toNat)) b := fun b hb => utf8_ascii (by simpa using hb)
  refine ⟨⟨Fingerprint.ascii "CHANNEL",
      (by decide +kernel : (Fingerprint.ascii "CHANNEL").map (·.toNat) = text "CHANNEL") ▸
        hutf (Fingerprint.ascii "CHANNEL") (by decide +kernel), ?_⟩,
    ⟨Fingerprint.ascii "FRAME",
      (by decide +kernel : (Fingerprint.ascii "FRAME").map (·.toNat) = text "FRAME") ▸
        hutf (Fingerprint.ascii "FRAME") (by decide +kernel), ?_⟩, ?_⟩
  · rw [FromDiskCase.recorded_case]; decide +kernel
  · rw [FromDiskCase.recorded_case]; decide +kernel
  obtain ⟨n₀, h0⟩ := c84_load_partial StoreCase.env (c65_decoding []) (StoreCase.order_set []) exStale
    (fun _ => by rw [exStale, List.length_replicate]) (by decide) disk _ h
    (fun f hf => by
      rw [List.mem_singleton] at hf
      subst hf
      exact ⟨_, FromDiskCase.holds_case, FromDiskCase.legible_case, hid⟩)
    LayoutCase.plain LayoutCase.wraps_plain printed_plain 80 (text " ") (fun _ => []) (by decide)
  refine ⟨n₀, fun n hn => ?_⟩
  obtain ⟨y, h1, h2⟩ := h0 n hn
  cases hy : y.files with
  | nil => rw [hy] at h2; cases h2
  | cons g gs =>
    rw [hy] at h2
    cases h2 with
    | cons hg h2 =>
      cases h2
      exact ⟨y, g, h1, hy, hg _ FromDiskCase.holds_case FromDiskCase.legible_case hid⟩

end SummaryTextCase

end Dlisio.Dlis
