/-
From the bytes on a disk to the printed summaries of objects: each row of a summary tells what is
recorded for its title.  Nothing is modelled here; C77, C79 (what is read), C70 (what is shown) and
C85 (what is printed) are put together.  C86.
-/
import Verif.Dlis.Construct
import Verif.Dlis.ObjectText

namespace Dlisio.Dlis

open _root_.Dlisio.Dlis.Spec

/-! ## Specification -/

namespace Spec

/-- The text of a recorded value: a text in UTF-8 without the blanks around it, a whole number in
decimal digits, or a date. -/
inductive Spells : Val → Text → Prop
  | words (bs : Bytes) (t u : Text) : Dlisio.Spec.Utf8 t bs → 0 ∉ bs → Stripped t u → Spells (.str bs) u
  | whole (size n : Nat) (t : Text) : Numeral n t → Spells (.int size n) t
  | negative (size n : Nat) (t : Text) : 0 < n → Numeral n t → Spells (.int size (-(n : Int))) (text "-" ++ t)
  | date (d : DTime) (t : Text) : Dated d t → Spells (.dtime d) t

/-- All values are texts, or whole numbers, or dates. -/
def Alike (vs : List Val) : Prop :=
  (∀ v ∈ vs, ∃ s, v = .str s) ∨ (∀ v ∈ vs, ∃ size n, v = .int size n) ∨ ∀ v ∈ vs, ∃ d, v = .dtime d

/-- Nothing is recorded for the attribute. -/
def Unset (o : BasicObject) (label : String) : Prop :=
  ∀ a ∈ o.attributes, a.label = Fingerprint.ascii label → a.value = none

/-- What is to be written for an attribute of a recorded object, and whether there is anything in it. -/
inductive Entered (e : Env) (ss : List ObjSet) (o : BasicObject) (d : Doc) : RowKind → Prop → Written → Prop
  | unset (k : RowKind) : k ≠ .names → d.shape = .scalar ∨ d.shape = .boolean → Unset o d.label →
      Entered e ss o d k False (.text (text "None"))
  | empty (k : RowKind) : d.shape = .vector ∨ d.shape = .reverse → Unset o d.label →
      Entered e ss o d k False (.list [])
  | one (k : RowKind) (c : Reprc) (v : Val) (vs : List Val) (t : Text) : k ≠ .names → d.shape = .scalar →
      ValuesAre o d.label c (v :: vs) → DatesOk (v :: vs) → Spells v t →
      Entered e ss o d k (t ≠ []) (.text t)
  | many (k : RowKind) (c : Reprc) (vs : List Val) (ts : List Text) : k ≠ .names → d.shape = .vector →
      ValuesAre o d.label c vs → vs ≠ [] → DatesOk vs → Alike vs → List.Forall₂ Spells vs ts →
      Entered e ss o d k (∃ t ∈ ts, t ≠ []) (.list ts)
  | reversed (k : RowKind) (c : Reprc) (vs : List Val) (ts : List Text) : k ≠ .names → d.shape = .reverse →
      ValuesAre o d.label c vs → vs ≠ [] → DatesOk vs → Alike vs → List.Forall₂ Spells vs ts →
      Entered e ss o d k (∃ t ∈ ts, t ≠ []) (.list ts.reverse)
  | truth (k : RowKind) (c : Reprc) (size : Nat) (n : Int) (vs : List Val) : k ≠ .names → d.shape = .boolean →
      ValuesAre o d.label c (.int size n :: vs) → DatesOk vs →
      Entered e ss o d k True (.text (text (if n = 0 then "False" else "True")))
  | object (k : RowKind) (c : Reprc) (v : Val) (vs : List Val) (ref : RefType) (b : BasicObject)
      (bs : List BasicObject) (type name : Text) : k ≠ .names → d.shape = .scalar → d.ref = some ref →
      ValuesAre o d.label c (v :: vs) → List.Forall₂ (PointsTo e ss ref) (v :: vs) (b :: bs) →
      Dlisio.Spec.Utf8 type b.type → (∀ x ∈ type, x < 128) → Dlisio.Spec.Utf8 name b.name.id →
      Entered e ss o d k True (.text (capital type ++ text "(" ++ name ++ text ")"))
  | names (c : Reprc) (vs : List Val) (ref : RefType) (bs : List BasicObject) (ts : List Text) :
      d.shape = .vector → d.ref = some ref → ValuesAre o d.label c vs → vs ≠ [] →
      List.Forall₂ (PointsTo e ss ref) vs bs →
      List.Forall₂ (fun b t => Dlisio.Spec.Utf8 t b.name.id) bs ts →
      Entered e ss o d .names True (.list ts)

/-- The units beside a value: those of the attribute, without blanks around them, in rows that are
shown with units. -/
inductive UnitsOf (o : BasicObject) (label : String) (ex : Options) : RowKind → Text → Prop
  | none (k : RowKind) : k ≠ .units → UnitsOf o label ex k []
  | absent : (∀ a ∈ o.attributes, a.label ≠ Fingerprint.ascii label) → UnitsOf o label ex .units []
  | present (a : ObjAttr) (t u : Text) : a ∈ o.attributes → a.label = Fingerprint.ascii label →
      Dlisio.Spec.Utf8 t a.units → 0 ∉ a.units → Stripped t u →
      UnitsOf o label ex .units (if ex.units then [] else u)

/-- A line of the text begins with the title, and has the value and the units. -/
def Tells (x : Wrapper) (width : Nat) (indent : Text) (out : Text) (r : Text × Written × Text) : Prop :=
  ∃ before line after column, out = before ++ line ++ after ∧
    (before = [] ∨ before.getLast? = some 10) ∧ Titled x.space width indent column r line

/-- What is recorded for an object of this type can be read: dates exist, references to objects of known
type point to objects that are recorded, once, there are values for the attributes that are not
documented, and the names in references can be written down. -/
structure Readable (e : Env) (ss : List ObjSet) (type : String) (o : BasicObject) : Prop where
  known : ∀ d ∈ documented ++ renamed, d.type = type → Unset o d.label ∨
    ∃ c vs, ValuesAre o d.label c vs ∧ vs ≠ [] ∧
      ((DatesOk vs ∧ (∀ v ∈ vs.head?, (∀ n, v ≠ .obname n) ∧ (∀ r, v ≠ .objref r) ∧ ∀ t, v ≠ .attref t)) ∨
        ∃ ref bs, d.ref = some ref ∧ List.Forall₂ (PointsTo e ss ref) vs bs)
  other : ∀ a ∈ o.attributes, (∀ d ∈ documented ++ renamed, d.type = type → a.label ≠ Fingerprint.ascii d.label) →
    ∃ c vs, a.value = some (c, vs) ∧ vs ≠ [] ∧ DatesOk vs
  written : ∀ a ∈ o.attributes, ∀ c vs, a.value = some (c, vs) → ∀ v ∈ vs, Writable v

end Spec

/-! ## Lemmas -/

theorem stripped_same {t u v : Text} (h : Spec.Stripped t u) (k : Spec.Stripped t v) : u = v := by
  have key : ∀ {u : Text}, Spec.Stripped t u →
      u = ((t.dropWhile (· ∈ Spec.spaces)).reverse.dropWhile (· ∈ Spec.spaces)).reverse := by
    rintro u ⟨a, b, rfl, h1, h2, h3, h4⟩
    rw [List.append_assoc, List.dropWhile_append_of_pos (by simpa using h1)]
    cases u with
    | nil =>
      have : b.dropWhile (· ∈ Spec.spaces) = [] := by
        have := List.dropWhile_append_of_pos (l₂ := []) (p := fun c => decide (c ∈ Spec.spaces)) (by simpa using h2)
        simpa using this
      rw [List.nil_append, this]
      rfl
    | cons c u =>
      rw [List.cons_append, List.dropWhile_cons_of_neg (by simpa using h3), ← List.cons_append, List.reverse_append,
        List.dropWhile_append_of_pos (by simpa using h2)]
      have : (c :: u).reverse.dropWhile (· ∈ Spec.spaces) = (c :: u).reverse := by
        rcases hr : (c :: u).reverse with _ | ⟨x, xs⟩
        · rfl
        · have hl : (c :: u).getLast? = some x := by rw [List.getLast?_eq_head?_reverse, hr]; rfl
          rw [List.dropWhile_cons_of_neg (by simpa using h4 x hl)]
      rw [this, List.reverse_reverse]
  exact (key h).trans (key k).symm

theorem utf8_zero {t : Text} {bs : Bytes} (h : Dlisio.Spec.Utf8 t bs) (h0 : 0 ∉ bs) : 0 ∉ t := by
  intro hc
  have h1 : 0 ∈ t.flatMap Dlisio.Spec.utf8Char := List.mem_flatMap.2 ⟨0, hc, by decide⟩
  rw [← h.2, List.mem_map] at h1
  obtain ⟨b, hb, h2⟩ := h1
  rw [show b = 0 from BitVec.eq_of_toNat_eq h2] at hb
  exact h0 hb

theorem stripped_zero {t u : Text} (h : Spec.Stripped t u) (h0 : 0 ∉ t) : u.getLast? ≠ some 0 := by
  obtain ⟨a, b, rfl, -⟩ := h
  intro hl
  exact h0 (by simp [List.mem_of_getLast? hl])

theorem raw_notBlank (c : Reprc) (v : Val) : ¬ Spec.BlankVal (.raw c v) := by
  unfold Spec.BlankVal
  simp

/-- What is shown of a value that can be spelled. -/
theorem spells_shown {e : Env} (hd : Spec.ReadsUtf8 e.dec) {c : Reprc} {v : Val} {w : PyVal} {t : Text}
    (h : Spec.Spells v t) (hs : Spec.Shown e c v w) :
    Spec.Word w t ∧ (t ≠ [] → ¬ Spec.BlankVal w) ∧ ((∃ s, v = .str s) → w = .str (.str t) ∧ t.getLast? ≠ some 0) := by
  cases h with
  | words bs t u h1 h2 h3 =>
    change (match e.dec bs with
      | .bytes b => w = .str (.bytes b)
      | .str t => ∃ u, w = .str (.str u) ∧ Spec.Stripped t u) at hs
    rw [hd bs t h1 h2] at hs
    obtain ⟨u', rfl, h4⟩ := hs
    rw [stripped_same h4 h3]
    refine ⟨.words _, fun hne hb => ?_, fun _ => ⟨rfl, stripped_zero h3 (utf8_zero h1 h2)⟩⟩
    rcases hb with hb | hb | hb <;> cases hb
    exact hne rfl
  | whole size n t h1 =>
    cases hs
    exact ⟨.whole _ _ _ _ h1, fun _ => raw_notBlank _ _, fun ⟨_, hs⟩ => nomatch hs⟩
  | negative size n t h0 h1 =>
    cases hs
    exact ⟨.negative _ _ _ _ h0 h1, fun _ => raw_notBlank _ _, fun ⟨_, hs⟩ => nomatch hs⟩
  | date d t h1 =>
    cases hs
    exact ⟨.date _ _ _ h1, fun _ => raw_notBlank _ _, fun ⟨_, hs⟩ => nomatch hs⟩

theorem spells_plain {v : Val} {t : Text} (h : Spec.Spells v t) :
    (∀ n, v ≠ .obname n) ∧ (∀ r, v ≠ .objref r) ∧ ∀ t, v ≠ .attref t := by
  cases h <;> simp

theorem alike_kind {e : Env} (hd : Spec.ReadsUtf8 e.dec) {c : Reprc} {vs : List Val} {ws : List PyVal}
    {ts : List Text} (ha : Spec.Alike vs) (h : List.Forall₂ Spec.Spells vs ts)
    (hs : List.Forall₂ (Spec.Shown e c) vs ws) :
    Spec.OfOneKind ws ∧ List.Forall₂ Spec.Word ws ts ∧ ((∃ t ∈ ts, t ≠ []) → ∃ w ∈ ws, ¬ Spec.BlankVal w) := by
  refine ⟨?_, ?_⟩
  · have hw : ∀ w ∈ ws, ∃ v ∈ vs, Spec.Shown e c v w ∧ ∃ t, Spec.Spells v t := by
      clear ha
      induction hs generalizing ts with
      | nil => simp
      | cons k _ ih =>
        cases h with
        | cons h1 h2 =>
          intro w hw
          rcases List.mem_cons.1 hw with rfl | hw
          · exact ⟨_, by simp, k, _, h1⟩
          · obtain ⟨v, hv, q⟩ := ih h2 w hw
            exact ⟨v, by simp [hv], q⟩
    rcases ha with ha | ha | ha
    · refine .inl fun w h => ?_
      obtain ⟨v, hv, k, t, ht⟩ := hw w h
      exact ⟨t, (spells_shown hd ht k).2.2 (ha v hv)⟩
    · refine .inr (.inl fun w h => ?_)
      obtain ⟨v, hv, k, t, ht⟩ := hw w h
      obtain ⟨size, n, rfl⟩ := ha v hv
      exact ⟨c, size, n, k⟩
    · refine .inr (.inr fun w h => ?_)
      obtain ⟨v, hv, k, t, ht⟩ := hw w h
      obtain ⟨d, rfl⟩ := ha v hv
      exact ⟨c, d, k⟩
  · clear ha
    induction hs generalizing ts with
    | nil => cases h; simp
    | cons k _ ih =>
      cases h with
      | cons h1 h2 =>
        obtain ⟨i1, i2⟩ := ih h2
        have := spells_shown hd h1 k
        refine ⟨.cons this.1 i1, ?_⟩
        rintro ⟨t, ht, hne⟩
        rcases List.mem_cons.1 ht with rfl | ht
        · exact ⟨_, by simp, this.2.1 hne⟩
        · obtain ⟨w, hw, hb⟩ := i2 ⟨t, ht, hne⟩
          exact ⟨w, by simp [hw], hb⟩

/-- Several values in the opposite order. -/
theorem presented_reverse {ws : List PyVal} {r : PyResult} (h : Spec.Presented .reverse ws r) :
    r = .list ws.reverse := by
  obtain ⟨us, rfl, h1, h2⟩ := h
  congr 1
  refine List.ext_getElem? fun i => ?_
  by_cases hi : i < ws.length
  · rw [h2 i hi, List.getElem?_reverse hi]
  · rw [List.getElem?_eq_none (by omega), List.getElem?_eq_none (by simp; omega)]

theorem displays_res {e : Env} {o : BasicObject} {k : Spec.RowKind} {label : String} {r : PyResult} {v : DVal}
    (h : Spec.Displays e o k label r v) (hk : k ≠ .names) : ∃ u, v = .res r ∨ v = .attr r u := by
  cases k with
  | plain => exact ⟨.str [], .inl h⟩
  | names => exact absurd rfl hk
  | units =>
    rcases h with ⟨a, -, -, h⟩ | ⟨-, h⟩
    · exact ⟨_, .inr h⟩
    · exact ⟨.str [], .inl h⟩

/-- What is written for a single value. -/
theorem worded_prints {e : Env} {o : BasicObject} {k : Spec.RowKind} {label : String} {r : PyResult} {v : DVal}
    (hk : k ≠ .names) {t : Text} (hw : Spec.Worded r t) (h : Spec.Displays e o k label r v) {ex : Options}
    {title : PyStr} {pw : Text × Written × Text} (hp : Spec.Prints ex (title, v) pw) : pw.2.1 = .text t := by
  obtain ⟨u, hu⟩ := displays_res h hk
  exact hp.plain r t u hu hw

/-- What is written for a list. -/
theorem list_prints {e : Env} {o : BasicObject} {k : Spec.RowKind} {label : String} {l : List PyVal} {v : DVal}
    (hk : k ≠ .names) {ts : List Text} (h1 : Spec.OfOneKind l) (h2 : List.Forall₂ Spec.Word l ts)
    (h : Spec.Displays e o k label (.list l) v) {ex : Options}
    {title : PyStr} {pw : Text × Written × Text} (hp : Spec.Prints ex (title, v) pw) : pw.2.1 = .list ts := by
  obtain ⟨u, hu⟩ := displays_res h hk
  exact hp.list l ts u hu h1 h2

theorem nothing_plain {k : Spec.RowKind} (hk : k ≠ .names) {r : PyResult} (h : Spec.Nothing k r) :
    Spec.NoContent r := by
  cases k with
  | plain => exact h
  | units => exact h
  | names => exact absurd rfl hk

theorem content_elem {w : PyVal} (h : ¬ Spec.BlankVal w) : ¬ Spec.NoContent (.elem w) := by
  rintro (h1 | ⟨v, h1, h2⟩ | ⟨l, h1, -⟩)
  · cases h1
  · cases h1; exact h h2
  · cases h1

theorem content_list {ws : List PyVal} (h : ∃ w ∈ ws, ¬ Spec.BlankVal w) : ¬ Spec.NoContent (.list ws) := by
  obtain ⟨w, hw, hb⟩ := h
  rintro (h1 | ⟨v, h1, h2⟩ | ⟨l, h1, h2⟩)
  · cases h1
  · cases h1
  · cases h1; exact hb (h2 w hw)

theorem points_plain {e : Env} {ss : List Spec.ObjSet} {ref : RefType} {v : Val} {b : BasicObject}
    (h : Spec.PointsTo e ss ref v b) : Spec.PlainText b.type ∧ Spec.PlainText b.name.id ∧ b.name.id ≠ [] := by
  obtain ⟨type, name, -, h1, h2, h3, h4⟩ := h
  have : b ∈ (Spec.recorded ss).filter (fun x => decide (x.type = type ∧ x.name = name)) := by
    rw [show _ = [b] from h4]; simp
  rw [List.mem_filter, decide_eq_true_eq] at this
  obtain ⟨-, rfl, rfl⟩ := this
  exact ⟨h1, h2, h3⟩

/-- What is entered for an attribute is the value of the property, and is what is written. -/
theorem entered_prints {e : Env} (hd : Spec.ReadsUtf8 e.dec)
    {sul : Option Bytes} {f : Stored} {g : LogFile} (hg : Faithful e.policy sul f g)
    {ss : List Spec.ObjSet} (hs : Spec.HoldsSets f ss) (hl : Spec.Legible e.policy ss)
    {o : BasicObject} (ho : o ∈ Spec.recorded ss) {d : Spec.Doc}
    (hdoc : d ∈ Spec.documented ++ Spec.renamed) (ht : o.type = Fingerprint.ascii d.type)
    {k : Spec.RowKind} {filled : Prop} {w : Written} (h : Spec.Entered e ss o d k filled w) :
    ∃ r, (∀ hist, ((Spec.after e g.sets hist).property e o d.name).2 = .ok r) ∧
      (k = .names → ∃ l, r = .list l) ∧ (filled → ¬ Spec.Nothing k r) ∧
      ∀ ex title v pw, Spec.Displays e o k d.label r v → Spec.Prints ex (title, v) pw → pw.2.1 = w := by
  obtain ⟨p1, p2, p3⟩ := c77_properties_partial e hd sul f g hg ss hs hl o ho d hdoc ht
  cases h with
  | unset k hk hsh hun =>
    obtain ⟨r, h1, h2⟩ := p1 hun
    have : r = .none := by rcases hsh with hsh | hsh <;> (rw [hsh] at h1; exact h1)
    subst this
    exact ⟨_, fun hist => by rw [h2], fun h => absurd h hk, fun h => h.elim,
      fun ex title v pw hv hp => worded_prints hk (.inl ⟨rfl, rfl⟩) hv hp⟩
  | empty k hsh hun =>
    obtain ⟨r, h1, h2⟩ := p1 hun
    have : r = .list [] := by rcases hsh with hsh | hsh <;> (rw [hsh] at h1; exact h1)
    subst this
    refine ⟨_, fun hist => by rw [h2], fun _ => ⟨_, rfl⟩, fun h => h.elim, fun ex title v pw hv hp => ?_⟩
    by_cases hk : k = .names
    · subst hk
      exact hp.names [] [] (hv _ rfl) .nil (by simp)
    · exact list_prints hk (.inl (by simp)) .nil hv hp
  | one k c v vs t hk hsh hvs hdates hsp =>
    obtain ⟨ws, r, h1, h2, h3⟩ := p2 c _ hvs (by simp) hdates (.inr fun x hx => by
      cases hx; exact spells_plain hsp)
    cases h1 with
    | @cons _ w _ ws h1 _ =>
      rw [hsh] at h2
      obtain ⟨w', hw', rfl⟩ := h2
      cases hw'
      obtain ⟨q1, q2, -⟩ := spells_shown hd hsp h1
      exact ⟨_, fun hist => by rw [h3], fun h => absurd h hk,
        fun hne hno => content_elem (q2 hne) (nothing_plain hk hno),
        fun ex title v pw hv hp => worded_prints hk (.inr (.inr (.inr ⟨_, rfl, q1⟩))) hv hp⟩
  | many k c vs ts hk hsh hvs hne hdates ha hsp =>
    obtain ⟨ws, r, h1, h2, h3⟩ := p2 c _ hvs hne hdates (.inr fun x hx => by
      obtain ⟨t, -, ht⟩ := forall₂_mem_right hsp.flip (List.mem_of_mem_head? hx)
      exact spells_plain ht)
    rw [hsh] at h2
    obtain rfl := h2
    obtain ⟨q1, q2, q3⟩ := alike_kind hd ha hsp h1
    exact ⟨_, fun hist => by rw [h3], fun h => absurd h hk,
      fun hf hno => content_list (q3 hf) (nothing_plain hk hno),
      fun ex title v pw hv hp => list_prints hk q1 q2 hv hp⟩
  | reversed k c vs ts hk hsh hvs hne hdates ha hsp =>
    obtain ⟨ws, r, h1, h2, h3⟩ := p2 c _ hvs hne hdates (.inr fun x hx => by
      obtain ⟨t, -, ht⟩ := forall₂_mem_right hsp.flip (List.mem_of_mem_head? hx)
      exact spells_plain ht)
    rw [hsh] at h2
    obtain rfl := presented_reverse h2
    obtain ⟨q1, q2, q3⟩ := alike_kind hd ha hsp h1
    refine ⟨_, fun hist => by rw [h3], fun h => absurd h hk,
      fun hf hno => content_list (by simpa using q3 hf) (nothing_plain hk hno),
      fun ex title v pw hv hp => list_prints hk ?_ (List.rel_reverse q2) hv hp⟩
    simpa [Spec.OfOneKind] using q1
  | truth k c size n vs hk hsh hvs hdates =>
    obtain ⟨ws, r, h1, h2, h3⟩ := p2 c _ hvs (by simp) (by
      intro t ht
      rcases List.mem_cons.1 ht with ht | ht
      · cases ht
      · exact hdates t ht) (.inr fun x hx => by cases hx; simp)
    cases h1 with
    | @cons _ w _ ws h1 _ =>
      rw [hsh] at h2
      obtain ⟨w', hw', b, rfl, hb⟩ := h2
      cases hw'
      cases h1
      refine ⟨_, fun hist => by rw [h3], fun h => absurd h hk,
        fun _ hno => ?_, fun ex title v pw hv hp => worded_prints hk ?_ hv hp⟩
      · rcases nothing_plain hk hno with h | ⟨_, h, -⟩ | ⟨_, h, -⟩ <;> cases h
      · by_cases hn : n = 0
        · subst hn
          rw [hb.2 (.int c size), if_pos rfl]
          exact .inr (.inr (.inl ⟨rfl, rfl⟩))
        · have : b = true := by
            cases b with
            | true => rfl
            | false =>
              have := hb.1 rfl
              cases this
              exact absurd rfl hn
          rw [this, if_neg hn]
          exact .inr (.inl ⟨rfl, rfl⟩)
  | object k c v vs ref b bs type name hk hsh href hvs hpt h1 h2 h3 =>
    obtain ⟨r, h4, h5⟩ := p3 c _ _ ref hvs (by simp) href hpt
    rw [hsh] at h4
    obtain ⟨w', hw', rfl⟩ := h4
    cases hw'
    cases hpt with
    | cons hpt _ =>
      obtain ⟨q1, q2, -⟩ := points_plain hpt
      refine ⟨_, h5, fun h => absurd h hk, fun _ hno => content_elem ?_ (nothing_plain hk hno),
        fun ex title v pw hv hp => worded_prints hk (.inr (.inr (.inr ⟨_, rfl, .object _ _ _ ?_ h2 ?_⟩))) hv hp⟩
      · unfold Spec.BlankVal; simp
      · exact hd _ _ h1 q1.1
      · exact hd _ _ h3 q2.1
  | names c vs ref bs ts hsh href hvs hne hpt hts =>
    obtain ⟨r, h4, h5⟩ := p3 c _ _ ref hvs hne href hpt
    rw [hsh] at h4
    obtain rfl := h4
    have hall : ∀ b ∈ bs, Spec.PlainText b.name.id ∧ b.name.id ≠ [] := by
      intro b hb
      obtain ⟨v, -, hv⟩ := forall₂_mem_right hpt hb
      exact (points_plain hv).2
    have hnamed : List.Forall₂ Spec.Named (bs.map fun b => .obj (some (e.promote b))) ts ∧
        ∀ t ∈ ts, t.getLast? ≠ some 0 := by
      clear hpt p3 hvs h5
      induction hts with
      | nil => simp
      | @cons b t bs ts h _ ih =>
        obtain ⟨i1, i2⟩ := ih fun b hb => hall b (by simp [hb])
        have hb := hall b (by simp)
        refine ⟨.cons (.inl ⟨_, rfl, hd _ _ h hb.1.1⟩) i1, fun u hu => ?_⟩
        rcases List.mem_cons.1 hu with rfl | hu
        · exact fun hl => utf8_zero h hb.1.1 (List.mem_of_getLast? hl)
        · exact i2 u hu
    refine ⟨_, h5, fun _ => ⟨_, rfl⟩, ?_, fun ex title v pw hv hp => hp.names _ _ (hv _ rfl) hnamed.1 hnamed.2⟩
    rintro - ⟨l, hl, hno⟩
    cases hl
    cases hpt with
    | nil => exact hne rfl
    | @cons _ b _ _ hpt _ =>
      have := points_plain hpt
      obtain ⟨h0, t, hu⟩ := this.2.1
      rcases hno (.obj (some (e.promote b))) (by simp) with h | ⟨x, h, h'⟩
      · cases h
      · cases h
        have hn : (e.promote b).name = .str t := hd _ _ hu h0
        rw [hn] at h'
        rcases h' with h' | h' <;> cases h'
        have := hu.2
        simp at this
        exact absurd this (points_plain hpt).2.2

theorem units_prints {e : Env} (hd : Spec.ReadsUtf8 e.dec) {o : BasicObject} (hl : Spec.LabelsOk e o)
    {k : Spec.RowKind} {label : String} {ex : Options} {u : Text} (h : Spec.UnitsOf o label ex k u)
    {r : PyResult} (hr : k = .names → ∃ l, r = .list l) {v : DVal}
    (hv : Spec.Displays e o k label r v) {title : PyStr} {pw : Text × Written × Text}
    (hp : Spec.Prints ex (title, v) pw) : pw.2.2 = u := by
  cases h with
  | none k hk =>
    refine hp.noUnits ?_
    rintro ⟨u, hu⟩
    cases k with
    | plain =>
      obtain rfl := hv
      rcases hu with ⟨_, hu⟩ | ⟨_, hu⟩ | ⟨_, _, hu⟩ | ⟨_, hu⟩ <;> cases hu
    | units => exact hk rfl
    | names =>
      obtain ⟨l, rfl⟩ := hr rfl
      obtain rfl := hv l rfl
      rcases hu with ⟨_, hu⟩ | ⟨_, hu⟩ | ⟨_, _, hu⟩ | ⟨_, hu⟩ <;> cases hu
  | absent hno =>
    refine hp.noUnits ?_
    rintro ⟨u, hu⟩
    rcases hv with ⟨a, h1, h2, -⟩ | ⟨-, rfl⟩
    · exact hno a h1 h2
    · rcases hu with ⟨_, hu⟩ | ⟨_, hu⟩ | ⟨_, _, hu⟩ | ⟨_, hu⟩ <;> cases hu
  | present a t u ha hlab h1 h2 h3 =>
    rcases hv with ⟨a', h4, h5, rfl⟩ | ⟨hno, -⟩
    · have : a' = a := List.inj_on_of_nodup_map hl.1 h4 ha (h5.trans hlab.symm)
      subst this
      obtain ⟨w, k1, k2⟩ := hp.units t (.inl ⟨r, by rw [← hd _ _ h1 h2]⟩)
      rw [k2, stripped_same k1 h3]
    · exact absurd hlab (hno a ha)

theorem titles_check : ∀ x ∈ Spec.titles, x.2.1 ≠ "" ∧ (x.1, x.2.1) ≠ ("FRAME", "Channels") ∧
    ¬ (x.1 ∈ ["CHANNEL", "PARAMETER", "COMPUTATION", "PROCESS"] ∧ x.2.1 = "Description") ∧
    PlainLabel x.1 := by
  unfold PlainLabel
  decide +kernel

theorem text_inj {a b : String} (h : text a = text b) : a = b := by
  unfold text at h
  have : Function.Injective Char.toNat := fun c d h => Char.toNat_inj.1 h
  exact String.toList_inj.1 (this.list_map h)

/-- C86, for one of the files. -/
theorem entered_tells {e : Env} (hd : Spec.ReadsUtf8 e.dec) {np : List PyVal → Option Nat}
    {sul : Option Bytes} {f : Stored} {g : LogFile} (hg : Faithful e.policy sul f g)
    {ss : List Spec.ObjSet} (hs : Spec.HoldsSets f ss) (hl : Spec.Legible e.policy ss)
    {o : BasicObject} (ho : o ∈ Spec.recorded ss) {hist : List Spec.StoreOp}
    {x : Wrapper} (hx : Spec.Wraps x) (hp : Spec.Printed x) {pr : Printer}
    {width n : Nat} {indent : Text} (hw : indent.length + 18 ≤ width) {depth : Nat} {ex : Options}
    (ha : ex.attr = false) {out : Text}
    (hout : ((Spec.after e g.sets hist).objectText e np x pr width n indent depth o ex).2 = .ok (some out))
    {type title name : String} {k : Spec.RowKind} (htit : (type, title, name, k) ∈ Spec.titles)
    (ht : o.type = Fingerprint.ascii type) {d : Spec.Doc} (hdoc : d ∈ Spec.documented ++ Spec.renamed)
    (h1 : d.type = type) (h2 : d.name = name) {filled : Prop} {w : Written} {u : Text}
    (he : Spec.Entered e ss o d k filled w) (hu : Spec.UnitsOf o d.label ex k u)
    (hf : ex.empty = false ∨ filled) : Spec.Tells x width indent out (text title, w, u) := by
  obtain ⟨c1, c2, c3, c4⟩ := titles_check _ htit
  have hdec : e.dec o.type = .str (text type) := by rw [ht]; exact (label_dec hd c4).1
  obtain ⟨r, k1, k2, k3, k4⟩ := entered_prints hd hg hs hl ho hdoc (by rw [h1]; exact ht) he
  obtain ⟨rows, q1, q2⟩ := c85_row_partial e np g.sets hist hx hp pr width n indent hw depth o ex out hout
  obtain ⟨v, v1, v2⟩ := c70_rows_partial e hd np g.sets hist ex ha o rows q1 type title name k htit hdec d hdoc
    h1 h2 r (by rw [← h2]; exact k1) k2
  have hmem := v2 (by
    rintro ⟨hemp, hno⟩
    rcases hf with hf | hf
    · rw [hf] at hemp; cases hemp
    · exact k3 hf hno)
  obtain ⟨before, line, after, rfl, b1, b2⟩ := q2 _ hmem
  rcases b2 with ⟨pw, column, p1, p2⟩ | ⟨pw, p1, p2, -⟩ | ⟨d', ds, p1, p2, -⟩
  · refine ⟨before, line, after, column, rfl, b1, ?_⟩
    have e1 := p1.title _ rfl
    have e2 := k4 _ _ _ _ v1 p1
    have e3 := units_prints hd (recorded_labels hd hs hl ho) hu k2 v1 p1
    obtain ⟨a, b, c⟩ := pw
    simp only at e1 e2 e3
    subst e1 e2 e3
    exact p2
  · exfalso
    rcases p2 with ⟨-, p2⟩ | ⟨p2, l, p3⟩
    · simp only [PyStr.str.injEq] at p2
      exact c1 (text_inj p2)
    · rw [hdec, PyStr.str.injEq] at p2
      simp only [Prod.mk.injEq, PyStr.str.injEq] at p3
      exact c2 (by simp only [text_inj p2, text_inj p3.1])
  · exfalso
    simp only [Prod.mk.injEq, PyStr.str.injEq] at p2
    rw [hdec] at p1
    simp only [Spec.describedTypes, List.mem_cons, PyStr.str.injEq, List.not_mem_nil, or_false] at p1
    refine c3 ⟨?_, text_inj p2.1⟩
    simp only [List.mem_cons, List.not_mem_nil, or_false]
    rcases p1 with p1 | p1 | p1 | p1
    · exact .inl (text_inj p1)
    · exact .inr (.inl (text_inj p1))
    · exact .inr (.inr (.inl (text_inj p1)))
    · exact .inr (.inr (.inr (text_inj p1)))

/-! ### There is a summary -/

theorem simple_linkage : ∀ t ∈ Spec.simpleTypes, (classOf (.str (text t))).all (fun c =>
    c.linkage.all fun l => c.attributes.any fun a => decide (a.1 = l.1)) = true := by
  decide +kernel

theorem simple_types : ∀ t ∈ Spec.simpleTypes, PlainLabel t := by
  unfold PlainLabel
  decide +kernel

/-- Only labels that are known are references. -/
theorem linkage_none {type : String} (hx : type ∈ Spec.simpleTypes) {k : PyStr}
    (h : (rulesOf (.str (text type))).attributes k = none) : (rulesOf (.str (text type))).linkage k = none := by
  have hc := simple_linkage type hx
  unfold rulesOf at h ⊢
  cases hcl : classOf (.str (text type)) with
  | none => rfl
  | some c =>
    rw [hcl] at h hc
    simp only [Option.all_some, List.all_eq_true] at hc
    simp only [ObjClass.rules, ruleOf, Option.map_eq_none_iff, List.find?_eq_none] at h ⊢
    intro x hx hk
    obtain ⟨a, ha, he⟩ := List.any_eq_true.1 (hc x hx)
    refine h a ha ?_
    rw [of_decide_eq_true he]
    exact hk

theorem shown_notObj {e : Env} {c : Reprc} {v : Val} {w : PyVal} (h : Spec.Shown e c v w) (x : Option PyObj) :
    w ≠ .obj x := by
  rintro rfl
  unfold Spec.Shown at h
  split at h
  · split at h
    · cases h
    · obtain ⟨_, h, -⟩ := h; cases h
  · cases h

/-- A result that is an object is one that is recorded. -/
theorem readable_property {e : Env} (hd : Spec.ReadsUtf8 e.dec)
    {sul : Option Bytes} {f : Stored} {g : LogFile} (hg : Faithful e.policy sul f g)
    {ss : List Spec.ObjSet} (hs : Spec.HoldsSets f ss) (hl : Spec.Legible e.policy ss)
    {o : BasicObject} (ho : o ∈ Spec.recorded ss) {d : Spec.Doc}
    (hdoc : d ∈ Spec.documented ++ Spec.renamed) (ht : o.type = Fingerprint.ascii d.type)
    (h : Spec.Readable e ss d.type o) :
    ∃ r, (∀ hist, ((Spec.after e g.sets hist).property e o d.name).2 = .ok r) ∧
      (d.shape = .vector → ∃ l, r = .list l) ∧
      ∀ x, r = .elem (.obj (some x)) → ∃ ref v b, d.ref = some ref ∧ Spec.PointsTo e ss ref v b ∧ x = e.promote b := by
  obtain ⟨p1, p2, p3⟩ := c77_properties_partial e hd sul f g hg ss hs hl o ho d hdoc ht
  rcases h.known d hdoc rfl with h | ⟨c, vs, h1, hne, ⟨h2, h3⟩ | ⟨ref, bs, h2, h3⟩⟩
  · obtain ⟨r, h1, h2⟩ := p1 h
    refine ⟨r, fun hist => by rw [h2], fun hv => ?_, fun x hx => ?_⟩
    · rw [hv] at h1; exact ⟨_, h1⟩
    · subst hx
      cases hsh : d.shape <;> rw [hsh] at h1 <;> cases h1
  · obtain ⟨ws, r, q1, q2, q3⟩ := p2 c vs h1 hne h2 (.inr h3)
    refine ⟨r, fun hist => by rw [q3], fun hv => ?_, fun x hx => ?_⟩
    · rw [hv] at q2; exact ⟨_, q2⟩
    · subst hx
      cases hsh : d.shape with
      | scalar =>
        rw [hsh] at q2
        obtain ⟨w, hw, hr⟩ := q2
        cases hr
        cases q1 with
        | nil => cases hw
        | cons q1 _ => cases hw; exact absurd rfl (shown_notObj q1 _)
      | vector => rw [hsh] at q2; cases q2
      | reverse => rw [hsh] at q2; obtain ⟨_, q2, -⟩ := q2; cases q2
      | boolean => rw [hsh] at q2; obtain ⟨_, -, _, q2, -⟩ := q2; cases q2
  · obtain ⟨r, q2, q3⟩ := p3 c vs bs ref h1 hne h2 h3
    refine ⟨r, q3, fun hv => ?_, fun x hx => ?_⟩
    · rw [hv] at q2; exact ⟨_, q2⟩
    · subst hx
      cases hsh : d.shape with
      | scalar =>
        rw [hsh] at q2
        obtain ⟨w, hw, hr⟩ := q2
        cases h3 with
        | nil => cases hw
        | @cons v b vs bs h3 _ =>
          cases hw
          simp only [PyResult.elem.injEq, PyVal.obj.injEq, Option.some.injEq] at hr
          exact ⟨ref, v, b, h2, h3, hr⟩
      | vector => rw [hsh] at q2; cases q2
      | reverse => rw [hsh] at q2; obtain ⟨_, q2, -⟩ := q2; cases q2
      | boolean => rw [hsh] at q2; obtain ⟨_, -, _, q2, -⟩ := q2; cases q2

/-! ### All references can be written down -/

theorem toPy_writes {dec : Bytes → PyStr} {c : Reprc} {v : Val} {w : PyVal} (h : toPy dec c v = some w)
    (hv : Spec.Writable v) : w.writes = true := by
  unfold toPy at h
  split at h
  · cases h; rfl
  · split at h
    · cases h; exact (reprOk_iff _).2 hv
    · cases h
  · cases h; exact (reprOk_iff _).2 hv

theorem toPyList_writes {dec : Bytes → PyStr} {c : Reprc} : ∀ {vs : List Val} {ws : List PyVal},
    toPyList dec c vs = some ws → (∀ v ∈ vs, Spec.Writable v) → ∀ w ∈ ws, w.writes = true
  | [], ws, h, _ => by cases h; simp
  | v :: vs, ws, h, hv => by
    unfold toPyList at h
    split at h
    · rename_i w ws' h1 h2
      cases h
      intro x hx
      rcases List.mem_cons.1 hx with rfl | hx
      · exact toPy_writes h1 (hv v (by simp))
      · exact toPyList_writes h2 (fun v h => hv v (by simp [h])) x hx
    · cases h

theorem strip_writes {w : PyVal} (h : w.writes = true) : (stripVal w).writes = true := by
  unfold stripVal
  split
  · rfl
  · exact h

theorem parse_writes {w : PyVal} {ws : List PyVal} (h : ∀ x ∈ w :: ws, x.writes = true) (p : ParseAs) :
    (parseValue w ws p).writes = true := by
  cases p with
  | scalar => exact h w (by simp)
  | vector => exact List.all_eq_true.2 h
  | reverse => exact List.all_eq_true.2 fun x hx => h x (List.mem_reverse.1 hx)
  | boolean => rfl

theorem default_writes (p : ParseAs) : (defaultValue p).writes = true := by cases p <;> rfl

theorem lookupAll_writes {e : Env} {ref : RefType} : ∀ {vs : List PyVal} {s : Store} {ws : List PyVal},
    (lookupAll e ref vs s).2 = some ws → ∀ w ∈ ws, w.writes = true
  | [], s, ws, h => by cases h; simp
  | v :: vs, s, ws, h => by
    unfold lookupAll at h
    rcases hl : lookupVal e s ref v with ⟨s1, _ | o | _⟩ <;> rw [hl] at h <;> simp only at h
    all_goals first
      | cases h
      | rcases hr : lookupAll e ref vs s1 with ⟨s2, _ | rest⟩ <;> rw [hr] at h <;> cases h
    all_goals
      have ih := lookupAll_writes (by rw [hr] : (lookupAll e ref vs s1).2 = some rest)
      intro w hw
      rcases List.mem_cons.1 hw with rfl | hw
      · rfl
      · exact ih w hw

/-- The references in what an attribute is read as can be written down if those in the file can. -/
theorem getItem_writes {e : Env} {rules : Rules} {s : Store} {o : BasicObject} {key : PyStr} {r : PyResult}
    (hv : ∀ a ∈ o.attributes, ∀ c vs, a.value = some (c, vs) → ∀ v ∈ vs, Spec.Writable v)
    (h : (getItem e rules s o key).2 = .ok r) : r.writes = true := by
  unfold getItem at h
  split at h
  · cases h
  simp only at h
  split at h
  · cases h
  cases hat : attrAt key.toStd o.attributes with
  | none => rw [hat] at h; cases h; exact default_writes _
  | some a =>
    rw [hat] at h
    simp only at h
    cases hpv : pyValues e.dec a with
    | none => rw [hpv] at h; cases h
    | some vs =>
      rw [hpv] at h
      simp only at h
      split at h
      · cases h
      have hws : ∀ w ∈ vs, w.writes = true := by
        unfold pyValues at hpv
        split at hpv
        · cases hpv; simp
        · rename_i c us hval
          exact toPyList_writes hpv (hv a (List.mem_of_find?_eq_some hat) c us hval)
      cases vs with
      | nil => cases h; exact default_writes _
      | cons v vs =>
        simp only [finishValue] at h
        split at h
        · rename_i ref _ _
          rcases hl : lookupAll e ref (v :: vs) s with ⟨s1, _ | _ | ⟨w, ws⟩⟩ <;> rw [hl] at h <;> cases h
          · exact default_writes _
          · exact parse_writes (lookupAll_writes (by rw [hl])) _
        · cases h
          refine parse_writes (fun x hx => ?_) _
          rw [← List.map_cons, List.mem_map] at hx
          obtain ⟨y, hy, rfl⟩ := hx
          exact strip_writes (hws y hy)

theorem property_writes {e : Env} {s : Store} {o : BasicObject} {name : String} {r : PyResult}
    (hv : ∀ a ∈ o.attributes, ∀ c vs, a.value = some (c, vs) → ∀ v ∈ vs, Spec.Writable v)
    (h : (s.property e o name).2 = .ok r) : r.writes = true := by
  unfold Store.property at h
  split at h
  · cases h
  split at h
  · split_ifs at h
  · rename_i x _
    split at h
    · rename_i hg
      cases h
      exact getItem_writes hv (by rw [hg])
    · cases h

theorem replist_writes {r : PyResult} {d : DVal} (hr : r.writes = true) (h : replist r = .ok d) :
    d.writes = true := by
  unfold replist at h
  split at h
  · cases h; exact hr
  · cases h
  · cases h; rfl
  · cases h; exact hr

theorem describeAttribute_writes {e : Env} {o : BasicObject} {s : Store} {x r : Row}
    (hv : ∀ a ∈ o.attributes, ∀ c vs, a.value = some (c, vs) → ∀ v ∈ vs, Spec.Writable v)
    (hx : x.2.writes = true) (h : (describeAttribute e o s x).2 = .ok r) : r.2.writes = true := by
  unfold describeAttribute at h
  split at h
  · cases h; exact hx
  split at h
  · cases h; exact hx
  simp only at h
  split at h
  · cases h
  · rename_i hg
    have := getItem_writes hv hg
    split at h
    · cases h; exact this
    · split at h
      · cases h
      · cases h; exact this

/-- Where the rows of a summary come from. -/
theorem describe_rows {e : Env} {np : List PyVal → Option Nat} {p : List ObjectSet} {hist : List Spec.StoreOp}
    {o : BasicObject} {ex : Options} {rows : List Row}
    (h : ((Spec.after e p hist).describe e np o ex).2 = .ok rows) {r : Row} (hr : r ∈ rows) :
    r ∈ headerRows e o ∨
    (∃ sec ∈ sectionsOf (e.dec o.type), ∃ hist part,
      (Section.run e np ex o (Spec.after e p hist) sec).2 = .ok part ∧ r ∈ part) ∨
    (ex.stash = false ∧ ∃ a ∈ o.attributes, r.1 = e.dec a.label ∧
      (rulesOf (e.dec o.type)).attributes (e.dec a.label) = none ∧ (∃ w u, r.2 = .attr w u) ∧
      ((∀ a ∈ o.attributes, ∀ c vs, a.value = some (c, vs) → ∀ v ∈ vs, Spec.Writable v) → r.2.writes = true)) := by
  unfold Store.describe at h
  obtain ⟨parts, h1, h2⟩ := andThen_ok h
  obtain ⟨unknown, h3, h4⟩ := andThen_ok h2
  cases h4
  rcases List.mem_append.1 hr with hr | hr
  · rcases List.mem_append.1 hr with hr | hr
    · split at hr
      · cases hr
      · exact .inl (mem_describeDict.1 hr).1
    · obtain ⟨part, hp, hr⟩ := List.mem_flatten.1 hr
      split at h1
      · cases h1; cases hp
      · obtain ⟨sec, hsec, s, ⟨hist, rfl⟩, hrun⟩ := forall₂_mem_right
          (each_ok (fun s a hs => run_reach s a hs) _ _ _ ⟨hist, rfl⟩ h1) hp
        exact .inr (.inl ⟨sec, hsec, hist, part, hrun, hr⟩)
  · split at h3
    · cases h3; cases hr
    · rename_i hst
      refine .inr (.inr ⟨by simpa using hst, ?_⟩)
      unfold describeStash at h3
      split at h3
      · cases h3
      rename_i d hd
      unfold describeAttributes at h3
      obtain ⟨rs, g1, g2⟩ := andThen_ok h3
      obtain rfl := written_ok g2
      obtain ⟨x, hx, s', -, hy⟩ := forall₂_mem_right (each_ok (p := p)
        (fun _ _ hs => describeAttribute_reach hs) _ _ _ (by
          split
          · exact ⟨hist, rfl⟩
          · exact each_reach (fun s a hs => run_reach s a hs) _ _ ⟨hist, rfl⟩) g1) (mem_describeDict.1 hr).1
      obtain ⟨y, hy', rfl⟩ := List.mem_map.1 hx
      have hk : y.1 ∈ (pyKeys e o).filter fun k => ((rulesOf (e.dec o.type)).attributes k).isNone := by
        rcases stashLoop_only e o _ _ _ hd y.1 (List.mem_map.2 ⟨y, hy', rfl⟩) with h | h
        · exact h
        · cases h
      obtain ⟨hk1, hk2⟩ := List.mem_filter.1 hk
      obtain ⟨a, ha, hka⟩ := List.mem_map.1 hk1
      refine ⟨a, ha, (describeAttribute_keeps hy).1.trans hka.symm, ?_, ?_,
        fun hv => describeAttribute_writes hv rfl hy⟩
      · rw [hka]; exact Option.isNone_iff_eq_none.1 hk2
      · unfold describeAttribute at hy
        simp only [DVal.ofText, DVal.key?] at hy
        rw [if_neg (by simp [hk1])] at hy
        simp only at hy
        split at hy
        · cases hy
        rw [if_neg (by simp [hk1])] at hy
        split at hy
        · cases hy
        · cases hy; exact ⟨_, _, rfl⟩

/-- The description is no object, or one of the type "LONG-NAME". -/
def describedBy (type : String) (f : Spec.Doc → Bool) : Bool :=
  decide (type ≠ "LONG-NAME") && (Spec.documented ++ Spec.renamed).all fun d =>
    !(decide (d.type = type) && f d) || decide (d.ref = none ∨ d.ref = Spec.ref "LONG-NAME")

/-- Titles are short, and descriptions are described as above. -/
def sectionFits (type : String) : Section → Bool
  | .dict rows => rows.all fun x => decide ((text x.1).length ≤ 36) && (decide (x.1 ≠ "Description") ||
      match x.2 with
      | .prop n => describedBy type fun d => decide (d.name = n)
      | _ => true)
  | .attributes rows => rows.all fun x => decide ((text x.1).length ≤ 36) && (decide (x.1 ≠ "Description") ||
      match x.2 with
      | .label l => describedBy type fun d => decide (d.label = l)
      | _ => true)
  | .description n => describedBy type fun d => decide (d.name = n)
  | .array _ => true
  | _ => false

theorem simple_fits : ∀ t ∈ Spec.simpleTypes, ∀ sec ∈ sectionsOf (.str (text t)), sectionFits t sec = true := by
  decide +kernel

/-- The titles of a summary are short, and only objects of the type "LONG-NAME" are descriptions. -/
theorem simple_row {e : Env} (hd : Spec.ReadsUtf8 e.dec) {np : List PyVal → Option Nat} {ex : Options}
    {sul : Option Bytes} {f : Stored} {g : LogFile} (hg : Faithful e.policy sul f g)
    {ss : List Spec.ObjSet} (hs : Spec.HoldsSets f ss) (hl : Spec.Legible e.policy ss)
    {o : BasicObject} (ho : o ∈ Spec.recorded ss) {type : String} (hx : type ∈ Spec.simpleTypes)
    (ht : o.type = Fingerprint.ascii type) (h : Spec.Readable e ss type o) {sec : Section}
    (hsec : sec ∈ sectionsOf (.str (text type))) {hist : List Spec.StoreOp} {part : List Row}
    (hrun : (Section.run e np ex o (Spec.after e g.sets hist) sec).2 = .ok part) {r : Row} (hr : r ∈ part) :
    (∃ t, r.1 = .str t ∧ t.length ≤ 36 ∧ r.2.writes = true) ∧
    ∀ x, r = (.str (text "Description"), .res (.elem (.obj (some x)))) → type ≠ "LONG-NAME" ∧
      ∃ v b, Spec.PointsTo e ss (.obname (.str (text "LONG-NAME"))) v b ∧ x = e.promote b := by
  have hdec : e.dec o.type = .str (text type) := by rw [ht]; exact (label_dec hd (simple_types _ hx)).1
  have hsimple := simple_check _ hx _ hsec
  have hfit := simple_fits _ hx _ hsec
  have key : ∀ {f : Spec.Doc → Bool}, describedBy type f = true → ∀ d ∈ Spec.documented ++ Spec.renamed,
      d.type = type → f d = true → ∀ hist x,
      ((Spec.after e g.sets hist).property e o d.name).2 = .ok (.elem (.obj (some x))) →
      type ≠ "LONG-NAME" ∧
        ∃ v b, Spec.PointsTo e ss (.obname (.str (text "LONG-NAME"))) v b ∧ x = e.promote b := by
    intro f hf d hdoc hdt hfd hist x hp
    unfold describedBy at hf
    rw [Bool.and_eq_true, decide_eq_true_eq] at hf
    refine ⟨hf.1, ?_⟩
    have := List.all_eq_true.1 hf.2 d hdoc
    simp only [hdt, hfd, decide_true, Bool.and_self, Bool.not_true, Bool.false_or, decide_eq_true_eq] at this
    subst hdt
    obtain ⟨r, h1, -, h2⟩ := readable_property hd hg hs hl ho hdoc ht h
    have := (h1 hist).symm.trans hp
    cases this
    obtain ⟨ref, v, b, k1, k2, k3⟩ := h2 x rfl
    rcases this with hr | hr
    · rw [hr] at k1; cases k1
    · rw [hr] at k1
      cases k1
      exact ⟨v, b, k2, k3⟩
  have named : ∀ {n : String} {b : Bool}, docNamed type n b = true →
      ∃ d ∈ Spec.documented ++ Spec.renamed, d.type = type ∧ d.name = n := by
    intro n b hn
    unfold docNamed at hn
    obtain ⟨d, hd, hdd⟩ := List.any_eq_true.1 hn
    obtain ⟨h1, h2, -⟩ := of_decide_eq_true hdd
    exact ⟨d, hd, h1, h2⟩
  cases sec with
  | dict rows =>
    obtain ⟨rs, h1, h2⟩ := andThen_ok hrun
    cases h2
    obtain ⟨x, hxm, s', ⟨hist', rfl⟩, hy⟩ := forall₂_mem_right
      (each_ok (fun s x hs => evalRow_reach s x hs) _ _ _ ⟨hist, rfl⟩ h1) (mem_describeDict.1 hr).1
    have hc := List.all_eq_true.1 hsimple x hxm
    have hf := List.all_eq_true.1 hfit x hxm
    obtain ⟨v, k1, k2⟩ := andThen_ok hy
    cases k2
    obtain ⟨title, src⟩ := x
    simp only [Bool.and_eq_true, Bool.or_eq_true, decide_eq_true_eq] at hf
    refine ⟨⟨_, rfl, hf.1, ?_⟩, fun y hy => ?_⟩
    · cases src with
      | prop n =>
        obtain ⟨r, q1, q2⟩ := andThen_ok k1
        cases q2
        exact property_writes h.written (prop_ok q1)
      | names n =>
        obtain ⟨r, q1, q2⟩ := andThen_ok k1
        exact replist_writes (property_writes h.written (prop_ok q1)) q2
      | pair a b =>
        obtain ⟨r, q1, q2⟩ := andThen_ok k1
        obtain ⟨r', q3, q4⟩ := andThen_ok q2
        cases q4
        exact Bool.and_eq_true_iff.2 ⟨property_writes h.written (prop_ok q1), property_writes h.written (prop_ok q3)⟩
      | label l => cases k1; rfl
      | objects => cases hc
      | count n => cases hc
      | samples => cases hc
    simp only [Prod.mk.injEq, PyStr.str.injEq] at hy
    obtain ⟨hy1, rfl⟩ := hy
    have hf2 := hf.2.resolve_left (fun h => h (text_inj hy1))
    cases src with
    | prop n =>
      obtain ⟨d, hdoc, hdt, rfl⟩ := named hc
      obtain ⟨r, q1, q2⟩ := andThen_ok k1
      cases q2
      exact key hf2 d hdoc hdt (by simp) hist' y (prop_ok q1)
    | names n =>
      obtain ⟨r, q1, q2⟩ := andThen_ok k1
      unfold replist at q2
      split at q2
      · cases q2
      · cases q2
      · cases q2
      · rename_i hno _
        simp only [Except.ok.injEq, DVal.res.injEq] at q2
        exact absurd q2 (hno y)
    | pair a b =>
      obtain ⟨r, q1, q2⟩ := andThen_ok k1
      obtain ⟨r', q3, q4⟩ := andThen_ok q2
      cases q4
    | label l => cases k1
    | objects => cases hc
    | count n => cases hc
    | samples => cases hc
  | attributes rows =>
    obtain ⟨rs, h1, h2⟩ := andThen_ok hrun
    unfold describeAttributes at h2
    obtain ⟨rs', h3, h4⟩ := andThen_ok h2
    obtain rfl := written_ok h4
    obtain ⟨z, hz, s', ⟨hist', rfl⟩, hy⟩ := forall₂_mem_right (each_ok (p := g.sets)
        (fun _ _ hs => describeAttribute_reach hs) _ _ _ (evalRows_reach ⟨hist, rfl⟩) h3) (mem_describeDict.1 hr).1
    obtain ⟨x, hxm, s', -, hz'⟩ := forall₂_mem_right
      (each_ok (fun s x hs => evalRow_reach s x hs) _ _ _ ⟨hist, rfl⟩ h1) hz
    have hc := List.all_eq_true.1 hsimple x hxm
    have hf := List.all_eq_true.1 hfit x hxm
    obtain ⟨title, src⟩ := x
    simp only [Bool.and_eq_true, Bool.or_eq_true, decide_eq_true_eq] at hf
    have hsrc : ∃ l, src = .label l := by
      cases src <;> first | exact ⟨_, rfl⟩ | cases hc
    obtain ⟨l, rfl⟩ := hsrc
    cases hz'
    have htitle := (describeAttribute_keeps hy).1
    refine ⟨⟨_, htitle, hf.1, describeAttribute_writes h.written rfl hy⟩, fun y hy' => ?_⟩
    subst hy'
    simp only [PyStr.str.injEq] at htitle
    have hf2 := hf.2.resolve_left (fun h => h (text_inj htitle.symm))
    simp only [List.any_eq_true, decide_eq_true_eq] at hc
    obtain ⟨d, hdoc, hdt, rfl⟩ := hc
    unfold describeAttribute at hy
    simp only [DVal.ofText, DVal.key?] at hy
    split at hy
    · simp at hy
    simp only at hy
    split at hy
    · cases hy
    · rename_i r hgr
      split at hy
      · simp only [Except.ok.injEq, Prod.mk.injEq, DVal.res.injEq] at hy
        obtain ⟨-, rfl⟩ := hy
        refine key hf2 d hdoc hdt (by simp) hist' y ?_
        obtain ⟨-, -, -, hrun⟩ := rulesOf_property (docs_check d hdoc) (e := e) (o := o) (by rw [hdec, hdt])
        rw [hrun]
        rcases hgi : getItem e (rulesOf (e.dec o.type)) (Spec.after e g.sets hist') o (.str (text d.label))
          with ⟨s2, x | x⟩
        · rw [hgi] at hgr; cases hgr
        · rw [hgi] at hgr; cases hgr; rfl
      · split at hy
        · cases hy
        · simp at hy
  | sampled dim values => cases hsimple
  | description n =>
    obtain ⟨d, hdoc, hdt, rfl⟩ := named hsimple
    obtain ⟨r', q1, q2⟩ := andThen_ok hrun
    simp only [Except.ok.injEq] at q2
    subst q2
    have hrow : r = (.str (text "Description"), .res r') := by
      split at hr
      · cases hr
      · split at hr
        · simpa using hr
        · have := (mem_describeDict.1 hr).1
          simpa using this
    subst hrow
    refine ⟨⟨_, rfl, by decide +kernel, property_writes h.written (prop_ok q1)⟩, fun y hy => ?_⟩
    simp only [Prod.mk.injEq, DVal.res.injEq, true_and] at hy
    subst hy
    exact key hfit d hdoc hdt (by simp) hist y (prop_ok q1)
  | array n =>
    obtain ⟨r', q1, q2⟩ := andThen_ok hrun
    simp only [Except.ok.injEq] at q2
    subst q2
    have hrow : r = (.str [], .res r') := by
      split at hr
      · cases hr
      · simpa using hr
    subst hrow
    refine ⟨⟨[], rfl, by simp, property_writes h.written (prop_ok q1)⟩, fun y hy => ?_⟩
    simp only [Prod.mk.injEq, PyStr.str.injEq] at hy
    exact absurd hy.1 (by decide +kernel)
  | coordinates => cases hsimple
  | frame => cases hsimple

/-- Labels are texts. -/
theorem recorded_text {e : Env} (hd : Spec.ReadsUtf8 e.dec) {policy : Policy}
    {ss : List Spec.ObjSet} (hl : Spec.Legible policy ss) {o : BasicObject} (ho : o ∈ Spec.recorded ss)
    {a : ObjAttr} (ha : a ∈ o.attributes) : ∃ t, Dlisio.Spec.Utf8 t a.label ∧ e.dec a.label = .str t := by
  obtain ⟨s, hs, hos⟩ := recorded_mem ho
  obtain ⟨x, -, rfl⟩ := List.mem_map.1 hos
  obtain ⟨k1, -⟩ := objAttrs_spec s.template x.comps
  have : a.label ∈ s.template.map (·.label) := k1.subset (List.mem_map.2 ⟨a, ha, rfl⟩)
  obtain ⟨y, hy, hyl⟩ := List.mem_map.1 this
  obtain ⟨h0, t, ht⟩ := hl.labels s hs y hy
  rw [← hyl]
  exact ⟨t, ht, hd _ _ ht h0⟩

/-- There is a summary of each object that can be read. -/
theorem readable_summary {e : Env} (hd : Spec.ReadsUtf8 e.dec) (np : List PyVal → Option Nat) (ex : Options)
    {sul : Option Bytes} {f : Stored} {g : LogFile} (hg : Faithful e.policy sul f g)
    {ss : List Spec.ObjSet} (hs : Spec.HoldsSets f ss) (hl : Spec.Legible e.policy ss)
    {o : BasicObject} (ho : o ∈ Spec.recorded ss) {type : String} (hx : type ∈ Spec.simpleTypes)
    (ht : o.type = Fingerprint.ascii type) (h : Spec.Readable e ss type o) (hist : List Spec.StoreOp) :
    ∃ rows, ((Spec.after e g.sets hist).describe e np o ex).2 = .ok rows := by
  have hdec : e.dec o.type = .str (text type) := by rw [ht]; exact (label_dec hd (simple_types _ hx)).1
  have hq := recorded_quiet (e := e) ho
  refine c70_summary e np g.sets hist ex o (recorded_labels hd hs hl ho) type hx hdec ?_ hq.1 ?_
  · rintro d hdoc rfl hist
    obtain ⟨r, h1, h2, -⟩ := readable_property hd hg hs hl ho hdoc ht h
    exact ⟨r, h1 hist, h2⟩
  · intro a ha hr
    refine ⟨hq.2 a ha, ?_, (recorded_text hd hl ho ha).imp fun _ h => h.2, h.other a ha ?_⟩
    · rw [hdec] at hr ⊢
      exact linkage_none hx hr
    · rintro d hdoc rfl hlab
      obtain ⟨h1, h2, -⟩ := rulesOf_property (docs_check d hdoc) (e := e) (o := o) hdec
      rw [hlab, (label_dec hd h1).1, h2] at hr
      cases hr

/-! ## Theorems -/

/-- C86.  From the bytes on a disk to the summaries: whenever the summary of a recorded object is
printed, each row tells what is recorded under its title. -/
theorem c86_summary_partial (e : Env) (hd : Spec.ReadsUtf8 e.dec) (horder : Spec.IsSetOrder e.order)
    (np : List PyVal → Option Nat)
    (stale : Nat → Bytes) (hst : ∀ t, 262 ≤ (stale t).length) (hm : e.policy .minor = false)
    (disk : Disk) (fs : List (Option Bytes × Stored)) (hmed : Spec.Medium e.policy disk fs)
    (hfs : ∀ x ∈ fs, ¬ Spec.HasUpdates e (setsOf x.2.recs) ∨
      ∃ ss, Spec.HoldsSets x.2 ss ∧ Spec.Legible e.policy ss ∧ Spec.HeaderPlain ss)
    (x : Wrapper) (hx : Spec.Wraps x) (hp : Spec.Printed x) (pr : Printer) :
    ∃ n₀, ∀ n, n₀ ≤ n → ∃ y, loadPy e disk stale n = (y, .files) ∧
      List.Forall₂ (fun f g => ∀ ss, Spec.HoldsSets f.2 ss → Spec.Legible e.policy ss →
        ∀ o ∈ Spec.recorded ss, ∀ hist width m indent depth ex out, indent.length + 18 ≤ width →
          ex.attr = false →
          ((Spec.after e g.sets hist).objectText e np x pr width m indent depth o ex).2 = .ok (some out) →
          ∀ type title name k, (type, title, name, k) ∈ Spec.titles → o.type = Fingerprint.ascii type →
          ∀ d ∈ Spec.documented ++ Spec.renamed, d.type = type → d.name = name →
          ∀ filled w u, Spec.Entered e ss o d k filled w → Spec.UnitsOf o d.label ex k u →
            (ex.empty = false ∨ filled) → Spec.Tells x width indent out (text title, w, u)) fs y.files := by
  obtain ⟨n₀, h⟩ := c79_load_partial e hd horder stale hst hm disk fs hmed hfs
  refine ⟨n₀, fun n hn => ?_⟩
  obtain ⟨y, h1, h2⟩ := h n hn
  refine ⟨y, h1, h2.imp ?_⟩
  rintro f g ⟨hg, -⟩ ss hs hl o ho hist width m indent depth ex out hw ha hout type title name k htit ht d hdoc
    k1 k2 filled w u he hu hf
  exact entered_tells hd hg hs hl ho hx hp hw ha hout htit ht hdoc k1 k2 he hu hf

/-- C86.  The summary of an object is printed if it can be read, with its description, if this is an object,
and if the titles of the rows fit in the lines. -/
theorem c86_printed_partial (e : Env) (hd : Spec.ReadsUtf8 e.dec) (np : List PyVal → Option Nat)
    (sul : Option Bytes) (f : Stored) (g : LogFile) (hg : Faithful e.policy sul f g)
    (ss : List Spec.ObjSet) (hs : Spec.HoldsSets f ss) (hl : Spec.Legible e.policy ss)
    (o : BasicObject) (ho : o ∈ Spec.recorded ss) (type : String) (hx : type ∈ Spec.simpleTypes)
    (ht : o.type = Fingerprint.ascii type) (h : Spec.Readable e ss type o)
    (hlong : ∀ b ∈ Spec.recorded ss, b.type = Fingerprint.ascii "LONG-NAME" → Spec.Readable e ss "LONG-NAME" b)
    (x : Wrapper) (hwr : Spec.Wraps x) (pr : Printer) (width : Nat) (indent : Text)
    (hw : indent.length + 39 ≤ width) (ex : Options)
    (hfit : ∀ a ∈ o.attributes, ∀ t, Dlisio.Spec.Utf8 t a.label → indent.length + t.length + 3 ≤ width)
    (hist : List Spec.StoreOp) (depth : Nat) (hdep : 2 ≤ depth) :
    ∃ n₀, ∀ n, n₀ ≤ n → ∃ out,
      ((Spec.after e g.sets hist).objectText e np x pr width n indent depth o ex).2 = .ok (some out) := by
  have hdec : ∀ {o : BasicObject} {type : String}, type ∈ Spec.simpleTypes → o.type = Fingerprint.ascii type →
      e.dec o.type = .str (text type) := by
    intro o type hx ht; rw [ht]; exact (label_dec hd (simple_types _ hx)).1
  have short : ∀ {o : BasicObject} {r : Row}, r ∈ headerRows e o → ∃ t, r.1 = .str t ∧ t.length ≤ 36 ∧ r.2.writes = true := by
    intro o r hr
    simp only [headerRows, List.mem_cons, List.not_mem_nil, or_false] at hr
    rcases hr with rfl | rfl | rfl
    · exact ⟨_, rfl, by decide +kernel, rfl⟩
    · exact ⟨_, rfl, by decide +kernel, rfl⟩
    · exact ⟨_, rfl, by decide +kernel, rfl⟩
  have hname : ∀ {o : BasicObject} {v : DVal}, (PyStr.str (text "Description"), v) ∉ headerRows e o := by
    intro o v hr
    simp only [headerRows, List.mem_cons, List.not_mem_nil, or_false, Prod.mk.injEq, PyStr.str.injEq] at hr
    rcases hr with hr | hr | hr
    · exact absurd hr.1 (by decide +kernel)
    · exact absurd hr.1 (by decide +kernel)
    · exact absurd hr.1 (by decide +kernel)
  obtain ⟨rows, hrows⟩ := readable_summary hd np ex hg hs hl ho hx ht h hist
  refine c85_ends e np g.sets hist hwr pr width indent (by omega) depth hdep o ex rows hrows ?_ ?_
  · intro r hr
    rcases describe_rows hrows hr with hr | ⟨sec, hsec, hist', part, hrun, hr⟩ | ⟨-, a, ha, hra, -, -, hwr'⟩
    · obtain ⟨t, h1, h2, h3⟩ := short hr
      exact ⟨t, h1, by omega, (row_writes _).1 h3⟩
    · rw [hdec hx ht] at hsec
      obtain ⟨⟨t, h1, h2, h3⟩, -⟩ := simple_row hd hg hs hl ho hx ht h hsec hrun hr
      exact ⟨t, h1, by omega, (row_writes _).1 h3⟩
    · obtain ⟨t, h1, h2⟩ := recorded_text hd hl ho ha
      exact ⟨t, hra.trans h2, hfit a ha t h1, (row_writes _).1 (hwr' h.written)⟩
  · intro d hdr
    have hlongname : d.attic ∈ Spec.recorded ss ∧ d.attic.type = Fingerprint.ascii "LONG-NAME" := by
      rcases describe_rows hrows hdr with hr | ⟨sec, hsec, hist', part, hrun, hr⟩ | ⟨-, a, -, -, -, ⟨w, u, hu⟩, -⟩
      · exact absurd hr hname
      · rw [hdec hx ht] at hsec
        obtain ⟨-, v, b, h1, rfl⟩ := (simple_row hd hg hs hl ho hx ht h hsec hrun hr).2 d rfl
        obtain ⟨type, name, hn, h2, -, -, honly⟩ := h1
        have : b ∈ (Spec.recorded ss).filter (fun x => decide (x.type = type ∧ x.name = name)) := by
          rw [show _ = [b] from honly]; simp
        rw [List.mem_filter, decide_eq_true_eq] at this
        refine ⟨this.1, this.2.1.trans ?_⟩
        rcases hn with ⟨-, hn⟩ | ⟨-, hn⟩
        · have hlab : PlainLabel "LONG-NAME" := simple_types _ (by decide +kernel)
          refine readsUtf8_inj hd h2 (plain_ascii hlab.1) ?_
          rw [(label_dec hd hlab).1]
          simp only [RefType.obname.injEq] at hn
          exact hn.symm
        · cases hn
      · cases hu
    have hmem : "LONG-NAME" ∈ Spec.simpleTypes := by decide +kernel
    have hr' := hlong _ hlongname.1 hlongname.2
    intro hist
    obtain ⟨rows', hrows'⟩ := readable_summary hd np (parseOptions "hes") hg hs hl hlongname.1 hmem hlongname.2 hr' hist
    refine ⟨rows', hrows', fun r hr => ?_, fun d' hd' => ?_⟩
    · rcases describe_rows hrows' hr with hr | ⟨sec, hsec, hist', part, hrun, hr⟩ | ⟨hst, -⟩
      · obtain ⟨t, h1, h2, h3⟩ := short hr
        exact ⟨t, h1, by omega, (row_writes _).1 h3⟩
      · rw [hdec hmem hlongname.2] at hsec
        obtain ⟨⟨t, h1, h2, h3⟩, -⟩ := simple_row hd hg hs hl hlongname.1 hmem hlongname.2 hr' hsec hrun hr
        exact ⟨t, h1, by omega, (row_writes _).1 h3⟩
      · exact absurd hst (by decide +kernel)
    · rcases describe_rows hrows' hd' with hr | ⟨sec, hsec, hist', part, hrun, hr⟩ | ⟨hst, -⟩
      · exact hname hr
      · rw [hdec hmem hlongname.2] at hsec
        exact ((simple_row hd hg hs hl hlongname.1 hmem hlongname.2 hr' hsec hrun hr).2 d' rfl).1 rfl
      · exact absurd hst (by decide +kernel)

namespace RecordedTextCase

open StoreCase EndToEndCase FromDiskCase

theorem utf8_length {t : Text} {bs : Bytes} (h : Dlisio.Spec.Utf8 t bs) : t.length ≤ bs.length := by
  rw [← List.length_map (f := BitVec.toNat), show bs.map BitVec.toNat = _ from h.2]
  clear h
  induction t with
  | nil => simp
  | cons c t ih =>
    have : 0 < (Dlisio.Spec.utf8Char c).length := by
      unfold Dlisio.Spec.utf8Char
      split_ifs <;> simp
    simp only [List.flatMap_cons, List.length_append, List.length_cons]
    omega

theorem numeral_case {n : Nat} {t : Text} (h : t = Text.ofNat n) : Spec.Numeral n t := (numeral_iff n t).2 h

/-- The channel "I" can be read. -/
theorem readable_case : Spec.Readable env setsOn "CHANNEL" chanI := by
  have h1 : ∀ d ∈ Spec.documented ++ Spec.renamed, d.type = "CHANNEL" →
      (∀ a ∈ chanI.attributes, a.label = Fingerprint.ascii d.label → a.value = none) ∨
      d.label = "REPRESENTATION-CODE" ∨ d.label = "DIMENSION" := by decide +kernel
  have h2 : ∀ a ∈ chanI.attributes, ∃ d ∈ Spec.documented ++ Spec.renamed, d.type = "CHANNEL" ∧
      a.label = Fingerprint.ascii d.label := by decide +kernel
  refine ⟨fun d hd ht => ?_, fun a ha hno => ?_, ?_⟩
  · rcases h1 d hd ht with h | h | h
    · exact .inl h
    · refine .inr ⟨_, _, ⟨chanI.attributes[0], by simp [chanI], by rw [h]; rfl, rfl⟩, by simp,
        .inl ⟨by simp [Spec.DatesOk], by simp⟩⟩
    · refine .inr ⟨_, _, ⟨chanI.attributes[1], by simp [chanI], by rw [h]; rfl, rfl⟩, by simp,
        .inl ⟨by simp [Spec.DatesOk], by simp⟩⟩
  · obtain ⟨d, hd, ht, hl⟩ := h2 a ha
    exact absurd hl (hno d hd ht)
  · intro a ha c vs hv v hvs
    have h : ∀ a ∈ chanI.attributes, ∀ x ∈ a.value, ∀ v ∈ x.2, v.reprOk = true := by decide +kernel
    exact (reprOk_iff v).1 (h a ha (c, vs) (by rw [hv]; rfl) v hvs)

/-- Case for `c86_summary_partial` and `c86_printed_partial`: a file with a channel is loaded, and the
summary of the channel is printed.  It tells the dimensions, first rows and then columns, and that there
are no axes and no units. -/
example (disk : Disk) (h : Spec.Medium env.policy disk [(some exLabel, fileOn)]) (np : List PyVal → Option Nat) :
    ∃ n₀, ∀ n, n₀ ≤ n → ∃ y g, loadPy env disk exStale n = (y, .files) ∧ y.files = [g] ∧
      ∀ hist, ∃ m₀, ∀ m, m₀ ≤ m → ∃ out, ((Spec.after env g.sets hist).objectText env np LayoutCase.plain
          ObjectTextCase.printer 80 m (text " ") 2 chanI (parseOptions "")).2 = .ok (some out) ∧
        Spec.Tells LayoutCase.plain 80 (text " ") out
          (text "Sample dimensions", .list [text "2", text "3"], []) ∧
        Spec.Tells LayoutCase.plain 80 (text " ") out (text "Axis", .list [], []) ∧
        Spec.Tells LayoutCase.plain 80 (text " ") out
          (text "Physical unit of sample", .text (text "None"), []) := by
  have hd := c65_decoding []
  have hfs : ∀ x ∈ [(some exLabel, fileOn)], ¬ Spec.HasUpdates env (setsOf x.2.recs) ∨
      ∃ ss, Spec.HoldsSets x.2 ss ∧ Spec.Legible env.policy ss ∧ Spec.HeaderPlain ss := by
    intro x hx
    rw [List.mem_singleton] at hx
    subst hx
    refine .inr ⟨_, holds_case, legible_case, ?_⟩
    intro o ho ht c vs hv
    rw [recorded_case] at ho
    simp only [List.mem_cons, List.not_mem_nil, or_false] at ho
    rcases ho with rfl | rfl | rfl | rfl | rfl
    · obtain ⟨a, h1, -, h3⟩ := hv
      rw [headerObj, List.mem_singleton] at h1
      subst h1
      cases h3
      simp [Spec.DatesOk, Spec.Writable]
    all_goals exact absurd ht (by decide +kernel)
  have hst : ∀ t, 262 ≤ (exStale t).length := fun _ => by rw [exStale, List.length_replicate]
  obtain ⟨n₁, k1⟩ := c86_summary_partial env hd (order_set []) np exStale hst (by decide) disk _ h hfs
    LayoutCase.plain LayoutCase.wraps_plain SummaryTextCase.printed_plain ObjectTextCase.printer
  obtain ⟨n₂, k2⟩ := c79_load_partial env hd (order_set []) exStale hst (by decide) disk _ h hfs
  refine ⟨max n₁ n₂, fun n hn => ?_⟩
  obtain ⟨y, h1, h2⟩ := k1 n (by omega)
  obtain ⟨y', h1', h3⟩ := k2 n (by omega)
  have : y' = y := by
    rw [h1] at h1'
    exact (Prod.mk.inj h1').1.symm
  subst this
  match hy : y'.files, h2, h3 with
  | [g], h2, h3 =>
    cases h2 with
    | cons hg _ =>
    cases h3 with
    | cons hf _ =>
    refine ⟨y', g, h1, hy, fun hist => ?_⟩
    have ho : chanI ∈ Spec.recorded setsOn := by rw [recorded_case]; simp
    obtain ⟨m₀, hm⟩ := c86_printed_partial env hd np _ _ g hf.1 setsOn holds_case legible_case chanI ho
      "CHANNEL" (by decide +kernel) rfl readable_case (by
        rw [recorded_case]
        intro b hb ht
        simp only [List.mem_cons, List.not_mem_nil, or_false] at hb
        rcases hb with rfl | rfl | rfl | rfl | rfl
        all_goals exact absurd ht (by decide +kernel))
      LayoutCase.plain LayoutCase.wraps_plain ObjectTextCase.printer 80 (text " ") (by decide +kernel)
      (parseOptions "") (by
        intro a ha t ht
        have hl : a.label.length ≤ 19 := by clear ht; revert a; decide +kernel
        have : t.length ≤ a.label.length := utf8_length ht
        have : (text " ").length = 1 := by decide +kernel
        omega) hist 2 (Nat.le_refl _)
    refine ⟨m₀, fun m hmm => ?_⟩
    obtain ⟨out, hout⟩ := hm m hmm
    have tells := hg setsOn holds_case legible_case chanI ho hist 80 m (text " ") 2 (parseOptions "") out
      (by decide +kernel) (by decide +kernel) hout
    refine ⟨out, hout, ?_, ?_, ?_⟩
    · refine tells "CHANNEL" "Sample dimensions" "dimension" .units (by decide +kernel) rfl
        ⟨"CHANNEL", "dimension", "DIMENSION", .reverse, none⟩ (by simp [Spec.documented]) rfl rfl _ _ _
        (.reversed _ .uvari [.int 4 3, .int 4 2] [text "3", text "2"] (by simp) rfl
          ⟨chanI.attributes[1], by simp [chanI], rfl, rfl⟩ (by simp) (by simp [Spec.DatesOk])
          (.inr (.inl (by simp))) (.cons (.whole 4 3 _ (numeral_case (by decide +kernel)))
            (.cons (.whole 4 2 _ (numeral_case (by decide +kernel))) .nil)))
        ?_ (.inl (by decide +kernel))
      exact .present (ex := parseOptions "") chanI.attributes[1] [] [] (by simp [chanI]) rfl
        ⟨by simp, rfl⟩ (by decide +kernel) ⟨[], [], by simp⟩
    · exact tells "CHANNEL" "Axis" "axis" .units (by decide +kernel) rfl
        ⟨"CHANNEL", "axis", "AXIS", .reverse, Spec.ref "AXIS"⟩ (by simp [Spec.documented]) rfl rfl _ _ _
        (.empty _ (.inr rfl) (by unfold Spec.Unset; decide +kernel)) (.absent (by decide +kernel))
        (.inl (by decide +kernel))
    · exact tells "CHANNEL" "Physical unit of sample" "units" .units (by decide +kernel) rfl
        ⟨"CHANNEL", "units", "UNITS", .scalar, none⟩ (by simp [Spec.documented]) rfl rfl _ _ _
        (.unset _ (by simp) (.inl rfl) (by unfold Spec.Unset; decide +kernel)) (.absent (by decide +kernel))
        (.inl (by decide +kernel))

end RecordedTextCase

end Dlisio.Dlis
