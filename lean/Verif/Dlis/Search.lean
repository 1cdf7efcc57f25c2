/-
Searching with patterns: python/dlisio/dlis/utils/matcher.py (`regex_matcher`), and
`LogicalFile.find` and `LogicalFile.load` in python/dlisio/dlis/file.py.  C82.

Python's module `re` is not part of the repository.  Modelled are patterns of characters and ".",
each of which may be followed by "*", "+" or "?"; for all others nothing is claimed.  Which
characters are the same if case is ignored is a parameter.
-/
import Verif.Dlis.FromDisk

namespace Dlisio.Dlis

open _root_.Dlisio.Dlis.Spec

/-! ## Model -/

/-- What stands for one character: itself, or "." -/
inductive Atom where
  | any
  | chr (c : Nat)
deriving DecidableEq

/-- A part of a pattern: one character, any number of characters, or at most one. -/
inductive Piece where
  | one (a : Atom)
  | star (a : Atom)
  | opt (a : Atom)
deriving DecidableEq

/-- A character of a pattern that is not a part of a longer construct; `none` for the others
("^$*+?{}[]\|()"). -/
def atomOf (c : Nat) : Option Atom :=
  if c = 46 then some .any
  else if c ∈ text "^$*+?{}[]\\|()" then none
  else some (.chr c)

/-- `re.compile`, utils/matcher.py:30, for the patterns that are modelled. -/
def compilePattern : Text → Option (List Piece)
  | [] => some []
  | [c] => (atomOf c).map fun a => [.one a]
  | c :: q :: p =>
    match atomOf c with
    | none => none
    | some a =>
      if q = 42 then (compilePattern p).map (.star a :: ·)
      else if q = 43 then (compilePattern p).map fun ps => .one a :: .star a :: ps
      else if q = 63 then (compilePattern p).map (.opt a :: ·)
      else (compilePattern (q :: p)).map (.one a :: ·)

/-- Does the character fit?  "." is anything but a line break. -/
def Atom.takes (same : Nat → Nat → Bool) : Atom → Nat → Bool
  | .any, d => decide (d ≠ 10)
  | .chr c, d => same c d

/-- Any number of characters that fit, and then what follows. -/
def starMatch (f : Nat → Bool) (k : Text → Bool) : Text → Bool
  | [] => k []
  | d :: t => k (d :: t) || (f d && starMatch f k t)

/-- `re.match`, utils/matcher.py:35: does the pattern fit a beginning of the text? -/
def reMatch (same : Nat → Nat → Bool) : List Piece → Text → Bool
  | [], _ => true
  | .one _ :: _, [] => false
  | .one a :: ps, d :: t => a.takes same d && reMatch same ps t
  | .star a :: ps, t => starMatch (a.takes same) (reMatch same ps) t
  | .opt _ :: ps, [] => reMatch same ps []
  | .opt a :: ps, d :: t => reMatch same ps (d :: t) || (a.takes same d && reMatch same ps t)

/-- A digit of a hexadecimal number. -/
def hexDigit (n : Nat) : Nat := if n < 10 then 48 + n else 87 + n

/-- One byte in `repr(b)`, the text being enclosed in `quote`. -/
def byteRepr (quote : Nat) (b : Byte) : Text :=
  if b.toNat = quote then [92, quote]
  else if b.toNat = 92 then [92, 92]
  else if b.toNat = 9 then [92, 116]
  else if b.toNat = 10 then [92, 110]
  else if b.toNat = 13 then [92, 114]
  else if b.toNat < 32 ∨ 127 ≤ b.toNat then [92, 120, hexDigit (b.toNat / 16), hexDigit (b.toNat % 16)]
  else [b.toNat]

/-- `str(s)`, utils/matcher.py:30 and 35; for bytes this is the text of a Python literal. -/
def _root_.Dlisio.PyStr.shown : PyStr → Text
  | .str t => t
  | .bytes b =>
    let quote := if 39 ∈ b.map (·.toNat) ∧ 34 ∉ b.map (·.toNat) then 34 else 39
    [98, quote] ++ b.flatMap (byteRepr quote) ++ [quote]

/-- The matcher `regex`, file.py:42 and utils/matcher.py:5-35, for patterns that are modelled. -/
def regexMatcher (same : Nat → Nat → Bool) : PyMatcher :=
  .other fun pattern candidate =>
    match compilePattern pattern.shown with
    | some ps => reMatch same ps candidate.shown
    | none => false

/-- `LogicalFile.find`, file.py:480-549. -/
def Store.search (e : Env) (same : Nat → Nat → Bool) (s : Store) (matcher : Option PyMatcher)
    (type : PyStr) (name : Option PyStr) : Store × Option (List PyObj) :=
  s.find e (matcher.getD (regexMatcher same)) type name

/-- The loop of `LogicalFile.load`, file.py:660: `none` if the error handler raised. -/
def loadTypes (e : Env) : List PyStr → Store → Store × Option Unit
  | [], s => (s, some ())
  | t :: ts, s =>
    match s.find e .exact t none with
    | (s, none) => (s, none)
    | (s, some _) => loadTypes e ts s

/-- `LogicalFile.load`, file.py:658-660. -/
def Store.loadAll (e : Env) (s : Store) : Store × Option Unit := loadTypes e (s.types e) s

/-! ## Specification -/

namespace Spec

/-- A character that stands for itself in a pattern. -/
def Literal (c : Nat) : Prop := c ∉ text ".^$*+?{}[]\\|()"

/-- The character of the pattern fits the character: "." fits everything but a line break. -/
def FitsChar (same : Nat → Nat → Bool) (a d : Nat) : Prop :=
  (a = 46 ∧ d ≠ 10) ∨ (Literal a ∧ same a d = true)

/-- A pattern of characters and ".", each of which may be followed by "*", "+" or "?" -/
inductive Simple : Text → Prop
  | nil : Simple []
  | one {a p} : Literal a ∨ a = 46 → Simple p → Simple (a :: p)
  | times {a q p} : Literal a ∨ a = 46 → q ∈ text "*+?" → Simple p → Simple (a :: q :: p)

/-- The pattern fits a beginning of the text. -/
inductive Begins (same : Nat → Nat → Bool) : Text → Text → Prop
  | nil {t} : Begins same [] t
  | one {a d p t} : FitsChar same a d → (∀ q ∈ p.head?, q ∉ text "*+?") → Begins same p t →
      Begins same (a :: p) (d :: t)
  | skip {a q p t} : q ∈ text "*?" → Begins same p t → Begins same (a :: q :: p) t
  | last {a q d p t} : FitsChar same a d → q ∈ text "*+?" → Begins same p t →
      Begins same (a :: q :: p) (d :: t)
  | more {a q d p t} : FitsChar same a d → q ∈ text "*+" → Begins same (a :: q :: p) t →
      Begins same (a :: q :: p) (d :: t)

/-- A capital letter is replaced by a small one. -/
def lower (c : Nat) : Nat := if 65 ≤ c ∧ c ≤ 90 then c + 32 else c

/-- Characters of ASCII are the same if they only differ in case. -/
def IgnoresCase (same : Nat → Nat → Bool) : Prop :=
  ∀ c d, c < 128 → d < 128 → (same c d = true ↔ lower c = lower d)

end Spec

/-! ## Lemmas -/

theorem starMatch_iff {f : Nat → Bool} {k : Text → Bool} : ∀ {t : Text},
    starMatch f k t = true ↔ ∃ a b, t = a ++ b ∧ (∀ d ∈ a, f d = true) ∧ k b = true
  | [] => by
    constructor
    · intro h; exact ⟨[], [], rfl, by simp, h⟩
    · rintro ⟨a, b, h1, -, h3⟩
      obtain ⟨rfl, rfl⟩ := List.append_eq_nil_iff.1 h1.symm
      exact h3
  | d :: t => by
    simp only [starMatch, Bool.or_eq_true, Bool.and_eq_true]
    rw [starMatch_iff]
    constructor
    · rintro (h | ⟨h1, a, b, rfl, h2, h3⟩)
      · exact ⟨[], d :: t, rfl, by simp, h⟩
      · exact ⟨d :: a, b, rfl, by simpa using ⟨h1, h2⟩, h3⟩
    · rintro ⟨a, b, h1, h2, h3⟩
      cases a with
      | nil => left; rw [h1]; exact h3
      | cons x a =>
        cases h1
        exact Or.inr ⟨h2 _ (by simp), a, b, rfl, fun d hd => h2 d (by simp [hd]), h3⟩

theorem special_cases {c : Nat} : ¬ Spec.Literal c ↔ c = 46 ∨ c ∈ text "^$*+?{}[]\\|()" := by
  unfold Spec.Literal
  rw [not_not, show text ".^$*+?{}[]\\|()" = 46 :: text "^$*+?{}[]\\|()" from rfl, List.mem_cons]

theorem atomOf_some {c : Nat} (h : Spec.Literal c ∨ c = 46) : ∃ a, atomOf c = some a ∧
    ∀ same d, a.takes same d = true ↔ Spec.FitsChar same c d := by
  unfold atomOf
  by_cases hc : c = 46
  · refine ⟨.any, by rw [if_pos hc], fun same d => ?_⟩
    simp [Atom.takes, Spec.FitsChar, hc, show ¬ Spec.Literal 46 by unfold Spec.Literal; decide]
  · have hl : Spec.Literal c := h.resolve_right hc
    have : c ∉ text "^$*+?{}[]\\|()" := fun hx => special_cases.2 (Or.inr hx) hl
    refine ⟨.chr c, by rw [if_neg hc, if_neg this], fun same d => ?_⟩
    simp [Atom.takes, Spec.FitsChar, hc, hl]

theorem atomOf_head {q : Nat} (h : q ∈ text "*+?") : atomOf q = none := by
  have : ∀ q ∈ text "*+?", atomOf q = none := by decide
  exact this q h

theorem quant_cases {q : Nat} (h : q ∈ text "*+?") : q = 42 ∨ q = 43 ∨ q = 63 := by
  simpa [text] using h

theorem simple_head {p : Text} (h : Spec.Simple p) : ∀ q ∈ p.head?, q ∉ text "*+?" := by
  intro q hq hx
  have key : Spec.Literal q ∨ q = 46 := by
    cases h with
    | nil => cases hq
    | one h1 _ => cases hq; exact h1
    | times h1 _ _ => cases hq; exact h1
  obtain ⟨a, ha, -⟩ := atomOf_some key
  rw [atomOf_head hx] at ha
  cases ha

/-- The parts of a pattern that begins with a character without "*", "+" or "?" -/
theorem compile_one {a : Nat} {p : Text} {x : Atom} (ha : atomOf a = some x)
    (hq : ∀ q ∈ p.head?, q ∉ text "*+?") :
    compilePattern (a :: p) = (compilePattern p).map (.one x :: ·) := by
  cases p with
  | nil => simp [compilePattern, ha]
  | cons q p =>
    have : q ∉ text "*+?" := hq q rfl
    have h3 : q ≠ 42 ∧ q ≠ 43 ∧ q ≠ 63 := by simpa [text] using this
    simp only [compilePattern, ha, if_neg h3.1, if_neg h3.2.1, if_neg h3.2.2]

theorem compile_times {a q : Nat} {p : Text} {x : Atom} (ha : atomOf a = some x) :
    (q = 42 → compilePattern (a :: q :: p) = (compilePattern p).map (.star x :: ·)) ∧
    (q = 43 → compilePattern (a :: q :: p) =
      (compilePattern p).map fun ps => .one x :: .star x :: ps) ∧
    (q = 63 → compilePattern (a :: q :: p) = (compilePattern p).map (.opt x :: ·)) := by
  refine ⟨?_, ?_, ?_⟩ <;> rintro rfl <;> simp [compilePattern, ha]

theorem simple_compiles {p : Text} (h : Spec.Simple p) : ∃ ps, compilePattern p = some ps := by
  induction h with
  | nil => exact ⟨[], rfl⟩
  | @one a p h1 h2 ih =>
    obtain ⟨ps, hps⟩ := ih
    obtain ⟨x, hx, -⟩ := atomOf_some h1
    exact ⟨_, by rw [compile_one hx (simple_head h2), hps]; rfl⟩
  | @times a q p h1 h2 h3 ih =>
    obtain ⟨ps, hps⟩ := ih
    obtain ⟨x, hx, -⟩ := atomOf_some h1
    rcases quant_cases h2 with rfl | rfl | rfl
    · exact ⟨_, by rw [(compile_times hx).1 rfl, hps]; rfl⟩
    · exact ⟨_, by rw [(compile_times hx).2.1 rfl, hps]; rfl⟩
    · exact ⟨_, by rw [(compile_times hx).2.2 rfl, hps]; rfl⟩

/-! ## C82 -/

/-- C82.  A pattern fits a text as the documentation of Python says. -/
theorem c82_regex (same : Nat → Nat → Bool) {p : Text} (hp : Spec.Simple p) (t : Text) :
    (regexMatcher same).run (.str p) (.str t) = true ↔ Spec.Begins same p t := by
  obtain ⟨ps, hps⟩ := simple_compiles hp
  have hrun : (regexMatcher same).run (.str p) (.str t) = reMatch same ps t := by
    simp [regexMatcher, PyMatcher.run, PyStr.shown, hps]
  rw [hrun]
  clear hrun
  induction hp generalizing ps t with
  | nil =>
    cases hps
    exact ⟨fun _ => .nil, fun _ => rfl⟩
  | @one a p h1 h2 ih =>
    obtain ⟨x, hx, hf⟩ := atomOf_some h1
    obtain ⟨ps', hps'⟩ := simple_compiles h2
    rw [compile_one hx (simple_head h2), hps'] at hps
    cases hps
    have ih : ∀ t, reMatch same ps' t = true ↔ Spec.Begins same p t := fun t => ih t ps' hps'
    cases t with
    | nil =>
      refine ⟨fun h => by simp [reMatch] at h, fun h => ?_⟩
      cases h with
      | skip hq _ =>
        exact absurd (by revert hq; simp [text]; omega) (simple_head h2 _ rfl)
    | cons d t =>
      rw [show reMatch same (.one x :: ps') (d :: t) = (x.takes same d && reMatch same ps' t) from rfl,
        Bool.and_eq_true, hf, ih t]
      constructor
      · rintro ⟨g1, g2⟩
        exact .one g1 (simple_head h2) g2
      · intro h
        cases h with
        | one g1 _ g3 => exact ⟨g1, g3⟩
        | skip hq _ => exact absurd (by revert hq; simp [text]; omega) (simple_head h2 _ rfl)
        | last _ hq _ => exact absurd hq (simple_head h2 _ rfl)
        | more _ hq _ => exact absurd (by revert hq; simp [text]; omega) (simple_head h2 _ rfl)
  | @times a q p h1 h2 h3 ih =>
    obtain ⟨x, hx, hf⟩ := atomOf_some h1
    obtain ⟨ps', hps'⟩ := simple_compiles h3
    have ih : ∀ t, reMatch same ps' t = true ↔ Spec.Begins same p t := fun t => ih t ps' hps'
    have star : ∀ (q : Nat), q ∈ text "*+" → ∀ u t : Text, (∀ d ∈ u, Spec.FitsChar same a d) →
        Spec.Begins same (a :: q :: p) t → Spec.Begins same (a :: q :: p) (u ++ t) := by
      intro q hq u t hu ht
      induction u with
      | nil => exact ht
      | cons d u ihu =>
        exact .more (hu d (by simp)) hq (ihu fun d hd => hu d (by simp [hd]))
    have unstar : ∀ (q : Nat), q = 42 ∨ q = 43 → ∀ {r t : Text}, Spec.Begins same r t → r = a :: q :: p →
        ∃ u v, t = u ++ v ∧ (∀ d ∈ u, Spec.FitsChar same a d) ∧ Spec.Begins same p v ∧ (q = 43 → u ≠ []) := by
      intro q hq r t h
      induction h with
      | nil => intro hr; cases hr
      | one g1 g2 g3 _ =>
        intro hr; cases hr
        exact absurd (by rcases hq with rfl | rfl <;> decide) (g2 q rfl)
      | @skip _ _ _ t g1 g2 _ =>
        intro hr; cases hr
        refine ⟨[], t, rfl, by simp, g2, ?_⟩
        rintro rfl
        exact absurd g1 (by decide)
      | @last _ _ d _ t g1 g2 g3 _ =>
        intro hr; cases hr
        exact ⟨[d], t, rfl, by simpa using g1, g3, by simp⟩
      | @more _ _ d _ t g1 g2 g3 ih' =>
        intro hr; cases hr
        obtain ⟨u, v, rfl, k1, k2, k3⟩ := ih' rfl
        exact ⟨d :: u, v, rfl, by simpa using ⟨g1, k1⟩, k2, by simp⟩
    rcases quant_cases h2 with rfl | rfl | rfl
    · rw [(compile_times hx).1 rfl, hps'] at hps
      cases hps
      rw [show reMatch same (.star x :: ps') t = starMatch (x.takes same) (reMatch same ps') t by
        cases t <;> rfl, starMatch_iff]
      constructor
      · rintro ⟨u, v, rfl, g1, g2⟩
        exact star 42 (by decide) u v (fun d hd => (hf same d).1 (g1 d hd))
          (.skip (by decide) ((ih v).1 g2))
      · intro h
        obtain ⟨u, v, k1, k2, k3, -⟩ := unstar 42 (Or.inl rfl) h rfl
        exact ⟨u, v, k1, fun d hd => (hf same d).2 (k2 d hd), (ih v).2 k3⟩
    · rw [(compile_times hx).2.1 rfl, hps'] at hps
      cases hps
      constructor
      · intro h
        cases t with
        | nil => simp [reMatch] at h
        | cons d t =>
          rw [show reMatch same (.one x :: .star x :: ps') (d :: t) =
            (x.takes same d && starMatch (x.takes same) (reMatch same ps') t) by cases t <;> rfl,
            Bool.and_eq_true, starMatch_iff] at h
          obtain ⟨g0, u, v, rfl, g1, g2⟩ := h
          have g2 := (ih v).1 g2
          rcases List.eq_nil_or_concat u with rfl | ⟨u', z, rfl⟩
          · exact .last ((hf same d).1 g0) (by decide) g2
          · have := star 43 (by decide) (d :: u') (z :: v) (by
              intro y hy
              rcases List.mem_cons.1 hy with rfl | hy
              · exact (hf same y).1 g0
              · exact (hf same y).1 (g1 y (by simp [hy])))
              (.last ((hf same z).1 (g1 z (by simp))) (by decide) g2)
            simpa using this
      · intro h
        obtain ⟨u, v, k1, k2, k3, k4⟩ := unstar 43 (Or.inr rfl) h rfl
        cases u with
        | nil => exact absurd rfl (k4 rfl)
        | cons d u =>
          subst k1
          rw [List.cons_append, show reMatch same (.one x :: .star x :: ps') (d :: (u ++ v)) =
            (x.takes same d && starMatch (x.takes same) (reMatch same ps') (u ++ v)) by
              cases u ++ v <;> rfl, Bool.and_eq_true, starMatch_iff]
          exact ⟨(hf same d).2 (k2 d (by simp)), u, v, rfl,
            fun y hy => (hf same y).2 (k2 y (by simp [hy])), (ih v).2 k3⟩
    · rw [(compile_times hx).2.2 rfl, hps'] at hps
      cases hps
      cases t with
      | nil =>
        rw [show reMatch same (.opt x :: ps') [] = reMatch same ps' [] from rfl, ih []]
        refine ⟨fun h => .skip (by decide) h, fun h => ?_⟩
        cases h with
        | skip _ g => exact g
      | cons d t =>
        rw [show reMatch same (.opt x :: ps') (d :: t) = (reMatch same ps' (d :: t) ||
          (x.takes same d && reMatch same ps' t)) from rfl, Bool.or_eq_true, Bool.and_eq_true, hf,
          ih, ih]
        constructor
        · rintro (g | ⟨g1, g2⟩)
          · exact .skip (by decide) g
          · exact .last g1 (by decide) g2
        · intro h
          cases h with
          | one _ g2 _ => exact absurd (by decide) (g2 63 rfl)
          | skip _ g => exact Or.inl g
          | last g1 _ g3 => exact Or.inr ⟨g1, g3⟩
          | more _ g2 _ => exact absurd g2 (by decide)

/-- C82.  A pattern without special characters fits the texts that begin with it. -/
theorem c82_literal (same : Nat → Nat → Bool) {p : Text} (hp : ∀ c ∈ p, Spec.Literal c) (t : Text) :
    (regexMatcher same).run (.str p) (.str t) = true ↔
      ∃ u v, t = u ++ v ∧ List.Forall₂ (fun c d => same c d = true) p u := by
  have hs : ∀ p : Text, (∀ c ∈ p, Spec.Literal c) → Spec.Simple p := by
    intro p hp
    induction p with
    | nil => exact .nil
    | cons c p ih => exact .one (Or.inl (hp c (by simp))) (ih fun c hc => hp c (by simp [hc]))
  rw [c82_regex same (hs p hp)]
  have hno : ∀ q, Spec.Literal q → q ∉ text "*+?" := by
    intro q hq hx
    refine hq ?_
    revert hx
    simp [text]
    omega
  induction p generalizing t with
  | nil => exact ⟨fun _ => ⟨[], t, rfl, .nil⟩, fun _ => .nil⟩
  | cons c p ih =>
    have hc := hp c (by simp)
    have hp' : ∀ c ∈ p, Spec.Literal c := fun c hc => hp c (by simp [hc])
    constructor
    · intro h
      have key : ∀ q p', p = q :: p' → q ∈ text "*+?" → False := by
        rintro q p' rfl hq
        exact hno q (hp' q (by simp)) hq
      cases h with
      | one h1 _ h3 =>
        obtain ⟨u, v, rfl, k⟩ := (ih hp' _).1 h3
        rcases h1 with ⟨rfl, -⟩ | ⟨-, h1⟩
        · exact absurd hc (by unfold Spec.Literal; decide)
        · exact ⟨_ :: u, v, rfl, .cons h1 k⟩
      | skip hq _ => exact (key _ _ rfl (by revert hq; simp [text]; omega)).elim
      | last _ hq _ => exact (key _ _ rfl hq).elim
      | more _ hq _ => exact (key _ _ rfl (by revert hq; simp [text]; omega)).elim
    · rintro ⟨u, v, rfl, k⟩
      cases k with
      | cons k1 k2 =>
        refine .one (Or.inr ⟨hc, k1⟩) ?_ ((ih hp' _).2 ⟨_, v, rfl, k2⟩)
        intro q hq
        exact hno q (hp' q (List.mem_of_mem_head? hq))

/-- C82.  In ASCII, `find('gr')` asks for everything that begins with "gr" in capital or small
letters. -/
theorem c82_prefix (same : Nat → Nat → Bool) (hsame : Spec.IgnoresCase same) {p t : Text}
    (hp : ∀ c ∈ p, Spec.Literal c ∧ c < 128) (ht : ∀ d ∈ t, d < 128) :
    (regexMatcher same).run (.str p) (.str t) = true ↔ p.map Spec.lower <+: t.map Spec.lower := by
  rw [c82_literal same fun c hc => (hp c hc).1]
  constructor
  · rintro ⟨u, v, rfl, k⟩
    refine ⟨v.map Spec.lower, ?_⟩
    rw [List.map_append]
    congr 1
    have hu : ∀ d ∈ u, d < 128 := fun d hd => ht d (by simp [hd])
    clear ht
    induction k with
    | nil => rfl
    | @cons c d p u k1 _ ih =>
      rw [List.map_cons, List.map_cons, ih (fun c hc => hp c (by simp [hc]))
        (fun d hd => hu d (by simp [hd])),
        (hsame c d (hp c (by simp)).2 (hu d (by simp))).1 k1]
  · rintro ⟨w, hw⟩
    refine ⟨t.take p.length, t.drop p.length, (List.take_append_drop _ _).symm, ?_⟩
    induction p generalizing t with
    | nil => exact .nil
    | cons c p ih =>
      cases t with
      | nil => cases hw
      | cons d t =>
        simp only [List.map_cons, List.cons_append, List.cons.injEq] at hw
        exact .cons ((hsame c d (hp c (by simp)).2 (ht d (by simp))).2 hw.1)
          (ih (fun c hc => hp c (by simp [hc])) (fun d hd => ht d (by simp [hd])) hw.2)

/-- C82.  In ASCII, `find('.*gr.*')` asks for everything that contains "gr" in capital or small
letters, if there are no line breaks. -/
theorem c82_contains (same : Nat → Nat → Bool) (hsame : Spec.IgnoresCase same) {p t : Text}
    (hp : ∀ c ∈ p, Spec.Literal c ∧ c < 128) (ht : ∀ d ∈ t, d < 128 ∧ d ≠ 10) :
    ((regexMatcher same).run (.str (text ".*" ++ p ++ text ".*")) (.str t) = true ↔
      p.map Spec.lower <:+: t.map Spec.lower) ∧
    ((regexMatcher same).run (.str (text ".*" ++ p)) (.str t) = true ↔
      p.map Spec.lower <:+: t.map Spec.lower) := by
  have hany : ∀ d ∈ t, (Atom.any.takes same) d = true := by
    intro d hd; simpa [Atom.takes] using (ht d hd).2
  have lit : ∀ (p w : Text) (qs : List Piece), (∀ c ∈ p, Spec.Literal c ∧ c < 128) →
      compilePattern w = some qs → (∀ q ∈ w.head?, q ∉ text "*+?") →
      ∃ ps, compilePattern (p ++ w) = some (ps ++ qs) ∧ compilePattern p = some ps := by
    intro p w qs hp hw hw'
    induction p with
    | nil => exact ⟨[], hw, rfl⟩
    | cons c p ih =>
      obtain ⟨ps, h1, h2⟩ := ih fun c hc => hp c (by simp [hc])
      obtain ⟨x, hx, -⟩ := atomOf_some (Or.inl (hp c (by simp)).1)
      have hno : ∀ q, Spec.Literal q → q ∉ text "*+?" := by
        intro q hq hx
        refine hq ?_
        revert hx
        simp [text]
        omega
      refine ⟨.one x :: ps, ?_, ?_⟩
      · rw [List.cons_append, compile_one hx, h1]
        · rfl
        · intro q hq
          cases p with
          | nil => exact hw' q hq
          | cons c' p => cases hq; exact hno _ (hp _ (by simp)).1
      · rw [compile_one hx, h2]
        · rfl
        · intro q hq
          exact hno q (hp q (by simp [List.mem_of_mem_head? hq])).1
  have tail : ∀ (ps : List Piece) (t : Text), reMatch same (ps ++ [.star .any]) t = reMatch same ps t := by
    intro ps
    induction ps with
    | nil =>
      intro t
      show reMatch same [.star .any] t = true
      rw [show reMatch same [.star .any] t = starMatch (Atom.any.takes same) (reMatch same []) t by
        cases t <;> rfl, starMatch_iff]
      exact ⟨[], t, rfl, by simp, rfl⟩
    | cons x ps ih =>
      intro t
      have ihf : reMatch same (ps ++ [.star .any]) = reMatch same ps := funext ih
      cases x <;> cases t <;> simp only [List.cons_append, reMatch, ihf]
  obtain ⟨ps, h1, h2⟩ := lit p (text ".*") [.star .any] hp rfl (by decide)
  have hrun : ∀ u, reMatch same ps u = (regexMatcher same).run (.str p) (.str u) := by
    intro u; simp [regexMatcher, PyMatcher.run, PyStr.shown, h2]
  have key : starMatch (Atom.any.takes same) (reMatch same ps) t = true ↔
      p.map Spec.lower <:+: t.map Spec.lower := by
    rw [starMatch_iff]
    constructor
    · rintro ⟨a, b, rfl, -, k⟩
      rw [hrun, c82_prefix same hsame hp fun d hd => (ht d (by simp [hd])).1] at k
      obtain ⟨w, hw⟩ := k
      exact ⟨a.map Spec.lower, w, by rw [List.map_append, List.append_assoc, hw]⟩
    · rintro ⟨a, w, hw⟩
      refine ⟨t.take a.length, t.drop a.length, (List.take_append_drop _ _).symm,
        fun d hd => hany d (List.mem_of_mem_take hd), ?_⟩
      rw [hrun, c82_prefix same hsame hp fun d hd => (ht d (List.mem_of_mem_drop hd)).1]
      refine ⟨w, ?_⟩
      rw [List.map_drop, ← hw, List.append_assoc, List.drop_left]
  have hc : ∀ w, compilePattern (text ".*" ++ w) = (compilePattern w).map (.star .any :: ·) := fun w => rfl
  constructor
  · rw [← key]
    simp only [regexMatcher, PyMatcher.run, PyStr.shown, List.append_assoc, hc, h1, Option.map_some]
    rw [show reMatch same (.star .any :: (ps ++ [.star .any])) t =
      starMatch (Atom.any.takes same) (reMatch same (ps ++ [.star .any])) t by cases t <;> rfl,
      show reMatch same (ps ++ [.star .any]) = reMatch same ps from funext (tail ps)]
  · rw [← key]
    simp only [regexMatcher, PyMatcher.run, PyStr.shown, hc, h2, Option.map_some]
    rw [show reMatch same (.star .any :: ps) t =
      starMatch (Atom.any.takes same) (reMatch same ps) t by cases t <;> rfl]

/-- C82.  From the medium: `find` gives exactly the objects that are recorded with a type, and a
name if one is given, which the patterns fit; whatever was done before. -/
theorem c82_find_partial (e : Env) (hd : Spec.ReadsUtf8 e.dec) (horder : Spec.IsSetOrder e.order)
    (same : Nat → Nat → Bool) (sul : Option Bytes) (f : Stored) (g : LogFile)
    (hg : Faithful e.policy sul f g) (ss : List Spec.ObjSet) (hs : Spec.HoldsSets f ss)
    (hl : Spec.Legible e.policy ss) (hist : List Spec.StoreOp) (type : Text) (name : Option Text)
    (hpat : ∀ p, p = type ∨ name = some p → Spec.Simple p ∧ ∃ bs, Dlisio.Spec.Utf8 p bs ∧ 0 ∉ bs)
    (hne : name ≠ some []) (q : BasicObject → Bool)
    (hq : ∀ o ∈ Spec.recorded ss, q o = true ↔
      (∃ t, Dlisio.Spec.Utf8 t o.type ∧ Spec.Begins same type t) ∧
      ∀ p, name = some p → ∃ t, Dlisio.Spec.Utf8 t o.name.id ∧ Spec.Begins same p t) :
    ∃ os, ((Spec.after e g.sets hist).search e same none (.str type) (name.map .str)).2 = some os ∧
      os.Perm (((Spec.recorded ss).filter q).map e.promote) := by
  rw [hg.sets]
  have hu := holds_usable (e := e) hd horder hs hl
  have hstable : ∀ p : Text, (∃ bs, Dlisio.Spec.Utf8 p bs ∧ 0 ∉ bs) → Spec.Stable e (.str p) := by
    rintro p ⟨bs, h1, h2⟩
    unfold Spec.Stable
    rw [toStd_utf8 p bs h1, hd bs p h1 h2]
  have h := c34_find_partial e _ hu.fresh horder hu.types hist (regexMatcher same) (.str type)
    (name.map .str) (hstable _ (hpat _ (Or.inl rfl)).2) (by
      intro n hn
      cases name with
      | none => cases hn
      | some p =>
        cases hn
        refine ⟨?_, hstable _ (hpat _ (Or.inr rfl)).2⟩
        cases p with
        | nil => exact absurd rfl hne
        | cons => rfl)
  have hraise : Spec.raises e (regexMatcher same) (.str type) (setsOf f.recs) = false := by
    exact raises_quiet fun x hx _ => holds_quiet hs hl hx
  rw [Spec.answer, hraise] at h
  show ∃ os, ((Spec.after e (setsOf f.recs) hist).find e (regexMatcher same) (.str type)
    (name.map .str)).2 = some os ∧ _
  rcases hr : ((Spec.after e (setsOf f.recs) hist).find e (regexMatcher same) (.str type)
    (name.map .str)).2 with _ | os
  · rw [hr] at h; exact h.elim
  · rw [hr] at h
    refine ⟨os, rfl, (h : os.Perm _).trans (.of_eq ?_)⟩
    have hdec : ∀ {bs : Bytes}, Spec.PlainText bs → ∀ p, Spec.Simple p →
        ((regexMatcher same).run (.str p) (e.dec bs) = true ↔
          ∃ t, Dlisio.Spec.Utf8 t bs ∧ Spec.Begins same p t) := by
      rintro bs ⟨h0, t, ht⟩ p hp
      rw [hd bs t ht h0, c82_regex same hp]
      constructor
      · intro hb; exact ⟨t, ht, hb⟩
      · rintro ⟨t', ht', hb⟩
        have := hd bs t' ht' h0
        rw [hd bs t ht h0] at this
        cases this
        exact hb
    have hsets := holds_sets hs
    unfold Spec.recorded at hq ⊢
    have htypes := hl.types
    have hnames := hl.names
    clear hs hl hg hu h hr hraise
    generalize setsOf f.recs = xs at hsets
    induction hsets with
    | nil => rfl
    | @cons s x ss xs a _ ih =>
      rw [List.flatMap_cons, List.flatMap_cons, List.filter_append, List.map_append,
        ih (fun o ho => hq o (by rw [List.flatMap_cons]; exact List.mem_append_right _ ho))
          (fun s hs => htypes s (by simp [hs])) (fun s hs => hnames s (by simp [hs]))]
      congr 1
      unfold Spec.wanted
      rw [a.2.2.1, a.1]
      have hty : ∀ o ∈ s.values, o.type = s.type := fun o ho => values_type ho
      have hty' := hdec (htypes s (by simp)) type (hpat _ (Or.inl rfl)).1
      by_cases hm : (regexMatcher same).run (.str type) (e.dec s.type) = true
      · rw [if_pos hm, List.filter_map]
        congr 1
        apply List.filter_congr
        intro o ho
        have ho' : o ∈ (s :: ss).flatMap Spec.ObjSet.values := by
          rw [List.flatMap_cons]; exact List.mem_append_left _ ho
        rw [Bool.eq_iff_iff, hq o ho', hty o ho]
        have hn : Spec.PlainText o.name.id := by
          obtain ⟨x, hx, rfl⟩ := List.mem_map.1 ho
          exact hnames s (by simp) x hx
        cases name with
        | none => simp [Spec.nameWanted, hty'.1 hm]
        | some p =>
          have := hdec hn p (hpat p (Or.inr rfl)).1
          constructor
          · intro hw
            refine ⟨hty'.1 hm, ?_⟩
            rintro p' ⟨⟩
            exact this.1 hw
          · rintro ⟨-, hw⟩
            exact this.2 (hw p rfl)
      · rw [if_neg hm]
        symm
        rw [List.map_eq_nil_iff, List.filter_eq_nil_iff]
        intro o ho hqo
        have ho' : o ∈ (s :: ss).flatMap Spec.ObjSet.values := by
          rw [List.flatMap_cons]; exact List.mem_append_left _ ho
        have := ((hq o ho').1 hqo).1
        rw [hty o ho] at this
        exact hm (hty'.2 this)

theorem loadTypes_spec {e : Env} {p : List ObjectSet} (hu : Spec.Usable e p) :
    ∀ (ts : List PyStr), (∀ t ∈ ts, Spec.Stable e t) → ∀ hist : List Spec.StoreOp,
    (∃ more, (loadTypes e ts (Spec.after e p hist)).1 = Spec.after e p (hist ++ more)) ∧
    ((loadTypes e ts (Spec.after e p hist)).2 = some () ↔
      ∀ t ∈ ts, Spec.raises e .exact t p = false) := by
  intro ts
  induction ts with
  | nil => intro _ hist; exact ⟨⟨[], by simp [loadTypes]⟩, by simp [loadTypes]⟩
  | cons t ts ih =>
    intro hts hist
    have hsame := c34_find_partial e p hu.fresh hu.order hu.types hist .exact t none (hts t (by simp))
      (by simp)
    have hrun : ((Spec.after e p hist).find e .exact t none).1 =
        Spec.after e p (hist ++ [.find .exact t none]) := by
      simp [Spec.after, Spec.StoreOp.run]
    unfold loadTypes
    rcases hr : (Spec.after e p hist).find e .exact t none with ⟨s', _ | os⟩
    · rw [hr] at hsame hrun
      simp only
      refine ⟨⟨_, hrun⟩, by simp, fun h => ?_⟩
      rw [Spec.answer, h t (by simp)] at hsame
      exact hsame.elim
    · rw [hr] at hsame hrun
      simp only at hrun ⊢
      subst hrun
      obtain ⟨⟨more, h1⟩, h2⟩ := ih (fun t ht => hts t (by simp [ht])) (hist ++ [.find .exact t none])
      refine ⟨⟨.find .exact t none :: more, by rw [h1, List.append_assoc]; rfl⟩, h2.trans ?_⟩
      have hq : Spec.raises e .exact t p = false := by
        rcases hx : Spec.raises e .exact t p
        · rfl
        · rw [Spec.answer, hx] at hsame
          exact hsame.elim
      simp [hq]

/-- C82.  `LogicalFile.load` raises exactly if reporting the log of some set does, and it changes
no later answer: it is the same as asking for all the objects of some types. -/
theorem c82_load (e : Env) (p : List ObjectSet) (hu : Spec.Usable e p) (hist : List Spec.StoreOp) :
    (∃ more, ((Spec.after e p hist).loadAll e).1 = Spec.after e p (hist ++ more)) ∧
    (((Spec.after e p hist).loadAll e).2 = some () ↔
      ∀ x ∈ p, Spec.SetQuiet e x) := by
  have hok := after_ok (e := e) hu.fresh hist
  obtain ⟨h1, h2⟩ := loadTypes_spec hu ((Spec.after e p hist).types e) (by
    intro t ht
    obtain ⟨x, hx, rfl⟩ := (mem_types hu hok t).2.1 ht
    exact hu.types x hx) hist
  refine ⟨h1, h2.trans ?_⟩
  constructor
  · intro h x hx sev hsev
    have := h (e.dec x.type) ((mem_types hu hok _).2.2 ⟨x, hx, rfl⟩)
    rw [Spec.raises, List.any_eq_false] at this
    have := this x hx
    simp only [PyMatcher.run, decide_true, Bool.true_and, List.any_eq_true, not_exists, not_and] at this
    simpa [and_comm] using this sev hsev
  · intro h t ht
    exact raises_quiet fun x hx _ => h x hx

namespace Spec

/-- The rest of a Python literal after the quote, and the bytes that it stands for. -/
inductive ReadsLiteral (q : Nat) : Text → Bytes → Prop
  | done : ReadsLiteral q [q] []
  | plain {c : Nat} {t : Text} {b : Bytes} : c ≠ q → c ≠ 92 → 32 ≤ c → c < 127 → ReadsLiteral q t b →
      ReadsLiteral q (c :: t) (BitVec.ofNat 8 c :: b)
  | quote {t : Text} {b : Bytes} : ReadsLiteral q t b → ReadsLiteral q (92 :: q :: t) (BitVec.ofNat 8 q :: b)
  | short {c : Nat} {d : Byte} {t : Text} {b : Bytes} :
      (c, d) ∈ [(92, 0x5c#8), (116, 0x09#8), (110, 0x0a#8), (114, 0x0d#8)] → ReadsLiteral q t b →
      ReadsLiteral q (92 :: c :: t) (d :: b)
  | hex {m n c d : Nat} {t : Text} {b : Bytes} : (text "0123456789abcdef")[m]? = some c →
      (text "0123456789abcdef")[n]? = some d → ¬ (32 ≤ 16 * m + n ∧ 16 * m + n < 127) → ReadsLiteral q t b →
      ReadsLiteral q (92 :: 120 :: c :: d :: t) (BitVec.ofNat 8 (16 * m + n) :: b)

end Spec

/-- C82.  Bytes that cannot be decoded are searched as the Python literal that stands for them, in
single quotes unless these are in the text and double quotes are not. -/
theorem c82_repr (b : Bytes) : ∃ q t, (PyStr.bytes b).shown = 98 :: q :: t ∧ Spec.ReadsLiteral q t b ∧
    ((q = 34 ∧ 0x27#8 ∈ b ∧ 0x22#8 ∉ b) ∨ (q = 39 ∧ ¬ (0x27#8 ∈ b ∧ 0x22#8 ∉ b))) := by
  have hmem : ∀ k < 256, (k ∈ b.map (·.toNat) ↔ BitVec.ofNat 8 k ∈ b) := by
    intro k hk
    rw [List.mem_map]
    constructor
    · rintro ⟨c, hc, rfl⟩
      rwa [BitVec.ofNat_toNat, BitVec.setWidth_eq]
    · intro h
      exact ⟨_, h, by rw [BitVec.toNat_ofNat]; omega⟩
  have hone : ∀ q, q = 34 ∨ q = 39 → ∀ (c : Byte) (t : Text) (l : Bytes), Spec.ReadsLiteral q t l →
      Spec.ReadsLiteral q (byteRepr q c ++ t) (c :: l) := by
    intro q hq c t l h
    have hc : BitVec.ofNat 8 c.toNat = c := by simp
    have hlt := c.isLt
    unfold byteRepr
    split
    · rename_i h0
      rw [← hc, h0]
      exact .quote h
    · split
      · rename_i h1
        have : c = 0x5c#8 := BitVec.eq_of_toNat_eq h1
        subst this
        exact .short (by simp) h
      · split
        · rename_i h1
          have : c = 0x09#8 := BitVec.eq_of_toNat_eq h1
          subst this
          exact .short (by simp) h
        · split
          · rename_i h1
            have : c = 0x0a#8 := BitVec.eq_of_toNat_eq h1
            subst this
            exact .short (by simp) h
          · split
            · rename_i h1
              have : c = 0x0d#8 := BitVec.eq_of_toNat_eq h1
              subst this
              exact .short (by simp) h
            · split
              · rename_i h1
                have hd : ∀ n < 16, (text "0123456789abcdef")[n]? = some (hexDigit n) := by decide
                have := Spec.ReadsLiteral.hex (q := q) (hd (c.toNat / 16) (by omega))
                  (hd (c.toNat % 16) (by omega)) (by omega) h
                rw [Nat.div_add_mod, hc] at this
                exact this
              · rename_i h1 _ _ _ h2
                have := Spec.ReadsLiteral.plain (q := q) (c := c.toNat) (by assumption) (by assumption)
                  (by omega) (by omega) h
                rw [hc] at this
                exact this
  have hall : ∀ q, q = 34 ∨ q = 39 → ∀ l : Bytes,
      Spec.ReadsLiteral q (l.flatMap (byteRepr q) ++ [q]) l := by
    intro q hq l
    induction l with
    | nil => exact .done
    | cons c l ih =>
      rw [List.flatMap_cons, List.append_assoc]
      exact hone q hq c _ _ ih
  have h1 := hmem 39 (by decide)
  have h2 := hmem 34 (by decide)
  unfold PyStr.shown
  simp only
  by_cases h : 39 ∈ b.map (·.toNat) ∧ 34 ∉ b.map (·.toNat)
  · rw [if_pos h]
    exact ⟨34, _, rfl, hall 34 (Or.inl rfl) b, Or.inl ⟨rfl, h1.1 h.1, fun h' => h.2 (h2.2 h')⟩⟩
  · rw [if_neg h]
    exact ⟨39, _, rfl, hall 39 (Or.inr rfl) b, Or.inr ⟨rfl, fun h' => h ⟨h1.2 h'.1, fun h'' => h'.2 (h2.1 h'')⟩⟩⟩

/-! ## Cases -/

namespace SearchCase

open StoreCase EndToEndCase FromDiskCase

/-- ASCII without case. -/
def same : Nat → Nat → Bool := fun c d => decide (Spec.lower c = Spec.lower d)

theorem same_ascii : Spec.IgnoresCase same := fun _ _ _ _ => by simp [same]

/-- Case for `c82_regex`, `c82_prefix`, `c82_contains`. -/
example :
    [("GR", "gr1"), ("GR", "xgr"), (".*gr.*", "ECGR_EDTC"), (".*gr", "G.R"), ("T?DEP+", "DEPPTH"),
      ("GR.", "GR"), ("", "GR"), ("g.*r", "G\nR")].map (fun x =>
        (regexMatcher same).run (.str (text x.1)) (.str (text x.2))) =
      [true, false, true, false, true, false, true, false] := by
  decide +kernel

example : Spec.Begins same (text ".*gr.*") (text "ECGR_EDTC") :=
  (c82_regex same (.times (Or.inr (by decide)) (by decide) (.one (Or.inl (by unfold Spec.Literal; decide))
    (.one (Or.inl (by unfold Spec.Literal; decide)) (.times (Or.inr (by decide)) (by decide) .nil)))) _).1
    (by decide +kernel)

/-- Case for `c82_find_partial`: `find('chan', 'i')` gives the channel "I", in every state. -/
example (g : LogFile) (hg : Faithful env.policy (some exLabel) fileOn g) (hist : List Spec.StoreOp) :
    ∃ os, ((Spec.after env g.sets hist).search env same none (.str (text "chan"))
      (some (.str (text "i")))).2 = some os ∧ os.Perm [env.promote chanI] := by
  have simple : ∀ p ∈ [text "chan", text "i"], ∀ c ∈ p, Spec.Literal c ∧ c < 128 := by
    unfold Spec.Literal; decide
  have hsimple : ∀ p : Text, (∀ c ∈ p, Spec.Literal c ∧ c < 128) → Spec.Simple p := by
    intro p hp
    induction p with
    | nil => exact .nil
    | cons c p ih => exact .one (Or.inl (hp c (by simp)).1) (ih fun c hc => hp c (by simp [hc]))
  have key : ∀ (p : Text) (bs : Bytes), p ∈ [text "chan", text "i"] →
      (∃ t, Dlisio.Spec.Utf8 t bs ∧ Spec.Begins same p t) = ((utf8Decode bs).any fun t =>
        (regexMatcher same).run (.str p) (.str t)) := by
    intro p bs hp
    rw [eq_iff_iff, Option.any_eq_true]
    constructor
    · rintro ⟨t, h1, h2⟩
      exact ⟨t, (utf8Decode_iff _ _).2 h1, (c82_regex same (hsimple p (simple p hp)) t).2 h2⟩
    · rintro ⟨t, h1, h2⟩
      exact ⟨t, (utf8Decode_iff _ _).1 h1, (c82_regex same (hsimple p (simple p hp)) t).1 h2⟩
  have := c82_find_partial env (c65_decoding []) (order_set []) same _ _ g hg setsOn holds_case legible_case
    hist (text "chan") (some (text "i")) (by
      rintro p (rfl | h)
      · exact ⟨hsimple _ (simple _ (by simp)), Fingerprint.ascii "chan",
          (utf8Decode_iff _ _).1 (by decide +kernel), by decide +kernel⟩
      · cases h
        exact ⟨hsimple _ (simple _ (by simp)), Fingerprint.ascii "i",
          (utf8Decode_iff _ _).1 (by decide +kernel), by decide +kernel⟩)
    (by decide) (fun o => decide (o = chanI)) (by
      rw [recorded_case]
      intro o ho
      simp only [Option.some.injEq, forall_eq']
      rw [key _ _ (by simp), key _ _ (by simp)]
      have : ∀ o ∈ [headerObj, chanD, chanI, frameA, { frameA with name := ⟨1, 0, B⟩ }],
          (decide (o = chanI) = true ↔ ((utf8Decode o.type).any fun t =>
            (regexMatcher same).run (.str (text "chan")) (.str t)) = true ∧
            ((utf8Decode o.name.id).any fun t =>
              (regexMatcher same).run (.str (text "i")) (.str t)) = true) := by
        decide +kernel
      exact this o ho)
  rw [recorded_case, show List.filter _ _ = [chanI] by decide +kernel] at this
  exact this

/-- Case for `c82_load`: a set without objects, with an error handler that raises for everything. -/
example :
    let strict : Env := { env with policy := fun _ => true }
    ((Spec.after env (file [[0xf0, 1, 0x54, 0x30, 1, 0x41]]) []).loadAll env).2 = some () ∧
    ((Spec.after strict (file [[0xf0, 1, 0x54, 0x30, 1, 0x41]]) []).loadAll strict).2 = none := by
  decide +kernel

/-- C82 is violated for types that cannot be decoded: they are searched as the text of a Python
literal.  The set of the type FF (hexadecimal) is found as something that begins with "B". -/
theorem c82_bytes_defect : ∃ p, Spec.Fresh p ∧ p.map (·.type) = [[0xff]] ∧
    ((Spec.after env p []).search env same none (.str (text "B")) none).2.map (·.length) = some 1 :=
  ⟨file [[0xf0, 1, 0xff, 0x30, 1, 0x41, 0x70, 1, 0, 1, 0x4f]], file_fresh _, by decide +kernel,
    by decide +kernel⟩

example : (PyStr.bytes [0xff, 0x27, 0x41, 0x5c, 0x0a]).shown = text "b\"\\xff'A\\\\\\n\"" := by decide +kernel

end SearchCase

end Dlisio.Dlis
