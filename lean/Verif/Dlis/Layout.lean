/-
The layout of summaries: `describe_text`, `describe_array`, `describe_dict` and `describe_header` of
python/dlisio/dlis/utils/describe.py.  C83.

`textwrap.fill` is part of Python.  It is modelled with the options that are used here, except for
how a text is split into words, where a word that is too long is broken, and which characters are
white space, which are parameters.  How a value is written (`str`, and `np.array2string` for arrays
of several dimensions) is given.  Widths are positive (`fill` raises for others).
-/
import Verif.Py

namespace Dlisio.Dlis

/-! ## Model -/

/-- The parameters of `textwrap`: how a text is split (`_split`), where a word is broken of which
only so much fits in the line (`_handle_long_word`), and `str.isspace` for a character. -/
structure Wrapper where
  split : Text → List Text
  cut : Text → Nat → Nat
  space : Nat → Bool

/-- `chunk.strip() == ''` -/
def Wrapper.blank (x : Wrapper) (t : Text) : Bool := t.all x.space

/-- `str.expandtabs(8)`, with the number of characters in the line so far. -/
def expandTabs : Nat → Text → Text
  | _, [] => []
  | k, c :: t =>
    if c = 9 then List.replicate (8 - k % 8) 32 ++ expandTabs (k + (8 - k % 8)) t
    else if c = 10 ∨ c = 13 then c :: expandTabs 0 t
    else c :: expandTabs (k + 1) t

/-- `_munge_whitespace`: tabs are expanded, and the white space of ASCII is replaced by blanks. -/
def munge (t : Text) : Text :=
  (expandTabs 0 t).map fun c => if c ∈ [9, 10, 11, 12, 13] then 32 else c

/-- The chunks that fit in the line, and the others. -/
def fillLine (w : Int) : List Text → Nat → List Text × List Text
  | [], _ => ([], [])
  | c :: cs, n =>
    if (n + c.length : Int) ≤ w then
      (c :: (fillLine w cs (n + c.length)).1, (fillLine w cs (n + c.length)).2)
    else ([], c :: cs)

/-- `_handle_long_word`, if the next chunk does not fit in any line. -/
def Wrapper.breakWord (x : Wrapper) (w : Int) : List Text × List Text → List Text × List Text
  | (line, c :: cs) =>
    if (c.length : Int) > w then
      let k := if w < 1 then 1 else (w - (line.map List.length).sum).toNat
      (line ++ [c.take (x.cut c k)], c.drop (x.cut c k) :: cs)
    else (line, c :: cs)
  | (line, []) => (line, [])

/-- A blank chunk at the end of the line is dropped. -/
def Wrapper.dropBlank (x : Wrapper) (line : List Text) : List Text :=
  match line.getLast? with
  | some c => if x.blank c then line.dropLast else line
  | none => line

/-- A blank chunk at the beginning of a line is dropped, but not in the first. -/
def Wrapper.skipBlank (x : Wrapper) (first : Bool) : List Text → List Text
  | c :: cs => if !first && x.blank c then cs else c :: cs
  | [] => []

/-- The text of the next line without indent, and the chunks that are left, for the space in the
line. -/
def Wrapper.line (x : Wrapper) (w : Int) (first : Bool) (chunks : List Text) :
    List Text × List Text :=
  let (line, rest) := x.breakWord w (fillLine w (x.skipBlank first chunks) 0)
  (x.dropBlank line, rest)

/-- The loop of `_wrap_chunks`; `none` if it has not come to its end after so many rounds. -/
def Wrapper.loop (x : Wrapper) (width : Nat) (initial subsequent : Text) :
    Nat → List Text → List Text → Option (List Text)
  | _, lines, [] => some lines
  | 0, _, _ => none
  | n + 1, lines, chunks =>
    let indent := if lines = [] then initial else subsequent
    let (line, rest) := x.line (width - indent.length) (decide (lines = [])) chunks
    x.loop width initial subsequent n (if line = [] then lines else lines ++ [indent ++ line.flatten])
      rest

/-- `textwrap.wrap` -/
def Wrapper.wrap (x : Wrapper) (width : Nat) (initial subsequent : Text) (n : Nat) (t : Text) :
    Option (List Text) :=
  x.loop width initial subsequent n [] (x.split (munge t))

/-- `'\n'.join(lines)` -/
def joinLines : List Text → Text
  | [] => []
  | [l] => l
  | l :: ls => l ++ 10 :: joinLines ls

/-- The units behind a value, describe.py:255 and 293. -/
def unitsText (units : Text) : Text := if units = [] then [] else text " [" ++ units ++ text "]"

/-- `describe_text`, describe.py:244-261, for the `str` of the value; `None` is the text "None". -/
def Wrapper.describeText (x : Wrapper) (width n : Nat) (indent subindent t units : Text) :
    Option Text :=
  (x.wrap width indent subindent n ((if t = [] then text "\"\"" else t) ++ unitsText units)).map
    fun ls => joinLines ls ++ [10]

/-- What is shown of a value: the `str` of what is not a sequence, those of the elements of a list,
or what `np.array2string` makes of an array of several dimensions. -/
inductive Written where
  | text (t : Text)
  | list (l : List Text)
  | array (t : Text)

/-- The text of a list of several elements, describe.py:297-300. -/
def columns (l : List Text) : Text :=
  let width := (l.map List.length).foldl max 0
  text " " |>.intercalate (l.map fun t => t ++ List.replicate (width - t.length) 32)

/-- `describe_array` with `writeempty`, describe.py:263-301, and `describe_text` for what is not a
sequence, describe.py:238-241. -/
def Wrapper.describeValue (x : Wrapper) (width n : Nat) (indent subindent units : Text) :
    Written → Option Text
  | .text t => x.describeText width n indent subindent t units
  | .list [] => x.describeText width n indent subindent (text "[]") units
  | .list [t] => x.describeText width n indent subindent t units
  | .list l => x.describeText width n indent subindent (columns l) units
  | .array t => some (indent ++ t ++ unitsText units ++ [10])

/-- The longest key, describe.py:224. -/
def keyWidth (d : List (Text × Written × Text)) : Nat := (d.map fun r => r.1.length).foldl max 0

/-- The loop of `describe_dict`, describe.py:227-241, for keys, values and units. -/
def Wrapper.describeRows (x : Wrapper) (width n : Nat) (indent : Text) (keylen : Nat) :
    List (Text × Written × Text) → Option Text
  | [] => some []
  | (key, value, units) :: d =>
    let pre := indent ++ (key ++ List.replicate (keylen - key.length) 32) ++ text " : "
    match x.describeValue width n pre (List.replicate pre.length 32) units value with
    | none => none
    | some t => (x.describeRows width n indent keylen d).map (t ++ ·)

/-- `describe_dict`, describe.py:216-242, after `remove_empties`. -/
def Wrapper.describeDict (x : Wrapper) (width n : Nat) (indent : Text)
    (d : List (Text × Written × Text)) : Option Text :=
  if d = [] then some []
  else (x.describeRows width n indent (keyWidth d) d).map (· ++ [10])

/-- `describe_header`, describe.py:130-142. -/
def Wrapper.describeHeader (x : Wrapper) (width n : Nat) (indent t : Text) (lvl : Nat) : Option Text :=
  let sep := List.replicate t.length 45
  let ts := if lvl = 1 then [sep, t, sep] else if lvl = 2 then [t, text "--"] else t.map ([·])
  (ts.mapM fun l => x.describeText width n indent indent l []).map List.flatten

/-! ## Specification -/

namespace Spec

/-- What is assumed about `textwrap`: splitting loses nothing and gives no empty chunks; of a word
that is broken something fits in the line, if there is space; the white space of ASCII is white
space, and a dash is not. -/
structure Wraps (x : Wrapper) : Prop where
  split : ∀ t, (x.split t).flatten = t ∧ [] ∉ x.split t
  cut : ∀ c k, x.cut c k ≤ k ∧ (0 < k → 0 < x.cut c k)
  space : ∀ c, c ∈ [9, 10, 11, 12, 13, 32] → x.space c = true
  dash : x.space 45 = false

/-- A text without its white space. -/
def ink (space : Nat → Bool) (t : Text) : Text := t.filter fun c => !space c

/-- The lines begin with these indents, followed by the bodies. -/
def Indented (initial subsequent : Text) (bodies lines : List Text) : Prop :=
  match bodies with
  | [] => lines = []
  | b :: bs => lines = (initial ++ b) :: bs.map (subsequent ++ ·)

/-- The column behind a text: the number of characters in its last line. -/
def columnAfter (t : Text) : Nat := t.foldl (fun k c => if c = 10 ∨ c = 13 then 0 else k + 1) 0

/-- A text without tabs and line breaks that does not end with white space. -/
def Tidy (space : Nat → Bool) (t : Text) : Prop :=
  (∀ c ∈ t, c ∉ [9, 10, 11, 12, 13]) ∧ ∃ u c, t = u ++ [c] ∧ space c = false

/-- The words of a value, without white space between them. -/
def words (space : Nat → Bool) : Written → Text
  | .text t => ink space (if t = [] then text "\"\"" else t)
  | .list [] => ink space (text "[]")
  | .list [t] => ink space (if t = [] then text "\"\"" else t)
  | .list l => (l.map (ink space)).flatten
  | .array t => ink space t

/-- A value and its units behind a title; lines after the first begin at the same column; what fits
in the line is written as it is. -/
def Continues (space : Nat → Bool) (width : Nat) (title : Text) (column : Nat) (units row : Text) :
    Written → Prop
  | .array t => row = title ++ t ++ (if units = [] then [] else text " [" ++ units ++ text "]") ++ [10]
  | v => ∃ bodies lines, Indented title (List.replicate column 32) bodies lines ∧
      row = (if lines = [] then [10] else lines.flatMap (· ++ [10])) ∧
      ink space bodies.flatten = words space v ++
        ink space (if units = [] then [] else text " [" ++ units ++ text "]") ∧
      (∀ l ∈ lines, l.length ≤ max width (column + 1)) ∧
      ∀ t u, v = .text t → t ≠ [] → u = (if units = [] then [] else text " [" ++ units ++ text "]") →
        Tidy space (t ++ u) → column + (t ++ u).length ≤ width → row = title ++ t ++ u ++ [10]

/-- The row of a summary for a key, its value and units: the key, blanks up to the column, and " : ",
and then the value and the units. -/
def Titled (space : Nat → Bool) (width : Nat) (indent : Text) (column : Nat)
    (r : Text × Written × Text) (row : Text) : Prop :=
  ∃ pad title, title = indent ++ r.1 ++ List.replicate pad 32 ++ text " : " ∧ title.length = column ∧
    Continues space width title column r.2.2 row r.2.1

end Spec

open _root_.Dlisio.Dlis.Spec

/-! ## Lemmas -/

theorem munge_ink {space : Nat → Bool} (hs : ∀ c, c ∈ [9, 10, 11, 12, 13, 32] → space c = true)
    (t : Text) : Spec.ink space (munge t) = Spec.ink space t := by
  have h1 : ∀ (t : Text) (k : Nat), Spec.ink space (expandTabs k t) = Spec.ink space t := by
    intro t
    induction t with
    | nil => intro k; rfl
    | cons c t ih =>
      intro k
      unfold expandTabs
      split
      · rename_i hc
        subst hc
        have hr : ∀ m, Spec.ink space (List.replicate m 32) = [] := by
          intro m
          rw [Spec.ink, List.filter_eq_nil_iff]
          intro a ha
          rw [List.eq_of_mem_replicate ha, hs 32 (by simp)]
          decide
        have ih := ih (k + (8 - k % 8))
        unfold Spec.ink at ih hr ⊢
        rw [List.filter_append, hr, ih, List.filter_cons_of_neg (by simp [hs 9 (by simp)])]
        rfl
      · split
        · have ih := ih 0
          unfold Spec.ink at ih ⊢
          rw [List.filter_cons, List.filter_cons, ih]
        · have ih := ih (k + 1)
          unfold Spec.ink at ih ⊢
          rw [List.filter_cons, List.filter_cons, ih]
  rw [munge, ← h1 t 0]
  generalize expandTabs 0 t = u
  induction u with
  | nil => rfl
  | cons c u ih =>
    unfold Spec.ink at ih ⊢
    rw [List.map_cons, List.filter_cons, List.filter_cons, ih]
    by_cases hm : c ∈ [9, 10, 11, 12, 13]
    · rw [if_pos hm, hs 32 (by simp),
        hs c (by simp only [List.mem_cons, List.not_mem_nil, or_false] at hm ⊢; omega)]
      rfl
    · rw [if_neg hm]

section
variable {x : Wrapper}

theorem fillLine_append (w : Int) : ∀ (cs : List Text) (n : Nat),
    (fillLine w cs n).1 ++ (fillLine w cs n).2 = cs
  | [], _ => rfl
  | c :: cs, n => by
    unfold fillLine
    split
    · simp only [List.cons_append, fillLine_append w cs]
    · rfl

theorem fillLine_length (w : Int) : ∀ (cs : List Text) (n : Nat), (fillLine w cs n).1 ≠ [] →
    (n + ((fillLine w cs n).1.map List.length).sum : Int) ≤ w
  | [], _, h => absurd rfl h
  | c :: cs, n, h => by
    unfold fillLine at h ⊢
    split
    · rename_i hc
      rw [if_pos hc] at h
      simp only [List.map_cons, List.sum_cons]
      by_cases h0 : (fillLine w cs (n + c.length)).1 = []
      · rw [h0]; simpa using hc
      · have := fillLine_length w cs (n + c.length) h0
        push_cast at this ⊢
        omega
    · rename_i hc
      rw [if_neg hc] at h
      exact absurd rfl h

theorem blank_ink {t : Text} (h : x.blank t = true) : Spec.ink x.space t = [] := by
  unfold Wrapper.blank at h
  unfold Spec.ink
  rw [List.filter_eq_nil_iff]
  intro c hc
  rw [List.all_eq_true] at h
  simp [h c hc]

theorem ink_append (space : Nat → Bool) (a b : Text) :
    Spec.ink space (a ++ b) = Spec.ink space a ++ Spec.ink space b := by
  simp [Spec.ink]

theorem skipBlank_ink (first : Bool) (chunks : List Text) :
    Spec.ink x.space (x.skipBlank first chunks).flatten = Spec.ink x.space chunks.flatten := by
  cases chunks with
  | nil => rfl
  | cons c cs =>
    rw [Wrapper.skipBlank]
    split
    · rename_i h
      rw [Bool.and_eq_true] at h
      rw [List.flatten_cons, ink_append, blank_ink h.2]; rfl
    · rfl

theorem dropBlank_ink (line : List Text) :
    Spec.ink x.space (x.dropBlank line).flatten = Spec.ink x.space line.flatten := by
  unfold Wrapper.dropBlank
  rcases List.eq_nil_or_concat line with rfl | ⟨l, c, rfl⟩
  · rfl
  · rw [List.concat_eq_append, List.getLast?_append]
    simp only [List.getLast?_singleton, Option.some_or]
    split
    · rename_i h
      rw [List.dropLast_concat, List.flatten_append, ink_append, List.flatten_singleton, blank_ink h,
        List.append_nil]
    · rfl

theorem breakWord_flatten (w : Int) (p : List Text × List Text) :
    (x.breakWord w p).1.flatten ++ (x.breakWord w p).2.flatten = p.1.flatten ++ p.2.flatten := by
  obtain ⟨line, rest⟩ := p
  cases rest with
  | nil => rfl
  | cons c cs =>
    rw [Wrapper.breakWord]
    split
    · simp only [List.flatten_append, List.flatten_cons, List.flatten_nil, List.append_nil,
        List.append_assoc]
      rw [← List.append_assoc (List.take _ _), List.take_append_drop]
    · rfl

theorem line_ink (w : Int) (first : Bool) (chunks : List Text) :
    Spec.ink x.space (x.line w first chunks).1.flatten ++
      Spec.ink x.space (x.line w first chunks).2.flatten = Spec.ink x.space chunks.flatten := by
  unfold Wrapper.line
  simp only
  rw [dropBlank_ink, ← ink_append, breakWord_flatten, ← List.flatten_append, fillLine_append,
    skipBlank_ink]

theorem sum_length_flatten (l : List Text) : (l.map List.length).sum = l.flatten.length := by
  rw [List.length_flatten]

theorem dropBlank_length (line : List Text) : (x.dropBlank line).flatten.length ≤ line.flatten.length := by
  unfold Wrapper.dropBlank
  rcases List.eq_nil_or_concat line with rfl | ⟨l, c, rfl⟩
  · exact Nat.le_refl _
  · rw [List.concat_eq_append, List.getLast?_append]
    simp only [List.getLast?_singleton, Option.some_or]
    split
    · rw [List.dropLast_concat]; simp
    · exact Nat.le_refl _

theorem line_length (hx : Spec.Wraps x) (w : Int) (first : Bool) (chunks : List Text) :
    ((x.line w first chunks).1.flatten.length : Int) ≤ max w 1 := by
  unfold Wrapper.line
  simp only
  have h1 := fillLine_length w (x.skipBlank first chunks) 0
  generalize fillLine w (x.skipBlank first chunks) 0 = p at h1
  refine Int.le_trans (Int.ofNat_le.2 (dropBlank_length _)) ?_
  obtain ⟨line, rest⟩ := p
  simp only [sum_length_flatten, Nat.cast_zero, Int.zero_add] at h1
  have h2 : (line.flatten.length : Int) ≤ max w 0 := by
    by_cases h0 : line = []
    · rw [h0]; simp
    · have := h1 h0; omega
  cases rest with
  | nil =>
    show (line.flatten.length : Int) ≤ _
    omega
  | cons c cs =>
    rw [Wrapper.breakWord]
    split
    · simp only [List.flatten_append, List.length_append, List.flatten_singleton, List.length_take,
        sum_length_flatten]
      split
      · have := (hx.cut c 1).1
        push_cast
        omega
      · have := (hx.cut c (w - line.flatten.length).toNat).1
        push_cast
        omega
    · show (line.flatten.length : Int) ≤ _
      omega

/-- What the loop does: it adds lines. -/
theorem loop_spec (hx : Spec.Wraps x) (width : Nat) (initial subsequent : Text) :
    ∀ (n : Nat) (lines chunks out : List Text),
    x.loop width initial subsequent n lines chunks = some out →
    ∃ bodies, (lines = [] → Spec.Indented initial subsequent bodies out) ∧
      (lines ≠ [] → out = lines ++ bodies.map (subsequent ++ ·)) ∧
      Spec.ink x.space bodies.flatten = Spec.ink x.space chunks.flatten ∧
      (lines = [] → ∀ b ∈ bodies.head?, (b.length : Int) ≤ max ((width : Int) - initial.length) 1) ∧
      (∀ b ∈ bodies.drop (if lines = [] then 1 else 0),
        (b.length : Int) ≤ max ((width : Int) - subsequent.length) 1) := by
  intro n
  induction n with
  | zero =>
    intro lines chunks out h
    cases chunks with
    | nil =>
      cases h
      exact ⟨[], fun h => h, fun _ => by simp, rfl, by simp, by simp⟩
    | cons => cases h
  | succ n ih =>
    intro lines chunks out h
    cases chunks with
    | nil =>
      cases h
      exact ⟨[], fun h => h, fun _ => by simp, rfl, by simp, by simp⟩
    | cons c cs =>
      unfold Wrapper.loop at h
      simp only at h
      generalize hp : x.line (width - ((if lines = [] then initial else subsequent).length : Int))
        (decide (lines = [])) (c :: cs) = p at h
      have hink := line_ink (x := x) (width - ((if lines = [] then initial else subsequent).length : Int))
        (decide (lines = [])) (c :: cs)
      have hlen := line_length hx (width - ((if lines = [] then initial else subsequent).length : Int))
        (decide (lines = [])) (c :: cs)
      rw [hp] at hink hlen
      obtain ⟨line, rest⟩ := p
      simp only at h hink hlen
      by_cases hl : line = []
      · rw [if_pos hl] at h
        obtain ⟨bodies, k1, k2, k3, k4, k5⟩ := ih lines rest out h
        refine ⟨bodies, k1, k2, ?_, k4, k5⟩
        rw [k3, ← hink, hl]
        rfl
      · rw [if_neg hl] at h
        by_cases hls : lines = []
        · subst hls
          simp only [if_true, List.nil_append] at h hlen
          obtain ⟨bodies, -, k2, k3, -, k5⟩ := ih _ rest out h
          refine ⟨line.flatten :: bodies, fun _ => ?_, fun h => absurd rfl h, ?_, ?_, ?_⟩
          · rw [k2 (by simp)]; rfl
          · rw [List.flatten_cons, ink_append, k3, hink]
          · intro _ b hb; cases hb; exact hlen
          · simpa using k5
        · simp only [if_neg hls] at h hlen
          obtain ⟨bodies, -, k2, k3, -, k5⟩ := ih _ rest out h
          refine ⟨line.flatten :: bodies, fun h => absurd h hls, fun _ => ?_, ?_, fun h => absurd h hls, ?_⟩
          · rw [k2 (by simp), List.append_assoc]; rfl
          · rw [List.flatten_cons, ink_append, k3, hink]
          · rw [if_neg hls, List.drop_zero]
            intro b hb
            rcases List.mem_cons.1 hb with rfl | hb
            · exact hlen
            · exact k5 b (by simpa using hb)

/-- The work that is left. -/
def work (chunks : List Text) : Nat := chunks.flatten.length + chunks.length

theorem line_progress (hx : Spec.Wraps x) (w : Int) (first : Bool) (c : Text) (cs : List Text)
    (h : 0 ≤ w ∨ c ≠ [] ∨ first = false) :
    work (x.line w first (c :: cs)).2 < work (c :: cs) := by
  unfold Wrapper.line
  simp only
  have hs : work (x.skipBlank first (c :: cs)) < work (c :: cs) ∨
      (x.skipBlank first (c :: cs) = c :: cs ∧ (0 ≤ w ∨ c ≠ [])) := by
    rw [Wrapper.skipBlank]
    split
    · left; simp [work]; omega
    · rename_i hb
      refine Or.inr ⟨rfl, ?_⟩
      rcases h with h | h | h
      · exact Or.inl h
      · exact Or.inr h
      · refine Or.inr ?_
        rintro rfl
        simp [h, Wrapper.blank] at hb
  have hle : ∀ p : List Text × List Text, work (x.breakWord w p).2 ≤ work p.2 := by
    rintro ⟨line, rest⟩
    cases rest with
    | nil => exact Nat.le_refl _
    | cons c cs =>
      rw [Wrapper.breakWord]
      split
      · simp [work]
      · exact Nat.le_refl _
  have hfill : ∀ cs n, work (fillLine w cs n).2 ≤ work cs := by
    intro cs n
    conv_rhs => rw [← fillLine_append w cs n]
    simp [work]
    omega
  rcases hs with hs | ⟨hs, hw⟩
  · exact Nat.lt_of_le_of_lt (Nat.le_trans (hle _) (hfill _ _)) hs
  · rw [hs]
    by_cases hc : (c.length : Int) ≤ w
    · refine Nat.lt_of_le_of_lt (hle _) ?_
      rw [fillLine, if_pos (by simpa using hc)]
      have := hfill cs (0 + c.length)
      simp only [work, List.flatten_cons, List.length_append, List.length_cons] at this ⊢
      omega
    · rw [fillLine, if_neg (by simpa using hc), Wrapper.breakWord, if_pos (by omega)]
      simp only [List.map_nil, List.sum_nil]
      have hk : 0 < (if w < 1 then 1 else (w - ((0 : Nat) : Int)).toNat) := by split <;> omega
      have h1 := (hx.cut c _).2 hk
      have hc0 : 0 < c.length := by
        rcases hw with hw | hw
        · omega
        · exact List.length_pos_iff.2 hw
      simp only [work, List.flatten_cons, List.length_append, List.length_cons, List.length_drop]
      omega

theorem loop_ends (hx : Spec.Wraps x) (width : Nat) (initial subsequent : Text) :
    ∀ (n : Nat) (lines chunks : List Text), work chunks ≤ n →
      (initial.length ≤ width ∨ lines ≠ [] ∨ ∀ c ∈ chunks.head?, x.blank c = false) →
      ∃ out, x.loop width initial subsequent n lines chunks = some out := by
  intro n
  induction n with
  | zero =>
    intro lines chunks h _
    cases chunks with
    | nil => exact ⟨_, rfl⟩
    | cons c cs => simp [work] at h
  | succ n ih =>
    intro lines chunks h hb
    cases chunks with
    | nil => exact ⟨_, rfl⟩
    | cons c cs =>
      unfold Wrapper.loop
      simp only
      have hp := line_progress hx (width - ((if lines = [] then initial else subsequent).length : Int))
        (decide (lines = [])) c cs (by
          rcases hb with hb | hb | hb
          · by_cases hl : lines = []
            · left; rw [if_pos hl]; omega
            · right; right; simpa using hl
          · right; right; simpa using hb
          · right; left
            rintro rfl
            have := hb [] rfl
            simp [Wrapper.blank] at this)
      refine ih _ _ (by omega) ?_
      rcases hb with hb | hb | hb
      · exact Or.inl hb
      · right; left
        by_cases hnil : (x.line ((width : Int) - ((if lines = [] then initial else
            subsequent).length : Int)) (decide (lines = [])) (c :: cs)).1 = []
        · rw [if_pos hnil]; exact hb
        · rw [if_neg hnil]; simp
      · by_cases hi : initial.length ≤ width
        · exact Or.inl hi
        · by_cases hl : lines = []
          · subst hl
            by_cases hnil : (x.line ((width : Int) - ((if ([] : List Text) = [] then initial else
                subsequent).length : Int)) (decide (([] : List Text) = [])) (c :: cs)).1 = []
            · rw [if_pos hnil]
              right; right
              have hc := hb c rfl
              have hc0 : c ≠ [] := by rintro rfl; simp [Wrapper.blank] at hc
              simp only [if_true, decide_true] at hnil ⊢
              have hw : (width : Int) - initial.length < 0 := by omega
              have hfl : fillLine ((width : Int) - initial.length) (c :: cs) 0 = ([], c :: cs) := by
                rw [fillLine, if_neg (by push_cast; omega)]
              have hline : x.line ((width : Int) - initial.length) true (c :: cs) =
                  (x.dropBlank [c.take (x.cut c 1)], c.drop (x.cut c 1) :: cs) := by
                unfold Wrapper.line Wrapper.skipBlank
                simp only [Bool.not_true, Bool.false_and, Bool.false_eq_true, if_false, hfl,
                  Wrapper.breakWord]
                rw [if_pos (by omega), if_pos (by omega)]
                rfl
              rw [hline] at hnil ⊢
              intro d hd
              cases hd
              unfold Wrapper.dropBlank at hnil
              simp only [List.getLast?_singleton] at hnil
              have htake : x.blank (c.take (x.cut c 1)) = true := by
                by_contra hx'
                rw [if_neg hx'] at hnil
                cases hnil
              by_contra hx'
              rw [Bool.not_eq_false] at hx'
              have : x.blank c = true := by
                rw [← List.take_append_drop (x.cut c 1) c]
                unfold Wrapper.blank at htake hx' ⊢
                rw [List.all_append, htake, hx']; rfl
              rw [hc] at this
              cases this
            · rw [if_neg hnil]
              right; left; simp
          · right; left
            by_cases hnil : (x.line ((width : Int) - ((if lines = [] then initial else
                subsequent).length : Int)) (decide (lines = [])) (c :: cs)).1 = []
            · rw [if_pos hnil]; exact hl
            · rw [if_neg hnil]; simp

end

/-! ## C83 -/

/-- C83.  Wrapping loses nothing but white space, each line begins with its indent, and no line is
longer than the width, unless the indent leaves no space. -/
theorem c83_wrap {x : Wrapper} (hx : Spec.Wraps x) (width : Nat) (initial subsequent : Text) (n : Nat)
    (t : Text) (lines : List Text) (h : x.wrap width initial subsequent n t = some lines) :
    ∃ bodies, Spec.Indented initial subsequent bodies lines ∧
      Spec.ink x.space bodies.flatten = Spec.ink x.space t ∧
      (∀ l ∈ lines, l.length ≤ max width (max initial.length subsequent.length + 1)) := by
  obtain ⟨bodies, h1, -, h3, h4, h5⟩ := loop_spec hx width initial subsequent n [] _ lines h
  have h1 := h1 rfl
  refine ⟨bodies, h1, ?_, ?_⟩
  · rw [h3, (hx.split _).1, munge_ink hx.space]
  · cases bodies with
    | nil => rw [h1]; simp
    | cons b bs =>
      rw [h1]
      have h4 := h4 rfl b rfl
      intro l hl
      rcases List.mem_cons.1 hl with rfl | hl
      · rw [List.length_append]; omega
      · obtain ⟨b', hb', rfl⟩ := List.mem_map.1 hl
        have := h5 b' (by simpa using hb')
        rw [List.length_append]; omega

/-- C83.  Wrapping comes to an end exactly if the indent of the first line is not longer than the
width, or the text does not begin with a blank chunk. -/
theorem c83_ends {x : Wrapper} (hx : Spec.Wraps x) (width : Nat) (initial subsequent : Text) (t : Text) :
    ((∃ n₀, ∀ n, n₀ ≤ n → ∃ lines, x.wrap width initial subsequent n t = some lines) ↔
      initial.length ≤ width ∨ ∀ c ∈ (x.split (munge t)).head?, x.blank c = false) ∧
    ((∀ n, x.wrap width initial subsequent n t = none) ↔
      ¬ (initial.length ≤ width ∨ ∀ c ∈ (x.split (munge t)).head?, x.blank c = false)) := by
  have hyes : (initial.length ≤ width ∨ ∀ c ∈ (x.split (munge t)).head?, x.blank c = false) →
      ∀ n, work (x.split (munge t)) ≤ n → ∃ lines, x.wrap width initial subsequent n t = some lines := by
    intro h n hn
    refine loop_ends hx width initial subsequent n [] _ hn ?_
    rcases h with h | h
    · exact Or.inl h
    · exact Or.inr (Or.inr h)
  have hno : ¬ (initial.length ≤ width ∨ ∀ c ∈ (x.split (munge t)).head?, x.blank c = false) →
      ∀ n, x.wrap width initial subsequent n t = none := by
    intro h n
    rw [not_or] at h
    obtain ⟨h1, h2⟩ := h
    unfold Wrapper.wrap
    cases hs : x.split (munge t) with
    | nil => rw [hs] at h2; simp at h2
    | cons c cs =>
      rw [hs] at h2
      have hc : x.blank c = true := by
        by_contra hx'
        exact h2 (by rintro d ⟨⟩; simpa using hx')
      clear h2 hs
      induction n generalizing c with
      | zero => rfl
      | succ n ih =>
        unfold Wrapper.loop
        simp only [if_true, decide_true]
        have hfl : fillLine ((width : Int) - initial.length) (c :: cs) 0 = ([], c :: cs) := by
          rw [fillLine, if_neg (by push_cast; omega)]
        have hline : x.line ((width : Int) - initial.length) true (c :: cs) =
            (x.dropBlank [c.take (x.cut c 1)], c.drop (x.cut c 1) :: cs) := by
          unfold Wrapper.line Wrapper.skipBlank
          simp only [Bool.not_true, Bool.false_and, Bool.false_eq_true, if_false, hfl,
            Wrapper.breakWord]
          rw [if_pos (by omega), if_pos (by omega)]
          rfl
        have hall : ∀ d ∈ c, x.space d = true := by
          unfold Wrapper.blank at hc
          exact List.all_eq_true.1 hc
        have htake : x.blank (c.take (x.cut c 1)) = true :=
          List.all_eq_true.2 fun d hd => hall d (List.mem_of_mem_take hd)
        have hdrop : x.blank (c.drop (x.cut c 1)) = true :=
          List.all_eq_true.2 fun d hd => hall d (List.mem_of_mem_drop hd)
        rw [hline]
        have : x.dropBlank [c.take (x.cut c 1)] = [] := by
          unfold Wrapper.dropBlank
          simp [htake]
        simp only [this, if_true]
        exact ih _ hdrop
  constructor
  · constructor
    · rintro ⟨n₀, h⟩
      by_contra hn
      obtain ⟨l, hl⟩ := h n₀ (Nat.le_refl _)
      rw [hno hn] at hl
      cases hl
    · exact fun h => ⟨_, hyes h⟩
  · constructor
    · intro h hy
      obtain ⟨l, hl⟩ := hyes hy _ (Nat.le_refl _)
      rw [h] at hl
      cases hl
    · exact hno

/-- C83.  A text with anything but white space has a first line, with its indent. -/
theorem c83_first {x : Wrapper} (hx : Spec.Wraps x) (width : Nat) (initial subsequent : Text) (n : Nat)
    (t : Text) (lines : List Text) (h : x.wrap width initial subsequent n t = some lines)
    (ht : ∃ c ∈ t, x.space c = false) : ∃ b ls, lines = (initial ++ b) :: ls := by
  obtain ⟨bodies, h1, h2, -⟩ := c83_wrap hx width initial subsequent n t lines h
  cases bodies with
  | nil =>
    obtain ⟨c, hc, hs⟩ := ht
    have : c ∈ Spec.ink x.space t := by
      unfold Spec.ink
      exact List.mem_filter.2 ⟨hc, by simp [hs]⟩
    rw [← h2] at this
    cases this
  | cons b bs => exact ⟨b, _, h1⟩

theorem fillLine_all (w : Int) : ∀ (cs : List Text) (n : Nat), (n + cs.flatten.length : Int) ≤ w →
    fillLine w cs n = (cs, [])
  | [], _, _ => rfl
  | c :: cs, n, h => by
    rw [List.flatten_cons, List.length_append] at h
    push_cast at h
    rw [fillLine, if_pos (by omega), fillLine_all w cs _ (by push_cast; omega)]

theorem munge_tidy (t : Text) (h : ∀ c ∈ t, c ∉ [9, 10, 11, 12, 13]) : munge t = t := by
  have h1 : ∀ (t : Text) (k : Nat), (∀ c ∈ t, c ∉ [9, 10, 11, 12, 13]) → expandTabs k t = t := by
    intro t
    induction t with
    | nil => intros; rfl
    | cons c t ih =>
      intro k h
      have hc := h c (by simp)
      have ht := fun d hd => h d (List.mem_cons_of_mem c hd)
      simp only [List.mem_cons, List.not_mem_nil, or_false, not_or] at hc
      rw [expandTabs, if_neg hc.1, if_neg (by tauto), ih _ ht]
  rw [munge, h1 t 0 h]
  conv_rhs => rw [← List.map_id t]
  exact List.map_congr_left fun c hc => if_neg (h c hc)

theorem expandTabs_mod (t : Text) : ∀ k, expandTabs (k % 8) t = expandTabs k t := by
  induction t with
  | nil => intro k; rfl
  | cons c t ih =>
    intro k
    unfold expandTabs
    split
    · rw [Nat.mod_mod, ← ih (k % 8 + (8 - k % 8)), ← ih (k + (8 - k % 8))]
      congr 2
      omega
    · split
      · rfl
      · rw [← ih (k % 8 + 1), ← ih (k + 1)]
        congr 2
        omega

theorem expandTabs_append (v : Text) : ∀ (u : Text) (k : Nat), expandTabs k (u ++ v) = expandTabs k u ++
    expandTabs ((expandTabs k u).foldl (fun k c => if c = 10 ∨ c = 13 then 0 else k + 1) k) v
  | [], k => rfl
  | c :: u, k => by
    have hr : ∀ m k, (List.replicate m 32).foldl (fun k c => if c = 10 ∨ c = 13 then 0 else k + 1) k =
        k + m := by
      intro m
      induction m with
      | zero => intro k; rfl
      | succ m ih =>
        intro k
        rw [List.replicate_succ, List.foldl_cons, if_neg (by decide), ih]
        omega
    rw [List.cons_append, expandTabs]
    rw [show expandTabs k (c :: u) = if c = 9 then List.replicate (8 - k % 8) 32 ++
      expandTabs (k + (8 - k % 8)) u else if c = 10 ∨ c = 13 then c :: expandTabs 0 u
      else c :: expandTabs (k + 1) u from by rw [expandTabs]]
    split
    · rw [expandTabs_append, List.foldl_append, hr, List.append_assoc]
    · split
      · rename_i h
        rw [expandTabs_append, List.foldl_cons, if_pos h, List.cons_append]
      · rename_i h
        rw [expandTabs_append, List.foldl_cons, if_neg h, List.cons_append]

/-- C83.  A tab is replaced by blanks up to the next column that is a multiple of 8; the text after it
is written as if it began there, and nothing else is changed. -/
theorem c83_tabs (u v : Text) : (9 ∉ u → expandTabs 0 u = u) ∧
    ∃ p, 1 ≤ p ∧ p ≤ 8 ∧ 8 ∣ Spec.columnAfter (expandTabs 0 u) + p ∧
      expandTabs 0 (u ++ 9 :: v) = expandTabs 0 u ++ List.replicate p 32 ++ expandTabs 0 v := by
  constructor
  · have : ∀ k, 9 ∉ u → expandTabs k u = u := by
      induction u with
      | nil => intros; rfl
      | cons c u ih =>
        intro k h
        rw [List.mem_cons, not_or] at h
        unfold expandTabs
        rw [if_neg (fun h' => h.1 h'.symm), ih _ h.2, ih _ h.2]
        split <;> rfl
    exact this 0
  · rw [expandTabs_append]
    unfold Spec.columnAfter
    generalize (expandTabs 0 u).foldl (fun k c => if c = 10 ∨ c = 13 then 0 else k + 1) 0 = k
    refine ⟨8 - k % 8, by omega, by omega, by omega, ?_⟩
    rw [expandTabs, if_pos rfl, List.append_assoc, ← expandTabs_mod v (k + (8 - k % 8))]
    congr 3
    omega

/-- C83.  A text that fits is written as it is. -/
theorem c83_fits {x : Wrapper} (hx : Spec.Wraps x) (width : Nat) (initial subsequent : Text) (n : Nat)
    (t : Text) (ht : Spec.Tidy x.space t) (hw : initial.length + t.length ≤ width) :
    x.wrap width initial subsequent (n + 1) t = some [initial ++ t] := by
  obtain ⟨h1, u, c, rfl, hc⟩ := ht
  rw [Wrapper.wrap, munge_tidy _ h1]
  obtain ⟨hf, he⟩ := hx.split (u ++ [c])
  generalize x.split (u ++ [c]) = cs at hf he
  rcases List.eq_nil_or_concat cs with rfl | ⟨l, d, rfl⟩
  · simp at hf
  · rw [List.concat_eq_append] at hf he ⊢
    have hd : x.blank d = false := by
      rcases List.eq_nil_or_concat d with rfl | ⟨d', e, rfl⟩
      · simp at he
      · rw [List.concat_eq_append, List.flatten_append, List.flatten_singleton, ← List.append_assoc] at hf
        have := (List.append_inj' hf rfl).2
        cases this
        simp [Wrapper.blank, hc]
    have hline : x.line (width - initial.length) true (l ++ [d]) = (l ++ [d], []) := by
      have hs : x.skipBlank true (l ++ [d]) = l ++ [d] := by
        cases l <;> simp [Wrapper.skipBlank]
      unfold Wrapper.line
      rw [hs, fillLine_all _ _ _ (by rw [hf]; push_cast; omega)]
      simp [Wrapper.breakWord, Wrapper.dropBlank, hd]
    obtain ⟨a, as, hcons⟩ : ∃ a as, l ++ [d] = a :: as := by
      cases l with
      | nil => exact ⟨_, _, rfl⟩
      | cons a as => exact ⟨a, as ++ [d], rfl⟩
    rw [hcons] at hline hf ⊢
    unfold Wrapper.loop
    simp only [if_true, decide_true, hline]
    rw [if_neg (by simp), hf, List.nil_append]
    unfold Wrapper.loop
    rfl

/-- C83.  Headers are underlined, and headers of sections are followed by two dashes. -/
theorem c83_header {x : Wrapper} (hx : Spec.Wraps x) (width : Nat) (indent : Text) (n : Nat) (t : Text)
    (ht : Spec.Tidy x.space t) (hw : indent.length + max t.length 2 ≤ width) :
    x.describeHeader width (n + 1) indent t 1 = some (indent ++ List.replicate t.length 45 ++ [10] ++
      indent ++ t ++ [10] ++ indent ++ List.replicate t.length 45 ++ [10]) ∧
    x.describeHeader width (n + 1) indent t 2 = some (indent ++ t ++ [10] ++ indent ++ text "--" ++ [10]) := by
  have hone : ∀ l, Spec.Tidy x.space l → indent.length + l.length ≤ width →
      x.describeText width (n + 1) indent indent l [] = some (indent ++ l ++ [10]) := by
    intro l hl hlw
    have hne : l ≠ [] := by obtain ⟨_, u, c, rfl, _⟩ := hl; simp
    rw [Wrapper.describeText, if_neg hne, unitsText, if_pos rfl, List.append_nil,
      c83_fits hx width indent indent n l hl hlw]
    rfl
  have hdash : ∀ k, Spec.Tidy x.space (List.replicate (k + 1) 45) := by
    intro k
    refine ⟨fun c hc => ?_, List.replicate k 45, 45, List.replicate_succ', hx.dash⟩
    rw [List.eq_of_mem_replicate hc]; decide
  have hpos : ∃ k, t.length = k + 1 := by
    obtain ⟨_, u, c, rfl, _⟩ := ht
    exact ⟨u.length, by simp⟩
  constructor
  · unfold Wrapper.describeHeader
    simp only [if_true, List.mapM_cons, List.mapM_nil]
    rw [hone t ht (by omega), hone (List.replicate t.length 45) (by
      obtain ⟨k, hk⟩ := hpos; rw [hk]; exact hdash k) (by rw [List.length_replicate]; omega)]
    simp
  · unfold Wrapper.describeHeader
    simp only [if_true, List.mapM_cons, List.mapM_nil, show ¬ (2 = 1) by decide, if_false]
    rw [hone t ht (by omega), hone (text "--") (hdash 1) (by
      have : (text "--").length = 2 := by decide
      omega)]
    simp

theorem foldl_max_le (l : List Nat) : ∀ a, a ≤ l.foldl max a ∧ ∀ b ∈ l, b ≤ l.foldl max a := by
  induction l with
  | nil => intro a; simp
  | cons c l ih =>
    intro a
    obtain ⟨h1, h2⟩ := ih (max a c)
    refine ⟨by rw [List.foldl_cons]; omega, fun b hb => ?_⟩
    rw [List.foldl_cons]
    rcases List.mem_cons.1 hb with rfl | hb
    · omega
    · exact h2 b hb

theorem foldl_max_mem (l : List Nat) : ∀ a, l.foldl max a = a ∨ l.foldl max a ∈ l := by
  induction l with
  | nil => intro a; simp
  | cons c l ih =>
    intro a
    rw [List.foldl_cons]
    rcases ih (max a c) with h | h
    · rw [h]
      rcases Nat.le_total a c with h' | h'
      · right; simp [h']
      · left; omega
    · right; exact List.mem_cons_of_mem _ h

/-- C83.  The elements of a list are written in columns: each begins at a multiple of the width of
the longest and a blank. -/
theorem c83_columns (l : List Text) (i : Nat) (hi : i < l.length) :
    ∃ m, (∀ t ∈ l, t.length ≤ m) ∧ (∃ t ∈ l, t.length = m) ∧
      l[i] <+: (columns l).drop (i * (m + 1)) := by
  obtain ⟨h1, h2⟩ := foldl_max_le (l.map List.length) 0
  refine ⟨(l.map List.length).foldl max 0, fun t ht => h2 _ (List.mem_map_of_mem ht), ?_, ?_⟩
  · rcases foldl_max_mem (l.map List.length) 0 with h | h
    · refine ⟨l[i], List.getElem_mem hi, ?_⟩
      have := h2 _ (List.mem_map_of_mem (List.getElem_mem hi))
      omega
    · obtain ⟨t, ht, he⟩ := List.mem_map.1 h
      exact ⟨t, ht, he⟩
  · unfold columns
    simp only
    have h3 : ∀ t ∈ l, t.length ≤ (l.map List.length).foldl max 0 :=
      fun t ht => h2 _ (List.mem_map_of_mem ht)
    clear h1 h2
    generalize (l.map List.length).foldl max 0 = m at h3
    induction l generalizing i with
    | nil => cases hi
    | cons t l ih =>
      have ht := h3 t (by simp)
      cases l with
      | nil =>
        have : i = 0 := by simpa using hi
        subst this
        simp
      | cons u l =>
        rw [List.map_cons, List.map_cons, List.intercalate_cons_cons, ← List.map_cons (f := fun t =>
          t ++ List.replicate (m - t.length) 32)]
        cases i with
        | zero =>
          rw [Nat.zero_mul, List.drop_zero, List.append_assoc, List.append_assoc]
          exact List.prefix_append _ _
        | succ i =>
          have := ih i (by simpa using hi) (fun v hv => h3 v (List.mem_cons_of_mem _ hv))
          have hlen : (t ++ List.replicate (m - t.length) 32 ++ text " ").length = m + 1 := by
            have : (text " ").length = 1 := by decide
            rw [List.length_append, List.length_append, List.length_replicate, this]
            omega
          rw [List.getElem_cons_succ, Nat.succ_mul, Nat.add_comm, ← List.drop_drop]
          conv in List.drop (m + 1) _ => rw [← hlen, List.drop_left]
          exact this

theorem columns_ink {space : Nat → Bool} (hs : space 32 = true) (l : List Text) :
    Spec.ink space (columns l) = (l.map (Spec.ink space)).flatten := by
  unfold columns
  simp only
  generalize (l.map List.length).foldl max 0 = m
  have hr : ∀ k, Spec.ink space (List.replicate k 32) = [] := by
    intro k
    rw [Spec.ink, List.filter_eq_nil_iff]
    intro a ha
    rw [List.eq_of_mem_replicate ha, hs]
    decide
  induction l with
  | nil => rfl
  | cons t l ih =>
    cases l with
    | nil =>
      simp only [List.map_cons, List.map_nil, List.intercalate_singleton, List.flatten_singleton]
      rw [ink_append, hr, List.append_nil]
    | cons u l =>
      rw [List.map_cons, List.map_cons, List.intercalate_cons_cons, ← List.map_cons (f := fun t =>
          t ++ List.replicate (m - t.length) 32), ink_append, ink_append, ink_append, hr, ih,
          show text " " = List.replicate 1 32 by decide, hr, List.append_nil, List.append_nil]
      rfl

theorem joinLines_eq (lines : List Text) :
    joinLines lines ++ [10] = if lines = [] then [10] else lines.flatMap (· ++ [10]) := by
  induction lines with
  | nil => rfl
  | cons l ls ih =>
    rw [if_neg (by simp), List.flatMap_cons]
    cases ls with
    | nil => simp [joinLines]
    | cons m ls =>
      rw [if_neg (by simp)] at ih
      rw [← ih]
      simp [joinLines]

theorem wrap_fits {x : Wrapper} (hx : Spec.Wraps x) {width : Nat} {initial subsequent : Text} {n : Nat}
    {t : Text} {lines : List Text} (h : x.wrap width initial subsequent n t = some lines)
    (ht : Spec.Tidy x.space t) (hw : initial.length + t.length ≤ width) : lines = [initial ++ t] := by
  cases n with
  | zero =>
    obtain ⟨c, hc, hs⟩ : ∃ c ∈ t, x.space c = false := by
      obtain ⟨-, u, c, rfl, hc⟩ := ht
      exact ⟨c, by simp, hc⟩
    obtain ⟨b, ls, rfl⟩ := c83_first hx _ _ _ _ _ _ h ⟨c, hc, hs⟩
    unfold Wrapper.wrap Wrapper.loop at h
    split at h <;> simp_all
  | succ n =>
    rw [c83_fits hx width initial subsequent n t ht hw] at h
    exact (Option.some.inj h).symm

theorem describeValue_titled {x : Wrapper} (hx : Spec.Wraps x) (width n : Nat) (pre units : Text)
    (v : Written) (row : Text)
    (h : x.describeValue width n pre (List.replicate pre.length 32) units v = some row) :
    Spec.Continues x.space width pre pre.length units row v := by
  have htext : ∀ t, x.describeText width n pre (List.replicate pre.length 32) t units = some row →
      ∃ bodies lines, Spec.Indented pre (List.replicate pre.length 32) bodies lines ∧
        row = (if lines = [] then [10] else lines.flatMap (· ++ [10])) ∧
        Spec.ink x.space bodies.flatten = Spec.ink x.space (if t = [] then text "\"\"" else t) ++
          Spec.ink x.space (if units = [] then [] else text " [" ++ units ++ text "]") ∧
        (∀ l ∈ lines, l.length ≤ max width (pre.length + 1)) ∧
        ∀ u, t ≠ [] → u = (if units = [] then [] else text " [" ++ units ++ text "]") →
          Spec.Tidy x.space (t ++ u) → pre.length + (t ++ u).length ≤ width →
          row = pre ++ t ++ u ++ [10] := by
    intro t ht
    rw [Wrapper.describeText, Option.map_eq_some_iff] at ht
    obtain ⟨lines, h1, rfl⟩ := ht
    obtain ⟨bodies, k1, k2, k3⟩ := c83_wrap hx _ _ _ _ _ _ h1
    refine ⟨bodies, lines, k1, joinLines_eq lines, ?_, ?_, ?_⟩
    · rw [k2, ink_append]; rfl
    · rw [List.length_replicate, Nat.max_self] at k3
      exact k3
    · intro u hne hu ht hw
      rw [if_neg hne] at h1
      rw [show unitsText units = u from hu.symm] at h1
      rw [wrap_fits hx h1 ht hw]
      simp [joinLines]
  cases v with
  | text t =>
    obtain ⟨bodies, lines, h1, h2, h3, h4, h5⟩ := htext t h
    refine ⟨bodies, lines, h1, h2, h3, h4, ?_⟩
    intro t' u ht'
    cases ht'
    exact h5 u
  | array t =>
    cases h
    rfl
  | list l =>
    match l, h with
    | [], h =>
      obtain ⟨bodies, lines, h1, h2, h3, h4, -⟩ := htext _ h
      exact ⟨bodies, lines, h1, h2, h3, h4, fun _ _ ht => by cases ht⟩
    | [t], h =>
      obtain ⟨bodies, lines, h1, h2, h3, h4, -⟩ := htext t h
      exact ⟨bodies, lines, h1, h2, h3, h4, fun _ _ ht => by cases ht⟩
    | t :: u :: l, h =>
      have hne : columns (t :: u :: l) ≠ [] := by
        unfold columns
        simp only
        generalize ((t :: u :: l).map List.length).foldl max 0 = m
        rw [List.map_cons, List.map_cons, List.intercalate_cons_cons]
        intro h0
        have := congrArg List.length h0
        rw [List.length_append, List.length_append, show (text " ").length = 1 by decide] at this
        simp at this
      obtain ⟨bodies, lines, h1, h2, h3, h4, -⟩ := htext _ h
      rw [if_neg hne, columns_ink (hx.space 32 (by simp))] at h3
      exact ⟨bodies, lines, h1, h2, h3, h4, fun _ _ ht => by cases ht⟩

/-- C83.  A summary has a row for each key, in order; the titles of all rows have the length of the
longest key, which is the least in which all keys have space. -/
theorem c83_dict {x : Wrapper} (hx : Spec.Wraps x) (width n : Nat) (indent : Text)
    (d : List (Text × Written × Text)) (hd : d ≠ []) (out : Text)
    (h : x.describeDict width n indent d = some out) :
    ∃ column rows, (∃ r ∈ d, column = indent.length + r.1.length + 3) ∧
      List.Forall₂ (Spec.Titled x.space width indent column) d rows ∧ out = rows.flatten ++ [10] := by
  rw [Wrapper.describeDict, if_neg hd, Option.map_eq_some_iff] at h
  obtain ⟨body, h, rfl⟩ := h
  have hle : ∀ r ∈ d, r.1.length ≤ keyWidth d := fun r hr =>
    (foldl_max_le (d.map fun r => r.1.length) 0).2 _ (List.mem_map_of_mem (f := fun r => r.1.length) hr)
  have hmem : ∃ r ∈ d, indent.length + keyWidth d + 3 = indent.length + r.1.length + 3 := by
    rcases foldl_max_mem (d.map fun r => r.1.length) 0 with h0 | h0
    · obtain ⟨r, d', rfl⟩ := List.exists_cons_of_ne_nil hd
      refine ⟨r, by simp, ?_⟩
      have := hle r (by simp)
      unfold keyWidth at this ⊢
      omega
    · obtain ⟨r, hr, he⟩ := List.mem_map.1 h0
      exact ⟨r, hr, by unfold keyWidth; omega⟩
  suffices ∃ rows, List.Forall₂ (Spec.Titled x.space width indent (indent.length + keyWidth d + 3)) d rows ∧
      body = rows.flatten by
    obtain ⟨rows, h1, rfl⟩ := this
    exact ⟨_, rows, hmem, h1, rfl⟩
  clear hmem hd
  generalize keyWidth d = m at hle h
  induction d generalizing body with
  | nil => cases h; exact ⟨[], .nil, rfl⟩
  | cons r d ih =>
    obtain ⟨key, v, units⟩ := r
    have hk := hle _ (List.mem_cons_self ..)
    rw [Wrapper.describeRows] at h
    simp only at h hk
    split at h
    · cases h
    · rename_i row hrow
      rw [Option.map_eq_some_iff] at h
      obtain ⟨rest, hrest, rfl⟩ := h
      obtain ⟨rows, h1, rfl⟩ := ih rest (fun r hr => hle r (List.mem_cons_of_mem _ hr)) hrest
      refine ⟨row :: rows, .cons ?_ h1, rfl⟩
      have h2 := describeValue_titled hx width n _ units v row hrow
      have hlen : (indent ++ (key ++ List.replicate (m - key.length) 32) ++ text " : ").length =
          indent.length + m + 3 := by
        rw [List.length_append, List.length_append, List.length_append, List.length_replicate,
          show (text " : ").length = 3 by decide]
        omega
      rw [hlen] at h2
      refine ⟨m - key.length, _, ?_, hlen, h2⟩
      simp only [List.append_assoc]

theorem munge_cons {x : Wrapper} (hx : Spec.Wraps x) (c : Nat) (t : Text) (hc : x.space c = false) :
    ∃ u, munge (c :: t) = c :: u := by
  have h : c ∉ [9, 10, 11, 12, 13, 32] := fun h => by rw [hx.space c h] at hc; cases hc
  simp only [List.mem_cons, List.not_mem_nil, or_false, not_or] at h
  unfold munge expandTabs
  rw [if_neg h.1, if_neg (by omega), List.map_cons, if_neg (by simp; omega)]
  exact ⟨_, rfl⟩

/-- A text that does not begin with white space is not split so that its first chunk is blank. -/
theorem head_not_blank {x : Wrapper} (hx : Spec.Wraps x) (c : Nat) (t : Text) (hc : x.space c = false) :
    ∀ d ∈ (x.split (munge (c :: t))).head?, x.blank d = false := by
  obtain ⟨u, hu⟩ := munge_cons hx c t hc
  rw [hu]
  obtain ⟨h1, h2⟩ := hx.split (c :: u)
  generalize x.split (c :: u) = l at h1 h2
  match l with
  | [] => simp
  | [] :: _ => simp at h2
  | (a :: d) :: l =>
    rw [List.flatten_cons, List.cons_append, List.cons.injEq] at h1
    simp [Wrapper.blank, h1.1, hc]

/-- C83.  Writing a summary comes to an end if there is space for the titles, or the values are texts
that do not begin with white space. -/
theorem c83_dict_ends {x : Wrapper} (hx : Spec.Wraps x) (width : Nat) (indent : Text)
    (d : List (Text × Written × Text)) (h : (∀ r ∈ d, indent.length + r.1.length + 3 ≤ width) ∨
      ∀ r ∈ d, ∃ c t, r.2.1 = .text (c :: t) ∧ x.space c = false) :
    ∃ n₀, ∀ n, n₀ ≤ n → ∃ out, x.describeDict width n indent d = some out := by
  by_cases hd : d = []
  · exact ⟨0, fun n _ => ⟨[], by rw [Wrapper.describeDict, if_pos hd]⟩⟩
  have hw : indent.length + keyWidth d + 3 ≤ width ∨
      ∀ r ∈ d, ∃ c t, r.2.1 = .text (c :: t) ∧ x.space c = false := by
    refine h.imp_left fun h => ?_
    rcases foldl_max_mem (d.map fun r => r.1.length) 0 with h0 | h0
    · obtain ⟨r, d', rfl⟩ := List.exists_cons_of_ne_nil hd
      have := h r (by simp)
      unfold keyWidth
      omega
    · obtain ⟨r, hr, he⟩ := List.mem_map.1 h0
      have := h r hr
      unfold keyWidth
      omega
  have hle : ∀ r ∈ d, r.1.length ≤ keyWidth d := fun r hr =>
    (foldl_max_le (d.map fun r => r.1.length) 0).2 _ (List.mem_map_of_mem (f := fun r => r.1.length) hr)
  suffices ∃ n₀, ∀ n, n₀ ≤ n → ∃ out, x.describeRows width n indent (keyWidth d) d = some out by
    obtain ⟨n₀, h1⟩ := this
    refine ⟨n₀, fun n hn => ?_⟩
    obtain ⟨out, h2⟩ := h1 n hn
    exact ⟨out ++ [10], by rw [Wrapper.describeDict, if_neg hd, h2]; rfl⟩
  clear h hd
  generalize keyWidth d = m at hw hle
  induction d with
  | nil => exact ⟨0, fun n _ => ⟨[], rfl⟩⟩
  | cons r d ih =>
    obtain ⟨key, v, units⟩ := r
    have hk := hle _ (List.mem_cons_self ..)
    simp only at hk
    obtain ⟨n₁, h1⟩ := ih (hw.imp_right fun h r hr => h r (List.mem_cons_of_mem _ hr))
      (fun r hr => hle r (List.mem_cons_of_mem _ hr))
    have htext : ∀ t, (indent.length + m + 3 ≤ width ∨ ∃ c u, t = c :: u ∧ x.space c = false) →
        ∃ n₀, ∀ n, n₀ ≤ n → ∃ out, x.describeText width n
        (indent ++ (key ++ List.replicate (m - key.length) 32) ++ text " : ")
        (List.replicate (indent ++ (key ++ List.replicate (m - key.length) 32) ++ text " : ").length 32)
        t units = some out := by
      intro t ht
      obtain ⟨n₀, h2⟩ := (c83_ends hx width
        (indent ++ (key ++ List.replicate (m - key.length) 32) ++ text " : ")
        (List.replicate (indent ++ (key ++ List.replicate (m - key.length) 32) ++ text " : ").length 32)
        ((if t = [] then text "\"\"" else t) ++ unitsText units)).1.2 (by
          rcases ht with ht | ⟨c, u, rfl, hc⟩
          · refine Or.inl ?_
            rw [List.length_append, List.length_append, List.length_append, List.length_replicate,
              show (text " : ").length = 3 by decide]
            omega
          · rw [if_neg (by simp), List.cons_append]
            exact Or.inr (head_not_blank hx c _ hc))
      refine ⟨n₀, fun n hn => ?_⟩
      obtain ⟨lines, h3⟩ := h2 n hn
      exact ⟨joinLines lines ++ [10], by rw [Wrapper.describeText, h3]; rfl⟩
    have hval : ∃ n₀, ∀ n, n₀ ≤ n → ∃ out, x.describeValue width n
        (indent ++ (key ++ List.replicate (m - key.length) 32) ++ text " : ")
        (List.replicate (indent ++ (key ++ List.replicate (m - key.length) 32) ++ text " : ").length 32)
        units v = some out := by
      have hv : indent.length + m + 3 ≤ width ∨ ∃ c t, v = .text (c :: t) ∧ x.space c = false :=
        hw.imp_right fun h => h _ (List.mem_cons_self ..)
      cases v with
      | text t =>
        exact htext t (hv.imp_right fun ⟨c, u, h, hc⟩ => ⟨c, u, by cases h; rfl, hc⟩)
      | array t => exact ⟨0, fun n _ => ⟨_, rfl⟩⟩
      | list l =>
        have hv' : indent.length + m + 3 ≤ width := hv.resolve_right (by rintro ⟨_, _, h, _⟩; cases h)
        match l with
        | [] => exact htext _ (Or.inl hv')
        | [t] => exact htext t (Or.inl hv')
        | t :: u :: l => exact htext _ (Or.inl hv')
    obtain ⟨n₂, h2⟩ := hval
    refine ⟨max n₁ n₂, fun n hn => ?_⟩
    obtain ⟨o1, k1⟩ := h1 n (by omega)
    obtain ⟨o2, k2⟩ := h2 n (by omega)
    refine ⟨o2 ++ o1, ?_⟩
    rw [Wrapper.describeRows]
    rw [k2, k1]
    rfl

theorem split_blank {x : Wrapper} (hx : Spec.Wraps x) : x.split (munge [32]) = [[32]] := by
  have : munge [32] = [32] := by decide
  rw [this]
  obtain ⟨h1, h2⟩ := hx.split [32]
  generalize x.split [32] = l at h1 h2
  match l with
  | [] => cases h1
  | [] :: _ => simp at h2
  | [a] :: l =>
    simp only [List.flatten_cons, List.cons_append, List.nil_append, List.cons.injEq] at h1
    obtain ⟨rfl, h1⟩ := h1
    cases l with
    | nil => rfl
    | cons b l =>
      cases b with
      | nil => simp at h2
      | cons => cases h1
  | (a :: b :: t) :: l => simp at h1

/-- C83 (defect).  The row of a value that is a blank is an empty line without the key, whatever the
key is, if there is space for it. -/
theorem c83_blank_defect {x : Wrapper} (hx : Spec.Wraps x) (width n : Nat) (key : Text)
    (h : key.length + 4 ≤ width) :
    x.describeDict width (n + 1) [] [(key, .text [32], [])] = some [10, 10] := by
  rw [Wrapper.describeDict, if_neg (by simp)]
  have hk : keyWidth [(key, Written.text [32], ([] : Text))] = key.length := by simp [keyWidth]
  rw [hk, Wrapper.describeRows]
  simp only [Nat.sub_self, List.replicate_zero, List.append_nil, List.nil_append]
  have hlen : (key ++ text " : ").length = key.length + 3 := by
    rw [List.length_append, show (text " : ").length = 3 by decide]
  rw [Wrapper.describeValue, Wrapper.describeText, if_neg (by simp), unitsText, if_pos rfl,
    List.append_nil, Wrapper.wrap, split_blank hx]
  unfold Wrapper.loop
  have hb : x.blank [32] = true := by simp [Wrapper.blank, hx.space 32 (by simp)]
  have hline : x.line ((width : Int) - (key ++ text " : ").length) true [[32]] = ([], []) := by
    unfold Wrapper.line
    rw [show x.skipBlank true [[32]] = [[32]] from rfl, fillLine_all _ _ _ (by
      rw [hlen]; simp; omega)]
    simp [Wrapper.breakWord, Wrapper.dropBlank, hb]
  simp only [if_true, decide_true, hline]
  unfold Wrapper.loop
  rfl

/-- C83 (defect).  If there is no space for the key, then such a row is never written. -/
theorem c83_hang_defect {x : Wrapper} (hx : Spec.Wraps x) (width n : Nat) (key : Text)
    (h : width < key.length + 3) :
    x.describeDict width n [] [(key, .text [32], [])] = none := by
  rw [Wrapper.describeDict, if_neg (by simp)]
  have hk : keyWidth [(key, Written.text [32], ([] : Text))] = key.length := by simp [keyWidth]
  rw [hk, Wrapper.describeRows]
  simp only [Nat.sub_self, List.replicate_zero, List.append_nil, List.nil_append]
  have hlen : (key ++ text " : ").length = key.length + 3 := by
    rw [List.length_append, show (text " : ").length = 3 by decide]
  rw [Wrapper.describeValue, Wrapper.describeText, if_neg (by simp), unitsText, if_pos rfl,
    List.append_nil, (c83_ends hx width _ _ [32]).2.2 (by
      rw [hlen, split_blank hx]
      rintro (h' | h')
      · omega
      · have := h' [32] rfl
        simp [Wrapper.blank, hx.space 32 (by simp)] at this)]
  rfl

/-! ## A case -/

namespace LayoutCase

/-- Runs of blanks, and of other characters. -/
def runs : Text → List Text
  | [] => []
  | c :: t =>
    match runs t with
    | (d :: u) :: l => if (c == 32) = (d == 32) then (c :: d :: u) :: l else [c] :: (d :: u) :: l
    | l => [c] :: l

def plain : Wrapper where
  split := runs
  cut _ k := k
  space c := decide (c ∈ [9, 10, 11, 12, 13, 32])

theorem wraps_plain : Spec.Wraps plain where
  split t := by
    show (runs t).flatten = t ∧ [] ∉ runs t
    induction t with
    | nil => exact ⟨rfl, by simp [runs]⟩
    | cons c t ih =>
      obtain ⟨h1, h2⟩ := ih
      unfold runs
      split
      · rename_i d u l he
        rw [he] at h1 h2
        split
        · exact ⟨by rw [← h1]; rfl, by simpa using h2⟩
        · exact ⟨by rw [← h1]; rfl, by simpa using h2⟩
      · exact ⟨by rw [List.flatten_cons, h1]; rfl, by simpa using h2⟩
  cut _ k := ⟨Nat.le_refl _, id⟩
  space c hc := decide_eq_true hc
  dash := by decide

example : plain.wrap 12 (text "a : ") (text "    ") 20 (text "long text of several") =
    some [text "a : long", text "    text of", text "    several"] := by decide +kernel

example : munge (text "a\tbc\td") = text "a       bc      d" := by decide +kernel

/-- A word that does not fit is broken. -/
example : plain.wrap 8 (text "a : ") (text "    ") 20 (text "several") =
    some [text "a : seve", text "    ral"] := by decide +kernel

example : plain.describeDict 20 20 (text " ")
    [(text "name", .text (text "TDEP"), []), (text "dim", .list [text "1", text "12", text "3"], text "m"),
     (text "none", .list [], [])] =
    some (text " name : TDEP\n dim  : 1  12 3  [m]\n none : []\n\n") := by decide +kernel

example : plain.describeHeader 20 20 (text " ") (text "Frame") 1 =
    some (text " -----\n Frame\n -----\n") := by decide +kernel

example : Spec.Tidy plain.space (text "Frame") :=
  ⟨by decide, text "Fram", 101, by decide, by decide⟩

/-- The key is lost, and with a small width nothing is ever written. -/
example : plain.describeDict 20 1 [] [(text "name", .text [32], [])] = some (text "\n\n") ∧
    ∀ n, plain.describeDict 5 n [] [(text "name", .text [32], [])] = none :=
  ⟨c83_blank_defect wraps_plain 20 0 (text "name") (by decide),
   fun n => c83_hang_defect wraps_plain 5 n (text "name") (by decide)⟩

/-- Writing ends for the same value if there is space. -/
example : ∃ n₀, ∀ n, n₀ ≤ n → ∃ out,
    plain.describeDict 20 n [] [(text "name", .text [32], [])] = some out :=
  c83_dict_ends wraps_plain 20 [] _ (Or.inl (by decide))

/-- Writing ends for another value, even if there is no space. -/
example : ∃ n₀, ∀ n, n₀ ≤ n → ∃ out,
    plain.describeDict 5 n [] [(text "name", .text (text "A B"), [])] = some out :=
  c83_dict_ends wraps_plain 5 [] _ (Or.inr fun r hr => ⟨65, text " B", by
    rw [List.mem_singleton] at hr
    subst hr
    exact ⟨rfl, by decide⟩⟩)

end LayoutCase

end Dlisio.Dlis
