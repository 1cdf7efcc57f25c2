import Verif.Dlis.Pack
import Verif.Dlis.ValueProps
/-
C11 and C12: unpacking by format string and the size queries.
-/
namespace Dlisio.Dlis

/-! ### Specification -/

/-- `enc` is the concatenation of encodings of the values `vs` in the codes `cs`. -/
inductive Spec.EncSeq : List Reprc → List Val → Bytes → Prop
  | nil : EncSeq [] [] []
  | cons {c v e cs vs es} : Spec.Enc c v e → EncSeq cs vs es → EncSeq (c :: cs) (v :: vs) (e ++ es)

/-- The format string of a list of codes. -/
def Spec.format (cs : List Reprc) : List Char := cs.map Reprc.fmtChar

/-- Bytes taken by a list of host variables. -/
def Spec.bytes (l : List Cell) : Nat := (l.map Cell.size).sum

/-! ### Lemmas -/

theorem pack_eq (dst : Option (List Cell)) (cs : List Cell) :
    pack dst cs = (dst.map (· ++ cs), Spec.bytes cs) := by
  induction cs generalizing dst with
  | nil => cases dst <;> simp [pack, Spec.bytes]
  | cons c cs ih =>
    rw [pack, ih]
    cases dst <;> simp [Spec.bytes]

theorem ofFmtChar_fmtChar (c : Reprc) : Reprc.ofFmtChar c.fmtChar = some c :=
  (ofFmtChar_eq_some _ _).2 rfl

theorem fmtChar_injective {c d : Reprc} (h : c.fmtChar = d.fmtChar) : c = d := by
  have := ofFmtChar_fmtChar c
  rw [h, ofFmtChar_fmtChar] at this
  exact (Option.some.inj this).symm

/-- A format either is made of known characters only, or has a first unknown one. -/
theorem format_or_unknown (fmt : List Char) :
    (∃ cs, fmt = Spec.format cs) ∨
    ∃ cs ch rest, fmt = Spec.format cs ++ ch :: rest ∧ ∀ c : Reprc, c.fmtChar ≠ ch := by
  induction fmt with
  | nil => exact Or.inl ⟨[], rfl⟩
  | cons ch fmt ih =>
    match h : Reprc.ofFmtChar ch with
    | none =>
      refine Or.inr ⟨[], ch, fmt, rfl, fun c hc => ?_⟩
      rw [(ofFmtChar_eq_some ch c).2 hc] at h; cases h
    | some c =>
      have hc := (ofFmtChar_eq_some ch c).1 h
      subst hc
      rcases ih with ⟨cs, rfl⟩ | ⟨cs, ch, rest, rfl, hu⟩
      · exact Or.inl ⟨c :: cs, rfl⟩
      · exact Or.inr ⟨c :: cs, ch, rest, rfl, hu⟩

theorem ofFmtChar_none {ch : Char} (h : ∀ c : Reprc, c.fmtChar ≠ ch) : Reprc.ofFmtChar ch = none := by
  match h' : Reprc.ofFmtChar ch with
  | none => rfl
  | some c => exact absurd ((ofFmtChar_eq_some _ _).1 h') (h c)

theorem packfLoop_format (cs : List Reprc) (rest : List Char) (cur cur' : Cursor) (src : Bytes)
    (hsrc : cur.src = some src) :
    packfLoop (Spec.format cs ++ rest) cur src = some cur' ↔
      ∃ vs e r, Spec.EncSeq cs vs e ∧ src = e ++ r ∧
        packfLoop rest ⟨some r, cur.dst.map (· ++ vs.flatMap Val.cells),
          cur.written + Spec.bytes (vs.flatMap Val.cells)⟩ r = some cur' := by
  induction cs generalizing cur src with
  | nil =>
    constructor
    · intro h
      refine ⟨[], [], src, .nil, rfl, ?_⟩
      obtain ⟨s, d, w⟩ := cur
      cases hsrc
      cases d <;> simpa [Spec.bytes, Spec.format] using h
    · rintro ⟨vs, e, r, hE, rfl, h⟩
      cases hE
      obtain ⟨s, d, w⟩ := cur
      cases hsrc
      cases d <;> simpa [Spec.bytes, Spec.format] using h
  | cons c cs ih =>
    simp only [Spec.format, List.map_cons, List.cons_append, packfLoop, ofFmtChar_fmtChar,
      Option.bind_eq_bind, interpret, pack_eq]
    constructor
    · intro h
      simp only [Option.bind_eq_some_iff] at h
      obtain ⟨cur1, ⟨⟨v, src1⟩, hd, heq⟩, h⟩ := h
      cases heq
      obtain ⟨e, hE, rfl⟩ := (c09_decodeVal _ _ _ _).1 hd
      obtain ⟨vs, es, r, hEs, rfl, h⟩ := (ih _ _ rfl).1 h
      refine ⟨v :: vs, e ++ es, r, .cons hE hEs, by simp, ?_⟩
      rw [← h]
      cases hcd : cur.dst <;> simp [Spec.bytes, Nat.add_assoc]
    · rintro ⟨vs, e, r, hE, rfl, h⟩
      cases hE with
      | @cons c v e cs vs es hE hEs =>
        simp only [Option.bind_eq_some_iff]
        refine ⟨_, ⟨⟨v, es ++ r⟩, (c09_decodeVal _ _ _ _).2 ⟨e, hE, by simp⟩, rfl⟩, ?_⟩
        refine (ih _ _ rfl).2 ⟨vs, es, r, hEs, rfl, ?_⟩
        rw [← h]
        cases hcd : cur.dst <;> simp [Spec.bytes, Nat.add_assoc]

theorem worker_format (cs : List Reprc) (src : Bytes) (dst : Option (List Cell)) (cur' : Cursor) :
    packfWorker (Spec.format cs) src dst = some cur' ↔
      ∃ vs e r, Spec.EncSeq cs vs e ∧ src = e ++ r ∧
        cur' = ⟨some r, dst.map (· ++ vs.flatMap Val.cells),
          Spec.bytes (vs.flatMap Val.cells)⟩ := by
  have := packfLoop_format cs [] ⟨some src, dst, 0⟩ cur' src rfl
  simp only [List.append_nil, packfLoop, Option.some.injEq, Nat.zero_add] at this
  rw [packfWorker, this]
  constructor <;> (rintro ⟨a, b, c, d, e, f⟩; exact ⟨a, b, c, d, e, f.symm⟩)

theorem worker_unknown (cs : List Reprc) (ch : Char) (rest : List Char)
    (hu : ∀ c : Reprc, c.fmtChar ≠ ch) (src : Bytes) (dst : Option (List Cell)) (cur' : Cursor) :
    packfWorker (Spec.format cs ++ ch :: rest) src dst = some cur' ↔
      ∃ vs e r, Spec.EncSeq cs vs e ∧ src = e ++ r ∧
        cur' = ⟨none, dst.map (· ++ vs.flatMap Val.cells),
          Spec.bytes (vs.flatMap Val.cells)⟩ := by
  have := packfLoop_format cs (ch :: rest) ⟨some src, dst, 0⟩ cur' src rfl
  simp only [packfLoop, ofFmtChar_none hu, Option.some.injEq, Nat.zero_add] at this
  rw [packfWorker, this]
  constructor <;> (rintro ⟨a, b, c, d, e, f⟩; exact ⟨a, b, c, d, e, f.symm⟩)

/-! ## C11 -/

/-- C11: unpacking succeeds with output `out` exactly when the format is a list of
known codes, the source starts with a value of each code, in order, and `out` are
the host variables of these values, in order. -/
theorem c11_packf_ok (fmt : List Char) (src : Bytes) (out : List Cell) :
    packf fmt src = some (.ok, out) ↔
      ∃ cs vs e r, fmt = Spec.format cs ∧ Spec.EncSeq cs vs e ∧ src = e ++ r ∧
        out = vs.flatMap Val.cells := by
  simp only [packf, Option.bind_eq_bind, Option.bind_eq_some_iff]
  constructor
  · rintro ⟨cur, h, ho⟩
    rcases format_or_unknown fmt with ⟨cs, rfl⟩ | ⟨cs, ch, rest, rfl, hu⟩
    · obtain ⟨vs, e, r, hE, rfl, rfl⟩ := (worker_format _ _ _ _).1 h
      simp at ho
      exact ⟨cs, vs, e, r, rfl, hE, rfl, ho.symm⟩
    · obtain ⟨vs, e, r, hE, rfl, rfl⟩ := (worker_unknown _ _ _ hu _ _ _).1 h
      simp at ho
  · rintro ⟨cs, vs, e, r, rfl, hE, rfl, rfl⟩
    exact ⟨_, (worker_format _ _ _ _).2 ⟨vs, e, r, hE, rfl, rfl⟩, by simp⟩

/-- C11: the size query succeeds exactly when unpacking does, and reports the bytes
of the encoded values and the bytes of the host variables. -/
theorem c11_packflen_ok (fmt : List Char) (src : Bytes) (nread nwrite : Nat) :
    packflen fmt src = some (.ok, nread, nwrite) ↔
      ∃ cs vs e r, fmt = Spec.format cs ∧ Spec.EncSeq cs vs e ∧ src = e ++ r ∧
        nread = e.length ∧ nwrite = Spec.bytes (vs.flatMap Val.cells) := by
  simp only [packflen, Option.bind_eq_bind, Option.bind_eq_some_iff]
  constructor
  · rintro ⟨cur, h, ho⟩
    rcases format_or_unknown fmt with ⟨cs, rfl⟩ | ⟨cs, ch, rest, rfl, hu⟩
    · obtain ⟨vs, e, r, hE, rfl, rfl⟩ := (worker_format _ _ _ _).1 h
      simp at ho
      exact ⟨cs, vs, e, r, rfl, hE, rfl, ho.1.symm, ho.2.symm⟩
    · obtain ⟨vs, e, r, hE, rfl, rfl⟩ := (worker_unknown _ _ _ hu _ _ _).1 h
      simp at ho
  · rintro ⟨cs, vs, e, r, rfl, hE, rfl, rfl, rfl⟩
    exact ⟨_, (worker_format _ _ _ _).2 ⟨vs, e, r, hE, rfl, rfl⟩, by simp⟩

/-- C11: on every format and source, unpacking and the size query give the same
error code (or both run past the source), and `nwrite` is exactly the size of what
unpacking wrote. -/
theorem c11_agree (fmt : List Char) (src : Bytes) :
    (packf fmt src).map Prod.fst = (packflen fmt src).map Prod.fst ∧
    ∀ out nread nwrite, packf fmt src = some (.ok, out) →
      packflen fmt src = some (.ok, nread, nwrite) → nwrite = Spec.bytes out := by
  constructor
  · have key : (packfWorker fmt src (some [])).map (fun c => c.src.isSome) =
        (packfWorker fmt src none).map (fun c => c.src.isSome) := by
      rcases format_or_unknown fmt with ⟨cs, rfl⟩ | ⟨cs, ch, rest, rfl, hu⟩
      · apply Option.ext; intro b
        simp only [Option.map_eq_some_iff, worker_format]
        constructor <;>
        · rintro ⟨c, ⟨vs, e, r, hE, h, rfl⟩, rfl⟩
          exact ⟨_, ⟨vs, e, r, hE, h, rfl⟩, rfl⟩
      · apply Option.ext; intro b
        simp only [Option.map_eq_some_iff, worker_unknown _ _ _ hu]
        constructor <;>
        · rintro ⟨c, ⟨vs, e, r, hE, h, rfl⟩, rfl⟩
          exact ⟨_, ⟨vs, e, r, hE, h, rfl⟩, rfl⟩
    rw [packf, packflen]
    match h1 : packfWorker fmt src (some []), h2 : packfWorker fmt src none with
    | none, none => rfl
    | some a, none => rw [h1, h2] at key; cases key
    | none, some b => rw [h1, h2] at key; cases key
    | some ⟨s, d, w⟩, some ⟨s', d', w'⟩ =>
      rw [h1, h2] at key
      cases s <;> cases s' <;> simp at key ⊢
  · intro out nread nwrite ho hl
    simp only [packf, packflen, Option.bind_eq_bind, Option.bind_eq_some_iff] at ho hl
    obtain ⟨c1, h1, h1'⟩ := ho
    obtain ⟨c2, h2, h2'⟩ := hl
    rcases format_or_unknown fmt with ⟨cs, rfl⟩ | ⟨cs, ch, rest, rfl, hu⟩
    · obtain ⟨vs, e, r, hE, rfl, rfl⟩ := (worker_format _ _ _ _).1 h1
      have := (worker_format cs (e ++ r) none _).2 ⟨vs, e, r, hE, rfl, rfl⟩
      rw [this] at h2
      cases h2
      simp at h1' h2'
      rw [← h2'.2, ← h1']
    · obtain ⟨vs, e, r, hE, rfl, rfl⟩ := (worker_unknown _ _ _ hu _ _ _).1 h1
      simp at h1'

/-- C11: a format with an unknown character never succeeds; provided the source is
long enough for the codes before it, `DLIS_UNEXPECTED_VALUE` is reported by both. -/
theorem c11_unknown (fmt : List Char) (ch : Char) (hmem : ch ∈ fmt)
    (hu : ∀ c : Reprc, c.fmtChar ≠ ch) (src : Bytes) :
    (∀ out, packf fmt src ≠ some (.ok, out)) ∧
    (packf fmt src = none ∨ ∃ out, packf fmt src = some (.unexpectedValue, out)) ∧
    (packflen fmt src = none ∨ packflen fmt src = some (.unexpectedValue, 0, 0)) := by
  have hnf : ∀ cs, fmt ≠ Spec.format cs := by
    rintro cs rfl
    obtain ⟨c, -, hc⟩ := List.mem_map.1 hmem
    exact hu c hc
  rcases format_or_unknown fmt with ⟨cs, rfl⟩ | ⟨cs, c, rest, rfl, hu'⟩
  · exact absurd rfl (hnf cs)
  · refine ⟨fun out h => ?_, ?_, ?_⟩
    · obtain ⟨cs', -, -, -, h', -⟩ := (c11_packf_ok _ _ _).1 h
      exact hnf _ h'
    · rw [packf]
      match h1 : packfWorker (Spec.format cs ++ c :: rest) src (some []) with
      | none => exact Or.inl rfl
      | some cur =>
        obtain ⟨vs, e, r, hE, rfl, rfl⟩ := (worker_unknown _ _ _ hu' _ _ _).1 h1
        exact Or.inr ⟨_, rfl⟩
    · rw [packflen]
      match h1 : packfWorker (Spec.format cs ++ c :: rest) src none with
      | none => exact Or.inl rfl
      | some cur =>
        obtain ⟨vs, e, r, hE, rfl, rfl⟩ := (worker_unknown _ _ _ hu' _ _ _).1 h1
        exact Or.inr rfl

/-- C11: unpacking is compositional. If the first format unpacks `src` to `a` and
consumes `n` bytes, then both formats together give `a` followed by what the second
format makes of the rest. -/
theorem c11_append (f g : List Char) (src : Bytes) (a b : List Cell) (n w m k : Nat)
    (h1 : packf f src = some (.ok, a)) (h2 : packflen f src = some (.ok, n, w))
    (h3 : packf g (src.drop n) = some (.ok, b)) (h4 : packflen g (src.drop n) = some (.ok, m, k)) :
    packf (f ++ g) src = some (.ok, a ++ b) ∧
    packflen (f ++ g) src = some (.ok, n + m, w + k) := by
  have uniq : ∀ {cs vs e r vs' e' r'}, Spec.EncSeq cs vs e → Spec.EncSeq cs vs' e' →
      e ++ r = e' ++ r' → vs = vs' ∧ e = e' ∧ r = r' := by
    intro cs vs e r vs' e' r' hE hE' heq
    have a1 := (worker_format cs (e ++ r) (some []) _).2 ⟨vs, e, r, hE, rfl, rfl⟩
    have : e = e' ∧ vs = vs' := by
      clear a1
      induction hE generalizing vs' e' r r' with
      | nil => cases hE'; exact ⟨rfl, rfl⟩
      | @cons c v x cs vs xs hx hxs ih =>
        cases hE' with
        | @cons _ v' x' _ vs' xs' hx' hxs' =>
          have d1 := (c09_decodeVal c (x ++ (xs ++ r)) v (xs ++ r)).2 ⟨x, hx, rfl⟩
          have d2 := (c09_decodeVal c (x' ++ (xs' ++ r')) v' (xs' ++ r')).2 ⟨x', hx', rfl⟩
          simp only [List.append_assoc] at heq
          rw [heq, d2] at d1
          simp only [Option.some.injEq, Prod.mk.injEq] at d1
          obtain ⟨rfl, d1⟩ := d1
          obtain ⟨rfl, rfl⟩ := ih hxs' d1.symm
          rw [d1] at heq
          exact ⟨by rw [List.append_cancel_right heq], rfl⟩
    obtain ⟨rfl, rfl⟩ := this
    exact ⟨rfl, rfl, List.append_cancel_left heq⟩
  have happ : ∀ {cs vs e cs' vs' e'}, Spec.EncSeq cs vs e → Spec.EncSeq cs' vs' e' →
      Spec.EncSeq (cs ++ cs') (vs ++ vs') (e ++ e') := by
    intro cs vs e cs' vs' e' h h'
    induction h with
    | nil => exact h'
    | cons hx hxs ih => simpa [List.append_assoc] using Spec.EncSeq.cons hx ih
  have finj : ∀ {cs cs'}, Spec.format cs = Spec.format cs' → cs = cs' := by
    intro cs cs' h
    exact List.map_injective_iff.2 (fun _ _ => fmtChar_injective) h
  obtain ⟨cs, vs, e, r, rfl, hE, rfl, rfl⟩ := (c11_packf_ok _ _ _).1 h1
  obtain ⟨cs1, vs1, e1, r1, hf, hE1, heq, rfl, rfl⟩ := (c11_packflen_ok _ _ _ _).1 h2
  cases finj hf
  obtain ⟨rfl, rfl, rfl⟩ := uniq hE hE1 heq
  rw [List.drop_left] at h3 h4
  obtain ⟨cs2, vs2, e2, r2, rfl, hE2, rfl, rfl⟩ := (c11_packf_ok _ _ _).1 h3
  obtain ⟨cs3, vs3, e3, r3, hf, hE3, heq, rfl, rfl⟩ := (c11_packflen_ok _ _ _ _).1 h4
  cases finj hf
  obtain ⟨rfl, rfl, rfl⟩ := uniq hE2 hE3 heq
  constructor
  · exact (c11_packf_ok _ _ _).2 ⟨_, _, _, r2, by simp [Spec.format], happ hE hE2,
      by simp, by simp⟩
  · exact (c11_packflen_ok _ _ _ _).2 ⟨_, _, _, r2, by simp [Spec.format], happ hE hE2,
      by simp, by simp, by simp [Spec.bytes]⟩

example : packf ['U', 's'] [1#8, 2#8, 1#8, 65#8, 9#8] =
    some (.ok, [.int 2 258, .int 4 1, .chars [65#8]]) := by decide +kernel

example : packflen ['U', 's'] [1#8, 2#8, 1#8, 65#8, 9#8] = some (.ok, 4, 7) := by decide +kernel

/-! ## C12 -/

/-- The codes of character strings and references: variable on disk and in memory. -/
def Spec.isString : Reprc → Bool
  | .ident | .ascii | .obname | .objref | .attref | .units => true
  | _ => false

/-- UVARI and ORIGIN: variable on disk, an `int32_t` in memory. -/
def Spec.isUvari : Reprc → Bool
  | .uvari | .origin => true
  | _ => false

/-- Size in memory of a value of a code that is not a string. -/
def Spec.memSize : Reprc → Int
  | .fshort => 4
  | .dtime => 32
  | .uvari | .origin => 4
  | c => sizeofType c.code

theorem uvari_cells {c : Reprc} {v : Val} {e : Bytes} (h : Spec.Enc c v e)
    (hc : Spec.isString c = false) : (Spec.bytes v.cells : Int) = Spec.memSize c := by
  cases c <;> simp [Spec.isString] at hc <;> simp only [Spec.Enc] at h <;> obtain ⟨h1, h2⟩ := h <;>
    first
    | (subst h2; simp [Spec.bytes, Val.cells, Cell.size, Spec.memSize, sizeofType, Reprc.code,
        Spec.singles, Spec.doubles])
    | (obtain ⟨rfl, -⟩ := h2; simp [Spec.bytes, Val.cells, Cell.size, Spec.memSize])

theorem packSizeLoop_format (cs : List Reprc) (rest : List Char) (b : Bool) (cor size : Int)
    (hs : ∀ c ∈ cs, Spec.isString c = false) :
    packSizeLoop (Spec.format cs ++ rest) b cor size =
      packSizeLoop rest (b || cs.any Spec.isUvari)
        (cor + ((cs.filter (fun c => !Spec.isUvari c)).map
          (fun c => Spec.memSize c - sizeofType c.code)).sum)
        (size + (cs.map Spec.memSize).sum) := by
  induction cs generalizing b cor size with
  | nil => simp [Spec.format]
  | cons c cs ih =>
    have hc := hs c (by simp)
    have hcs : ∀ c ∈ cs, Spec.isString c = false := fun c h => hs c (by simp [h])
    simp only [Spec.format, List.map_cons, List.cons_append, packSizeLoop, ofFmtChar_fmtChar]
    have ih' := fun b cor size => ih b cor size hcs
    simp only [Spec.format] at ih'
    cases c <;> simp [Spec.isString] at hc <;>
      simp [ih', Spec.isUvari, Spec.memSize, sizeofType, Reprc.code, Int.add_assoc]

theorem packVarsizeLoop_format (cs : List Reprc) (rest : List Char) (b : Bool)
    (hs : ∀ c ∈ cs, Spec.isString c = false) :
    packVarsizeLoop (Spec.format cs ++ rest) b =
      packVarsizeLoop rest (b || cs.any Spec.isUvari) := by
  induction cs generalizing b with
  | nil => simp [Spec.format]
  | cons c cs ih =>
    have hc := hs c (by simp)
    have hcs : ∀ c ∈ cs, Spec.isString c = false := fun c h => hs c (by simp [h])
    simp only [Spec.format, List.map_cons, List.cons_append, packVarsizeLoop, ofFmtChar_fmtChar]
    have ih' := fun b => ih b hcs
    simp only [Spec.format] at ih'
    cases c <;> simp [Spec.isString] at hc <;> simp [ih', Spec.isUvari]

/-- Every format has a longest leading part of non-string codes, after which it ends,
continues with a string code, or continues with an unknown character. -/
theorem format_cases (fmt : List Char) :
    ∃ cs rest, fmt = Spec.format cs ++ rest ∧ (∀ c ∈ cs, Spec.isString c = false) ∧
      (rest = [] ∨ (∃ c r, rest = Reprc.fmtChar c :: r ∧ Spec.isString c = true) ∨
        (∃ ch r, rest = ch :: r ∧ ∀ c : Reprc, c.fmtChar ≠ ch)) := by
  induction fmt with
  | nil => exact ⟨[], [], rfl, by simp, Or.inl rfl⟩
  | cons ch fmt ih =>
    match h : Reprc.ofFmtChar ch with
    | none =>
      refine ⟨[], ch :: fmt, rfl, by simp, Or.inr (Or.inr ⟨ch, fmt, rfl, fun c hc => ?_⟩)⟩
      rw [(ofFmtChar_eq_some ch c).2 hc] at h; cases h
    | some c =>
      have hc := (ofFmtChar_eq_some ch c).1 h
      subst hc
      by_cases hs : Spec.isString c = true
      · exact ⟨[], _, rfl, by simp, Or.inr (Or.inl ⟨c, fmt, rfl, hs⟩)⟩
      · obtain ⟨cs, rest, rfl, h1, h2⟩ := ih
        refine ⟨c :: cs, rest, rfl, ?_, h2⟩
        intro d hd
        rcases List.mem_cons.1 hd with rfl | hd
        · simpa using hs
        · exact h1 d hd

theorem packSize_cases (fmt : List Char) :
    (∃ cs, fmt = Spec.format cs ∧ (∀ c ∈ cs, Spec.isString c = false) ∧
      packSize fmt = (.ok, if cs.any Spec.isUvari then 0 else (cs.map (fun c => sizeofType c.code)).sum,
        (cs.map Spec.memSize).sum) ∧ packVarsize fmt = (.ok, cs.any Spec.isUvari, false)) ∨
    (∃ cs c r, fmt = Spec.format cs ++ Reprc.fmtChar c :: r ∧ (∀ c ∈ cs, Spec.isString c = false) ∧
      Spec.isString c = true ∧
      packSize fmt = (.inconsistent, 0, 0) ∧ packVarsize fmt = (.ok, true, true)) ∨
    (∃ cs ch r, fmt = Spec.format cs ++ ch :: r ∧ (∀ c ∈ cs, Spec.isString c = false) ∧
      (∀ c : Reprc, c.fmtChar ≠ ch) ∧
      packSize fmt = (.invalidArgs, 0, 0) ∧ packVarsize fmt = (.invalidArgs, false, false)) := by
  obtain ⟨cs, rest, rfl, hs, h | ⟨c, r, rfl, h⟩ | ⟨ch, r, rfl, h⟩⟩ := format_cases fmt
  · subst h
    refine Or.inl ⟨cs, by simp, hs, ?_, ?_⟩
    · rw [packSize, packSizeLoop_format _ _ _ _ _ hs]
      simp only [packSizeLoop, Bool.false_or, Int.zero_add]
      by_cases hu : cs.any Spec.isUvari = true
      · simp [hu]
      · have hf : cs.filter (fun c => !Spec.isUvari c) = cs := by
          rw [List.filter_eq_self]
          intro a ha
          simp only [List.any_eq_true, not_exists, not_and] at hu
          simpa using hu a ha
        have key : ∀ l : List Reprc, (l.map Spec.memSize).sum -
            (l.map (fun c => Spec.memSize c - sizeofType c.code)).sum =
            (l.map (fun c => sizeofType c.code)).sum := by
          intro l
          induction l with
          | nil => rfl
          | cons c cs ih => simp only [List.map_cons, List.sum_cons] at *; omega
        rw [hf, if_neg hu, if_neg hu, key]
    · rw [packVarsize, packVarsizeLoop_format _ _ _ hs]
      simp [packVarsizeLoop]
  · refine Or.inr (Or.inl ⟨cs, c, r, rfl, hs, h, ?_, ?_⟩)
    · rw [packSize, packSizeLoop_format _ _ _ _ _ hs]
      cases c <;> simp [Spec.isString] at h <;> simp [packSizeLoop, ofFmtChar_fmtChar]
    · rw [packVarsize, packVarsizeLoop_format _ _ _ hs]
      cases c <;> simp [Spec.isString] at h <;> simp [packVarsizeLoop, ofFmtChar_fmtChar]
  · refine Or.inr (Or.inr ⟨cs, ch, r, rfl, hs, h, ?_, ?_⟩)
    · rw [packSize, packSizeLoop_format _ _ _ _ _ hs]
      simp [packSizeLoop, ofFmtChar_none h]
    · rw [packVarsize, packVarsizeLoop_format _ _ _ hs]
      simp [packVarsizeLoop, ofFmtChar_none h]

theorem encSeq_mem {cs : List Reprc} {vs : List Val} {e : Bytes} (h : Spec.EncSeq cs vs e)
    (hs : ∀ c ∈ cs, Spec.isString c = false) :
    (Spec.bytes (vs.flatMap Val.cells) : Int) = (cs.map Spec.memSize).sum := by
  induction h with
  | nil => simp [Spec.bytes]
  | @cons c v x cs vs xs hx hxs ih =>
    have h1 := uvari_cells hx (hs c (by simp))
    have h2 := ih (fun c h => hs c (by simp [h]))
    simp only [Spec.bytes, List.flatMap_cons, List.map_append, List.sum_append, List.map_cons,
      List.sum_cons] at *
    omega

theorem sizeof_pos {c : Reprc} (hs : Spec.isString c = false) (hu : Spec.isUvari c = false) :
    0 < sizeofType c.code := by
  cases c <;> simp [Spec.isString, Spec.isUvari] at hs hu <;> decide

theorem encSeq_disk {cs : List Reprc} {vs : List Val} {e : Bytes} (h : Spec.EncSeq cs vs e)
    (hs : ∀ c ∈ cs, Spec.isString c = false) (hu : ∀ c ∈ cs, Spec.isUvari c = false) :
    (e.length : Int) = (cs.map (fun c => sizeofType c.code)).sum := by
  induction h with
  | nil => simp
  | @cons c v x cs vs xs hx hxs ih =>
    have hp := sizeof_pos (hs c (by simp)) (hu c (by simp))
    have h1 := enc_length hx (by omega)
    have h2 := ih (fun c h => hs c (by simp [h])) (fun c h => hu c (by simp [h]))
    simp only [List.length_append, List.map_cons, List.sum_cons]
    omega

theorem encSeq_exists_of_length {cs : List Reprc} {e : Bytes}
    (hs : ∀ c ∈ cs, Spec.isString c = false) (hu : ∀ c ∈ cs, Spec.isUvari c = false)
    (hl : (e.length : Int) = (cs.map (fun c => sizeofType c.code)).sum) :
    ∃ vs, Spec.EncSeq cs vs e := by
  induction cs generalizing e with
  | nil =>
    simp at hl; subst hl; exact ⟨[], .nil⟩
  | cons c cs ih =>
    have hp := sizeof_pos (hs c (by simp)) (hu c (by simp))
    have hnn : 0 ≤ (cs.map (fun c => sizeofType c.code)).sum := by
      apply List.sum_nonneg
      intro x hx
      obtain ⟨d, hd, rfl⟩ := List.mem_map.1 hx
      exact Int.le_of_lt (sizeof_pos (hs d (by simp [hd])) (hu d (by simp [hd])))
    simp only [List.map_cons, List.sum_cons] at hl
    obtain ⟨n, hn⟩ := Int.eq_ofNat_of_zero_le (Int.le_of_lt hp)
    obtain ⟨v, hv⟩ := enc_of_length (c := c) (enc := e.take n) (by omega) (by simp; omega)
    obtain ⟨vs, hvs⟩ := ih (e := e.drop n) (fun c h => hs c (by simp [h]))
      (fun c h => hu c (by simp [h])) (by simp; omega)
    refine ⟨v :: vs, ?_⟩
    have := Spec.EncSeq.cons hv hvs
    rwa [List.take_append_drop] at this

theorem encSeq_append {cs cs' vs vs' e e'} (h : Spec.EncSeq cs vs e) (h' : Spec.EncSeq cs' vs' e') :
    Spec.EncSeq (cs ++ cs') (vs ++ vs') (e ++ e') := by
  induction h with
  | nil => exact h'
  | cons hx hxs ih => simpa [List.append_assoc] using Spec.EncSeq.cons hx ih

/-- Every code has some encoding. -/
theorem enc_exists (c : Reprc) : ∃ v e, Spec.Enc c v e := by
  have : ∃ v r, decodeVal c (List.replicate 24 0#8) = some (v, r) := by
    cases c <;> exact ⟨_, _, rfl⟩
  obtain ⟨v, r, h⟩ := this
  obtain ⟨e, he, -⟩ := (c09_decodeVal _ _ _ _).1 h
  exact ⟨v, e, he⟩

theorem encSeq_exists (cs : List Reprc) : ∃ vs e, Spec.EncSeq cs vs e := by
  induction cs with
  | nil => exact ⟨[], [], .nil⟩
  | cons c cs ih =>
    obtain ⟨vs, e, h⟩ := ih
    obtain ⟨v, x, hx⟩ := enc_exists c
    exact ⟨_, _, .cons hx h⟩

/-- A string code has two encodings that differ in size on disk and in memory. -/
theorem enc_two_string (c : Reprc) (h : Spec.isString c = true) :
    ∃ v e v' e', Spec.Enc c v e ∧ Spec.Enc c v' e' ∧ e.length ≠ e'.length ∧
      Spec.bytes v.cells ≠ Spec.bytes v'.cells := by
  have key : ∀ x y v v', decodeVal c x = some (v, []) → decodeVal c y = some (v', []) →
      x.length ≠ y.length → Spec.bytes v.cells ≠ Spec.bytes v'.cells →
      ∃ v e v' e', Spec.Enc c v e ∧ Spec.Enc c v' e' ∧ e.length ≠ e'.length ∧
      Spec.bytes v.cells ≠ Spec.bytes v'.cells := by
    intro x y v v' h1 h2 h3 h4
    obtain ⟨e, he, h5⟩ := (c09_decodeVal _ _ _ _).1 h1
    obtain ⟨e', he', h6⟩ := (c09_decodeVal _ _ _ _).1 h2
    simp at h5 h6; subst h5; subst h6
    exact ⟨v, x, v', y, he, he', h3, h4⟩
  cases c <;> simp [Spec.isString] at h
  case ident => exact key [0#8] [1#8, 65#8] _ _ rfl rfl (by decide) (by decide)
  case ascii => exact key [0#8] [1#8, 65#8] _ _ rfl rfl (by decide) (by decide)
  case units => exact key [0#8] [1#8, 65#8] _ _ rfl rfl (by decide) (by decide)
  case obname =>
    exact key [0#8, 0#8, 0#8] [0#8, 0#8, 1#8, 65#8] _ _ rfl rfl (by decide) (by decide)
  case objref =>
    exact key [0#8, 0#8, 0#8, 0#8] [0#8, 0#8, 0#8, 1#8, 65#8] _ _ rfl rfl (by decide) (by decide)
  case attref =>
    exact key [0#8, 0#8, 0#8, 0#8, 0#8] [0#8, 0#8, 0#8, 0#8, 1#8, 65#8] _ _ rfl rfl
      (by decide) (by decide)

theorem enc_two_uvari (c : Reprc) (h : Spec.isUvari c = true) :
    ∃ v e v' e', Spec.Enc c v e ∧ Spec.Enc c v' e' ∧ e.length ≠ e'.length := by
  have key : sizeofType c.code = 0 := by cases c <;> simp [Spec.isUvari] at h <;> rfl
  obtain ⟨x, y, v, v', h1, h2, h3⟩ := (c09_variable_size c).1 key
  obtain ⟨e, he, h5⟩ := (c09_decodeVal _ _ _ _).1 h1
  obtain ⟨e', he', h6⟩ := (c09_decodeVal _ _ _ _).1 h2
  simp at h5 h6; subst h5; subst h6
  exact ⟨v, x, v', y, he, he', h3⟩

theorem format_injective {cs cs' : List Reprc} (h : Spec.format cs = Spec.format cs') : cs = cs' :=
  List.map_injective_iff.2 (fun _ _ => fmtChar_injective) h

theorem two_of_mem {cs : List Reprc} {c : Reprc} (hc : c ∈ cs) {v e v' e'}
    (h : Spec.Enc c v e) (h' : Spec.Enc c v' e') :
    ∃ s₁ s₂ n₁ w₁ n₂ w₂, packflen (Spec.format cs) s₁ = some (.ok, n₁, w₁) ∧
      packflen (Spec.format cs) s₂ = some (.ok, n₂, w₂) ∧
      (e.length ≠ e'.length → n₁ ≠ n₂) ∧
      (Spec.bytes v.cells ≠ Spec.bytes v'.cells → w₁ ≠ w₂) := by
  obtain ⟨pre, post, rfl⟩ := List.append_of_mem hc
  obtain ⟨vs, x, hx⟩ := encSeq_exists pre
  obtain ⟨vs', y, hy⟩ := encSeq_exists post
  refine ⟨_, _, _, _, _, _,
    (c11_packflen_ok _ _ _ _).2 ⟨_, _, _, [], rfl, encSeq_append hx (.cons h hy), rfl, rfl, rfl⟩,
    (c11_packflen_ok _ _ _ _).2 ⟨_, _, _, [], rfl, encSeq_append hx (.cons h' hy), rfl, rfl, rfl⟩,
    ?_, ?_⟩
  · simp only [List.length_append]; omega
  · simp only [Spec.bytes, List.flatMap_append, List.flatMap_cons, List.map_append,
      List.sum_append]; omega

/-- C12: when the static size query succeeds, the format is valid and the reported
destination size is right for every source; a non-zero source size `s` is what
every source consumes, and every source of at least `s` bytes can be unpacked. -/
theorem c12_pack_size_sound (fmt : List Char) (s d : Int) (h : packSize fmt = (.ok, s, d)) :
    (∀ ch ∈ fmt, ∃ c : Reprc, c.fmtChar = ch) ∧
    (∀ src n w, packflen fmt src = some (.ok, n, w) → (w : Int) = d ∧ (s ≠ 0 → (n : Int) = s)) ∧
    (s ≠ 0 → ∀ src : Bytes, s ≤ src.length → ∃ w, packflen fmt src = some (.ok, s.toNat, w)) := by
  rcases packSize_cases fmt with ⟨cs, rfl, hs, h1, -⟩ | ⟨_, _, _, -, -, -, h1, -⟩ |
    ⟨_, _, _, -, -, -, h1, -⟩ <;> rw [h1] at h
  · simp only [Prod.mk.injEq, true_and] at h
    obtain ⟨h2, h3⟩ := h
    have hu : s ≠ 0 → ∀ c ∈ cs, Spec.isUvari c = false := by
      intro hne c hc
      by_contra hcu
      have : cs.any Spec.isUvari = true := List.any_eq_true.2 ⟨c, hc, by simpa using hcu⟩
      rw [if_pos this] at h2
      exact hne h2.symm
    have hu' : s ≠ 0 → s = (cs.map (fun c => sizeofType c.code)).sum := by
      intro hne
      rw [← h2, if_neg]
      rw [List.any_eq_true]
      rintro ⟨c, hc, hcu⟩
      rw [hu hne c hc] at hcu; cases hcu
    refine ⟨?_, ?_, ?_⟩
    · intro ch hch
      obtain ⟨c, -, hc⟩ := List.mem_map.1 hch
      exact ⟨c, hc⟩
    · intro src n w hl
      obtain ⟨cs', vs, e, r, hf, hE, rfl, rfl, rfl⟩ := (c11_packflen_ok _ _ _ _).1 hl
      cases format_injective hf
      refine ⟨by rw [encSeq_mem hE hs, h3], fun hne => ?_⟩
      rw [encSeq_disk hE hs (hu hne), ← hu' hne]
    · intro hne src hle
      have hnn : 0 ≤ s := by
        rw [hu' hne]
        apply List.sum_nonneg
        intro x hx
        obtain ⟨d, hd, rfl⟩ := List.mem_map.1 hx
        exact Int.le_of_lt (sizeof_pos (hs d hd) (hu hne d hd))
      obtain ⟨vs, hvs⟩ := encSeq_exists_of_length (e := src.take s.toNat) hs (hu hne)
        (by rw [← hu' hne]; simp; omega)
      exact ⟨_, (c11_packflen_ok _ _ _ _).2 ⟨cs, vs, _, src.drop s.toNat, rfl, hvs, by simp,
        by simp; omega, rfl⟩⟩
  · cases h
  · cases h

example : packSize ['U', 'f', 'f', 'r', 'j'] = (.ok, 20, 46) := by decide

/-- C12: a source size of 0 for a non-empty format means the size on disk really
varies with the source. -/
theorem c12_pack_size_variable (fmt : List Char) (d : Int) (hne : fmt ≠ [])
    (h : packSize fmt = (.ok, 0, d)) :
    ∃ s₁ s₂ n₁ w₁ n₂ w₂, packflen fmt s₁ = some (.ok, n₁, w₁) ∧
      packflen fmt s₂ = some (.ok, n₂, w₂) ∧ n₁ ≠ n₂ := by
  rcases packSize_cases fmt with ⟨cs, rfl, hs, h1, -⟩ | ⟨_, _, _, -, -, -, h1, -⟩ |
    ⟨_, _, _, -, -, -, h1, -⟩ <;> rw [h1] at h
  · simp only [Prod.mk.injEq, true_and] at h
    by_cases hu : cs.any Spec.isUvari = true
    · obtain ⟨c, hc, hcu⟩ := List.any_eq_true.1 hu
      obtain ⟨v, e, v', e', h1, h2, h3⟩ := enc_two_uvari c hcu
      obtain ⟨s₁, s₂, n₁, w₁, n₂, w₂, a1, a2, a3, -⟩ := two_of_mem hc h1 h2
      exact ⟨s₁, s₂, n₁, w₁, n₂, w₂, a1, a2, a3 h3⟩
    · exfalso
      have hu' : ∀ c ∈ cs, Spec.isUvari c = false := by
        intro c hc
        by_contra hcu
        exact hu (List.any_eq_true.2 ⟨c, hc, by simpa using hcu⟩)
      rw [if_neg hu] at h
      match cs, hne with
      | c :: cs, _ =>
        have hp := sizeof_pos (hs c (by simp)) (hu' c (by simp))
        have : 0 ≤ (cs.map (fun c => sizeofType c.code)).sum := by
          apply List.sum_nonneg
          intro x hx
          obtain ⟨d, hd, rfl⟩ := List.mem_map.1 hx
          exact Int.le_of_lt (sizeof_pos (hs d (by simp [hd])) (hu' d (by simp [hd])))
        simp only [List.map_cons, List.sum_cons] at h
        omega
  · cases h
  · cases h

example : packSize ['u', 'i'] = (.ok, 0, 5) := by decide

/-- C12: for a format of known characters, "inconsistent" is reported exactly when
two sources give a different output size, and success otherwise. -/
theorem c12_pack_size_inconsistent (cs : List Reprc) :
    ((packSize (Spec.format cs)).1 = .inconsistent ↔
      ∃ s₁ s₂ n₁ w₁ n₂ w₂, packflen (Spec.format cs) s₁ = some (.ok, n₁, w₁) ∧
        packflen (Spec.format cs) s₂ = some (.ok, n₂, w₂) ∧ w₁ ≠ w₂) ∧
    ((packSize (Spec.format cs)).1 = .inconsistent ∨ (packSize (Spec.format cs)).1 = .ok) := by
  rcases packSize_cases (Spec.format cs) with ⟨cs', hf, hs, h1, -⟩ | ⟨pre, c, r, hf, hs, hc, h1, -⟩ |
    ⟨pre, ch, r, hf, hs, hu, h1, -⟩
  · refine ⟨⟨fun h => (by rw [h1] at h; cases h), ?_⟩, Or.inr (by rw [h1])⟩
    rintro ⟨s₁, s₂, n₁, w₁, n₂, w₂, a1, a2, a3⟩
    have := (c12_pack_size_sound _ _ _ h1).2.1
    have b1 := (this _ _ _ a1).1
    have b2 := (this _ _ _ a2).1
    omega
  · refine ⟨⟨fun _ => ?_, fun _ => by rw [h1]⟩, Or.inl (by rw [h1])⟩
    have hc' : c ∈ cs := by
      have : c.fmtChar ∈ Spec.format cs := by rw [hf]; simp
      obtain ⟨c', hc', h⟩ := List.mem_map.1 this
      cases fmtChar_injective h
      exact hc'
    obtain ⟨v, e, v', e', b1, b2, b3, b4⟩ := enc_two_string c hc
    obtain ⟨s₁, s₂, n₁, w₁, n₂, w₂, a1, a2, -, a4⟩ := two_of_mem hc' b1 b2
    exact ⟨s₁, s₂, n₁, w₁, n₂, w₂, a1, a2, a4 b4⟩
  · exfalso
    have : ch ∈ Spec.format cs := by rw [hf]; simp
    obtain ⟨c', -, h⟩ := List.mem_map.1 this
    exact hu c' h

/-- C12: for a format of known characters the two flags of the variable-size query
say exactly whether the size on disk, and the size in memory, depend on the source. -/
theorem c12_pack_varsize (cs : List Reprc) :
    ∃ vs vd, packVarsize (Spec.format cs) = (.ok, vs, vd) ∧
      (vs = true ↔ ∃ s₁ s₂ n₁ w₁ n₂ w₂, packflen (Spec.format cs) s₁ = some (.ok, n₁, w₁) ∧
        packflen (Spec.format cs) s₂ = some (.ok, n₂, w₂) ∧ n₁ ≠ n₂) ∧
      (vd = true ↔ ∃ s₁ s₂ n₁ w₁ n₂ w₂, packflen (Spec.format cs) s₁ = some (.ok, n₁, w₁) ∧
        packflen (Spec.format cs) s₂ = some (.ok, n₂, w₂) ∧ w₁ ≠ w₂) := by
  rcases packSize_cases (Spec.format cs) with ⟨cs', hf, hs, h1, h2⟩ |
    ⟨pre, c, r, hf, hs, hc, h1, h2⟩ | ⟨pre, ch, r, hf, hs, hu, h1, h2⟩
  · cases format_injective hf
    refine ⟨_, _, h2, ⟨fun hu => ?_, ?_⟩, ⟨fun h => (by cases h), ?_⟩⟩
    · obtain ⟨c, hc, hcu⟩ := List.any_eq_true.1 hu
      obtain ⟨v, e, v', e', h1, h2, h3⟩ := enc_two_uvari c hcu
      obtain ⟨s₁, s₂, n₁, w₁, n₂, w₂, a1, a2, a3, -⟩ := two_of_mem hc h1 h2
      exact ⟨s₁, s₂, n₁, w₁, n₂, w₂, a1, a2, a3 h3⟩
    · rintro ⟨s₁, s₂, n₁, w₁, n₂, w₂, a1, a2, a3⟩
      by_contra hu
      have hu' : ∀ c ∈ cs, Spec.isUvari c = false := by
        intro c hc
        by_contra hcu
        exact hu (List.any_eq_true.2 ⟨c, hc, by simpa using hcu⟩)
      obtain ⟨cs1, vs, e, r, hf1, hE, rfl, rfl, rfl⟩ := (c11_packflen_ok _ _ _ _).1 a1
      obtain ⟨cs2, vs2, e2, r2, hf2, hE2, rfl, rfl, rfl⟩ := (c11_packflen_ok _ _ _ _).1 a2
      cases format_injective hf1
      cases format_injective hf2
      have b1 := encSeq_disk hE hs hu'
      have b2 := encSeq_disk hE2 hs hu'
      omega
    · rintro ⟨s₁, s₂, n₁, w₁, n₂, w₂, a1, a2, a3⟩
      have := (c12_pack_size_sound _ _ _ h1).2.1
      have b1 := (this _ _ _ a1).1
      have b2 := (this _ _ _ a2).1
      omega
  · have hc' : c ∈ cs := by
      have : c.fmtChar ∈ Spec.format cs := by rw [hf]; simp
      obtain ⟨c', hc', h⟩ := List.mem_map.1 this
      cases fmtChar_injective h
      exact hc'
    obtain ⟨v, e, v', e', b1, b2, b3, b4⟩ := enc_two_string c hc
    obtain ⟨s₁, s₂, n₁, w₁, n₂, w₂, a1, a2, a3, a4⟩ := two_of_mem hc' b1 b2
    exact ⟨true, true, h2, ⟨fun _ => ⟨s₁, s₂, n₁, w₁, n₂, w₂, a1, a2, a3 b3⟩, fun _ => rfl⟩,
      ⟨fun _ => ⟨s₁, s₂, n₁, w₁, n₂, w₂, a1, a2, a4 b4⟩, fun _ => rfl⟩⟩
  · exfalso
    have : ch ∈ Spec.format cs := by rw [hf]; simp
    obtain ⟨c', -, h⟩ := List.mem_map.1 this
    exact hu c' h

/-- C12: an invalid format is reported as such by the static queries only if the
unknown character comes before any string code (partial: the header promises it
for every invalid format). -/
theorem c12_invalid_format_partial (fmt : List Char) :
    ((packSize fmt).1 = .invalidArgs ↔
      ∃ cs ch r, fmt = Spec.format cs ++ ch :: r ∧ (∀ c ∈ cs, Spec.isString c = false) ∧
        ∀ c : Reprc, c.fmtChar ≠ ch) ∧
    ((packVarsize fmt).1 = .invalidArgs ↔ (packSize fmt).1 = .invalidArgs) := by
  rcases packSize_cases fmt with ⟨cs, rfl, hs, h1, h2⟩ | ⟨cs, c, r, rfl, hs, hc, h1, h2⟩ |
    ⟨cs, ch, r, rfl, hs, hu, h1, h2⟩
  · refine ⟨⟨fun h => (by rw [h1] at h; cases h), ?_⟩, by rw [h1, h2]⟩
    rintro ⟨cs', ch, r, hf, -, hu⟩
    have : ch ∈ Spec.format cs := by rw [hf]; simp
    obtain ⟨c', -, h⟩ := List.mem_map.1 this
    exact absurd h (hu c')
  · refine ⟨⟨fun h => (by rw [h1] at h; cases h), ?_⟩, by rw [h1, h2]; simp⟩
    rintro ⟨cs', ch, r', hf, hs', hu⟩
    exfalso
    have e1 := packSizeLoop_format cs' (ch :: r') false 0 0 hs'
    rw [← hf] at e1
    simp only [packSizeLoop, ofFmtChar_none hu] at e1
    rw [packSize, e1] at h1
    cases h1
  · refine ⟨⟨fun _ => ⟨cs, ch, r, rfl, hs, hu⟩, fun _ => by rw [h1]⟩, by rw [h1, h2]⟩

/-- C12, the promise fails after a string code: `"s!"` is reported as a valid
variable-size format although no source can be unpacked with it. -/
theorem c12_varsize_invalid_defect :
    packVarsize ['s', '!'] = (.ok, true, true) ∧
    (∀ c : Reprc, c.fmtChar ≠ '!') ∧ ∀ src out, packf ['s', '!'] src ≠ some (.ok, out) := by
  have h : ∀ c : Reprc, c.fmtChar ≠ '!' := by intro c; cases c <;> decide
  exact ⟨by decide, h, fun src => (c11_unknown _ '!' (by simp) h src).1⟩

end Dlisio.Dlis
