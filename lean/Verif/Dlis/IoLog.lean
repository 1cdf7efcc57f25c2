/-
The texts of what is reported while the records of a logical file are looked for and extracted:
lib/src/dlis/io.cpp.

The functions of `Verif/Dlis/Io.lean` are given here once more, together with the texts.  The texts
of exceptions that are not made in this file (by the stream, by the standard library, or by the error
handler) are parameters.
-/
import Verif.Messages
import Verif.Dlis.IndexProps
import Verif.Dlis.FdataProps

namespace Dlisio.Dlis

/-! ### Texts -/

/-- Texts of exceptions that come from elsewhere: of `stream::read` and `stream::seek` (file.cpp:17-56),
of `std::vector::resize` with a size that is too large (io.cpp:342), and of an exception of the error
handler that is caught as `std::exception` (io.cpp:558, ext/dlis.cpp:659, 708, 1018). -/
structure Whats where
  read : Text
  seek : Text
  size : Text
  handler : Text

/-- io.cpp:422-424 -/
def saysEof : Text := text "Reached EOF, but last logical record segment expects successor"

/-- io.cpp:434-435 -/
def saysHeaderCut : Text := text "File truncated in Logical Record Header"

/-- io.cpp:450-453 -/
def saysShort (len : Nat) : Text :=
  text "Too short logical record. Length can't be less than 4, but was " ++ Text.ofNat len

/-- io.cpp:471-473 -/
def saysNextFile : Text :=
  text "End of logical file, but last logical record segment expects successor"

/-- io.cpp:513 -/
def saysSegmentCut : Text := text "File truncated in Logical Record Segment"

/-! ### Index of logical records -/

/-- What the lambda `handle` of `findoffsets` (io.cpp:394-407) is told: the problem, and the values of
`lr_offset` and `lrs_offset` at this time. -/
structure Suspended where
  problem : Text
  record : Nat
  segment : Nat
deriving DecidableEq

/-- The result of `findoffsets` and what was handed to the error handler. -/
structure ToldIndex where
  res : IndexResult
  told : Option Suspended
deriving DecidableEq

/-- `handle(problem); break;`, io.cpp:394-407. -/
def toldSuspend (ofs : Offsets) (problem : Text) (lr lrs : Nat) : ToldIndex :=
  ⟨⟨ofs.addBroken lr, none⟩, some ⟨problem, lr, lrs⟩⟩

/-- The loop of `findoffsets`, io.cpp:414-533. -/
def toldOffsetsLoop (w : Whats) (src : Source) (ofs : Offsets) (lr lrs : Nat) (hasSucc : Bool) :
    ToldIndex :=
  match h : readAt src lrs 4 with
  | .error => toldSuspend ofs w.read lr lrs
  | .eof bs =>
    if bs.length = 0 then
      if hasSucc then toldSuspend ofs saysEof lr lrs else ⟨⟨ofs, none⟩, none⟩
    else toldSuspend ofs saysHeaderCut lr lrs
  | .ok buf =>
    match lrsh buf with
    | none => toldSuspend ofs saysHeaderCut lr lrs
    | some hd =>
      if hlen : hd.length < 4 then toldSuspend ofs (saysShort hd.length) lr lrs
      else
        let isexplicit := flag hd.attrs SEGATTR_EXFMTLR
        let hasPred := flag hd.attrs SEGATTR_PREDSEG
        if !hasPred && isexplicit && decide (hd.type = 0) && decide (ofs.explicits.length ≠ 0) then
          if hasSucc then toldSuspend ofs saysNextFile lr lrs
          else ⟨⟨ofs, some lrs⟩, none⟩
        else
          let hasSucc := flag hd.attrs SEGATTR_SUCCSEG
          if !seekOk src (lrs + hd.length - 1) then toldSuspend ofs w.seek lr (lrs + hd.length)
          else match readAt src (lrs + hd.length - 1) 1 with
            | .error => toldSuspend ofs saysSegmentCut lr (lrs + hd.length)
            | _ =>
              if !hasSucc then
                let ofs := if isexplicit then { ofs with explicits := ofs.explicits ++ [lr] }
                  else { ofs with implicits := ofs.implicits ++ [lr] }
                toldOffsetsLoop w src ofs (lrs + hd.length) (lrs + hd.length) hasSucc
              else toldOffsetsLoop w src ofs lr (lrs + hd.length) hasSucc
termination_by src.data.length - lrs
decreasing_by
  all_goals
    have := (readAt_ok h (by omega)).1
    omega

/-- `findoffsets`, io.cpp:384-535. -/
def toldOffsets (w : Whats) (src : Source) : ToldIndex := toldOffsetsLoop w src ⟨[], [], []⟩ 0 0 false

/-- The arguments of the error handler, io.cpp:394-405; `ptell` is what `file.ptell()` returns. -/
def Suspended.report (s : Suspended) (ptell : Nat) : Report where
  grade := .known .critical
  context := text "dlis::findoffsets (indexing logical file)"
  problem := s.problem
  spec := []
  action := text "Indexing is suspended at last valid Logical Record"
  debug := text "Physical tell: " ++ Text.ofNat ptell ++ text " (dec), Logical Record tell: " ++
    Text.ofNat s.record ++ text " (dec), Logical Record Segment tell: " ++ Text.ofNat s.segment ++
    text " (dec)"

/-- `findoffsets` with its error handler, io.cpp:384-535: what the actions of the handler are called
with, and the exception that is raised, if any. -/
def reportIndex (h : Handler) (w : Whats) (src : Source) (ptell : Nat) :
    List (Action × Text) × Option Raised :=
  h.logTexts ((toldOffsets w src).told.toList.map (·.report ptell))

theorem toldOffsetsLoop_eq (w : Whats) (src : Source) (ofs : Offsets) (lr lrs : Nat) (hasSucc : Bool) :
    toldOffsetsLoop w src ofs lr lrs hasSucc =
      match readAt src lrs 4 with
      | .error => toldSuspend ofs w.read lr lrs
      | .eof bs =>
        if bs.length = 0 then
          if hasSucc then toldSuspend ofs saysEof lr lrs else ⟨⟨ofs, none⟩, none⟩
        else toldSuspend ofs saysHeaderCut lr lrs
      | .ok buf =>
        match lrsh buf with
        | none => toldSuspend ofs saysHeaderCut lr lrs
        | some hd =>
          if hd.length < 4 then toldSuspend ofs (saysShort hd.length) lr lrs
          else if !flag hd.attrs SEGATTR_PREDSEG && flag hd.attrs SEGATTR_EXFMTLR &&
              decide (hd.type = 0) && decide (ofs.explicits.length ≠ 0) then
            if hasSucc then toldSuspend ofs saysNextFile lr lrs
            else ⟨⟨ofs, some lrs⟩, none⟩
          else if !seekOk src (lrs + hd.length - 1) then toldSuspend ofs w.seek lr (lrs + hd.length)
          else match readAt src (lrs + hd.length - 1) 1 with
            | .error => toldSuspend ofs saysSegmentCut lr (lrs + hd.length)
            | _ =>
              if !flag hd.attrs SEGATTR_SUCCSEG then
                toldOffsetsLoop w src (if flag hd.attrs SEGATTR_EXFMTLR then
                    { ofs with explicits := ofs.explicits ++ [lr] }
                  else { ofs with implicits := ofs.implicits ++ [lr] })
                  (lrs + hd.length) (lrs + hd.length) (flag hd.attrs SEGATTR_SUCCSEG)
              else toldOffsetsLoop w src ofs lr (lrs + hd.length) (flag hd.attrs SEGATTR_SUCCSEG) := by
  rw [toldOffsetsLoop]
  split <;> rename_i h <;> rw [h] <;> rfl

namespace Spec

/-- From `pos` on, segments that expect a successor lead to `q`. -/
inductive Led (data : Bytes) (pos : Nat) : Nat → Prop where
  | here : Led data pos pos
  | next (q len : Nat) (a t : Byte) (h : Led data pos q) (hh : HeaderAt data q len a t)
      (hc : a.toNat / 2 ^ 5 % 2 = 1) : Led data pos (q + len)

/-- What is said of the place where indexing is suspended is true of the data.  `s.record` is the
begin of a record, the segments of which lead to the place `q` of the problem:
* the file ends at `q` although the segment before expects a successor,
* the file ends within the header at `q`,
* the header at `q` says that its segment has `n` bytes, fewer than the header has,
* at `q` there is the header of a first segment of a file header although the segment before expects a
  successor,
* the segment at `q` has a header, but the data ends before the segment does,
* or what is said is the text of an exception, and the stream, which does not end regularly, cannot be
  read to the end of the header or segment at `q`. -/
inductive SuspensionTrue (w : Whats) (src : Source) (s : Suspended) : Prop where
  | eof (h : s.problem = text "Reached EOF, but last logical record segment expects successor")
      (hs : src.ending = .eof) (hl : Led src.data s.record s.segment) (hb : s.record < s.segment)
      (he : src.data.length ≤ s.segment)
  | header (h : s.problem = text "File truncated in Logical Record Header")
      (hs : src.ending = .eof) (hl : Led src.data s.record s.segment)
      (hb : s.segment < src.data.length) (he : src.data.length < s.segment + 4)
  | short (n : Nat) (a t : Byte)
      (h : s.problem = text "Too short logical record. Length can't be less than 4, but was " ++
        Text.ofNat n)
      (hl : Led src.data s.record s.segment) (hn : n < 4)
      (hh : (src.data.drop s.segment).take 4 = [0, BitVec.ofNat 8 n, a, t])
  | file (len : Nat) (a : Byte)
      (h : s.problem = text "End of logical file, but last logical record segment expects successor")
      (hl : Led src.data s.record s.segment) (hb : s.record < s.segment)
      (hh : HeaderAt src.data s.segment len a 0) (he : a.toNat / 2 ^ 7 % 2 = 1)
      (hp : a.toNat / 2 ^ 6 % 2 = 0)
  | segment (q len : Nat) (a t : Byte) (h : s.problem = text "File truncated in Logical Record Segment")
      (hs : src.ending ≠ .eof) (hl : Led src.data s.record q) (hh : HeaderAt src.data q len a t)
      (he : src.data.length < q + len) (ht : s.segment = q + len)
  | readFailed (h : s.problem = w.read) (hs : src.ending ≠ .eof)
      (hl : Led src.data s.record s.segment) (he : src.data.length < s.segment + 4)
  | seekFailed (q len : Nat) (a t : Byte) (h : s.problem = w.seek) (hs : src.ending ≠ .eof)
      (hl : Led src.data s.record q) (hh : HeaderAt src.data q len a t)
      (he : src.data.length < q + len) (ht : s.segment = q + len)

end Spec

theorem readAt_eof {src : Source} {pos n : Nat} {bs : Bytes} (h : readAt src pos n = .eof bs) :
    src.ending = .eof ∧ src.data.length < pos + n ∧ bs = src.data.drop pos := by
  unfold readAt at h
  split at h
  · cases h
  · split at h
    · cases h
    · split at h
      · cases h; exact ⟨by assumption, by omega, rfl⟩
      · cases h

theorem readAt_error {src : Source} {pos n : Nat} (h : readAt src pos n = .error) :
    src.ending ≠ .eof ∧ src.data.length < pos + n := by
  unfold readAt at h
  split at h
  · cases h
  · split at h
    · cases h
    · split at h
      · cases h
      · rename_i he; exact ⟨by rw [he]; simp, by omega⟩

theorem seekOk_false {src : Source} {pos : Nat} (h : seekOk src pos = false) :
    src.ending ≠ .eof ∧ src.data.length < pos := by
  unfold seekOk at h
  split at h
  · cases h
  · split at h
    · cases h
    · rename_i he; exact ⟨by rw [he]; simp, by omega⟩

theorem lrsh_full {buf : Bytes} (h : buf.length = 4) : lrsh buf ≠ none := by
  intro hd
  match buf, h with
  | [a, b, c, d], _ =>
    have := (c15_lrsh [a, b, c, d] ⟨beNat [a, b], c, d.toNat⟩).2
      ⟨[a, b, c, d], [], rfl, rfl, rfl, by simp [beNat], by simp [beNat]⟩
    rw [hd] at this
    cases this

theorem toldOffsetsLoop_true (w : Whats) (src : Source) (lrs : Nat) :
    ∀ (ofs : Offsets) (lr : Nat) (hasSucc : Bool), Spec.Led src.data lr lrs →
      (hasSucc = true → lr < lrs) →
      (toldOffsetsLoop w src ofs lr lrs hasSucc).res = findoffsetsLoop src ofs lr lrs hasSucc ∧
      ((toldOffsetsLoop w src ofs lr lrs hasSucc).told = none ∧
          (findoffsetsLoop src ofs lr lrs hasSucc).ofs.broken = ofs.broken ∨
        ∃ s, (toldOffsetsLoop w src ofs lr lrs hasSucc).told = some s ∧
          (findoffsetsLoop src ofs lr lrs hasSucc).ofs.broken = ofs.broken ++ [s.record] ∧
          Spec.SuspensionTrue w src s) := by
  refine stream_induction src (P := fun lrs => ∀ (ofs : Offsets) (lr : Nat) (hasSucc : Bool),
    Spec.Led src.data lr lrs → (hasSucc = true → lr < lrs) →
      (toldOffsetsLoop w src ofs lr lrs hasSucc).res = findoffsetsLoop src ofs lr lrs hasSucc ∧
      ((toldOffsetsLoop w src ofs lr lrs hasSucc).told = none ∧
          (findoffsetsLoop src ofs lr lrs hasSucc).ofs.broken = ofs.broken ∨
        ∃ s, (toldOffsetsLoop w src ofs lr lrs hasSucc).told = some s ∧
          (findoffsetsLoop src ofs lr lrs hasSucc).ofs.broken = ofs.broken ++ [s.record] ∧
          Spec.SuspensionTrue w src s)) ?_ lrs
  intro lrs ih ofs lr hasSucc hl hb
  rw [toldOffsetsLoop_eq, findoffsetsLoop_eq]
  cases hr : readAt src lrs 4 with
  | error =>
    obtain ⟨h1, h2⟩ := readAt_error hr
    exact ⟨rfl, Or.inr ⟨_, rfl, rfl, .readFailed rfl h1 hl h2⟩⟩
  | eof bs =>
    obtain ⟨h1, h2, h3⟩ := readAt_eof hr
    dsimp only
    have hlen : bs.length = src.data.length - lrs := by rw [h3]; simp
    split
    · split
      · rename_i hsu
        exact ⟨rfl, Or.inr ⟨_, rfl, rfl, .eof rfl h1 hl (hb hsu) (by dsimp only; omega)⟩⟩
      · exact ⟨rfl, Or.inl ⟨rfl, rfl⟩⟩
    · exact ⟨rfl, Or.inr ⟨_, rfl, rfl, .header rfl h1 hl (by dsimp only; omega) h2⟩⟩
  | ok buf =>
    obtain ⟨hin, hbuf⟩ := readAt_ok hr (by omega)
    have hb4 := readAt_length hr
    dsimp only
    cases hd : lrsh buf with
    | none => exact absurd hd (lrsh_full hb4)
    | some hd' =>
      obtain ⟨t, ht1, ht2, ht3⟩ := header_bytes hb4 hd
      dsimp only
      split
      · rename_i hlt
        refine ⟨rfl, Or.inr ⟨_, rfl, rfl, .short hd'.length hd'.attrs t rfl hl hlt ?_⟩⟩
        dsimp only
        rw [← hbuf, ht1]
        have e1 : hd'.length / 256 = 0 := by omega
        have e2 : hd'.length % 256 = hd'.length := by omega
        rw [e1, e2]
        rfl
      · rename_i hge
        have hha : Spec.HeaderAt src.data lrs hd'.length hd'.attrs t :=
          ⟨hin, by omega, ht2, by rw [← hbuf, ht1]⟩
        split
        · rename_i hfh
          split
          · rename_i hsu
            simp only [Bool.and_eq_true, Bool.not_eq_true', decide_eq_true_eq] at hfh
            obtain ⟨⟨⟨f1, f2⟩, f3⟩, -⟩ := hfh
            have t0 : t = 0 := BitVec.eq_of_toNat_eq (by rw [← ht3, f3]; rfl)
            subst t0
            have f1' : hd'.attrs.toNat / 2 ^ 6 % 2 = 0 := by
              have : ¬ hd'.attrs.toNat / 2 ^ 6 % 2 = 1 := by rw [← flag_pred, f1]; simp
              omega
            exact ⟨rfl, Or.inr ⟨_, rfl, rfl, .file hd'.length hd'.attrs rfl hl (hb hsu) hha
              ((flag_expl _).1 f2) f1'⟩⟩
          · exact ⟨rfl, Or.inl ⟨rfl, rfl⟩⟩
        · split
          · rename_i hsk
            obtain ⟨h1, h2⟩ := seekOk_false (by simpa using hsk)
            exact ⟨rfl, Or.inr ⟨_, rfl, rfl, .seekFailed lrs hd'.length hd'.attrs t rfl h1 hl hha
              (by omega) rfl⟩⟩
          · have go : ∀ ofs' : Offsets, ofs'.broken = ofs.broken → ∀ lr',
                (lr' = lrs + hd'.length ∧ flag hd'.attrs SEGATTR_SUCCSEG = false ∨
                  lr' = lr ∧ flag hd'.attrs SEGATTR_SUCCSEG = true) →
                (toldOffsetsLoop w src ofs' lr' (lrs + hd'.length)
                    (flag hd'.attrs SEGATTR_SUCCSEG)).res =
                  findoffsetsLoop src ofs' lr' (lrs + hd'.length) (flag hd'.attrs SEGATTR_SUCCSEG) ∧
                ((toldOffsetsLoop w src ofs' lr' (lrs + hd'.length)
                    (flag hd'.attrs SEGATTR_SUCCSEG)).told = none ∧
                  (findoffsetsLoop src ofs' lr' (lrs + hd'.length)
                    (flag hd'.attrs SEGATTR_SUCCSEG)).ofs.broken = ofs.broken ∨
                  ∃ s, (toldOffsetsLoop w src ofs' lr' (lrs + hd'.length)
                      (flag hd'.attrs SEGATTR_SUCCSEG)).told = some s ∧
                    (findoffsetsLoop src ofs' lr' (lrs + hd'.length)
                      (flag hd'.attrs SEGATTR_SUCCSEG)).ofs.broken = ofs.broken ++ [s.record] ∧
                    Spec.SuspensionTrue w src s) := by
              intro ofs' ho lr' hlr'
              have := ih (lrs + hd'.length) (by omega) hin ofs' lr' (flag hd'.attrs SEGATTR_SUCCSEG)
              rw [ho] at this
              apply this
              · rcases hlr' with ⟨rfl, -⟩ | ⟨rfl, hf⟩
                · exact .here
                · exact .next _ _ _ _ hl hha ((flag_succ _).1 hf)
              · intro hf
                rcases hlr' with ⟨rfl, h⟩ | ⟨rfl, -⟩
                · rw [h] at hf; cases hf
                · have : lr' ≤ lrs := by
                    clear * - hl
                    induction hl with
                    | here => exact Nat.le_refl _
                    | next q len a t h hh hc ih => omega
                  omega
            have fin : ∀ b, flag hd'.attrs SEGATTR_SUCCSEG = b → (b = false → ∀ ofs' : Offsets,
                ofs' = (if flag hd'.attrs SEGATTR_EXFMTLR then
                    { ofs with explicits := ofs.explicits ++ [lr] }
                  else { ofs with implicits := ofs.implicits ++ [lr] }) → ofs'.broken = ofs.broken) := by
              rintro b - - ofs' rfl
              split <;> rfl
            cases hr1 : readAt src (lrs + hd'.length - 1) 1 with
            | error =>
              obtain ⟨h1, h2⟩ := readAt_error hr1
              exact ⟨rfl, Or.inr ⟨_, rfl, rfl, .segment lrs hd'.length hd'.attrs t rfl h1 hl hha
                (by omega) rfl⟩⟩
            | eof bs =>
              dsimp only
              by_cases hf : flag hd'.attrs SEGATTR_SUCCSEG = true
              · have e : (!flag hd'.attrs SEGATTR_SUCCSEG) = false := by simp [hf]
                simp only [e, Bool.false_eq_true, if_false]
                exact go ofs rfl lr (Or.inr ⟨rfl, hf⟩)
              · rw [Bool.not_eq_true] at hf
                have e : (!flag hd'.attrs SEGATTR_SUCCSEG) = true := by simp [hf]
                simp only [e, if_true]
                exact go _ (fin _ hf rfl _ rfl) _ (Or.inl ⟨rfl, hf⟩)
            | ok bs =>
              dsimp only
              by_cases hf : flag hd'.attrs SEGATTR_SUCCSEG = true
              · have e : (!flag hd'.attrs SEGATTR_SUCCSEG) = false := by simp [hf]
                simp only [e, Bool.false_eq_true, if_false]
                exact go ofs rfl lr (Or.inr ⟨rfl, hf⟩)
              · rw [Bool.not_eq_true] at hf
                have e : (!flag hd'.attrs SEGATTR_SUCCSEG) = true := by simp [hf]
                simp only [e, if_true]
                exact go _ (fin _ hf rfl _ rfl) _ (Or.inl ⟨rfl, hf⟩)

/-- C89.  Whatever the stream contains: the texts do not change the index; something is reported, and
only once, if and only if a position is listed as broken; and then what is reported is true, where the
record is the broken one, which begins where the last listed record ends. -/
theorem c89_index (w : Whats) (src : Source) :
    (toldOffsets w src).res = findoffsetsRaw src ∧
    ((toldOffsets w src).told = none ↔ (findoffsetsRaw src).ofs.broken = []) ∧
    ∀ s, (toldOffsets w src).told = some s →
      (findoffsetsRaw src).ofs.broken = [s.record] ∧ Spec.SuspensionTrue w src s ∧
      ∃ l, Spec.Records src.data 0 l s.record ∧
        (findoffsetsRaw src).ofs.explicits = (l.filter (fun x => x.2 == true)).map (fun x => x.1) ∧
        (findoffsetsRaw src).ofs.implicits = (l.filter (fun x => x.2 == false)).map (fun x => x.1) := by
  obtain ⟨h1, h2⟩ := toldOffsetsLoop_true w src 0 ⟨[], [], []⟩ 0 false .here (by simp)
  refine ⟨h1, ?_, ?_⟩
  · rcases h2 with ⟨a, b⟩ | ⟨s, a, b, -⟩
    · exact ⟨fun _ => b, fun _ => a⟩
    · refine ⟨fun h => ?_, fun h => ?_⟩
      · unfold toldOffsets at h; rw [a] at h; cases h
      · unfold findoffsetsRaw at h; rw [b] at h; simp at h
  · intro s hs
    rcases h2 with ⟨a, b⟩ | ⟨s', a, b, c⟩
    · unfold toldOffsets at hs; rw [a] at hs; cases hs
    · unfold toldOffsets at hs
      rw [a] at hs
      cases hs
      have hbr : (findoffsetsRaw src).ofs.broken = [s.record] := b
      refine ⟨hbr, c, ?_⟩
      obtain ⟨l, stop, h1, h2, h3, h4, -⟩ := c20_any_stream src
      rcases h4 with h4 | h4
      · rw [hbr] at h4; simp at h4
      · rw [hbr] at h4
        simp only [List.cons.injEq, and_true] at h4
        rw [h4]
        exact ⟨l, h1, h2, h3⟩

/-- Case: a file that ends where a segment expects another one, and one with a header that is cut off. -/
example (w : Whats) :
    (toldOffsets w ⟨[0, 8, 0x80, 1, 1, 2, 3, 4, 0, 5, 0xa0, 1, 7], .eof⟩).told =
      some ⟨text "Reached EOF, but last logical record segment expects successor", 8, 13⟩ ∧
    (toldOffsets w ⟨[0, 8, 0x80, 1, 1, 2, 3, 4, 0, 5], .eof⟩).told =
      some ⟨text "File truncated in Logical Record Header", 8, 8⟩ ∧
    (toldOffsets w ⟨[0, 2, 0x80, 1, 7], .eof⟩).told =
      some ⟨text "Too short logical record. Length can't be less than 4, but was 2", 0, 0⟩ := by
  refine ⟨?_, ?_, ?_⟩
  · unfold toldOffsets
    have s0 : toldOffsetsLoop w ⟨[0, 8, 0x80, 1, 1, 2, 3, 4, 0, 5, 0xa0, 1, 7], .eof⟩ ⟨[], [], []⟩ 0 0 false =
        toldOffsetsLoop w ⟨[0, 8, 0x80, 1, 1, 2, 3, 4, 0, 5, 0xa0, 1, 7], .eof⟩ ⟨[0], [], []⟩ 8 8 false := by
      rw [toldOffsetsLoop_eq]; rfl
    have s1 : toldOffsetsLoop w ⟨[0, 8, 0x80, 1, 1, 2, 3, 4, 0, 5, 0xa0, 1, 7], .eof⟩ ⟨[0], [], []⟩ 8 8 false =
        toldOffsetsLoop w ⟨[0, 8, 0x80, 1, 1, 2, 3, 4, 0, 5, 0xa0, 1, 7], .eof⟩ ⟨[0], [], []⟩ 8 13 true := by
      rw [toldOffsetsLoop_eq]; rfl
    rw [s0, s1, toldOffsetsLoop_eq]
    rfl
  · unfold toldOffsets
    have s0 : toldOffsetsLoop w ⟨[0, 8, 0x80, 1, 1, 2, 3, 4, 0, 5], .eof⟩ ⟨[], [], []⟩ 0 0 false =
        toldOffsetsLoop w ⟨[0, 8, 0x80, 1, 1, 2, 3, 4, 0, 5], .eof⟩ ⟨[0], [], []⟩ 8 8 false := by
      rw [toldOffsetsLoop_eq]; rfl
    rw [s0, toldOffsetsLoop_eq]
    rfl
  · unfold toldOffsets
    rw [toldOffsetsLoop_eq]
    simp only [show readAt ⟨[0, 2, 0x80, 1, 7], .eof⟩ 0 4 = .ok [0, 2, 0x80, 1] from by decide +kernel,
      show lrsh [0, 2, 0x80, 1] = some ⟨2, 0x80, 1⟩ from by decide +kernel]
    simp only [toldSuspend, show (2 : Nat) < 4 from by omega, if_true]
    decide +kernel

/-- C89.  The index is not made, since the error handler raises an exception, if and only if handing it
what is to be reported raises; the action that is called, if any, is the one for critical problems, and
it is called with the message that has the record and segment where indexing was suspended. -/
theorem c89_handler (h : Handler) (w : Whats) (src : Source) (ptell : Nat) :
    (findoffsets h.policy src = none ↔ (reportIndex h w src ptell).2.isSome) ∧
    (∀ r, findoffsets h.policy src = some r → r = (toldOffsets w src).res) ∧
    (reportIndex h w src ptell).1 = (toldOffsets w src).told.toList.map fun s =>
      (Spec.configured h .critical, formatError (s.report ptell)) := by
  obtain ⟨h1, h2, h3⟩ := c89_index w src
  have key : ∀ s : Suspended, h.logText (s.report ptell) =
      (some (Spec.configured h .critical, formatError (s.report ptell)),
        (Spec.configured h .critical).raised (formatError (s.report ptell))) :=
    fun s => (c87_handed h (s.report ptell)).1 .critical rfl
  have hp : h.policy .critical = (Spec.configured h .critical).raises := rfl
  unfold reportIndex findoffsets
  dsimp only
  cases ht : (toldOffsets w src).told with
  | none =>
    rw [h2.1 ht]
    refine ⟨by simp [Handler.logTexts], ?_, rfl⟩
    intro r hr
    rw [h1]
    simpa using hr.symm
  | some s =>
    obtain ⟨hb, -⟩ := h3 s ht
    rw [hb]
    have hl : h.logTexts ([s].map (·.report ptell)) =
        ([(Spec.configured h .critical, formatError (s.report ptell))],
          (Spec.configured h .critical).raised (formatError (s.report ptell))) := by
      simp only [List.map_cons, List.map_nil, Handler.logTexts, key]
      cases (Spec.configured h .critical).raised (formatError (s.report ptell)) <;> rfl
    simp only [Option.toList_some]
    rw [hl]
    refine ⟨?_, ?_, rfl⟩
    · rw [raised_iff, ← hp]
      cases h.policy .critical <;> simp
    · intro r hr
      rw [h1]
      simp at hr
      exact hr.2.symm

theorem digits_then {x y : Text} : ∀ {as bs : Text}, (∀ d ∈ as, 48 ≤ d ∧ d ≤ 57) →
    (∀ d ∈ bs, 48 ≤ d ∧ d ≤ 57) → as ++ 32 :: x = bs ++ 32 :: y → as = bs ∧ x = y
  | [], [], _, _, h => by simpa using h
  | [], b :: bs, _, hb, h => by
    have h1 := hb b (by simp)
    simp only [List.nil_append, List.cons_append, List.cons.injEq] at h
    omega
  | a :: as, [], ha, _, h => by
    have h1 := ha a (by simp)
    simp only [List.nil_append, List.cons_append, List.cons.injEq] at h
    omega
  | a :: as, b :: bs, ha, hb, h => by
    simp only [List.cons_append, List.cons.injEq] at h
    obtain ⟨h1, h2⟩ := digits_then (fun d hd => ha d (List.mem_cons_of_mem _ hd))
      (fun d hd => hb d (List.mem_cons_of_mem _ hd)) h.2
    exact ⟨by rw [h.1, h1], h2⟩

/-- C89.  The positions can be read from the debug information. -/
theorem c89_tells (s u : Suspended) (p q : Nat) (h : (s.report p).debug = (u.report q).debug) :
    p = q ∧ s.record = u.record ∧ s.segment = u.segment := by
  have e1 : ∀ x : Text, text " (dec), Logical Record tell: " ++ x =
      32 :: (text "(dec), Logical Record tell: " ++ x) := fun _ => rfl
  have e2 : ∀ x : Text, text " (dec), Logical Record Segment tell: " ++ x =
      32 :: (text "(dec), Logical Record Segment tell: " ++ x) := fun _ => rfl
  have e3 : text " (dec)" = 32 :: text "(dec)" := rfl
  unfold Suspended.report at h
  dsimp only at h
  simp only [List.append_assoc] at h
  rw [List.append_cancel_left_eq, e1, e1] at h
  obtain ⟨h1, h⟩ := digits_then (ofNat_digits p) (ofNat_digits q) h
  rw [List.append_cancel_left_eq, e2, e2] at h
  obtain ⟨h2, h⟩ := digits_then (ofNat_digits _) (ofNat_digits _) h
  rw [List.append_cancel_left_eq, e3] at h
  obtain ⟨h3, -⟩ := digits_then (ofNat_digits _) (ofNat_digits _) h
  exact ⟨ofNat_injective h1, ofNat_injective h2, ofNat_injective h3⟩

/-- A record of one segment of 8 bytes, and the header of a segment of 16 bytes with 2 bytes of its
body; then reading fails. -/
def cutStream : Source :=
  ⟨[0, 8, 0x80, 1, 1, 2, 3, 4, 0, 16, 0x80, 1, 5, 6], .broken false⟩

/-- C89, defect.  When the file is truncated in a segment, then the position that is said to be that of
the segment is the one behind it: it is always outside of the data that can be read. -/
theorem c89_segment_defect (w : Whats) (src : Source) (s : Suspended)
    (h : (toldOffsets w src).told = some s)
    (hp : s.problem = text "File truncated in Logical Record Segment") (hw : w.read ≠ s.problem) :
    src.data.length < s.segment ∧ ∃ q len a t, Spec.Led src.data s.record q ∧
      Spec.HeaderAt src.data q len a t ∧ q < src.data.length ∧ s.segment = q + len := by
  have key : ∀ {n : Nat}, text "File truncated in Logical Record Segment" ≠
      text "Too short logical record. Length can't be less than 4, but was " ++ Text.ofNat n := by
    intro n h
    have := congrArg List.head? h
    rw [show ∀ x : Text, (text "Too short logical record. Length can't be less than 4, but was " ++
      x).head? = some 84 from fun _ => rfl] at this
    revert this
    decide +kernel
  obtain ⟨-, ht, -⟩ := (c89_index w src).2.2 s h
  cases ht with
  | eof h => rw [hp] at h; exact absurd h (by decide +kernel)
  | header h => rw [hp] at h; exact absurd h (by decide +kernel)
  | short n a t h => rw [hp] at h; exact absurd h key
  | file len a h => rw [hp] at h; exact absurd h (by decide +kernel)
  | segment q len a t h hs hl hh he ht =>
    exact ⟨by omega, q, len, a, t, hl, hh, by have := hh.1; omega, ht⟩
  | readFailed h => exact absurd h.symm hw
  | seekFailed q len a t h hs hl hh he ht =>
    exact ⟨by omega, q, len, a, t, hl, hh, by have := hh.1; omega, ht⟩

/-- Case: the segment begins at 8 and would end at 24; it is 24 that is reported. -/
theorem cutStream_told : (toldOffsets ⟨text "r", text "s", text "l", text "h"⟩ cutStream).told =
      some ⟨text "File truncated in Logical Record Segment", 8, 24⟩ ∧ cutStream.data.length = 14 := by
  refine ⟨?_, by decide⟩
  unfold toldOffsets
  rw [toldOffsetsLoop_eq]
  simp only [show readAt cutStream 0 4 = .ok [0, 8, 0x80, 1] from by decide +kernel,
    show lrsh [0, 8, 0x80, 1] = some ⟨8, 0x80, 1⟩ from by decide +kernel]
  rw [toldOffsetsLoop_eq]
  simp only [show readAt cutStream 8 4 = .ok [0, 16, 0x80, 1] from by decide +kernel,
    show lrsh [0, 16, 0x80, 1] = some ⟨16, 0x80, 1⟩ from by decide +kernel]
  decide +kernel

/-- Case: what is written when the action for critical problems is to log a warning, and that the same is
the text of the exception when it is to raise one. -/
example :
    reportIndex { critical := .logWarning } ⟨text "r", text "s", text "l", text "h"⟩ cutStream 14 =
      ([(.logWarning, text "\nProblem:      File truncated in Logical Record Segment\nWhere:        dlis::findoffsets (indexing logical file)\nSeverity:     critical\nAction taken: Indexing is suspended at last valid Logical Record\nDebug info:   Physical tell: 14 (dec), Logical Record tell: 8 (dec), Logical Record Segment tell: 24 (dec)")],
        none) ∧
    (reportIndex {} ⟨text "r", text "s", text "l", text "h"⟩ cutStream 14).2.isSome := by
  unfold reportIndex
  rw [cutStream_told.1]
  refine ⟨?_, ?_⟩ <;> decide +kernel

/-! ### Extraction -/

/-- io.cpp:314 -/
def saysNoHeader : Text := text "extract: unable to read LRSH, file truncated"

/-- io.cpp:346 -/
def saysNoBody : Text := text "extract: unable to read LRS, file truncated"

/-- io.cpp:256-259 -/
def saysTrim (trim size : Nat) : Text :=
  text "bad segment trim: trim size (which is " ++ Text.ofNat trim ++ text ") >= segment.size() (which is " ++
    Text.ofNat size ++ text ")"

/-- What is logged when the trailer of a segment is as long as the segment, io.cpp:262-271. -/
def trimNote : Report where
  grade := .known .minor
  context := text "extract (trim_segment)"
  problem := text "trim size (padbytes + checksum + trailing length) = logical record segment length"
  spec := text ("[from 2.2.2.1 Logical Record Segment Header (LRSH) and 2.2.2.4 Logical Record " ++
    "Segment Trailer (LRST) situation should be impossible]")
  action := text "Segment is skipped"

/-- An exception of `extract` and its text. -/
structure Thrown where
  err : ExtractErr
  what : Text
deriving DecidableEq

/-- `trim_segment`, io.cpp:239-279, with the number of notes (`trimNote`) that are logged, also if
that raises. -/
def toldTrim (w : Whats) (policy : Policy) (attrs : Byte) (acc seg : Bytes) :
    Except Thrown Bytes × Nat :=
  match trimRecordSegment attrs acc seg with
  | none => (.error ⟨.outOfBounds, []⟩, 0)
  | some (.ok, trim) => (.ok (seg.take (seg.length - trim)), 0)
  | some (.badSize, trim) =>
    if trim - seg.length ≠ 4 then (.error ⟨.trim, saysTrim trim seg.length⟩, 0)
    else if policy .minor then (.error ⟨.escalated, w.handler⟩, 1)
    else (.ok [], 1)
  | some (_, _) => (.error ⟨.trim, text "dlis_trim_record_segment"⟩, 0)

/-- The loop of `extract`, io.cpp:303-382, with the number of notes logged, also before an
exception. -/
def toldExtractLoop (w : Whats) (policy : Policy) (src : Source) (limit : Nat) (pos : Nat)
    (acc : Bytes) (first : Option (Byte × Nat)) (notes : Nat) : Except Thrown Record × Nat :=
  match h : readAt src pos 4 with
  | .error => (.error ⟨.stream, w.read⟩, notes)
  | .eof _ => (.error ⟨.header, saysNoHeader⟩, notes)
  | .ok buf =>
    match lrsh buf with
    | none => (.error ⟨.header, saysNoHeader⟩, notes)
    | some hd =>
      if hd.length < 4 then (.error ⟨.length, w.size⟩, notes)
      else
        let len := hd.length - 4
        match readAt src (pos + 4) (toRead hd.attrs (limit - acc.length) len) with
        | .error => (.error ⟨.stream, w.read⟩, notes)
        | .eof _ => (.error ⟨.body, saysNoBody⟩, notes)
        | .ok seg =>
          match toldTrim w policy hd.attrs acc seg with
          | (.error e, n) => (.error e, notes + n)
          | (.ok body, n) =>
            let acc := acc ++ body
            let first := first.getD (hd.attrs, hd.type)
            if flag hd.attrs SEGATTR_SUCCSEG && decide (acc.length < limit) then
              toldExtractLoop w policy src limit (pos + 4 + len) acc (some first) (notes + n)
            else
              (.ok { type := first.2, attributes := first.1 &&& fmtenc,
                     data := acc.take limit }, notes + n)
termination_by src.data.length - pos
decreasing_by
  have := (readAt_ok h (by omega)).1
  omega

/-- `extract(file, tell, bytes, rec, errorhandler)`, io.cpp:301-382. -/
def toldExtractN (w : Whats) (policy : Policy) (src : Source) (tell bytes : Nat) :
    Except Thrown Record × Nat :=
  if !seekOk src tell then (.error ⟨.stream, w.seek⟩, 0)
  else toldExtractLoop w policy src bytes tell [] none 0

/-- `extract(file, tell, errorhandler)`, io.cpp:293-299. -/
def toldExtract (w : Whats) (policy : Policy) (src : Source) (tell : Nat) :
    Except Thrown Record × Nat :=
  toldExtractN w policy src tell (2 ^ 63 - 1)

/-- Without texts and without what was logged before an exception. -/
def plainExtract : Except Thrown Record × Nat → Except ExtractErr (Record × Nat)
  | (.error t, _) => .error t.err
  | (.ok rec, n) => .ok (rec, n)

theorem toldExtractLoop_eq (w : Whats) (policy : Policy) (src : Source) (limit : Nat) (pos : Nat)
    (acc : Bytes) (first : Option (Byte × Nat)) (notes : Nat) :
    toldExtractLoop w policy src limit pos acc first notes =
      match readAt src pos 4 with
      | .error => (.error ⟨.stream, w.read⟩, notes)
      | .eof _ => (.error ⟨.header, saysNoHeader⟩, notes)
      | .ok buf =>
        match lrsh buf with
        | none => (.error ⟨.header, saysNoHeader⟩, notes)
        | some hd =>
          if hd.length < 4 then (.error ⟨.length, w.size⟩, notes)
          else
            match readAt src (pos + 4) (toRead hd.attrs (limit - acc.length) (hd.length - 4)) with
            | .error => (.error ⟨.stream, w.read⟩, notes)
            | .eof _ => (.error ⟨.body, saysNoBody⟩, notes)
            | .ok seg =>
              match toldTrim w policy hd.attrs acc seg with
              | (.error e, n) => (.error e, notes + n)
              | (.ok body, n) =>
                if flag hd.attrs SEGATTR_SUCCSEG && decide ((acc ++ body).length < limit) then
                  toldExtractLoop w policy src limit (pos + 4 + (hd.length - 4)) (acc ++ body)
                    (some (first.getD (hd.attrs, hd.type))) (notes + n)
                else
                  (.ok { type := (first.getD (hd.attrs, hd.type)).2,
                         attributes := (first.getD (hd.attrs, hd.type)).1 &&& fmtenc,
                         data := (acc ++ body).take limit }, notes + n) := by
  rw [toldExtractLoop]
  split
  all_goals (rename_i h; rw [h])

namespace Spec

/-- The trailer that the attributes `a` of the segment at `pos` with `len` bytes announce has `n` bytes.
The number of padding bytes is the last of them; nothing is said if the segment has no room for it. -/
def TrailerSays (data : Bytes) (pos len : Nat) (a : Byte) (n : Nat) : Prop :=
  a.toNat / 2 ^ 4 % 2 = 0 ∧
  (a.toNat / 2 ^ 0 % 2 = 0 → n = fixedTrailer a) ∧
  (a.toNat / 2 ^ 0 % 2 = 1 → 4 + fixedTrailer a < len →
    ∃ b, data[pos + len - 1 - fixedTrailer a]? = some b ∧ n = fixedTrailer a + b.toNat)

/-- There is a segment of the record at `tell` with a trailer as long as the whole segment. -/
def AllTrailer (src : Source) (tell : Nat) : Prop :=
  ∃ q len a t, Led src.data tell q ∧ HeaderAt src.data q len a t ∧ q + len ≤ src.data.length ∧
    TrailerSays src.data q len a len

/-- The text of an exception says what is wrong with the record at `tell`. -/
inductive ExtractTrue (w : Whats) (src : Source) (tell : Nat) (what : Text) : Prop where
  | header (q : Nat) (h : what = text "extract: unable to read LRSH, file truncated")
      (hs : src.ending = .eof) (hl : Led src.data tell q) (he : src.data.length < q + 4)
  | body (q len : Nat) (a t : Byte) (h : what = text "extract: unable to read LRS, file truncated")
      (hs : src.ending = .eof) (hl : Led src.data tell q) (hh : HeaderAt src.data q len a t)
      (he : src.data.length < q + len)
  | trim (q len : Nat) (a t : Byte) (n : Nat)
      (h : what = text "bad segment trim: trim size (which is " ++ Text.ofNat n ++
        text ") >= segment.size() (which is " ++ Text.ofNat (len - 4) ++ text ")")
      (hl : Led src.data tell q) (hh : HeaderAt src.data q len a t) (he : q + len ≤ src.data.length)
      (ht : TrailerSays src.data q len a n) (hn : len - 4 < n) (hn' : n ≠ len)
  | short (q n : Nat) (a t : Byte) (h : what = w.size) (hl : Led src.data tell q)
      (hh : (src.data.drop q).take 4 = [0, BitVec.ofNat 8 n, a, t]) (hn : n < 4)
  | stream (h : what = w.read ∨ what = w.seek) (hs : src.ending ≠ .eof)
  | handler (h : what = w.handler) (ha : AllTrailer src tell)

end Spec

theorem toldTrim_plain (w : Whats) (policy : Policy) (a : Byte) (acc seg : Bytes) :
    trimSegment policy a acc seg = match toldTrim w policy a acc seg with
      | (.error t, _) => .error t.err
      | (.ok body, n) => .ok (body, n) := by
  unfold trimSegment toldTrim
  cases trimRecordSegment a acc seg with
  | none => rfl
  | some x =>
    obtain ⟨e, n⟩ := x
    cases e <;> dsimp only
    split
    · rfl
    · split <;> rfl

theorem toldExtractLoop_plain (w : Whats) (policy : Policy) (src : Source) (limit pos : Nat) :
    ∀ (acc : Bytes) (first : Option (Byte × Nat)) (notes : Nat),
      plainExtract (toldExtractLoop w policy src limit pos acc first notes) =
        extractLoop policy src limit pos acc first notes := by
  refine stream_induction src (P := fun pos => ∀ (acc : Bytes) (first : Option (Byte × Nat))
    (notes : Nat), plainExtract (toldExtractLoop w policy src limit pos acc first notes) =
        extractLoop policy src limit pos acc first notes) ?_ pos
  intro pos ih acc first notes
  rw [toldExtractLoop_eq, extractLoop_eq]
  cases hr : readAt src pos 4 with
  | error => rfl
  | eof bs => rfl
  | ok buf =>
    obtain ⟨hin, -⟩ := readAt_ok hr (by omega)
    dsimp only
    cases lrsh buf with
    | none => rfl
    | some hd =>
      dsimp only
      split
      · rfl
      · rename_i hge
        cases readAt src (pos + 4) (toRead hd.attrs (limit - acc.length) (hd.length - 4)) with
        | error => rfl
        | eof bs => rfl
        | ok seg =>
          dsimp only
          rw [toldTrim_plain w]
          rcases toldTrim w policy hd.attrs acc seg with ⟨e | body, n⟩
          · rfl
          · dsimp only
            split
            · exact ih _ (by omega) hin _ _ _
            · rfl

theorem trailer_says {data : Bytes} {pos len : Nat} {a : Byte} {acc seg : Bytes} {e : Err} {n : Nat}
    (hlen : 4 ≤ len) (hin : pos + len ≤ data.length) (hseg : seg = (data.drop (pos + 4)).take (len - 4))
    (hn : e ≠ .ok) (h : trimRecordSegment a acc seg = some (e, n)) : Spec.TrailerSays data pos len a n := by
  have hl : seg.length = len - 4 := by rw [hseg]; simp; omega
  have h1 := c16_amount a acc seg e n h
  have h4 : ¬ a.toNat / 2 ^ 4 % 2 = 1 := by
    intro h4
    rw [trim_eq, if_pos h4] at h
    cases h
    exact hn rfl
  rw [if_neg h4] at h1
  refine ⟨by omega, ?_, ?_⟩
  · intro h0
    rw [if_neg (by omega)] at h1
    omega
  · intro h0 hr
    rw [if_pos h0] at h1
    have hb : (acc ++ seg).reverse[Spec.fixedTrailer a]? = data[pos + len - 1 - Spec.fixedTrailer a]? := by
      rw [List.reverse_append, List.getElem?_append_left (by simp; omega),
        List.getElem?_reverse (by omega), hl, hseg, List.getElem?_take, if_pos (by omega),
        List.getElem?_drop]
      congr 1
      omega
    rw [hb] at h1
    have hx : data[pos + len - 1 - Spec.fixedTrailer a]? =
        some (data[pos + len - 1 - Spec.fixedTrailer a]'(by omega)) := List.getElem?_eq_getElem _
    rw [hx] at h1
    exact ⟨_, hx, h1⟩

theorem toRead_bad {a : Byte} {r n : Nat} {acc seg : Bytes} {e : Err} {k : Nat}
    (h : trimRecordSegment a acc seg = some (e, k)) (he : e ≠ .ok) : toRead a r n = n := by
  unfold toRead
  split
  · rename_i hc
    exfalso
    simp only [Bool.and_eq_true, Bool.not_eq_true'] at hc
    obtain ⟨⟨⟨h1, h2⟩, h3⟩, -⟩ := hc
    have f0 : ¬ a.toNat / 2 ^ 0 % 2 = 1 := by rw [← flag_pad, h1]; simp
    have f1 : ¬ a.toNat / 2 ^ 1 % 2 = 1 := by rw [← flag_trail, h2]; simp
    have f2 : ¬ a.toNat / 2 ^ 2 % 2 = 1 := by rw [← flag_chk, h3]; simp
    have hf : Spec.fixedTrailer a = 0 := by rw [Spec.fixedTrailer, if_neg f2, if_neg f1]
    rw [trim_eq, if_neg f0, hf] at h
    split at h
    · cases h; exact he rfl
    · have := Option.some.inj h
      unfold trimVerdict at this
      rw [if_neg (by omega)] at this
      cases this
      exact he rfl
  · rfl

/-- What is known of the outcome of trimming the segment at `pos`. -/
theorem toldTrim_true {w : Whats} {policy : Policy} {src : Source} {tell pos len r : Nat} {a t : Byte}
    {acc seg : Bytes} (hl : Spec.Led src.data tell pos) (hh : Spec.HeaderAt src.data pos len a t)
    (hr : readAt src (pos + 4) (toRead a r (len - 4)) = .ok seg) :
    (∀ x k, toldTrim w policy a acc seg = (.error x, k) → x.err ≠ .outOfBounds →
      Spec.ExtractTrue w src tell x.what) ∧
    (∀ x k, toldTrim w policy a acc seg = (x, k) → k ≠ 0 → Spec.AllTrailer src tell) := by
  have h4 : 4 ≤ len := hh.2.1
  have full : ∀ e n, trimRecordSegment a acc seg = some (e, n) → e ≠ .ok →
      e = .badSize ∧ seg.length = len - 4 ∧ seg.length < n ∧ pos + len ≤ src.data.length ∧
        Spec.TrailerSays src.data pos len a n := by
    intro e n h he
    have hb : e = .badSize ∧ seg.length < n := by
      rcases c16_never_too_much a acc seg e n h with ⟨h1, -⟩ | h1
      · exact absurd h1 he
      · exact h1
    rw [toRead_bad h he] at hr
    have hlen := readAt_length hr
    have hin : pos + len ≤ src.data.length ∧ seg = (src.data.drop (pos + 4)).take (len - 4) := by
      by_cases h0 : len - 4 = 0
      · refine ⟨by have := hh.1; omega, ?_⟩
        rw [h0] at hlen ⊢
        rw [List.length_eq_zero_iff.1 hlen]; rfl
      · obtain ⟨h5, h6⟩ := readAt_ok hr h0
        exact ⟨by omega, h6⟩
    exact ⟨hb.1, hlen, hb.2, hin.1, trailer_says h4 hin.1 hin.2 he h⟩
  unfold toldTrim
  cases ht : trimRecordSegment a acc seg with
  | none =>
    refine ⟨?_, ?_⟩
    · intro x k h hx; cases h; exact absurd rfl hx
    · intro x k h hk; cases h; exact absurd rfl hk
  | some z =>
    obtain ⟨e, n⟩ := z
    by_cases he : e = .ok
    · subst he
      refine ⟨?_, ?_⟩
      · intro x k h; cases h
      · intro x k h hk; cases h; exact absurd rfl hk
    · obtain ⟨rfl, hlen, hlt, hin, hts⟩ := full e n ht he
      dsimp only
      split
      · rename_i hne
        refine ⟨?_, ?_⟩
        · intro x k h hx
          cases h
          exact .trim pos len a t n (by rw [← hlen]; rfl) hl hh hin hts (by omega) (by omega)
        · intro x k h hk; cases h; exact absurd rfl hk
      · rename_i heq
        have hnl : n = len := by omega
        subst hnl
        have hall : Spec.AllTrailer src tell := ⟨pos, n, a, t, hl, hh, hin, hts⟩
        split
        · exact ⟨fun x k h _ => by cases h; exact .handler rfl hall, fun _ _ _ _ => hall⟩
        · exact ⟨fun x k h => (by cases h), fun _ _ _ _ => hall⟩

theorem toldExtractLoop_true (w : Whats) (policy : Policy) (src : Source) (limit tell pos : Nat) :
    ∀ (acc : Bytes) (first : Option (Byte × Nat)) (notes : Nat), Spec.Led src.data tell pos →
      (∀ x k, toldExtractLoop w policy src limit pos acc first notes = (.error x, k) →
        x.err ≠ .outOfBounds → Spec.ExtractTrue w src tell x.what) ∧
      ∀ x k, toldExtractLoop w policy src limit pos acc first notes = (x, k) → k ≠ notes →
        Spec.AllTrailer src tell := by
  refine stream_induction src (P := fun pos => ∀ (acc : Bytes) (first : Option (Byte × Nat))
      (notes : Nat), Spec.Led src.data tell pos →
      (∀ x k, toldExtractLoop w policy src limit pos acc first notes = (.error x, k) →
        x.err ≠ .outOfBounds → Spec.ExtractTrue w src tell x.what) ∧
      ∀ x k, toldExtractLoop w policy src limit pos acc first notes = (x, k) → k ≠ notes →
        Spec.AllTrailer src tell) ?_ pos
  intro pos ih acc first notes hl
  have fails : ∀ z : Thrown, Spec.ExtractTrue w src tell z.what →
      (∀ x k, ((.error z, notes) : Except Thrown Record × Nat) = (.error x, k) →
        x.err ≠ .outOfBounds → Spec.ExtractTrue w src tell x.what) ∧
      ∀ x k, ((.error z, notes) : Except Thrown Record × Nat) = (x, k) → k ≠ notes →
        Spec.AllTrailer src tell := by
    intro z hz
    exact ⟨fun x k h _ => by cases h; exact hz, fun x k h hk => by cases h; exact absurd rfl hk⟩
  rw [toldExtractLoop_eq]
  cases hr : readAt src pos 4 with
  | error => exact fails _ (.stream (Or.inl rfl) (readAt_error hr).1)
  | eof bs =>
    obtain ⟨h1, h2, -⟩ := readAt_eof hr
    exact fails _ (.header pos rfl h1 hl h2)
  | ok buf =>
    obtain ⟨hin, hbuf⟩ := readAt_ok hr (by omega)
    have hb4 := readAt_length hr
    dsimp only
    cases hd : lrsh buf with
    | none => exact absurd hd (lrsh_full hb4)
    | some hd' =>
      obtain ⟨t, ht1, ht2, ht3⟩ := header_bytes hb4 hd
      dsimp only
      split
      · rename_i hlt
        refine fails _ (.short pos hd'.length hd'.attrs t rfl hl ?_ hlt)
        rw [← hbuf, ht1]
        have e1 : hd'.length / 256 = 0 := by omega
        have e2 : hd'.length % 256 = hd'.length := by omega
        rw [e1, e2]
        rfl
      · rename_i hge
        have hha : Spec.HeaderAt src.data pos hd'.length hd'.attrs t :=
          ⟨hin, by omega, ht2, by rw [← hbuf, ht1]⟩
        cases hr2 : readAt src (pos + 4) (toRead hd'.attrs (limit - acc.length) (hd'.length - 4)) with
        | error => exact fails _ (.stream (Or.inl rfl) (readAt_error hr2).1)
        | eof bs =>
          obtain ⟨h1, h2, -⟩ := readAt_eof hr2
          have := toRead_le hd'.attrs (limit - acc.length) (hd'.length - 4)
          exact fails _ (.body pos hd'.length hd'.attrs t rfl h1 hl hha (by omega))
        | ok seg =>
          dsimp only
          obtain ⟨t1, t2⟩ := toldTrim_true (w := w) (policy := policy) (acc := acc) hl hha hr2
          rcases htr : toldTrim w policy hd'.attrs acc seg with ⟨e | body, n⟩
          · dsimp only
            refine ⟨?_, ?_⟩
            · intro x k h hx
              cases h
              exact t1 _ _ htr hx
            · intro x k h hk
              cases h
              exact t2 _ _ htr (by omega)
          · dsimp only
            split
            · rename_i hc
              simp only [Bool.and_eq_true, decide_eq_true_eq] at hc
              have e : pos + 4 + (hd'.length - 4) = pos + hd'.length := by omega
              rw [e]
              obtain ⟨i1, i2⟩ := ih (pos + hd'.length) (by omega) hin (acc ++ body)
                (some (first.getD (hd'.attrs, hd'.type))) (notes + n)
                (.next _ _ _ _ hl hha ((flag_succ _).1 hc.1))
              refine ⟨i1, ?_⟩
              intro x k h hk
              by_cases hn : n = 0
              · exact i2 x k h (by omega)
              · exact t2 _ _ htr hn
            · refine ⟨fun x k h => (by cases h), ?_⟩
              intro x k h hk
              cases h
              exact t2 _ _ htr (by omega)

/-- C89.  Extracting a record: the texts change nothing; if it ends with an exception, then its text is
true of the record; and notes about trailers are logged only if there is a segment with such a
trailer. -/
theorem c89_extract (w : Whats) (policy : Policy) (src : Source) (tell bytes : Nat) :
    plainExtract (toldExtractN w policy src tell bytes) = extractN policy src tell bytes ∧
    (∀ x k, toldExtractN w policy src tell bytes = (.error x, k) → x.err ≠ .outOfBounds →
      Spec.ExtractTrue w src tell x.what) ∧
    ((toldExtractN w policy src tell bytes).2 ≠ 0 → Spec.AllTrailer src tell) := by
  unfold toldExtractN extractN
  split
  · rename_i hs
    refine ⟨rfl, ?_, by simp⟩
    intro x k h _
    cases h
    exact .stream (Or.inr rfl) (seekOk_false (by simpa using hs)).1
  · obtain ⟨h1, h2⟩ := toldExtractLoop_true w policy src bytes tell tell [] none 0 .here
    exact ⟨toldExtractLoop_plain .., h1, fun h => h2 _ _ rfl h⟩

/-- Case: a file that ends within a segment; one with a trailer of 9 bytes in a segment that has 4 after
its header; and one where the trailer is as long as the segment, which is noted. -/
example (w : Whats) (policy : Policy) (hp : policy .minor = false) :
    toldExtract w policy ⟨[0, 9, 0, 0, 1, 2], .eof⟩ 0 =
      (.error ⟨.body, text "extract: unable to read LRS, file truncated"⟩, 0) ∧
    toldExtract w policy ⟨[0, 8, 1, 0, 1, 2, 3, 9], .eof⟩ 0 =
      (.error ⟨.trim,
        text "bad segment trim: trim size (which is 9) >= segment.size() (which is 4)"⟩, 0) ∧
    toldExtract w policy ⟨[0, 8, 1, 0, 1, 2, 3, 8], .eof⟩ 0 = (.ok ⟨0, 0, []⟩, 1) := by
  refine ⟨?_, ?_, ?_⟩
  · unfold toldExtract toldExtractN
    rw [if_neg (by decide), toldExtractLoop_eq]
    rfl
  · unfold toldExtract toldExtractN
    rw [if_neg (by decide), toldExtractLoop_eq]
    simp only [show readAt ⟨[0, 8, 1, 0, 1, 2, 3, 9], .eof⟩ 0 4 = .ok [0, 8, 1, 0] from by decide +kernel,
      show lrsh [0, 8, 1, 0] = some ⟨8, 1, 0⟩ from by decide +kernel]
    have r1 : toRead 1 (2 ^ 63 - 1 - ([] : Bytes).length) (8 - 4) = 4 := by decide +kernel
    simp only [r1, show readAt ⟨[0, 8, 1, 0, 1, 2, 3, 9], .eof⟩ (0 + 4) 4 = .ok [1, 2, 3, 9] from
      by decide +kernel]
    have t1 : toldTrim w policy 1 [] [1, 2, 3, 9] = (.error ⟨.trim, saysTrim 9 4⟩, 0) := by
      unfold toldTrim
      rw [show trimRecordSegment 1 [] [1, 2, 3, 9] = some (.badSize, 9) from by decide +kernel]
      rfl
    simp only [show ¬ (8 : Nat) < 4 from by omega, if_false, t1]
    have := show saysTrim 9 4 = text "bad segment trim: trim size (which is 9) >= segment.size() (which is 4)"
      from by decide +kernel
    rw [this]
  · unfold toldExtract toldExtractN
    rw [if_neg (by decide), toldExtractLoop_eq]
    simp only [show readAt ⟨[0, 8, 1, 0, 1, 2, 3, 8], .eof⟩ 0 4 = .ok [0, 8, 1, 0] from by decide +kernel,
      show lrsh [0, 8, 1, 0] = some ⟨8, 1, 0⟩ from by decide +kernel]
    have r1 : toRead 1 (2 ^ 63 - 1 - ([] : Bytes).length) (8 - 4) = 4 := by decide +kernel
    simp only [r1, show readAt ⟨[0, 8, 1, 0, 1, 2, 3, 8], .eof⟩ (0 + 4) 4 = .ok [1, 2, 3, 8] from
      by decide +kernel]
    have t1 : toldTrim w policy 1 [] [1, 2, 3, 8] = (.ok [], 1) := by
      unfold toldTrim
      rw [show trimRecordSegment 1 [] [1, 2, 3, 8] = some (.badSize, 8) from by decide +kernel]
      simp [hp]
    simp only [show ¬ (8 : Nat) < 4 from by omega, if_false, t1]
    rw [if_neg (by decide)]
    rfl

/-- A segment of one byte `x` that expects a successor, and a padded segment without any byte, so that
there is no room for the number of padding bytes. -/
def roomless (x : Byte) : Source := ⟨[0, 5, 0x20, 0, x, 0, 4, 0x41, 0], .eof⟩

/-- C89, defect.  The trim size in the message need not be that of the segment: where the segment has no
room for the number of padding bytes, it is whatever the byte in front is, which belongs to the data of
another segment. -/
theorem c89_trim_defect (w : Whats) (policy : Policy) (x : Byte) (h0 : x ≠ 0) (h4 : x ≠ 4) :
    toldExtract w policy (roomless x) 0 = (.error ⟨.trim, saysTrim x.toNat 0⟩, 0) := by
  have hx0 : x.toNat ≠ 0 := fun h => h0 (BitVec.eq_of_toNat_eq (by rw [h]; rfl))
  have hx4 : x.toNat ≠ 4 := fun h => h4 (BitVec.eq_of_toNat_eq (by rw [h]; rfl))
  unfold toldExtract toldExtractN
  have hs : seekOk (roomless x) 0 = true := rfl
  rw [hs]
  simp only [Bool.not_true, Bool.false_eq_true, if_false]
  rw [toldExtractLoop_eq]
  simp only [show readAt (roomless x) 0 4 = .ok [0, 5, 0x20, 0] from rfl,
    show lrsh [0, 5, 0x20, 0] = some ⟨5, 0x20, 0⟩ from by decide +kernel]
  have r1 : toRead 0x20 (2 ^ 63 - 1 - ([] : Bytes).length) (5 - 4) = 1 := by decide +kernel
  have t1 : toldTrim w policy 0x20 [] [x] = (.ok [x], 0) := by
    unfold toldTrim
    rw [trim_eq]
    rfl
  simp only [r1, show readAt (roomless x) (0 + 4) 1 = .ok [x] from rfl, t1]
  have c1 : (flag 0x20 SEGATTR_SUCCSEG && decide (([] ++ [x] : Bytes).length < 2 ^ 63 - 1)) = true := by
    rw [show flag 0x20 SEGATTR_SUCCSEG = true from by decide]; simp
  simp only [show ¬ (5 : Nat) < 4 from by omega, if_false, c1, if_true]
  rw [toldExtractLoop_eq]
  simp only [show readAt (roomless x) (0 + 4 + (5 - 4)) 4 = .ok [0, 4, 0x41, 0] from rfl,
    show lrsh [0, 4, 0x41, 0] = some ⟨4, 0x41, 0⟩ from by decide +kernel]
  have r2 : toRead 0x41 (2 ^ 63 - 1 - ([] ++ [x] : Bytes).length) (4 - 4) = 0 := by
    simp only [List.nil_append, List.length_singleton]; decide +kernel
  have t2 : toldTrim w policy 0x41 ([] ++ [x]) [] = (.error ⟨.trim, saysTrim x.toNat 0⟩, 0) := by
    have e : trimRecordSegment 0x41 ([] ++ [x]) [] = some (.badSize, x.toNat) := by
      rw [trim_eq, if_neg (by decide), if_pos (by decide)]
      have hf : Spec.fixedTrailer 0x41 = 0 := by decide
      rw [hf]
      simp [trimVerdict]
      omega
    unfold toldTrim
    rw [e]
    simp [hx4]
  simp only [r2, show readAt (roomless x) (0 + 4 + (5 - 4) + 4) 0 = .ok [] from rfl, t2]
  rfl

/-- Case: the second segment, of no bytes, is said to have a trailer of 7 or of 9 bytes. -/
example (w : Whats) (policy : Policy) :
    (toldExtract w policy (roomless 7) 0).1 = .error ⟨.trim,
      text "bad segment trim: trim size (which is 7) >= segment.size() (which is 0)"⟩ ∧
    (toldExtract w policy (roomless 9) 0).1 = .error ⟨.trim,
      text "bad segment trim: trim size (which is 9) >= segment.size() (which is 0)"⟩ := by
  rw [c89_trim_defect w policy 7 (by decide) (by decide), c89_trim_defect w policy 9 (by decide) (by decide)]
  dsimp only
  refine ⟨?_, ?_⟩ <;> decide +kernel

/-! ### Index of frame data -/

/-- io.cpp:573-574 -/
def saysNoObname : Text := text "fdata record corrupted, error on reading obname"

/-- As `FdataStep`, with the text of the problem. -/
inductive ToldStep where
  | file (key : Bytes)
  | skip
  | problem (what : Text)
  | undefined
deriving DecidableEq

/-- Without the text. -/
def ToldStep.plain : ToldStep → FdataStep
  | .file key => .file key
  | .skip => .skip
  | .problem _ => .problem
  | .undefined => .undefined

/-- The body of the loop of `findfdata`, io.cpp:555-588, with the number of notes logged by
`extract`. -/
def toldFdataStep (w : Whats) (policy : Policy) (src : Source) (stale : Bytes) (tell : Nat) :
    ToldStep × Nat :=
  match toldExtractN w policy src tell 262 with
  | (.error t, notes) => (if t.err = .outOfBounds then .undefined else .problem t.what, notes)
  | (.ok rec, notes) =>
    if rec.isencrypted then (.skip, notes)
    else if rec.type ≠ 0 ∧ rec.type ≠ 1 then (.skip, notes)
    else if rec.data.length = 0 then (.skip, notes)
    else
      match obname (rec.data ++ stale) with
      | none => (.undefined, notes)
      | some (o, rest) =>
        if (rec.data ++ stale).length - rest.length > rec.data.length then (.problem saysNoObname, notes)
        else
          let type : Bytes := if rec.type = 0 then [0x46, 0x52, 0x41, 0x4d, 0x45]
            else [0x4e, 0x4f, 0x2d, 0x46, 0x4f, 0x52, 0x4d, 0x41, 0x54]
          match fingerprint type o.id o.origin o.copy with
          | none => (.undefined, notes)
          | some fp => (.file fp, notes)

/-- "Physical tell (end of the record): {} (dec)", io.cpp:548-549 and ext/dlis.cpp:646-647, 711-712,
1021-1022. -/
def saysEnd (ptell : Nat) : Text :=
  text "Physical tell (end of the record): " ++ Text.ofNat ptell ++ text " (dec)"

/-- The arguments of the error handler, io.cpp:546-552. -/
def fdataReport (ptell : Nat) (what : Text) : Report where
  grade := .known .critical
  context := text "dlis::findfdata: Indexing implicit records"
  problem := what
  action := text "Record is skipped"
  debug := saysEnd ptell

/-- `findfdata`, io.cpp:537-590: what is handed to the error handler, and the index, or `none` when the
handler raises on a critical problem.  `ptell tell` is what `file.ptell()` returns when there is a problem
with the record at `tell`. -/
def toldFindfdata (w : Whats) (policy : Policy) (src : Source) (stale : Nat → Bytes) (ptell : Nat → Nat)
    (m : List (Bytes × List Nat)) : List Nat → List Report × Option (List (Bytes × List Nat))
  | [] => ([], some m)
  | tell :: tells =>
    match toldFdataStep w policy src (stale tell) tell with
    | (.file fp, n) =>
      let r := toldFindfdata w policy src stale ptell (mapPush m fp tell) tells
      (List.replicate n trimNote ++ r.1, r.2)
    | (.skip, n) =>
      let r := toldFindfdata w policy src stale ptell m tells
      (List.replicate n trimNote ++ r.1, r.2)
    | (.problem what, n) =>
      if policy .critical then (List.replicate n trimNote ++ [fdataReport (ptell tell) what], none)
      else
        let r := toldFindfdata w policy src stale ptell m tells
        (List.replicate n trimNote ++ fdataReport (ptell tell) what :: r.1, r.2)
    | (.undefined, n) => (List.replicate n trimNote, none)

/-- What is said of a record that is left out of the index is true: it is what is wrong with its
segments, or its data does not begin with the name of an object. -/
def Spec.FdataTrue (w : Whats) (policy : Policy) (src : Source) (tell : Nat) (what : Text) : Prop :=
  Spec.ExtractTrue w src tell what ∧ (∃ er, extractN policy src tell 262 = .error er) ∨
  what = text "fdata record corrupted, error on reading obname" ∧
    ∃ rec n, extractN policy src tell 262 = .ok (rec, n) ∧ rec.attributes.toNat / 2 ^ 4 % 2 = 0 ∧
      (rec.type = 0 ∨ rec.type = 1) ∧ rec.data ≠ [] ∧
      ∀ origin copy id enc rest, Spec.Obname origin copy id enc → rec.data ≠ enc ++ rest

theorem toldFdataStep_plain (w : Whats) (policy : Policy) (src : Source) (stale : Bytes) (tell : Nat) :
    (fdataStep policy src stale tell).1 = (toldFdataStep w policy src stale tell).1.plain := by
  have h := (c89_extract w policy src tell 262).1
  unfold fdataStep toldFdataStep
  rw [← h]
  rcases toldExtractN w policy src tell 262 with ⟨t | rec, n⟩
  · obtain ⟨err, what⟩ := t
    cases err <;> rfl
  · dsimp only [plainExtract]
    split
    · rfl
    · split
      · rfl
      · split
        · rfl
        · cases obname (rec.data ++ stale) with
          | none => rfl
          | some x =>
            dsimp only
            split
            · rfl
            · generalize fingerprint _ _ _ _ = f
              cases f <;> rfl

theorem toldFdataStep_true {w : Whats} {policy : Policy} {src : Source} {stale : Bytes} {tell : Nat} :
    (∀ what n, toldFdataStep w policy src stale tell = (.problem what, n) →
      Spec.FdataTrue w policy src tell what) ∧
    ((toldFdataStep w policy src stale tell).2 ≠ 0 → Spec.AllTrailer src tell) := by
  obtain ⟨h1, h2, h3⟩ := c89_extract w policy src tell 262
  unfold toldFdataStep
  rcases hx : toldExtractN w policy src tell 262 with ⟨t | rec, n⟩
  · rw [hx] at h1 h3
    dsimp only
    refine ⟨?_, h3⟩
    intro what k h
    simp only [Prod.mk.injEq] at h
    obtain ⟨h, -⟩ := h
    split at h
    · cases h
    · rename_i hne
      cases h
      exact Or.inl ⟨h2 t n hx hne, _, h1.symm⟩
  · rw [hx] at h1 h3
    dsimp only at h3 ⊢
    have e : extractN policy src tell 262 = .ok (rec, n) := h1.symm
    split
    · exact ⟨fun _ _ h => by (cases h), h3⟩
    · rename_i henc
      split
      · exact ⟨fun _ _ h => by (cases h), h3⟩
      · rename_i hty
        split
        · exact ⟨fun _ _ h => by (cases h), h3⟩
        · rename_i hlen
          cases ho : obname (rec.data ++ stale) with
          | none => exact ⟨fun _ _ h => by (cases h), h3⟩
          | some x =>
            obtain ⟨o, rest⟩ := x
            dsimp only
            split
            · rename_i hbig
              refine ⟨?_, h3⟩
              intro what k h
              cases h
              refine Or.inr ⟨rfl, rec, n, e, ?_, by omega, fun h => hlen (by rw [h]; rfl), ?_⟩
              · rw [← flag_enc_false, ← Bool.not_eq_true]; exact henc
              · intro origin copy id enc r hob hdata
                obtain ⟨e', he', hd⟩ := (c05_obname_decodes _ _ _).1 ho
                have : e' ++ rest = enc ++ (r ++ stale) := by rw [← hd, hdata]; simp
                obtain ⟨-, -, -, rfl⟩ := obname_unique he' hob this
                have l1 := congrArg List.length hd
                rw [hdata] at hbig l1
                simp only [List.length_append] at hbig l1
                omega
            · generalize fingerprint _ _ _ _ = f
              cases f
              · exact ⟨fun _ _ h => by (cases h), h3⟩
              · exact ⟨fun _ _ h => by (cases h), h3⟩

theorem notes_mem {n : Nat} {r : Report} (h : r ∈ List.replicate n trimNote) : r = trimNote ∧ n ≠ 0 := by
  obtain ⟨h1, rfl⟩ := List.mem_replicate.1 h
  exact ⟨rfl, h1⟩

theorem notes_filter (n : Nat) :
    (List.replicate n trimNote).filter (fun r => decide (r.grade = .known .critical)) = [] :=
  List.filter_eq_nil_iff.2 fun r hr => by
    rw [(notes_mem hr).1]; decide +kernel

open Classical in
/-- C89.  Indexing the data of frames: the texts change nothing.  What is reported as critical says what
is wrong with records that are left out, in their order, and for each of them, unless the error handler
raises an exception, which is then about the last one reported; anything else that is reported is the
note about trailers that are as long as their segment, and there is such a segment. -/
theorem c89_fdata (w : Whats) (policy : Policy) (src : Source) (stale : Nat → Bytes) (ptell : Nat → Nat)
    (tells : List Nat) :
    (toldFindfdata w policy src stale ptell [] tells).2 = (findfdata policy src stale tells).map (·.1) ∧
    (∀ r ∈ (toldFindfdata w policy src stale ptell [] tells).1,
      (r = trimNote ∧ ∃ t ∈ tells, Spec.AllTrailer src t) ∨
      ∃ t ∈ tells, ∃ what, r = fdataReport (ptell t) what ∧ Spec.FdataTrue w policy src t what) ∧
    ((∀ t, 262 ≤ (stale t).length) → ∀ m, (toldFindfdata w policy src stale ptell [] tells).2 = some m →
      List.Forall₂ (fun r t => ∃ what, r = fdataReport (ptell t) what ∧ Spec.FdataTrue w policy src t what)
        ((toldFindfdata w policy src stale ptell [] tells).1.filter
          fun r => decide (r.grade = .known .critical))
        (tells.filter fun t => decide (Spec.LeftOut policy src t))) := by
  suffices H : ∀ (tells : List Nat) (m0 : List (Bytes × List Nat)) (l0 : List Severity),
      (toldFindfdata w policy src stale ptell m0 tells).2 =
        (findfdataLoop policy src stale m0 l0 tells).map (·.1) ∧
      (∀ r ∈ (toldFindfdata w policy src stale ptell m0 tells).1,
        (r = trimNote ∧ ∃ t ∈ tells, Spec.AllTrailer src t) ∨
        ∃ t ∈ tells, ∃ what, r = fdataReport (ptell t) what ∧ Spec.FdataTrue w policy src t what) ∧
      ((∀ t, 262 ≤ (stale t).length) → ∀ m,
        (toldFindfdata w policy src stale ptell m0 tells).2 = some m →
        List.Forall₂ (fun r t => ∃ what, r = fdataReport (ptell t) what ∧
            Spec.FdataTrue w policy src t what)
          ((toldFindfdata w policy src stale ptell m0 tells).1.filter
            fun r => decide (r.grade = .known .critical))
          (tells.filter fun t => decide (Spec.LeftOut policy src t))) from H tells [] []
  clear tells
  intro tells
  induction tells with
  | nil =>
    intro m0 l0
    exact ⟨rfl, fun r h => by (cases h), fun _ _ _ => .nil⟩
  | cons t ts ih =>
    intro m0 l0
    have hp := toldFdataStep_plain w policy src (stale t) t
    obtain ⟨t1, t2⟩ := toldFdataStep_true (w := w) (policy := policy) (src := src) (stale := stale t)
      (tell := t)
    have noteAll : ∀ n r, (toldFdataStep w policy src (stale t) t).2 = n →
        r ∈ List.replicate n trimNote → r = trimNote ∧ ∃ t' ∈ t :: ts, Spec.AllTrailer src t' := by
      rintro n r rfl hr
      obtain ⟨h1, h2⟩ := notes_mem hr
      exact ⟨h1, t, by simp, t2 h2⟩
    have weaken : ∀ r, ((r = trimNote ∧ ∃ t ∈ ts, Spec.AllTrailer src t) ∨
        ∃ t ∈ ts, ∃ what, r = fdataReport (ptell t) what ∧ Spec.FdataTrue w policy src t what) →
        (r = trimNote ∧ ∃ t' ∈ t :: ts, Spec.AllTrailer src t') ∨
        ∃ t' ∈ t :: ts, ∃ what, r = fdataReport (ptell t') what ∧ Spec.FdataTrue w policy src t' what := by
      rintro r (⟨h, t', ht', h'⟩ | ⟨t', ht', h⟩)
      · exact Or.inl ⟨h, t', List.mem_cons_of_mem _ ht', h'⟩
      · exact Or.inr ⟨t', List.mem_cons_of_mem _ ht', h⟩
    rw [toldFindfdata, findfdataLoop]
    rcases hs : toldFdataStep w policy src (stale t) t with ⟨fp | _ | what | _, n⟩
    · rw [hs] at hp
      rcases hf : fdataStep policy src (stale t) t with ⟨s, l⟩
      rw [hf] at hp
      cases hp
      obtain ⟨i1, i2, i3⟩ := ih (mapPush m0 fp t) (l0 ++ List.replicate l .minor)
      dsimp only [ToldStep.plain]
      refine ⟨i1, ?_, ?_⟩
      · intro r hr
        rcases List.mem_append.1 hr with hr | hr
        · exact Or.inl (noteAll n r (by rw [hs]) hr)
        · exact weaken r (i2 r hr)
      · intro hst m hm
        have hno : ¬ Spec.LeftOut policy src t := by
          rw [fdataStep_left (hst t) (by rw [hf]; simp [ToldStep.plain]), hf]; simp [ToldStep.plain]
        rw [List.filter_append, notes_filter, List.nil_append, List.filter_cons,
          if_neg (by simpa using hno)]
        exact i3 hst m hm
    · rw [hs] at hp
      rcases hf : fdataStep policy src (stale t) t with ⟨s, l⟩
      rw [hf] at hp
      cases hp
      obtain ⟨i1, i2, i3⟩ := ih m0 (l0 ++ List.replicate l .minor)
      dsimp only [ToldStep.plain]
      refine ⟨i1, ?_, ?_⟩
      · intro r hr
        rcases List.mem_append.1 hr with hr | hr
        · exact Or.inl (noteAll n r (by rw [hs]) hr)
        · exact weaken r (i2 r hr)
      · intro hst m hm
        have hno : ¬ Spec.LeftOut policy src t := by
          rw [fdataStep_left (hst t) (by rw [hf]; simp [ToldStep.plain]), hf]; simp [ToldStep.plain]
        rw [List.filter_append, notes_filter, List.nil_append, List.filter_cons,
          if_neg (by simpa using hno)]
        exact i3 hst m hm
    · rw [hs] at hp
      rcases hf : fdataStep policy src (stale t) t with ⟨s, l⟩
      rw [hf] at hp
      cases hp
      have ht := t1 what n hs
      dsimp only [ToldStep.plain]
      by_cases hc : policy .critical = true
      · rw [if_pos hc, if_pos hc]
        refine ⟨rfl, ?_, fun _ _ h => by (cases h)⟩
        intro r hr
        rcases List.mem_append.1 hr with hr | hr
        · exact Or.inl (noteAll n r (by rw [hs]) hr)
        · rw [List.mem_singleton] at hr
          exact Or.inr ⟨t, by simp, what, hr, ht⟩
      · rw [if_neg hc, if_neg hc]
        obtain ⟨i1, i2, i3⟩ := ih m0 (l0 ++ List.replicate l .minor ++ [.critical])
        refine ⟨i1, ?_, ?_⟩
        · intro r hr
          rcases List.mem_append.1 hr with hr | hr
          · exact Or.inl (noteAll n r (by rw [hs]) hr)
          · rcases List.mem_cons.1 hr with rfl | hr
            · exact Or.inr ⟨t, by simp, what, rfl, ht⟩
            · exact weaken r (i2 r hr)
        · intro hst m hm
          have hyes : Spec.LeftOut policy src t := by
            rw [fdataStep_left (hst t) (by rw [hf]; simp [ToldStep.plain]), hf]; exact ⟨l, rfl⟩
          rw [List.filter_append, notes_filter, List.nil_append, List.filter_cons, List.filter_cons,
            if_pos (by simp [fdataReport]), if_pos (by simpa using hyes)]
          exact .cons ⟨what, rfl, ht⟩ (i3 hst m hm)
    · rw [hs] at hp
      rcases hf : fdataStep policy src (stale t) t with ⟨s, l⟩
      rw [hf] at hp
      cases hp
      refine ⟨rfl, ?_, fun _ _ h => by (cases h)⟩
      intro r hr
      exact Or.inl (noteAll n r (by rw [hs]) hr)

/-- Case: the record at 0 ends within the name of an object, the one at 6 within its header. -/
example (w : Whats) :
    (toldFindfdata w (fun _ => false) ⟨[0, 6, 0, 0, 0, 0, 0, 9, 0], .eof⟩ (fun _ => List.replicate 262 0)
      (fun t => t + 6) [] [0, 6]).1 =
    [fdataReport 6 (text "fdata record corrupted, error on reading obname"),
     fdataReport 12 (text "extract: unable to read LRSH, file truncated")] := by
  have h0 : toldFdataStep w (fun _ => false) ⟨[0, 6, 0, 0, 0, 0, 0, 9, 0], .eof⟩ (List.replicate 262 0) 0 =
      (.problem saysNoObname, 0) := by
    have e : toldExtractN w (fun _ => false) ⟨[0, 6, 0, 0, 0, 0, 0, 9, 0], .eof⟩ 0 262 =
        (.ok ⟨0, 0, [0, 0]⟩, 0) := by
      unfold toldExtractN
      rw [if_neg (by decide), toldExtractLoop_eq]
      rfl
    unfold toldFdataStep
    rw [e]
    decide +kernel
  have h1 : toldFdataStep w (fun _ => false) ⟨[0, 6, 0, 0, 0, 0, 0, 9, 0], .eof⟩ (List.replicate 262 0) 6 =
      (.problem saysNoHeader, 0) := by
    unfold toldFdataStep toldExtractN
    rw [if_neg (by decide), toldExtractLoop_eq]
    rfl
  simp only [toldFindfdata, h0, h1]
  rfl

end Dlisio.Dlis
