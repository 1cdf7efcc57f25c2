/-
The texts of what is reported while records are read and sets are made of them: `core.extract`,
`core.parse_objects`, `read_noform` and `read_fdata`, python/dlisio/ext/dlis.cpp.
-/
import Verif.Dlis.IoLog
import Verif.Dlis.EflrLog
import Verif.Dlis.CurvesProps
import Verif.Dlis.Load

namespace Dlisio.Dlis

/-! ### Records of sets and unformatted data -/

/-- The arguments of the error handler in `core.extract`, ext/dlis.cpp:1019-1024. -/
def rawReport (ptell : Nat) (what : Text) : Report where
  grade := .known .critical
  context := text "dlis::extract: Reading raw bytes from record"
  problem := what
  action := text "Record is skipped"
  debug := saysEnd ptell

/-- The arguments of the error handler in `read_noform`, ext/dlis.cpp:709-714. -/
def noformReport (ptell : Nat) (what : Text) : Report where
  grade := .known .critical
  context := text "dlis::read_noform: Reading raw bytes from record"
  problem := what
  action := text "Data part is skipped"
  debug := saysEnd ptell

/-- `core.extract`, ext/dlis.cpp:1009-1032: what is handed to the error handler, and the result. -/
def toldExtractAll (w : Whats) (policy : Policy) (src : Source) (ptell : Nat → Nat) :
    List Nat → List Report × Work (List Record)
  | [] => ([], .done [])
  | tell :: tells =>
    match toldExtract w policy src tell with
    | (.error t, n) =>
      if t.err = .outOfBounds then (List.replicate n trimNote, .undefined)
      else if policy .critical then
        (List.replicate n trimNote ++ [rawReport (ptell tell) t.what], .raised)
      else
        let r := toldExtractAll w policy src ptell tells
        (List.replicate n trimNote ++ rawReport (ptell tell) t.what :: r.1, r.2)
    | (.ok rec, n) =>
      let r := toldExtractAll w policy src ptell tells
      (List.replicate n trimNote ++ r.1,
        match r.2 with
        | .done recs => .done (if rec.data.length > 0 then rec :: recs else recs)
        | x => x)

/-- `read_noform`, ext/dlis.cpp:699-733: what is handed to the error handler, and the bytes. -/
def toldNoform (w : Whats) (policy : Policy) (src : Source) (stale : Nat → Bytes) (ptell : Nat → Nat) :
    List Nat → Bytes → List Report × Work Bytes
  | [], acc => ([], .done acc)
  | tell :: tells, acc =>
    match toldExtract w policy src tell with
    | (.error t, n) =>
      if t.err = .outOfBounds then (List.replicate n trimNote, .undefined)
      else if policy .critical then
        (List.replicate n trimNote ++ [noformReport (ptell tell) t.what], .raised)
      else
        let r := toldNoform w policy src stale ptell tells acc
        (List.replicate n trimNote ++ noformReport (ptell tell) t.what :: r.1, r.2)
    | (.ok rec, n) =>
      match obname (rec.data ++ stale tell) with
      | none => (List.replicate n trimNote, .undefined)
      | some (_, ptr) =>
        if ptr.length < (stale tell).length then (List.replicate n trimNote, .undefined)
        else
          let r := toldNoform w policy src stale ptell tells
            (acc ++ ptr.take (ptr.length - (stale tell).length))
          (List.replicate n trimNote ++ r.1, r.2)

/-- Without the severities. -/
def NoformResult.work : NoformResult → Work Bytes
  | .bytes bs _ => .done bs
  | .raised => .raised
  | .undefined => .undefined

namespace Spec

/-- What is reported while the records at the given places are read: for each record first the notes about
trailers that are as long as their segment, of which there is one then, and for each record that
cannot be extracted, and for no other, the report `say` with the text of the exception, which is true of
the record.  `complete` is whether the list is: else there are more records, but reading was
stopped. -/
inductive ReadLog (say : Nat → Text → Report) (w : Whats) (policy : Policy) (src : Source) :
    List Nat → List Report → Bool → Prop where
  | nil : ReadLog say w policy src [] [] true
  | stop (ts : List Nat) : ReadLog say w policy src ts [] false
  | note {t ts rs b} (h : AllTrailer src t) (hr : ReadLog say w policy src (t :: ts) rs b) :
      ReadLog say w policy src (t :: ts) (trimNote :: rs) b
  | good {t ts rs b x} (h : extract policy src t = .ok x) (hr : ReadLog say w policy src ts rs b) :
      ReadLog say w policy src (t :: ts) rs b
  | bad {t ts rs b er what} (h : extract policy src t = .error er) (ht : ExtractTrue w src t what)
      (hr : ReadLog say w policy src ts rs b) :
      ReadLog say w policy src (t :: ts) (say t what :: rs) b

end Spec

theorem readLog_notes {say : Nat → Text → Report} {w : Whats} {policy : Policy} {src : Source} {t : Nat}
    {ts : List Nat} {rs : List Report} {b : Bool} (hr : Spec.ReadLog say w policy src (t :: ts) rs b) :
    ∀ n, (n ≠ 0 → Spec.AllTrailer src t) →
      Spec.ReadLog say w policy src (t :: ts) (List.replicate n trimNote ++ rs) b
  | 0, _ => hr
  | n + 1, h => .note (h (by simp)) (readLog_notes hr n fun _ => h (by simp))

/-- C89.  Reading the records of the sets: the texts change nothing, and for each record that cannot be
read, and only for these, it is reported what is wrong with it, up to the end or to the record where
the error handler raises. -/
theorem c89_raw (w : Whats) (policy : Policy) (src : Source) (ptell : Nat → Nat) :
    ∀ tells : List Nat,
      (toldExtractAll w policy src ptell tells).2 = extractAll policy src tells ∧
      ∃ b, Spec.ReadLog (fun t => rawReport (ptell t)) w policy src tells
          (toldExtractAll w policy src ptell tells).1 b ∧
        (∀ recs, extractAll policy src tells = .done recs → b = true)
  | [] => ⟨rfl, true, .nil, fun _ _ => rfl⟩
  | t :: ts => by
    obtain ⟨h1, h2, h3⟩ := c89_extract w policy src t (2 ^ 63 - 1)
    change plainExtract (toldExtract w policy src t) = extract policy src t at h1
    change ∀ x k, toldExtract w policy src t = (.error x, k) → _ at h2
    change (toldExtract w policy src t).2 ≠ 0 → _ at h3
    obtain ⟨i1, b, i2, i3⟩ := c89_raw w policy src ptell ts
    rw [toldExtractAll, extractAll, ← h1]
    rcases hx : toldExtract w policy src t with ⟨⟨err, what⟩ | rec, n⟩
    · rw [hx] at h1 h3
      have key : err ≠ .outOfBounds → ∀ rs b,
          Spec.ReadLog (fun t => rawReport (ptell t)) w policy src ts rs b →
          Spec.ReadLog (fun t => rawReport (ptell t)) w policy src (t :: ts)
            (List.replicate n trimNote ++ rawReport (ptell t) what :: rs) b :=
        fun hne rs b hr => readLog_notes (.bad h1.symm (h2 _ _ hx hne) hr) n h3
      by_cases hne : err = .outOfBounds
      · subst hne
        refine ⟨rfl, false, ?_, fun _ h => by (cases h)⟩
        have := readLog_notes (w := w) (say := fun t => rawReport (ptell t)) (policy := policy)
          (.stop (t :: ts)) n h3
        simpa using this
      · dsimp only [plainExtract]
        rw [if_neg hne]
        by_cases hc : policy .critical = true
        · rw [if_pos hc]
          cases err <;> first | exact absurd rfl hne | exact
            ⟨by rw [if_pos hc], false, key hne [] false (.stop ts), fun _ h => by rw [if_pos hc] at h; cases h⟩
        · rw [if_neg hc]
          cases err <;> first | exact absurd rfl hne | exact
            ⟨by rw [if_neg hc]; exact i1, b, key hne _ b i2, fun recs h => i3 recs (by rwa [if_neg hc] at h)⟩
    · rw [hx] at h1 h3
      dsimp only [plainExtract]
      refine ⟨by rw [i1]; cases extractAll policy src ts <;> rfl, b, readLog_notes (.good h1.symm i2) n h3, ?_⟩
      intro recs h
      cases he : extractAll policy src ts with
      | done recs' => exact i3 recs' he
      | raised => rw [he] at h; cases h
      | undefined => rw [he] at h; cases h

/-- C89.  Reading unformatted data: as for sets. -/
theorem c89_noform (w : Whats) (policy : Policy) (src : Source) (stale : Nat → Bytes)
    (ptell : Nat → Nat) : ∀ (tells : List Nat) (acc : Bytes) (logs : List Severity),
      (toldNoform w policy src stale ptell tells acc).2 =
        (readNoformLoop policy src stale tells acc logs).work ∧
      ∃ b, Spec.ReadLog (fun t => noformReport (ptell t)) w policy src tells
          (toldNoform w policy src stale ptell tells acc).1 b ∧
        (∀ bs, (toldNoform w policy src stale ptell tells acc).2 = .done bs → b = true)
  | [], _, _ => ⟨rfl, true, .nil, fun _ _ => rfl⟩
  | t :: ts, acc, logs => by
    obtain ⟨h1, h2, h3⟩ := c89_extract w policy src t (2 ^ 63 - 1)
    change plainExtract (toldExtract w policy src t) = extract policy src t at h1
    change ∀ x k, toldExtract w policy src t = (.error x, k) → _ at h2
    change (toldExtract w policy src t).2 ≠ 0 → _ at h3
    rw [toldNoform, readNoformLoop, ← h1]
    rcases hx : toldExtract w policy src t with ⟨⟨err, what⟩ | rec, n⟩
    · rw [hx] at h1 h3
      obtain ⟨i1, b, i2, i3⟩ := c89_noform w policy src stale ptell ts acc (logs ++ [.critical])
      have key : err ≠ .outOfBounds → ∀ rs b,
          Spec.ReadLog (fun t => noformReport (ptell t)) w policy src ts rs b →
          Spec.ReadLog (fun t => noformReport (ptell t)) w policy src (t :: ts)
            (List.replicate n trimNote ++ noformReport (ptell t) what :: rs) b :=
        fun hne rs b hr => readLog_notes (.bad h1.symm (h2 _ _ hx hne) hr) n h3
      by_cases hne : err = .outOfBounds
      · subst hne
        refine ⟨rfl, false, ?_, fun _ h => by (cases h)⟩
        have := readLog_notes (w := w) (say := fun t => noformReport (ptell t)) (policy := policy)
          (.stop (t :: ts)) n h3
        simpa using this
      · dsimp only [plainExtract]
        rw [if_neg hne]
        by_cases hc : policy .critical = true
        · rw [if_pos hc]
          cases err <;> first | exact absurd rfl hne | exact
            ⟨by rw [if_pos hc]; rfl, false, key hne [] false (.stop ts), fun _ h => by cases h⟩
        · rw [if_neg hc]
          cases err <;> first | exact absurd rfl hne | exact
            ⟨by rw [if_neg hc]; exact i1, b, key hne _ b i2, i3⟩
    · rw [hx] at h1 h3
      dsimp only [plainExtract]
      have stopped : Spec.ReadLog (fun t => noformReport (ptell t)) w policy src (t :: ts)
          (List.replicate n trimNote) false := by
        have := readLog_notes (w := w) (say := fun t => noformReport (ptell t)) (policy := policy)
          (.stop (t :: ts)) n h3
        simpa using this
      cases obname (rec.data ++ stale t) with
      | none => exact ⟨rfl, false, stopped, fun _ h => by cases h⟩
      | some x =>
        obtain ⟨o, ptr⟩ := x
        dsimp only
        split
        · exact ⟨rfl, false, stopped, fun _ h => by cases h⟩
        · obtain ⟨i1, b, i2, i3⟩ := c89_noform w policy src stale ptell ts
            (acc ++ ptr.take (ptr.length - (stale t).length)) (logs ++ List.replicate n .minor)
          exact ⟨i1, b, readLog_notes (.good h1.symm i2) n h3, i3⟩


/-! ### Curves -/

/-- Texts of exceptions that come from pybind11 and Python: for a text that is not UTF-8 (ext/dlis.cpp:411)
and for a date that does not exist (ext/dlis.cpp:36-43). -/
structure SampleWhats where
  utf8 : Text
  date : Text

/-- ext/dlis.cpp:271 -/
def saysPastEnd : Text := text "corrupted record: fmtstr would read past end"

/-- ext/dlis.cpp:665 -/
def saysEncrypted : Text := text "encrypted FDATA record"

/-- The only exception that reading a sample with this format character may end with: of the constructor
of `py::str` (ext/dlis.cpp:408-427), of `to_pydatetime` (507-519), or of `assert_overflow` (524). -/
def sampleWhat (v : SampleWhats) (ch : Char) : Text :=
  match Reprc.ofFmtChar ch with
  | some .ascii => v.utf8
  | some .dtime => v.date
  | _ => saysPastEnd

/-- `read_fdata_frame`, ext/dlis.cpp:530-535. -/
def toldFrame (v : SampleWhats) (itemsize behind : Nat) :
    List Char → Bytes → Dst → Dst × Except (SampleErr × Text) Bytes
  | [], xs, d => (d, .ok xs)
  | ch :: fmt, xs, d =>
    match readCurveSample behind ch xs with
    | .error .released => (d.poke itemsize .dangling, .error (.released, sampleWhat v ch))
    | .error e => (d, .error (e, sampleWhat v ch))
    | .ok (its, xs) => toldFrame v itemsize behind fmt xs (its.foldl (Dst.put itemsize) d)

/-- `read_fdata_record`, ext/dlis.cpp:537-570. -/
def toldRows (v : SampleWhats) (itemsize behind : Nat) (fmt : List Char) :
    Nat → Bytes → Dst → Dst × Except (SampleErr × Text) Unit
  | 0, _, d => (d, .error (.undefined, []))
  | n + 1, xs, d =>
    if xs.length ≤ behind then (d, .ok ())
    else
      match toldFrame v itemsize behind fmt xs (d.grow itemsize) with
      | (d, .error e) => (d, .error e)
      | (d, .ok xs) => toldRows v itemsize behind fmt n xs { d with frames := d.frames + 1 }

/-- The arguments of the error handler, ext/dlis.cpp:643-652. -/
def curveReport (ptell frames : Nat) (what : Text) : Report where
  grade := .known .critical
  context := text "dlis::read_fdata: reading curves"
  problem := what
  action := text "Record is skipped"
  debug := saysEnd ptell ++ text ", " ++ (text "Processed number of frames: " ++ Text.ofNat frames)

/-- The loop over the records of `read_fdata`, ext/dlis.cpp:654-691: what is handed to the error handler,
and the array. -/
def toldCurves (w : Whats) (v : SampleWhats) (policy : Policy) (src : Source) (stale : Nat → Bytes)
    (ptell : Nat → Nat) (itemsize : Nat) (fmt : List Char) : List Nat → Dst → List Report × Work Dst
  | [], d => ([], .done d.shrink)
  | tell :: tells, d =>
    match toldExtract w policy src tell with
    | (.error t, n) =>
      if t.err = .outOfBounds then (List.replicate n trimNote, .undefined)
      else if policy .critical then
        (List.replicate n trimNote ++ [curveReport (ptell tell) d.frames t.what], .raised)
      else
        let r := toldCurves w v policy src stale ptell itemsize fmt tells d
        (List.replicate n trimNote ++ curveReport (ptell tell) d.frames t.what :: r.1, r.2)
    | (.ok rec, n) =>
      if rec.isencrypted then
        if policy .critical then
          (List.replicate n trimNote ++ [curveReport (ptell tell) d.frames saysEncrypted], .raised)
        else
          let r := toldCurves w v policy src stale ptell itemsize fmt tells d
          (List.replicate n trimNote ++ curveReport (ptell tell) d.frames saysEncrypted :: r.1, r.2)
      else
        let xs := rec.data ++ stale tell
        match obname xs with
        | none => (List.replicate n trimNote, .undefined)
        | some (_, ptr) =>
          match toldRows v itemsize (stale tell).length fmt (xs.length + 1) ptr d with
          | (d, .ok ()) =>
            let r := toldCurves w v policy src stale ptell itemsize fmt tells d
            (List.replicate n trimNote ++ r.1, r.2)
          | (d, .error (e, what)) =>
            if e = .undefined then (List.replicate n trimNote, .undefined)
            else if policy .critical then
              (List.replicate n trimNote ++ [curveReport (ptell tell) d.frames what], .raised)
            else
              let r := toldCurves w v policy src stale ptell itemsize fmt tells (d.rewind itemsize)
              (List.replicate n trimNote ++ curveReport (ptell tell) d.frames what :: r.1, r.2)

/-- Without the severities. -/
def FdataResult.work : FdataResult → Work Dst
  | .array d _ => .done d
  | .raised => .raised
  | .undefined => .undefined

/-- Without the text. -/
def plainSample {α : Type} : Dst × Except (SampleErr × Text) α → Dst × Except SampleErr α
  | (d, .error e) => (d, .error e.1)
  | (d, .ok a) => (d, .ok a)

theorem toldFrame_plain (v : SampleWhats) (itemsize behind : Nat) : ∀ (fmt : List Char) (xs : Bytes)
    (d : Dst), plainSample (toldFrame v itemsize behind fmt xs d) = readFdataFrame itemsize behind fmt xs d
  | [], _, _ => rfl
  | ch :: fmt, xs, d => by
    rw [toldFrame, readFdataFrame]
    cases readCurveSample behind ch xs with
    | error e => cases e <;> rfl
    | ok x => exact toldFrame_plain v itemsize behind fmt _ _

theorem toldRows_plain (v : SampleWhats) (itemsize behind : Nat) (fmt : List Char) : ∀ (n : Nat)
    (xs : Bytes) (d : Dst),
    plainSample (toldRows v itemsize behind fmt n xs d) = readFdataRecord itemsize behind fmt n xs d
  | 0, _, _ => rfl
  | n + 1, xs, d => by
    rw [toldRows, readFdataRecord]
    split
    · rfl
    · rw [← toldFrame_plain v]
      rcases toldFrame v itemsize behind fmt xs (d.grow itemsize) with ⟨d', e | ys⟩
      · rfl
      · exact toldRows_plain v itemsize behind fmt n _ _

namespace Spec

/-- `xs` is what lies in memory from the begin of a frame on, and `ys` what lies there from one of its
samples on, with code `c`; the samples before are as they should be. -/
inductive SampleAt : List Reprc → Bytes → Reprc → Bytes → Prop where
  | here (c : Reprc) (cs : List Reprc) (xs : Bytes) : SampleAt (c :: cs) xs c xs
  | next {c v e cs xs c' ys} (he : Enc c v e) (ha : Accepted c v) (h : SampleAt cs xs c' ys) :
      SampleAt (c :: cs) (e ++ xs) c' ys

/-- What is said of a sample, with code `c`, at `ys`, is true.  The last `behind` bytes of `ys` do not
belong to the record. -/
inductive SampleTrue (v : SampleWhats) (c : Reprc) (ys : Bytes) (behind : Nat) (what : Text) : Prop where
  | past (h : what = text "corrupted record: fmtstr would read past end")
      (he : ∀ val e r, Enc c val e → ys = e ++ r → r.length < behind)
  | utf8 (s e r : Bytes) (h : what = v.utf8) (hc : c = .ascii) (he : Ascii s e) (hy : ys = e ++ r)
      (hu : ∀ cs, ¬ Dlisio.Spec.Utf8 cs s)
  | date (t : DTime) (e r : Bytes) (h : what = v.date) (hc : c = .dtime)
      (he : Enc .dtime (.dtime t) e) (hy : ys = e ++ r) (hd : ¬ dateOk t = true)

end Spec

theorem toldFrame_true (v : SampleWhats) (itemsize behind : Nat) : ∀ (cs : List Reprc) (xs : Bytes)
    (d : Dst) (e : SampleErr) (what : Text),
    (toldFrame v itemsize behind (Spec.format cs) xs d).2 = .error (e, what) → e ≠ .undefined →
    ∃ c ys, Spec.SampleAt cs xs c ys ∧ Spec.SampleTrue v c ys behind what := by
  intro cs
  induction cs with
  | nil => intro xs d e what h; cases h
  | cons c cs ih =>
    intro xs d e what h hne
    have hf : Spec.format (c :: cs) = c.fmtChar :: Spec.format cs := rfl
    rw [hf, toldFrame] at h
    have failed : ∀ e', readCurveSample behind c.fmtChar xs = .error e' → e' ≠ .undefined →
        Spec.SampleTrue v c xs behind (sampleWhat v c.fmtChar) := by
      intro e' hs hne'
      by_cases hc : Spec.isChecked c = true
      · refine .past ?_ ?_
        · cases c <;> first | rfl | (exact absurd hc (by decide))
        · intro val en r hen hxr
          rw [readCurveSample_checked hc, readHost] at hs
          obtain ⟨z, hz⟩ := packflen_one (r := r) hen
          rw [hxr, hz] at hs
          dsimp only at hs
          split at hs
          · rename_i hlt
            rw [List.length_append] at hlt
            omega
          · split at hs
            · cases hs; exact absurd rfl hne'
            · cases hs
      · cases c <;> first | exact absurd (by decide) hc | skip
        case ascii =>
          change readAscii xs = _ at hs
          unfold readAscii at hs
          split at hs
          · cases hs; exact absurd rfl hne'
          · rename_i s r hd
            split at hs
            · cases hs
            · rename_i hu
              obtain ⟨en, ⟨s', hs', hen⟩, hxr⟩ := (c09_decodeVal .ascii xs (.str s) r).1
                (by simp [decodeVal, hd])
              cases hs'
              refine .utf8 s en r rfl rfl hen hxr ?_
              intro cs hcs
              exact hu (by rw [(utf8Decode_iff _ _).2 hcs]; rfl)
        case dtime =>
          change readDtime xs = _ at hs
          unfold readDtime at hs
          split at hs
          · cases hs; exact absurd rfl hne'
          · rename_i t r hd
            split at hs
            · cases hs
            · rename_i hu
              obtain ⟨en, hen, hxr⟩ := (c09_decodeVal .dtime xs (.dtime t) r).1
                (by simp [decodeVal, hd])
              exact .date t en r rfl rfl hen hxr hu
        case ident =>
          change readText xs = _ at hs
          unfold readText at hs
          split at hs
          · cases hs; exact absurd rfl hne'
          · cases hs
        case units =>
          change readText xs = _ at hs
          unfold readText at hs
          split at hs
          · cases hs; exact absurd rfl hne'
          · cases hs
        all_goals
          have hs' : ∃ k, readObject k xs = .error e' := ⟨_, hs⟩
          obtain ⟨k, hk⟩ := hs'
          unfold readObject at hk
          split at hk
          · cases hk; exact absurd rfl hne'
          · cases hk
    match hs : readCurveSample behind c.fmtChar xs with
    | .error .threw =>
      rw [hs] at h
      cases h
      exact ⟨c, xs, .here .., failed _ hs (by simp)⟩
    | .error .undefined =>
      rw [hs] at h
      cases h
      exact absurd rfl hne
    | .error .released =>
      rw [hs] at h
      cases h
      exact ⟨c, xs, .here .., failed _ hs (by simp)⟩
    | .ok (its, r1) =>
      rw [hs] at h
      dsimp only at h
      obtain ⟨c', val, en, hc, he, hacc, rfl, -, -⟩ := sample_sound hs
      obtain rfl : c = c' := fmtChar_injective hc
      obtain ⟨c', ys, h1, h2⟩ := ih _ _ _ _ h hne
      exact ⟨c', ys, .next he hacc h1, h2⟩

theorem toldRows_true (v : SampleWhats) (itemsize behind : Nat) (cs : List Reprc) : ∀ (n : Nat)
    (xs : Bytes) (d d' : Dst) (res : Except (SampleErr × Text) Unit),
    toldRows v itemsize behind (Spec.format cs) n xs d = (d', res) →
    ∃ rows e r, Spec.RowsEnc cs rows e ∧ xs = e ++ r ∧ d'.frames = d.frames + rows.length ∧
      (res = .ok () → r.length ≤ behind) ∧
      ∀ er what, res = .error (er, what) → er ≠ .undefined → behind < r.length ∧
        ∃ c ys, Spec.SampleAt cs r c ys ∧ Spec.SampleTrue v c ys behind what := by
  intro n
  induction n with
  | zero =>
    intro xs d d' res h
    cases h
    exact ⟨[], [], xs, .nil, rfl, rfl, fun h => by (cases h), fun er what h hne => by
      cases h; exact absurd rfl hne⟩
  | succ n ih =>
    intro xs d d' res h
    rw [toldRows] at h
    split at h
    · rename_i hle
      cases h
      exact ⟨[], [], xs, .nil, rfl, rfl, fun _ => hle, fun er what h => by (cases h)⟩
    · rename_i hgt
      have hw := frame_writes itemsize behind cs xs (d.grow itemsize)
      have hg : (d.grow itemsize).frames = d.frames := by unfold Dst.grow; split <;> rfl
      have hpl := toldFrame_plain v itemsize behind (Spec.format cs) xs (d.grow itemsize)
      rcases hfr : toldFrame v itemsize behind (Spec.format cs) xs (d.grow itemsize) with ⟨d1, e | ys⟩
      · rw [hfr] at h hpl
        cases h
        rw [← hpl] at hw
        refine ⟨[], [], xs, .nil, rfl, ?_, fun h => by (cases h), ?_⟩
        · have := hw.frames
          dsimp only [plainSample] at this
          rw [this, hg]; rfl
        · intro er what he hne
          cases he
          exact ⟨by omega, toldFrame_true v itemsize behind cs xs (d.grow itemsize) er what
            (by rw [hfr]) hne⟩
      · rw [hfr] at h hpl
        dsimp only at h
        rw [← hpl] at hw
        have hfr' := hw.frames
        dsimp only [plainSample] at hfr' hpl
        obtain ⟨row, e, hrow, rfl, -, -⟩ := frame_sound _ _ _ _ _ _ _ hpl.symm
        obtain ⟨rows, e2, r, h1, rfl, h3, h4, h5⟩ := ih _ _ _ _ h
        refine ⟨row :: rows, e ++ e2, r, .cons hrow h1, by simp, ?_, h4, h5⟩
        rw [h3]
        dsimp only
        rw [hfr', hg, List.length_cons]
        omega

namespace Spec

/-- What is reported while the curves are read from the records at the given places, with `n` rows read
before: the notes about trailers; for a record that cannot be extracted what is wrong with it; for an
encrypted record that it is; and for a record with a sample that cannot be read what is wrong with that
sample.  The number of frames that is reported is that of the rows read so far, those of this record
included.  `complete` is whether the list is: else there are more records, but reading was stopped.
The last number is that of all rows. -/
inductive CurveLog (w : Whats) (v : SampleWhats) (policy : Policy) (src : Source) (stale : Nat → Bytes)
    (ptell : Nat → Nat) (cs : List Reprc) : Nat → List Nat → List Report → Bool → Nat → Prop where
  | nil (n : Nat) : CurveLog w v policy src stale ptell cs n [] [] true n
  | stop (n : Nat) (ts : List Nat) : CurveLog w v policy src stale ptell cs n ts [] false n
  | note {n t ts rs b m} (h : AllTrailer src t)
      (hr : CurveLog w v policy src stale ptell cs n (t :: ts) rs b m) :
      CurveLog w v policy src stale ptell cs n (t :: ts) (trimNote :: rs) b m
  | lost {n t ts rs b m er what} (h : extract policy src t = .error er) (ht : ExtractTrue w src t what)
      (hr : CurveLog w v policy src stale ptell cs n ts rs b m) :
      CurveLog w v policy src stale ptell cs n (t :: ts) (curveReport (ptell t) n what :: rs) b m
  | encrypted {n t ts rs b m rec k} (h : extract policy src t = .ok (rec, k))
      (he : rec.isencrypted = true)
      (hr : CurveLog w v policy src stale ptell cs n ts rs b m) :
      CurveLog w v policy src stale ptell cs n (t :: ts)
        (curveReport (ptell t) n (text "encrypted FDATA record") :: rs) b m
  | good {n t ts rs b m rec k o en rows e r} (h : extract policy src t = .ok (rec, k))
      (he : rec.isencrypted = false) (ho : Enc .obname (.obname o) en)
      (hx : rec.data ++ stale t = en ++ (e ++ r)) (hrows : RowsEnc cs rows e)
      (hend : r.length ≤ (stale t).length)
      (hr : CurveLog w v policy src stale ptell cs (n + rows.length) ts rs b m) :
      CurveLog w v policy src stale ptell cs n (t :: ts) rs b m
  | bad {n t ts rs b m rec k o en rows e r c ys what} (h : extract policy src t = .ok (rec, k))
      (he : rec.isencrypted = false) (ho : Enc .obname (.obname o) en)
      (hx : rec.data ++ stale t = en ++ (e ++ r)) (hrows : RowsEnc cs rows e)
      (hmore : (stale t).length < r.length) (hs : SampleAt cs r c ys)
      (ht : SampleTrue v c ys (stale t).length what)
      (hr : CurveLog w v policy src stale ptell cs (n + rows.length) ts rs b m) :
      CurveLog w v policy src stale ptell cs n (t :: ts)
        (curveReport (ptell t) (n + rows.length) what :: rs) b m

end Spec

theorem curveLog_notes {w : Whats} {v : SampleWhats} {policy : Policy} {src : Source}
    {stale : Nat → Bytes} {ptell : Nat → Nat} {cs : List Reprc} {n t m : Nat} {ts : List Nat}
    {rs : List Report} {b : Bool} (hr : Spec.CurveLog w v policy src stale ptell cs n (t :: ts) rs b m) :
    ∀ k, (k ≠ 0 → Spec.AllTrailer src t) →
      Spec.CurveLog w v policy src stale ptell cs n (t :: ts) (List.replicate k trimNote ++ rs) b m
  | 0, _ => hr
  | k + 1, h => .note (h (by simp)) (curveLog_notes hr k fun _ => h (by simp))

/-- C89.  Reading curves: the texts change nothing, and for each record of which not all is read, and only
for these, it is reported what is wrong with it, up to the end or to the record where the error handler
raises; the number of rows that is reported is the right one. -/
theorem c89_curves (w : Whats) (v : SampleWhats) (policy : Policy) (src : Source)
    (stale : Nat → Bytes) (ptell : Nat → Nat) (itemsize : Nat) (cs : List Reprc) :
    ∀ (tells : List Nat) (d : Dst) (logs : List Severity),
      (toldCurves w v policy src stale ptell itemsize (Spec.format cs) tells d).2 =
        (readFdataLoop policy src stale itemsize (Spec.format cs) tells d logs).work ∧
      ∃ b m, Spec.CurveLog w v policy src stale ptell cs d.frames tells
          (toldCurves w v policy src stale ptell itemsize (Spec.format cs) tells d).1 b m ∧
        (∀ d', (toldCurves w v policy src stale ptell itemsize (Spec.format cs) tells d).2 = .done d' →
          b = true ∧ d'.frames = m)
  | [], d, _ => ⟨rfl, true, d.frames, .nil _, fun d' h => by
      cases h; refine ⟨rfl, ?_⟩; unfold Dst.shrink; split <;> rfl⟩
  | t :: ts, d, logs => by
    obtain ⟨h1, h2, h3⟩ := c89_extract w policy src t (2 ^ 63 - 1)
    change plainExtract (toldExtract w policy src t) = extract policy src t at h1
    change ∀ x k, toldExtract w policy src t = (.error x, k) → _ at h2
    change (toldExtract w policy src t).2 ≠ 0 → _ at h3
    rw [toldCurves, readFdataLoop, ← h1]
    rcases hx : toldExtract w policy src t with ⟨⟨err, what⟩ | rec, n⟩
    · rw [hx] at h1 h3
      obtain ⟨i1, b, m, i2, i3⟩ := c89_curves w v policy src stale ptell itemsize cs ts d
        (logs ++ [.critical])
      have key : err ≠ .outOfBounds → ∀ rs b m,
          Spec.CurveLog w v policy src stale ptell cs d.frames ts rs b m →
          Spec.CurveLog w v policy src stale ptell cs d.frames (t :: ts)
            (List.replicate n trimNote ++ curveReport (ptell t) d.frames what :: rs) b m :=
        fun hne rs b m hr => curveLog_notes (.lost h1.symm (h2 _ _ hx hne) hr) n h3
      by_cases hne : err = .outOfBounds
      · subst hne
        refine ⟨rfl, false, d.frames, ?_, fun _ h => by (cases h)⟩
        have := curveLog_notes (w := w) (v := v) (stale := stale) (ptell := ptell) (cs := cs)
          (policy := policy) (.stop d.frames (t :: ts)) n h3
        simpa using this
      · dsimp only [plainExtract]
        rw [if_neg hne]
        by_cases hc : policy .critical = true
        · rw [if_pos hc]
          cases err <;> first | exact absurd rfl hne | exact
            ⟨by rw [if_pos hc]; rfl, false, d.frames, key hne [] false _ (.stop _ ts), fun _ h => by cases h⟩
        · rw [if_neg hc]
          cases err <;> first | exact absurd rfl hne | exact
            ⟨by rw [if_neg hc]; exact i1, b, m, key hne _ b m i2, i3⟩
    · rw [hx] at h1 h3
      dsimp only [plainExtract]
      have stopped : Spec.CurveLog w v policy src stale ptell cs d.frames (t :: ts)
          (List.replicate n trimNote) false d.frames := by
        have := curveLog_notes (w := w) (v := v) (stale := stale) (ptell := ptell) (cs := cs)
          (policy := policy) (.stop d.frames (t :: ts)) n h3
        simpa using this
      by_cases henc : rec.isencrypted = true
      · rw [if_pos henc, if_pos henc]
        by_cases hc : policy .critical = true
        · rw [if_pos hc, if_pos hc]
          exact ⟨rfl, false, d.frames, curveLog_notes (.encrypted h1.symm henc (.stop _ ts)) n h3,
            fun _ h => by cases h⟩
        · rw [if_neg hc, if_neg hc]
          obtain ⟨i1, b, m, i2, i3⟩ := c89_curves w v policy src stale ptell itemsize cs ts d
            (logs ++ List.replicate n .minor ++ [.critical])
          exact ⟨i1, b, m, curveLog_notes (.encrypted h1.symm henc i2) n h3, i3⟩
      · rw [if_neg henc, if_neg henc]
        cases ho : obname (rec.data ++ stale t) with
        | none => exact ⟨rfl, false, d.frames, stopped, fun _ h => by cases h⟩
        | some x =>
          obtain ⟨o, ptr⟩ := x
          dsimp only
          obtain ⟨en, hen, hxr⟩ := (c09_decodeVal .obname (rec.data ++ stale t) (.obname o) ptr).1
            (by simp [decodeVal, ho])
          have hpl := toldRows_plain v itemsize (stale t).length (Spec.format cs)
            ((rec.data ++ stale t).length + 1) ptr d
          rw [← hpl]
          rcases hrows : toldRows v itemsize (stale t).length (Spec.format cs)
            ((rec.data ++ stale t).length + 1) ptr d with ⟨d1, ⟨e, what⟩ | u⟩
          · obtain ⟨rows, e1, r, g1, g2, g3, -, g5⟩ := toldRows_true _ _ _ _ _ _ _ _ _ hrows
            dsimp only [plainSample]
            by_cases hne : e = .undefined
            · subst hne
              exact ⟨rfl, false, d.frames, stopped, fun _ h => by cases h⟩
            · obtain ⟨g6, c, ys, g7, g8⟩ := g5 _ _ rfl hne
              rw [if_neg hne]
              obtain ⟨i1, b, m, i2, i3⟩ := c89_curves w v policy src stale ptell itemsize cs ts
                (d1.rewind itemsize) (logs ++ List.replicate n .minor ++ [.critical])
              have hfr : (d1.rewind itemsize).frames = d.frames + rows.length := g3
              have key : ∀ rs b m,
                  Spec.CurveLog w v policy src stale ptell cs (d.frames + rows.length) ts rs b m →
                  Spec.CurveLog w v policy src stale ptell cs d.frames (t :: ts)
                    (List.replicate n trimNote ++ curveReport (ptell t) d1.frames what :: rs) b m := by
                intro rs b m hr
                rw [g3]
                exact curveLog_notes (.bad h1.symm (by simpa using henc) hen (by rw [hxr, g2]) g1 g6
                  g7 g8 hr) n h3
              by_cases hc : policy .critical = true
              · rw [if_pos hc]
                refine ⟨?_, false, _, key [] false _ (.stop _ ts), fun _ h => by cases h⟩
                cases e <;> first | exact absurd rfl hne | (dsimp only; rw [if_pos hc]; rfl)
              · rw [if_neg hc]
                rw [hfr] at i2
                refine ⟨?_, b, m, key _ b m i2, i3⟩
                cases e <;> first | exact absurd rfl hne | (dsimp only; rw [if_neg hc]; exact i1)
          · obtain ⟨rows, e1, r, g1, g2, g3, g4, -⟩ := toldRows_true _ _ _ _ _ _ _ _ _ hrows
            obtain ⟨i1, b, m, i2, i3⟩ := c89_curves w v policy src stale ptell itemsize cs ts
                d1 (logs ++ List.replicate n .minor)
            rw [g3] at i2
            exact ⟨i1, b, m, curveLog_notes (.good h1.symm (by simpa using henc) hen (by rw [hxr, g2]) g1
              (g4 rfl) i2) n h3, i3⟩

theorem toldExtract_of {w : Whats} {policy : Policy} {src : Source} {t : Nat} {rec : Record} {k : Nat}
    (h : extract policy src t = .ok (rec, k)) : toldExtract w policy src t = (.ok rec, k) := by
  have h1 := (c89_extract w policy src t (2 ^ 63 - 1)).1
  change plainExtract (toldExtract w policy src t) = extract policy src t at h1
  rw [h] at h1
  rcases hx : toldExtract w policy src t with ⟨x | r, n⟩
  · rw [hx] at h1; cases h1
  · rw [hx] at h1; cases h1; rfl

/-- Case: what is reported for the records of `caseFile`: the second one ends within a frame, the third
one is encrypted; three rows are read. -/
example (w : Whats) (v : SampleWhats) :
    (toldCurves w v (fun _ => false) caseFile (fun _ => List.replicate 24 0xff)
      (fun t => if t = 12 then 23 else 29) 5 (Spec.format [.uvari, .ushort]) [0, 12, 23]
      ⟨fun _ => none, 0, 0, 3, false⟩).1.map (fun r => (r.problem, r.debug)) =
    [(text "corrupted record: fmtstr would read past end",
      text "Physical tell (end of the record): 23 (dec), Processed number of frames: 3"),
     (text "encrypted FDATA record",
      text "Physical tell (end of the record): 29 (dec), Processed number of frames: 3")] := by
  obtain ⟨h0, h1, h2⟩ := caseFile_extract
  have h : (toldCurves w v (fun _ => false) caseFile (fun _ => List.replicate 24 0xff)
      (fun t => if t = 12 then 23 else 29) 5 (Spec.format [.uvari, .ushort]) [0, 12, 23]
      ⟨fun _ => none, 0, 0, 3, false⟩).1 =
      [curveReport 23 3 saysPastEnd, curveReport 29 3 saysEncrypted] := by
    simp only [toldCurves, toldExtract_of h0, toldExtract_of h1, toldExtract_of h2]
    rfl
  rw [h]
  decide +kernel

/-- C89, defect.  It is said that the record is skipped, but the rows before the frame that cannot be read
stay: here the record at 12 is said to be skipped, and there is its row in the array. -/
theorem c89_skipped_defect (w : Whats) (v : SampleWhats) (ptell : Nat → Nat) :
    ∃ d, toldCurves w v (fun _ => false) caseFile (fun _ => List.replicate 24 0xff) ptell 5
        (Spec.format [.uvari, .ushort]) [12] ⟨fun _ => none, 0, 0, 1, false⟩ =
        ([curveReport (ptell 12) 1 saysPastEnd], .done d) ∧
      (curveReport (ptell 12) 1 saysPastEnd).action = text "Record is skipped" ∧
      d.allocated = 1 ∧ d.mem 0 = some (.host (.int 4 3), 0) ∧ d.mem 4 = some (.host (.int 1 9), 0) := by
  obtain ⟨-, h1, -⟩ := caseFile_extract
  simp only [toldCurves, toldExtract_of h1]
  exact ⟨_, rfl, rfl, rfl, rfl, rfl⟩

/-- Case: of two records of sets the second is cut off. -/
example (w : Whats) : ∃ rec, toldExtractAll w (fun _ => false) caseFile (fun _ => 29) [23, 28] =
    ([rawReport 29 (text "extract: unable to read LRSH, file truncated")], .done [rec]) ∧
    rec.data = [0, 0] := by
  obtain ⟨-, -, h2⟩ := caseFile_extract
  have h3 : toldExtract w (fun _ => false) caseFile 28 = (.error ⟨.header, saysNoHeader⟩, 0) := by
    unfold toldExtract toldExtractN
    rw [if_neg (by decide), toldExtractLoop_eq]
    rfl
  simp only [toldExtractAll, toldExtract_of h2, h3]
  exact ⟨_, rfl, rfl⟩

/-- Case: of two records of unformatted data the second is cut off. -/
example (w : Whats) : toldNoform w (fun _ => false) caseFile (fun _ => []) (fun _ => 29) [0, 28] [] =
    ([noformReport 29 (text "extract: unable to read LRSH, file truncated")], .done [1, 7, 2, 8]) := by
  obtain ⟨h0, -, -⟩ := caseFile_extract
  have h3 : toldExtract w (fun _ => false) caseFile 28 = (.error ⟨.header, saysNoHeader⟩, 0) := by
    unfold toldExtract toldExtractN
    rw [if_neg (by decide), toldExtractLoop_eq]
    rfl
  simp only [toldNoform, toldExtract_of h0, h3]
  rfl

/-! ### Sets -/

/-- The arguments of the error handler in `core.parse_objects`, ext/dlis.cpp:1043-1046. -/
def setReport (what : Text) : Report where
  grade := .known .critical
  context := text "core.parse_objects: Construct object sets"
  problem := what
  action := text "Set is skipped"

/-- `core.parse_objects`, ext/dlis.cpp:1034-1051: what is handed to the error handler, and the
result. -/
def toldSets (policy : Policy) : List Record → List Report × Work (List ObjectSet)
  | [] => ([], .done [])
  | rec :: recs =>
    if rec.isencrypted then toldSets policy recs
    else
      match toldSetComponent rec.data with
      | (_, .error .outOfBounds) => ([], .undefined)
      | (_, .error (.threw what)) =>
        if policy .critical then ([setReport what], .raised)
        else
          let r := toldSets policy recs
          (setReport what :: r.1, r.2)
      | (told, .ok (role, type, name, _)) =>
        let r := toldSets policy recs
        (r.1, match r.2 with
          | .done ss => .done
              ({ role := role, type := type, name := name, log := told.map (·.severity), data := rec.data,
                 objs := [], tmpl := [], parsed := false, undefined := false } :: ss)
          | r => r)

namespace Spec

/-- RP66 V1, figure 3-2: what the components are, by the first three bits of the descriptor. -/
def componentNames : List String :=
  ["absent attribute", "attribute", "invariant attribute", "object", "reserved", "redundant set",
   "replacement set", "set"]

/-- What is said of the data of a record when no set can be made of it is true. -/
inductive SetFault (data : Bytes) (what : Text) : Prop where
  | empty (h : what = text "eflr must be non-empty") (hd : data = [])
  | component (d : Byte) (rest : Bytes) (name : String)
      (h : what = text "error parsing object set descriptor: expected SET, RSET or RDSET, was " ++
        text name ++ text " (" ++ ([7, 6, 5, 4, 3, 2, 1, 0].map fun i => 48 + d.toNat / 2 ^ i % 2) ++ text ")")
      (hd : data = d :: rest) (hk : d.toNat / 32 < 5) (hn : componentNames[d.toNat / 32]? = some name)
  | alone (d : Byte) (h : what = text "unexpected end-of-record after SET descriptor")
      (hd : data = [d]) (hk : 5 ≤ d.toNat / 32)

/-- What is reported while sets are made of records: of each record that is not encrypted and of which no
set can be made what is wrong with it, and nothing else. -/
inductive SetLog : List Record → List Report → Bool → Prop where
  | nil : SetLog [] [] true
  | stop (recs : List Record) : SetLog recs [] false
  | encrypted {rec recs rs b} (h : rec.attributes.toNat / 2 ^ 4 % 2 = 1) (hr : SetLog recs rs b) :
      SetLog (rec :: recs) rs b
  | good {rec recs rs b s} (h : rec.attributes.toNat / 2 ^ 4 % 2 = 0) (hs : ObjectSet.new rec.data = .ok s)
      (hr : SetLog recs rs b) : SetLog (rec :: recs) rs b
  | bad {rec recs rs b what} (h : rec.attributes.toNat / 2 ^ 4 % 2 = 0) (hs : SetFault rec.data what)
      (hr : SetLog recs rs b) : SetLog (rec :: recs) (setReport what :: rs) b

end Spec

/-- The text for a descriptor that is none of a set. -/
def wrongSet (d : Byte) (name : String) : Text :=
  text "error parsing object set descriptor: expected SET, RSET or RDSET, was " ++
    text name ++ text " (" ++ ([7, 6, 5, 4, 3, 2, 1, 0].map fun i => 48 + d.toNat / 2 ^ i % 2) ++ text ")"

theorem wrongSet_all : ∀ d : Byte, (match toldSetDescriptor d with
    | .ok _ => decide (5 ≤ d.toNat / 32)
    | .error w => decide (d.toNat / 32 < 5) &&
      decide ((Spec.componentNames[d.toNat / 32]?).map (fun n => ToldErr.threw (wrongSet d n)) = some w)) =
      true := by
  decide +kernel

theorem toldSetDescriptor_ok {d : Byte} {x : Role × Bool × Bool} (h : toldSetDescriptor d = .ok x) :
    5 ≤ d.toNat / 32 := by
  have := wrongSet_all d
  rw [h] at this
  simpa using this

theorem toldSetDescriptor_error {d : Byte} {w : ToldErr} (h : toldSetDescriptor d = .error w) :
    d.toNat / 32 < 5 ∧ ∃ name, Spec.componentNames[d.toNat / 32]? = some name ∧
      w = .threw (wrongSet d name) := by
  have := wrongSet_all d
  rw [h] at this
  dsimp only at this
  rw [Bool.and_eq_true, decide_eq_true_iff, decide_eq_true_iff, Option.map_eq_some_iff] at this
  obtain ⟨h1, name, h2, h3⟩ := this
  exact ⟨h1, name, h2, h3.symm⟩

theorem toldSetComponent_fault {data : Bytes} {l : List LogEntry} {what : Text}
    (h : toldSetComponent data = (l, .error (.threw what))) : Spec.SetFault data what := by
  unfold toldSetComponent at h
  cases data with
  | nil => cases h; exact .empty rfl rfl
  | cons d xs =>
    dsimp only at h
    cases hd : toldSetDescriptor d with
    | error w =>
      rw [hd] at h
      cases h
      obtain ⟨h5, name, h1, h2⟩ := toldSetDescriptor_error hd
      cases h2
      exact .component d xs name rfl rfl h5 h1
    | ok x =>
      obtain ⟨role, ht, hn⟩ := x
      rw [hd] at h
      dsimp only at h
      split at h
      · rename_i hx
        cases h
        subst hx
        exact .alone d rfl rfl (toldSetDescriptor_ok hd)
      · have h2 := (Prod.mk.inj h).2
        exfalso
        revert h2
        have need : ∀ {α : Type} {o : Option α} {w : Text}, toldNeed o ≠ .error (.threw w) := by
          intro α o w; cases o <;> simp [toldNeed]
        cases h3 : toldNeed (ident xs) with
        | error e => intro h; cases h; exact need h3
        | ok y =>
          dsimp only
          cases hn with
          | false => intro h; cases h
          | true =>
            simp only [if_true]
            cases h4 : toldNeed (ident y.2) with
            | error e => intro h; cases h; exact need h4
            | ok z => intro h; cases h

/-- C89.  Making sets of records: the texts change nothing, and of each record of which no set can be made
it is reported what is wrong with it, up to the end or to the record where the error handler
raises. -/
theorem c89_sets (policy : Policy) : ∀ recs : List Record,
    (toldSets policy recs).2 = objectSets policy recs ∧
    ∃ b, Spec.SetLog recs (toldSets policy recs).1 b ∧ (∀ ss, objectSets policy recs = .done ss → b = true)
  | [] => ⟨rfl, true, .nil, fun _ _ => rfl⟩
  | rec :: recs => by
    obtain ⟨i1, b, i2, i3⟩ := c89_sets policy recs
    rw [toldSets, objectSets]
    by_cases he : rec.isencrypted = true
    · rw [if_pos he, if_pos he]
      exact ⟨i1, b, .encrypted ((flag_enc _).1 he) i2, i3⟩
    · rw [if_neg he, if_neg he]
      have hz : rec.attributes.toNat / 2 ^ 4 % 2 = 0 := by
        have : ¬ rec.attributes.toNat / 2 ^ 4 % 2 = 1 := fun h => he ((flag_enc _).2 h)
        omega
      have hp := plain_setComponent rec.data
      unfold ObjectSet.new
      rw [← hp]
      rcases hr : toldSetComponent rec.data with ⟨told, e | ⟨role, type, name, xs⟩⟩
      · cases e with
        | outOfBounds => exact ⟨rfl, false, .stop _, fun _ h => by cases h⟩
        | threw what =>
          dsimp only [plainRes, ToldErr.plain]
          have hf := toldSetComponent_fault hr
          by_cases hc : policy .critical = true
          · rw [if_pos hc, if_pos hc]
            exact ⟨rfl, false, .bad hz hf (.stop _), fun _ h => by cases h⟩
          · rw [if_neg hc, if_neg hc]
            exact ⟨i1, b, .bad hz hf i2, i3⟩
      · dsimp only [plainRes, id]
        have hn : ObjectSet.new rec.data = .ok
            { role := role, type := type, name := name, log := told.map (·.severity), data := rec.data,
              objs := [], tmpl := [], parsed := false, undefined := false } := by
          unfold ObjectSet.new
          rw [← hp, hr]
          rfl
        refine ⟨by rw [i1]; cases objectSets policy recs <;> rfl, b, .good hz hn i2, ?_⟩
        intro ss h
        cases ho : objectSets policy recs with
        | done ss' => exact i3 ss' ho
        | raised => rw [ho] at h; cases h
        | undefined => rw [ho] at h; cases h

/-- Case: an attribute where a set should be, and a descriptor without anything behind. -/
example : toldSets (fun _ => false) [⟨0, 0x80, [0x20, 1]⟩, ⟨0, 0x90, [0x20]⟩, ⟨0, 0x80, [0xf0]⟩] =
    ([setReport (text "error parsing object set descriptor: expected SET, RSET or RDSET, was attribute (00100000)"),
      setReport (text "unexpected end-of-record after SET descriptor")], .done []) := by rfl

end Dlisio.Dlis
