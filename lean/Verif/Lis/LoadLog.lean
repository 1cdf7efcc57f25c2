/-
The texts of what is reported while a LIS file is loaded: lib/src/lis/io.cpp and
python/dlisio/lis/load.py.

The functions of `Verif/Lis/Io.lean` and `Verif/Lis/Load.lean` are given here once more, together with
the texts.  Texts of exceptions that are not made there (by the stream, when a file is opened) are
parameters.
-/
import Verif.Messages
import Verif.Lis.TapeImage

namespace Dlisio.Lis

/-! ### Model: records -/

/-- Texts that come from elsewhere: of `stream::read` and `stream::seek` (file.cpp:17-56), of the
exceptions of `core.open` and of `core.openlis` at an offset (io.cpp:577-632), of the values of
`core.lis_rectype`, and the path as it is formatted. -/
structure Whats where
  read : Text
  seek : Text
  raw : Text
  opens : Nat → Text
  rectype : Nat → Text
  path : Text

/-- Value or exception with its text, and the position afterwards. -/
abbrev Told (α : Type) := Except (IoErr × Text × Nat) (α × Nat)

/-- The result without the text. -/
def Told.plain {α : Type} : Told α → Res α
  | .ok x => .ok x
  | .error (e, _, p) => .error (e, p)

/-- io.cpp:175 -/
def saysEnd : Text := text "iodevice::read_physical_header: end-of-file"

/-- io.cpp:182 -/
def saysEarlyEnd : Text := text "iodevice::read_physical_header: unexpected end-of-file"

/-- io.cpp:242-244 -/
def saysTooShort (n : Nat) : Text :=
  text "iodevice::read_physical_header: Too short record length (was " ++ Text.ofNat n ++ text " bytes)"

/-- io.cpp:256-257 with 351-352 -/
def saysNoHeader : Text :=
  text "iodevice::index_record: iodevice::read_logical_header: unexpected end-of-file"

/-- io.cpp:259-260 with 354-355 -/
def saysHalfHeader : Text :=
  text "iodevice::index_record: iodevice::read_logical_header: could not read full header from disk"

/-- io.cpp:364-368 -/
def saysRectype (t tell : Nat) : Text :=
  text "iodevice::index_record: Found invalid record type (" ++ Text.ofNat t ++
    text ") when reading header at ptell (" ++ Text.ofNat tell ++ text ")"

/-- io.cpp:383-384 -/
def saysTruncated : Text := text "iodevice::index_record: physical record truncated"

/-- io.cpp:398-399 -/
def saysMissing (what : Text) : Text :=
  text "iodevice::index_record: Missing next PRH. (" ++ what ++ text ")"

/-- io.cpp:404-405 -/
def saysInconsistent : Text := text "iodevice::index_record: predecessor/successor inconsistency"

/-- io.cpp:551 -/
def saysReadTruncated : Text := text "iodevice::read_record: record truncated"

/-- The lambda `error` of `read_physical_header` at the end of the file, io.cpp:172-190. -/
def toldShort {α : Type} (buf : Bytes) (nread pos : Nat) : Told α :=
  if nread = 0 ∨ isPadbytes buf then .error (.eof, saysEnd, pos)
  else .error (.truncation, saysEarlyEnd, pos)

/-- The loop over padding, io.cpp:216-222. -/
def toldSkipPad (w : Whats) (dev : Device) (buf : Bytes) (pos : Nat) : Told Bytes :=
  if !isPadbytes buf then .ok (buf, pos)
  else match _h : readAt dev.src pos 4 with
    | .ok buf => toldSkipPad w dev buf (pos + 4)
    | .eof bs => toldShort bs bs.length (pos + bs.length)
    | .error => .error (.stream, w.read, pos)
termination_by dev.src.data.length - pos
decreasing_by have := (readAt_ok _h (by omega)).1; omega

/-- Realignment of the buffer, io.cpp:200-213, and the loop. -/
def toldRealign (w : Whats) (dev : Device) (buf : Bytes) (pos : Nat) : Told Bytes :=
  let alignment := dev.ptell pos % 4
  if alignment = 0 then toldSkipPad w dev buf pos
  else
    let padbytes := 4 - alignment
    match readAt dev.src pos padbytes with
    | .ok bs => toldSkipPad w dev (buf.drop padbytes ++ bs) (pos + padbytes)
    | .eof bs => toldShort (buf.drop padbytes ++ bs) bs.length (pos + bs.length)
    | .error => .error (.stream, w.read, pos)

/-- The check of the length, io.cpp:225-247. -/
def toldCheckPrh (buf : Bytes) (pos : Nat) : Told Prh :=
  let head := parsePrh buf
  if head.length.toNat < minLength head.attributes then
    .error (.shortLength, saysTooShort head.length.toNat, pos)
  else .ok (head, pos)

/-- `iodevice::read_physical_header`, io.cpp:106-248. -/
def toldPrh (w : Whats) (dev : Device) (pos : Nat) : Told Prh :=
  match readAt dev.src pos 4 with
  | .eof bs => toldShort bs bs.length (pos + bs.length)
  | .error => .error (.stream, w.read, pos)
  | .ok buf =>
    if isPadbytes (buf.take 2) then
      match toldRealign w dev buf (pos + 4) with
      | .error e => .error e
      | .ok (buf, pos) => toldCheckPrh buf pos
    else toldCheckPrh buf (pos + 4)

/-- `iodevice::read_logical_header`, io.cpp:250-263, inside of `index_record`, 347-356. -/
def toldLrh (w : Whats) (dev : Device) (pos : Nat) : Told Lrh :=
  match readAt dev.src pos 2 with
  | .ok [t, a] => .ok (⟨t, a⟩, pos + 2)
  | .ok _ => .error (.truncation, saysHalfHeader, pos)
  | .eof bs => .error (.truncation, if bs = [] then saysNoHeader else saysHalfHeader, pos + bs.length)
  | .error => .error (.stream, w.read, pos)

theorem toldSkipPad_plain (w : Whats) (dev : Device) (buf : Bytes) (pos : Nat) :
    (toldSkipPad w dev buf pos).plain = skipPad dev buf pos := by
  fun_induction skipPad dev buf pos with
  | case1 buf pos h => rw [toldSkipPad, if_pos h]; rfl
  | case2 buf pos h buf' hr ih =>
    rw [toldSkipPad, if_neg h]
    split
    · rename_i b hb; rw [hr] at hb; cases hb; exact ih
    · rename_i hb; rw [hr] at hb; cases hb
    · rename_i hb; rw [hr] at hb; cases hb
  | case3 buf pos h bs hr =>
    rw [toldSkipPad, if_neg h]
    split
    · rename_i b hb; rw [hr] at hb; cases hb
    · rename_i b hb
      rw [hr] at hb; cases hb
      unfold toldShort shortErr
      split <;> rfl
    · rename_i hb; rw [hr] at hb; cases hb
  | case4 buf pos h hr =>
    rw [toldSkipPad, if_neg h]
    split
    · rename_i b hb; rw [hr] at hb; cases hb
    · rename_i hb; rw [hr] at hb; cases hb
    · rfl

theorem toldShort_plain {α : Type} (buf : Bytes) (nread pos : Nat) :
    (toldShort (α := α) buf nread pos).plain = .error (shortErr buf nread, pos) := by
  unfold toldShort shortErr
  split <;> rfl

theorem toldRealign_plain (w : Whats) (dev : Device) (buf : Bytes) (pos : Nat) :
    (toldRealign w dev buf pos).plain = realign dev buf pos := by
  unfold toldRealign realign
  dsimp only
  split
  · exact toldSkipPad_plain ..
  · cases readAt dev.src pos (4 - dev.ptell pos % 4) with
    | ok bs => exact toldSkipPad_plain ..
    | eof bs => exact toldShort_plain ..
    | error => rfl

theorem toldCheckPrh_plain (buf : Bytes) (pos : Nat) :
    (toldCheckPrh buf pos).plain = checkPrh buf pos := by
  unfold toldCheckPrh checkPrh
  dsimp only
  split <;> rfl

theorem toldPrh_plain (w : Whats) (dev : Device) (pos : Nat) :
    (toldPrh w dev pos).plain = readPrh dev pos := by
  unfold toldPrh readPrh
  cases readAt dev.src pos 4 with
  | eof bs => exact toldShort_plain ..
  | error => rfl
  | ok buf =>
    dsimp only
    split
    · rw [← toldRealign_plain w]
      rcases toldRealign w dev buf (pos + 4) with ⟨e, what, p⟩ | ⟨buf, p⟩
      · rfl
      · exact toldCheckPrh_plain ..
    · exact toldCheckPrh_plain ..

theorem told_ok {α : Type} {t : Told α} {x : α × Nat} (h : t = .ok x) : t.plain = .ok x := by
  rw [h]; rfl

theorem told_error {α : Type} {t : Told α} {e : IoErr} {what : Text} {p : Nat} (h : t = .error (e, what, p)) :
    t.plain = .error (e, p) := by
  rw [h]; rfl

/-- The loop of `index_record` over the physical records of a logical record, io.cpp:371-401. -/
def toldIndexLoop (w : Whats) (dev : Device) (ltell length : Nat) (prh : Prh) (attrs : List (BitVec 16))
    (pos : Nat) : Told (List (BitVec 16) × Nat) :=
  if !has prh.attributes SUCCSES then
    if !seekOk dev.src (ltell + length - 1) then .error (.stream, w.seek, pos)
    else match readAt dev.src (ltell + length - 1) 1 with
      | .ok _ => .ok ((attrs, length), ltell + length)
      | .eof bs => .error (.truncation, saysTruncated, ltell + length - 1 + bs.length)
      | .error => .error (.stream, w.read, ltell + length - 1)
  else if !seekOk dev.src (ltell + length) then .error (.stream, w.seek, pos)
  else match _h : toldPrh w dev (ltell + length) with
    | .ok (prh, p) =>
      toldIndexLoop w dev ltell (length + prh.length.toNat) prh (attrs ++ [prh.attributes]) p
    | .error (.eof, what, p) => .error (.truncation, saysMissing what, p)
    | .error e => .error e
termination_by dev.src.data.length - (ltell + length)
decreasing_by
  have := readPrh_pos ((toldPrh_plain w dev _).symm.trans (told_ok _h))
  omega

/-- `iodevice::index_record`, io.cpp:328-415. -/
def toldRecord (w : Whats) (dev : Device) (pos : Nat) : Told RecordInfo :=
  match toldPrh w dev pos with
  | .error e => .error e
  | .ok (prh, p) =>
    let ltell := p - 4
    match toldLrh w dev p with
    | .error e => .error e
    | .ok (lrh, p) =>
      if !validRectype lrh.type then
        .error (.rectype, saysRectype lrh.type.toNat (dev.ptell p - 2), p)
      else match toldIndexLoop w dev ltell prh.length.toNat prh [prh.attributes] p with
        | .error e => .error e
        | .ok ((attrs, length), p) =>
          if !attrConsistent attrs then .error (.inconsistent, saysInconsistent, p)
          else .ok (⟨lrh.type.toNat, length, ltell⟩, p)

theorem toldLrh_plain (w : Whats) (dev : Device) (pos : Nat) :
    (toldLrh w dev pos).plain = readLrh dev pos := by
  unfold toldLrh readLrh
  rcases readAt dev.src pos 2 with (_ | ⟨a, _ | ⟨b, _ | _⟩⟩) | bs | _ <;> rfl

theorem toldIndexLoop_plain (w : Whats) (dev : Device) (ltell length : Nat) (prh : Prh)
    (attrs : List (BitVec 16)) (pos : Nat) :
    (toldIndexLoop w dev ltell length prh attrs pos).plain = indexLoop dev ltell length prh attrs pos := by
  fun_induction toldIndexLoop w dev ltell length prh attrs pos with
  | case1 length prh attrs pos h1 h2 => rw [indexLoop, if_pos h1, if_pos h2]; rfl
  | case2 length prh attrs pos h1 h2 bs hr => rw [indexLoop, if_pos h1, if_neg h2, hr]; rfl
  | case3 length prh attrs pos h1 h2 bs hr => rw [indexLoop, if_pos h1, if_neg h2, hr]; rfl
  | case4 length prh attrs pos h1 h2 hr => rw [indexLoop, if_pos h1, if_neg h2, hr]; rfl
  | case5 length prh attrs pos h1 h2 => rw [indexLoop, if_neg h1, if_pos h2]; rfl
  | case6 length prh attrs pos h1 h2 prh' p hr ih =>
    have hp := (toldPrh_plain w dev _).symm.trans (told_ok hr)
    rw [ih]
    conv => rhs; rw [indexLoop, if_neg h1, if_neg h2]
    split
    · rename_i h; rw [hp] at h; cases h; rfl
    · rename_i h; rw [hp] at h; cases h
    · rename_i h; rw [hp] at h; cases h
  | case7 length prh attrs pos h1 h2 what p hr =>
    have hp := (toldPrh_plain w dev _).symm.trans (told_error hr)
    rw [indexLoop, if_neg h1, if_neg h2]
    split
    · rename_i h; rw [hp] at h; cases h
    · rename_i h; rw [hp] at h; cases h; rfl
    · rename_i hne h
      rw [hp] at h
      cases h
      exact absurd rfl (hne _)
  | case8 length prh attrs pos h1 h2 e hne hr =>
    obtain ⟨e, what, p⟩ := e
    have hp := (toldPrh_plain w dev _).symm.trans (told_error hr)
    rw [indexLoop, if_neg h1, if_neg h2]
    split
    · rename_i h; rw [hp] at h; cases h
    · rename_i h; rw [hp] at h; cases h; exact absurd rfl (hne _ _)
    · rename_i h
      rw [hp] at h
      cases h
      rfl

theorem toldRecord_plain (w : Whats) (dev : Device) (pos : Nat) :
    (toldRecord w dev pos).plain = indexRecord dev pos := by
  unfold toldRecord indexRecord
  rw [← toldPrh_plain w]
  rcases toldPrh w dev pos with ⟨e, what, p⟩ | ⟨prh, p⟩
  · rfl
  · dsimp only
    rw [show Told.plain (Except.ok (prh, p)) = .ok (prh, p) from rfl]
    dsimp only
    rw [← toldLrh_plain w]
    rcases toldLrh w dev p with ⟨e, what, p'⟩ | ⟨lrh, p'⟩
    · rfl
    · rw [show Told.plain (Except.ok (lrh, p')) = .ok (lrh, p') from rfl]
      dsimp only
      by_cases hv : (!validRectype lrh.type) = true
      · rw [if_pos hv, if_pos hv]; rfl
      · rw [if_neg hv, if_neg hv, ← toldIndexLoop_plain w]
        rcases toldIndexLoop w dev (p - 4) prh.length.toNat prh [prh.attributes] p' with
          ⟨e, what, q⟩ | ⟨⟨attrs, length⟩, q⟩
        · rfl
        · rw [show Told.plain (Except.ok ((attrs, length), q)) = .ok ((attrs, length), q) from rfl]
          dsimp only
          by_cases hc : (!attrConsistent attrs) = true
          · rw [if_pos hc, if_pos hc]; rfl
          · rw [if_neg hc, if_neg hc]; rfl

/-- The loop of `index_records`, io.cpp:453-516: the index, and `err`. -/
def toldIndexFrom (w : Whats) (dev : Device) (ex im : List RecordInfo) (pos : Nat) : Index × Text :=
  match _h : toldRecord w dev pos with
  | .error (.eof, _, p) => (⟨ex, im, false, p⟩, [])
  | .error (_, what, p) => (⟨ex, im, true, p⟩, what)
  | .ok (info, p) =>
    if info.type = 0 ∨ info.type = 1 then toldIndexFrom w dev ex (im ++ [info]) p
    else if info.type = 132 ∨ info.type = 133 ∨ info.type = 130 ∨ info.type = 131 then
      if 1 < (ex ++ [info]).length then (⟨ex, im, false, info.ltell⟩, [])
      else (⟨ex ++ [info], im, false, repositionTell dev p⟩, [])
    else if info.type = 128 then
      if (ex ++ [info]).length = 1 then toldIndexFrom w dev (ex ++ [info]) im p
      else (⟨ex, im, false, info.ltell⟩, [])
    else if info.type = 137 ∨ info.type = 129 then
      (⟨ex ++ [info], im, false, repositionTell dev p⟩, [])
    else toldIndexFrom w dev (ex ++ [info]) im p
termination_by dev.src.data.length - pos
decreasing_by
  all_goals
    have := indexRecord_pos ((toldRecord_plain w dev _).symm.trans (told_ok _h))
    omega

/-- `iodevice::index_records`, io.cpp:422-519. -/
def toldIndexRecords (w : Whats) (dev : Device) (pos : Nat) : Index × Text := toldIndexFrom w dev [] [] pos

theorem indexFrom_ok {dev : Device} {ex im : List RecordInfo} {pos : Nat} {info : RecordInfo} {p : Nat}
    (h : indexRecord dev pos = .ok (info, p)) : indexFrom dev ex im pos =
      if info.type = 0 ∨ info.type = 1 then indexFrom dev ex (im ++ [info]) p
      else if info.type = 132 ∨ info.type = 133 ∨ info.type = 130 ∨ info.type = 131 then
        if 1 < (ex ++ [info]).length then ⟨ex, im, false, info.ltell⟩
        else ⟨ex ++ [info], im, false, repositionTell dev p⟩
      else if info.type = 128 then
        if (ex ++ [info]).length = 1 then indexFrom dev (ex ++ [info]) im p
        else ⟨ex, im, false, info.ltell⟩
      else if info.type = 137 ∨ info.type = 129 then
        ⟨ex ++ [info], im, false, repositionTell dev p⟩
      else indexFrom dev (ex ++ [info]) im p := by
  rw [indexFrom]
  split
  · rename_i h'; rw [h] at h'; cases h'
  · rename_i h'; rw [h] at h'; cases h'
  · rename_i h'; rw [h] at h'; cases h'; rfl

theorem toldIndexFrom_plain (w : Whats) (dev : Device) (ex im : List RecordInfo) (pos : Nat) :
    (toldIndexFrom w dev ex im pos).1 = indexFrom dev ex im pos := by
  fun_induction toldIndexFrom w dev ex im pos with
  | case1 ex im pos what p h =>
    have hp := (toldRecord_plain w dev _).symm.trans (told_error h)
    rw [indexFrom]
    split
    · rename_i h; rw [hp] at h; cases h; rfl
    · rename_i hne h; rw [hp] at h; cases h; exact (hne rfl).elim
    · rename_i h; rw [hp] at h; cases h
  | case2 ex im pos e what p hne h =>
    have hp := (toldRecord_plain w dev _).symm.trans (told_error h)
    rw [indexFrom]
    split
    · rename_i h; rw [hp] at h; cases h; exact absurd rfl (hne)
    · rename_i h; rw [hp] at h; cases h; rfl
    · rename_i h; rw [hp] at h; cases h
  | case3 ex im pos info p h h1 ih =>
    rw [ih, indexFrom_ok ((toldRecord_plain w dev _).symm.trans (told_ok h)), if_pos h1]
  | case4 ex im pos info p h h1 h2 h3 =>
    rw [indexFrom_ok ((toldRecord_plain w dev _).symm.trans (told_ok h)), if_neg h1, if_pos h2, if_pos h3]
  | case5 ex im pos info p h h1 h2 h3 =>
    rw [indexFrom_ok ((toldRecord_plain w dev _).symm.trans (told_ok h)), if_neg h1, if_pos h2, if_neg h3]
  | case6 ex im pos info p h h1 h2 h3 h4 ih =>
    rw [ih, indexFrom_ok ((toldRecord_plain w dev _).symm.trans (told_ok h)), if_neg h1, if_neg h2, if_pos h3,
      if_pos h4]
  | case7 ex im pos info p h h1 h2 h3 h4 =>
    rw [indexFrom_ok ((toldRecord_plain w dev _).symm.trans (told_ok h)), if_neg h1, if_neg h2, if_pos h3,
      if_neg h4]
  | case8 ex im pos info p h h1 h2 h3 h4 =>
    rw [indexFrom_ok ((toldRecord_plain w dev _).symm.trans (told_ok h)), if_neg h1, if_neg h2, if_neg h3,
      if_pos h4]
  | case9 ex im pos info p h h1 h2 h3 h4 ih =>
    rw [ih, indexFrom_ok ((toldRecord_plain w dev _).symm.trans (told_ok h)), if_neg h1, if_neg h2, if_neg h3,
      if_neg h4]

/-- The loop of `read_record`, io.cpp:528-560. -/
def toldReadLoop (w : Whats) (dev : Device) (data : Bytes) (pos : Nat) : Told Bytes :=
  match _h : toldPrh w dev pos with
  | .error e => .error e
  | .ok (prh, p) =>
    let tr := trlen prh.attributes
    let lrh := if has prh.attributes PREDCES then 0 else 2
    let toread := prh.length.toNat - 4 - tr - lrh
    if !seekOk dev.src (p + lrh) then .error (.stream, w.seek, p)
    else match readAt dev.src (p + lrh) toread with
      | .error => .error (.stream, w.read, p + lrh)
      | .eof bs => .error (.readTruncated, saysReadTruncated, p + lrh + bs.length)
      | .ok bs =>
        if !seekOk dev.src (p + lrh + toread + tr) then .error (.stream, w.seek, p + lrh + toread)
        else if !has prh.attributes SUCCSES then .ok (data ++ bs, p + lrh + toread + tr)
        else toldReadLoop w dev (data ++ bs) (p + lrh + toread + tr)
termination_by dev.src.data.length - pos
decreasing_by
  have := readPrh_pos ((toldPrh_plain w dev _).symm.trans (told_ok _h))
  omega

/-- `iodevice::read_record`, io.cpp:521-562. -/
def toldReadRecord (w : Whats) (dev : Device) (info : RecordInfo) : Told Bytes :=
  if !seekOk dev.src info.ltell then .error (.stream, w.seek, info.ltell)
  else toldReadLoop w dev [] info.ltell

theorem readLoop_eq (dev : Device) (data : Bytes) (pos : Nat) :
    readLoop dev data pos =
      match readPrh dev pos with
      | .error e => .error e
      | .ok (prh, p) =>
        let tr := trlen prh.attributes
        let lrh := if has prh.attributes PREDCES then 0 else 2
        let toread := prh.length.toNat - 4 - tr - lrh
        if !seekOk dev.src (p + lrh) then .error (.stream, p)
        else match readAt dev.src (p + lrh) toread with
          | .error => .error (.stream, p + lrh)
          | .eof bs => .error (.readTruncated, p + lrh + bs.length)
          | .ok bs =>
            if !seekOk dev.src (p + lrh + toread + tr) then .error (.stream, p + lrh + toread)
            else if !has prh.attributes SUCCSES then .ok (data ++ bs, p + lrh + toread + tr)
            else readLoop dev (data ++ bs) (p + lrh + toread + tr) := by
  rw [readLoop]
  rcases h : readPrh dev pos with e | ⟨prh, p⟩ <;> rfl

theorem toldReadLoop_plain (w : Whats) (dev : Device) (data : Bytes) (pos : Nat) :
    (toldReadLoop w dev data pos).plain = readLoop dev data pos := by
  induction hn : dev.src.data.length - pos using Nat.strong_induction_on generalizing data pos with
  | _ n ih =>
    subst hn
    rw [toldReadLoop, readLoop_eq]
    have hp := toldPrh_plain w dev pos
    split
    · rename_i e h
      obtain ⟨e, what, p⟩ := e
      rw [h] at hp
      rw [← hp]
      rfl
    · rename_i prh p h
      rw [h] at hp
      have hpos := readPrh_pos (hp.symm.trans rfl : readPrh dev pos = .ok (prh, p))
      rw [← hp, show Told.plain (Except.ok (prh, p)) = .ok (prh, p) from rfl]
      dsimp only
      generalize (if has prh.attributes PREDCES = true then 0 else 2) = lrh
      by_cases h1 : (!seekOk dev.src (p + lrh)) = true
      · rw [if_pos h1, if_pos h1]; rfl
      · rw [if_neg h1, if_neg h1]
        cases readAt dev.src (p + lrh) (prh.length.toNat - 4 - trlen prh.attributes - lrh) with
        | error => rfl
        | eof bs => rfl
        | ok bs =>
          dsimp only
          by_cases h2 : (!seekOk dev.src (p + lrh + (prh.length.toNat - 4 - trlen prh.attributes - lrh) +
            trlen prh.attributes)) = true
          · rw [if_pos h2, if_pos h2]; rfl
          · rw [if_neg h2, if_neg h2]
            by_cases h3 : (!has prh.attributes SUCCSES) = true
            · rw [if_pos h3, if_pos h3]; rfl
            · rw [if_neg h3, if_neg h3]
              exact ih _ (by omega) _ _ rfl

theorem toldReadRecord_plain (w : Whats) (dev : Device) (info : RecordInfo) :
    (toldReadRecord w dev info).plain = readRecord dev info := by
  unfold toldReadRecord readRecord
  split
  · rfl
  · exact toldReadLoop_plain ..


/-! ### What is said about records: headers of physical records -/

namespace Spec

/-- Bytes of the stream. -/
def piece (dev : Device) (pos n : Nat) : Bytes := (dev.src.data.drop pos).take n

/-- Padding: at least one byte, all of them zero or all of them blanks. -/
def Filler (bs : Bytes) : Prop := bs ≠ [] ∧ ∃ b, Blank b ∧ bs = List.replicate bs.length b

/-- Where headers are expected behind padding that begins at `pos`: from the first place on that is at a
multiple of four in the file. -/
def aligned (dev : Device) (pos : Nat) : Nat := pos + (4 - dev.ptell (pos + 4) % 4) % 4

/-- Four bytes at a time from the place `a` on there is padding up to `q`. -/
def PaddedTo (dev : Device) (a q : Nat) : Prop :=
  ∃ k, q = a + 4 * k ∧ q ≤ dev.src.data.length ∧ ∀ j < k, Filler (piece dev (a + 4 * j) 4)

/-- The header that is next from `pos` on is at `q`. -/
def NextHeader (dev : Device) (pos q : Nat) : Prop :=
  pos + 4 ≤ dev.src.data.length ∧ q + 4 ≤ dev.src.data.length ∧
    (q = pos ∧ ¬ Filler (piece dev pos 2) ∨
      Filler (piece dev pos 2) ∧ PaddedTo dev (aligned dev pos) q ∧ ¬ Filler (piece dev q 4))

/-- There is no header from `pos` on: from `q` on there are less than four bytes. -/
def RunsOut (dev : Device) (pos q : Nat) : Prop :=
  dev.src.data.length < q + 4 ∧
    (q = pos ∨ pos + 4 ≤ dev.src.data.length ∧ Filler (piece dev pos 2) ∧ PaddedTo dev (aligned dev pos) q)

/-- The length that is given in a header. -/
def lengthAt (dev : Device) (q : Nat) : Nat := beNat (piece dev q 2)

/-- The attributes that are given in a header. -/
def attrsAt (dev : Device) (q : Nat) : Nat := beNat (piece dev (q + 2) 2)

/-- What comes of reading a header, and what is said if there is none. -/
inductive PrhSays (w : Whats) (dev : Device) (pos : Nat) : Told Prh → Prop where
  | header (q : Nat) (h : Prh) : NextHeader dev pos q → h.length.toNat = lengthAt dev q →
      h.attributes.toNat = attrsAt dev q → minimum (attrsAt dev q) ≤ lengthAt dev q →
      PrhSays w dev pos (.ok (h, q + 4))
  | short (q : Nat) : NextHeader dev pos q → lengthAt dev q < minimum (attrsAt dev q) →
      PrhSays w dev pos (.error (.shortLength,
        text "iodevice::read_physical_header: Too short record length (was " ++
          Text.ofNat (lengthAt dev q) ++ text " bytes)", q + 4))
  /-- the file ends, perhaps with padding -/
  | done (q : Nat) : RunsOut dev pos q → dev.src.ending = .eof →
      dev.src.data.drop q = [] ∨ Filler (dev.src.data.drop q) →
      PrhSays w dev pos (.error (.eof, text "iodevice::read_physical_header: end-of-file",
        max pos dev.src.data.length))
  /-- the file ends with two bytes of padding and one or two others (`c91_end_defect`) -/
  | lost (q : Nat) : RunsOut dev pos q → dev.src.ending = .eof → pos < q →
      dev.src.data.length = pos + 4 →
      PrhSays w dev pos (.error (.eof, text "iodevice::read_physical_header: end-of-file",
        dev.src.data.length))
  | cut (q : Nat) : RunsOut dev pos q → dev.src.ending = .eof →
      dev.src.data.drop q ≠ [] → ¬ Filler (dev.src.data.drop q) →
      PrhSays w dev pos (.error (.truncation, text "iodevice::read_physical_header: unexpected end-of-file",
        max pos dev.src.data.length))
  | failed (q p : Nat) : RunsOut dev pos q → dev.src.ending ≠ .eof → pos ≤ p →
      PrhSays w dev pos (.error (.stream, w.read, p))

end Spec

open _root_.Dlisio.Lis.Spec

theorem filler_iff (bs : Bytes) : isPadbytes bs = true ↔ Filler bs := isPadbytes_iff bs

theorem readAt_piece {dev : Device} {pos n : Nat} (hn : n ≠ 0) (h : pos + n ≤ dev.src.data.length) :
    readAt dev.src pos n = .ok (piece dev pos n) := by
  unfold readAt
  rw [if_neg hn, if_pos h]
  rfl

theorem readAt_over {dev : Device} {pos n : Nat} (hn : n ≠ 0) (h : dev.src.data.length < pos + n) :
    dev.src.ending = .eof ∧ readAt dev.src pos n = .eof (dev.src.data.drop pos) ∨
      dev.src.ending ≠ .eof ∧ readAt dev.src pos n = .error := by
  unfold readAt
  rw [if_neg hn, if_neg (by omega)]
  cases dev.src.ending with
  | eof => exact .inl ⟨rfl, rfl⟩
  | broken f => exact .inr ⟨by simp, rfl⟩

theorem piece_length {dev : Device} {pos n : Nat} (h : pos + n ≤ dev.src.data.length) :
    (piece dev pos n).length = n := by
  simp [piece]; omega

theorem piece_take {dev : Device} {pos n k : Nat} (h : k ≤ n) :
    (piece dev pos n).take k = piece dev pos k := by
  simp [piece, List.take_take, h]

theorem piece_drop {dev : Device} {pos n k : Nat} :
    (piece dev pos n).drop k = piece dev (pos + k) (n - k) := by
  simp [piece, List.drop_take, List.drop_drop]

theorem piece_append {dev : Device} {pos n m : Nat} :
    piece dev pos n ++ piece dev (pos + n) m = piece dev pos (n + m) := by
  unfold piece
  rw [List.take_add, List.drop_drop]

theorem piece_rest {dev : Device} {pos n : Nat} (h : dev.src.data.length ≤ pos + n) :
    piece dev pos n = dev.src.data.drop pos := by
  unfold piece
  rw [List.take_of_length_le]
  simp; omega

/-- The end of the loop over padding that began at `a` with a whole block. -/
inductive SkipEnd (w : Whats) (dev : Device) (a : Nat) : Told Bytes → Prop where
  | found (q : Nat) : PaddedTo dev a q → q + 4 ≤ dev.src.data.length → ¬ Filler (piece dev q 4) →
      SkipEnd w dev a (.ok (piece dev q 4, q + 4))
  | short (q : Nat) : PaddedTo dev a q → dev.src.data.length < q + 4 → dev.src.ending = .eof →
      SkipEnd w dev a (toldShort (dev.src.data.drop q) (dev.src.data.length - q) dev.src.data.length)
  | failed (q p : Nat) : PaddedTo dev a q → dev.src.data.length < q + 4 → dev.src.ending ≠ .eof → a ≤ p →
      SkipEnd w dev a (.error (.stream, w.read, p))

theorem paddedTo_refl {dev : Device} {a : Nat} (h : a ≤ dev.src.data.length) : PaddedTo dev a a :=
  ⟨0, by simp, h, by simp⟩

theorem paddedTo_cons {dev : Device} {a q : Nat} (h : Filler (piece dev a 4)) (hp : PaddedTo dev (a + 4) q) :
    PaddedTo dev a q := by
  obtain ⟨k, rfl, hl, hf⟩ := hp
  refine ⟨k + 1, by omega, hl, ?_⟩
  intro j hj
  cases j with
  | zero => exact h
  | succ j =>
    have := hf j (by omega)
    rwa [show a + 4 + 4 * j = a + 4 * (j + 1) by omega] at this

theorem toldSkipPad_eq (w : Whats) (dev : Device) (buf : Bytes) (pos : Nat) :
    toldSkipPad w dev buf pos =
      if !isPadbytes buf then .ok (buf, pos)
      else match readAt dev.src pos 4 with
        | .ok buf => toldSkipPad w dev buf (pos + 4)
        | .eof bs => toldShort bs bs.length (pos + bs.length)
        | .error => .error (.stream, w.read, pos) := by
  conv => lhs; rw [toldSkipPad]
  split
  · rfl
  · cases h : readAt dev.src pos 4 <;> rfl

theorem toldSkipPad_end (w : Whats) (dev : Device) (a : Nat) (h : a + 4 ≤ dev.src.data.length) :
    SkipEnd w dev a (toldSkipPad w dev (piece dev a 4) (a + 4)) := by
  induction hn : dev.src.data.length - a using Nat.strong_induction_on generalizing a with
  | _ n ih =>
    subst hn
    rw [toldSkipPad_eq]
    by_cases hf : isPadbytes (piece dev a 4) = true
    · have hf' := (filler_iff _).1 hf
      rw [hf]
      simp only [Bool.not_true, Bool.false_eq_true, if_false]
      by_cases hl : a + 4 + 4 ≤ dev.src.data.length
      · rw [readAt_piece (by omega) hl]
        have := ih _ (by omega) (a + 4) hl rfl
        dsimp only
        generalize toldSkipPad w dev (piece dev (a + 4) 4) (a + 4 + 4) = t at this
        cases this with
        | found q h1 h2 h3 => exact .found q (paddedTo_cons hf' h1) h2 h3
        | short q h1 h2 h3 => exact .short q (paddedTo_cons hf' h1) h2 h3
        | failed q p h1 h2 h3 h4 => exact .failed q p (paddedTo_cons hf' h1) h2 h3 (by omega)
      · have hp := paddedTo_cons hf' (paddedTo_refl h)
        rcases readAt_over (n := 4) (by omega) (show dev.src.data.length < a + 4 + 4 by omega) with
          ⟨he, hr⟩ | ⟨he, hr⟩
        · rw [hr]
          dsimp only
          have := SkipEnd.short (w := w) (a + 4) hp (by omega) he
          rw [List.length_drop, show a + 4 + (dev.src.data.length - (a + 4)) = dev.src.data.length by omega]
          exact this
        · rw [hr]
          exact .failed (a + 4) _ hp (by omega) he (by omega)
    · have hf' := fun h => hf ((filler_iff _).2 h)
      rw [Bool.not_eq_true] at hf
      rw [hf]
      simp only [Bool.not_false, if_true]
      exact .found a (paddedTo_refl (by omega)) h hf'

theorem toldShort_says {w : Whats} {dev : Device} {pos q : Nat} (h : RunsOut dev pos q)
    (he : dev.src.ending = .eof) :
    PrhSays w dev pos (toldShort (dev.src.data.drop q) (dev.src.data.length - q)
      (max pos dev.src.data.length)) := by
  unfold toldShort
  split
  · rename_i hc
    refine .done q h he ?_
    rcases hc with hc | hc
    · left; rw [List.drop_eq_nil_iff]; omega
    · right; exact (filler_iff _).1 hc
  · rename_i hc
    refine .cut q h he ?_ ?_
    · intro hn
      rw [List.drop_eq_nil_iff] at hn
      exact hc (.inl (by omega))
    · exact fun hf => hc (.inr ((filler_iff _).2 hf))

theorem piece_two {dev : Device} {q : Nat} (h : q + 4 ≤ dev.src.data.length) :
    ∃ a b c d, piece dev q 4 = [a, b, c, d] ∧ piece dev q 2 = [a, b] ∧ piece dev (q + 2) 2 = [c, d] := by
  obtain ⟨a, b, c, d, he⟩ := list4 (piece_length (dev := dev) (pos := q) (n := 4) h)
  refine ⟨a, b, c, d, he, ?_, ?_⟩
  · rw [← piece_take (n := 4) (by omega), he]; rfl
  · have := piece_drop (dev := dev) (pos := q) (n := 4) (k := 2)
    rw [he] at this
    exact this.symm

theorem toldCheckPrh_says {w : Whats} {dev : Device} {pos q : Nat} (h : NextHeader dev pos q) :
    PrhSays w dev pos (toldCheckPrh (piece dev q 4) (q + 4)) := by
  obtain ⟨a, b, c, d, h4, h1, h2⟩ := piece_two h.2.1
  have hl : lengthAt dev q = (parsePrh (piece dev q 4)).length.toNat := by
    rw [h4]
    simp only [parsePrh, lengthAt, h1, load16_beNat, BitVec.toNat_ofNat,
      Nat.mod_eq_of_lt (beNat_two_lt _ _)]
  have ha : attrsAt dev q = (parsePrh (piece dev q 4)).attributes.toNat := by
    rw [h4]
    simp only [parsePrh, attrsAt, h2, load16_beNat, BitVec.toNat_ofNat,
      Nat.mod_eq_of_lt (beNat_two_lt _ _)]
  unfold toldCheckPrh
  dsimp only
  rw [minLength_eq, ← hl, ← ha]
  split
  · rename_i hs
    exact .short q h hs
  · rename_i hs
    exact .header q _ h hl.symm ha.symm (by omega)

/-- **C91** (headers).  What comes of reading the header of a physical record, for all bytes: the header
that is next, or what is wrong with it, or that there is none. -/
theorem c91_header (w : Whats) (dev : Device) (pos : Nat) : PrhSays w dev pos (toldPrh w dev pos) := by
  unfold toldPrh
  by_cases h : pos + 4 ≤ dev.src.data.length
  · rw [readAt_piece (by omega) h]
    dsimp only
    rw [piece_take (by omega)]
    by_cases hf : isPadbytes (piece dev pos 2) = true
    · rw [if_pos hf]
      rw [filler_iff] at hf
      have skip : ∀ a, a = aligned dev pos → a + 4 ≤ dev.src.data.length →
          PrhSays w dev pos (match toldSkipPad w dev (piece dev a 4) (a + 4) with
            | .error e => .error e
            | .ok (buf, p) => toldCheckPrh buf p) := by
        rintro a rfl hl
        have hle : pos ≤ aligned dev pos := by unfold aligned; omega
        have := toldSkipPad_end w dev _ hl
        generalize toldSkipPad w dev (piece dev (aligned dev pos) 4) (aligned dev pos + 4) = t at this
        cases this with
        | found q h1 h2 h3 => exact toldCheckPrh_says ⟨h, h2, .inr ⟨hf, h1, h3⟩⟩
        | short q h1 h2 h3 =>
          have := toldShort_says (w := w) (pos := pos) ⟨h2, .inr ⟨h, hf, h1⟩⟩ h3
          rw [show max pos dev.src.data.length = dev.src.data.length by omega] at this
          revert this
          unfold toldShort
          split <;> exact id
        | failed q p h1 h2 h3 h4 => exact .failed q p ⟨h2, .inr ⟨h, hf, h1⟩⟩ h3 (by omega)
      unfold toldRealign
      dsimp only
      by_cases h0 : dev.ptell (pos + 4) % 4 = 0
      · rw [if_pos h0]
        exact skip pos (by unfold aligned; omega) h
      · rw [if_neg h0]
        have ha : aligned dev pos = pos + (4 - dev.ptell (pos + 4) % 4) := by
          unfold aligned
          have := Nat.mod_lt (dev.ptell (pos + 4)) (show 4 > 0 by omega)
          rw [Nat.mod_eq_of_lt (a := 4 - _) (by omega)]
        by_cases hl : pos + 4 + (4 - dev.ptell (pos + 4) % 4) ≤ dev.src.data.length
        · rw [readAt_piece (by omega) hl]
          dsimp only
          have hb : (piece dev pos 4).drop (4 - dev.ptell (pos + 4) % 4) ++
              piece dev (pos + 4) (4 - dev.ptell (pos + 4) % 4) = piece dev (aligned dev pos) 4 := by
            rw [piece_drop, ha]
            have := piece_append (dev := dev) (pos := pos + (4 - dev.ptell (pos + 4) % 4))
              (n := 4 - (4 - dev.ptell (pos + 4) % 4)) (m := 4 - dev.ptell (pos + 4) % 4)
            rw [show pos + (4 - dev.ptell (pos + 4) % 4) + (4 - (4 - dev.ptell (pos + 4) % 4)) = pos + 4 by
              omega, show 4 - (4 - dev.ptell (pos + 4) % 4) + (4 - dev.ptell (pos + 4) % 4) = 4 by omega] at this
            exact this
          rw [hb, show pos + 4 + (4 - dev.ptell (pos + 4) % 4) = aligned dev pos + 4 by omega]
          exact skip _ rfl (by omega)
        · have hp : RunsOut dev pos (aligned dev pos) :=
            ⟨by omega, .inr ⟨h, hf, paddedTo_refl (by omega)⟩⟩
          rcases readAt_over (dev := dev) (pos := pos + 4) (n := 4 - dev.ptell (pos + 4) % 4) (by omega)
            (by omega) with ⟨he, hr⟩ | ⟨he, hr⟩
          · rw [hr]
            dsimp only
            have hb : (piece dev pos 4).drop (4 - dev.ptell (pos + 4) % 4) ++ dev.src.data.drop (pos + 4) =
                dev.src.data.drop (aligned dev pos) := by
              rw [piece_drop, ha]
              have := piece_append (dev := dev) (pos := pos + (4 - dev.ptell (pos + 4) % 4))
                (n := 4 - (4 - dev.ptell (pos + 4) % 4)) (m := 4 - dev.ptell (pos + 4) % 4)
              rw [show pos + (4 - dev.ptell (pos + 4) % 4) + (4 - (4 - dev.ptell (pos + 4) % 4)) = pos + 4 by
                omega, piece_rest (dev := dev) (pos := pos + 4) (by omega),
                piece_rest (dev := dev) (pos := pos + (4 - dev.ptell (pos + 4) % 4))
                  (n := 4 - (4 - dev.ptell (pos + 4) % 4) + (4 - dev.ptell (pos + 4) % 4)) (by omega)] at this
              exact this
            rw [hb, List.length_drop, show pos + 4 + (dev.src.data.length - (pos + 4)) = dev.src.data.length by
              omega]
            have hs := toldShort_says (w := w) hp he
            rw [show max pos dev.src.data.length = dev.src.data.length by omega] at hs
            by_cases hz : dev.src.data.length = pos + 4
            · unfold toldShort
              rw [if_pos (.inl (by omega))]
              exact .lost _ hp he (by omega) hz
            · revert hs
              unfold toldShort
              by_cases hc : isPadbytes (dev.src.data.drop (aligned dev pos)) = true
              · rw [if_pos (.inr hc), if_pos (.inr hc)]; exact id
              · rw [if_neg (by intro h; rcases h with h | h; omega; exact hc h),
                  if_neg (by intro h; rcases h with h | h; omega; exact hc h)]
                exact id
          · rw [hr]
            exact .failed _ _ hp he (by omega)
    · rw [if_neg hf]
      exact toldCheckPrh_says ⟨h, h, .inl ⟨rfl, fun h => hf ((filler_iff _).2 h)⟩⟩
  · have hp : RunsOut dev pos pos := ⟨by omega, .inl rfl⟩
    rcases readAt_over (n := 4) (by omega) (show dev.src.data.length < pos + 4 by omega) with
      ⟨he, hr⟩ | ⟨he, hr⟩
    · rw [hr]
      dsimp only
      have hs := toldShort_says (w := w) hp he
      rw [List.length_drop, show pos + (dev.src.data.length - pos) = max pos dev.src.data.length by omega]
      exact hs
    · rw [hr]
      exact .failed pos _ hp he (by omega)

/-! ### What is said about records: logical records -/

namespace Spec

/-- Physical records that belong together, the first of which is at `q`: the sum of their lengths, and
their attributes.  All but the last have the bit "has a successor"; each further one is the next behind
the lengths of those before. -/
inductive Parts (dev : Device) (q : Nat) : Nat → List Nat → Prop where
  | one : q + 4 ≤ dev.src.data.length → minimum (attrsAt dev q) ≤ lengthAt dev q →
      Parts dev q (lengthAt dev q) [attrsAt dev q]
  | more (l a p : Nat) (as : List Nat) : Parts dev q l (as ++ [a]) → a.testBit 0 = true →
      NextHeader dev (q + l) p → minimum (attrsAt dev p) ≤ lengthAt dev p →
      Parts dev q (l + lengthAt dev p) (as ++ [a] ++ [attrsAt dev p])

/-- What is said about the physical records of a logical record, the first of which is at `q`. -/
inductive PartsSay (w : Whats) (dev : Device) (q : Nat) : IoErr × Text × Nat → Prop where
  /-- the last one reaches beyond the end -/
  | truncated (l a : Nat) (as : List Nat) : Parts dev q l (as ++ [a]) → a.testBit 0 = false →
      dev.src.data.length < q + l → dev.src.ending = .eof →
      PartsSay w dev q (.truncation, text "iodevice::index_record: physical record truncated", q + l - 1)
  /-- the file ends where there should be another one -/
  | missing (l a p : Nat) (as : List Nat) (what : Text) : Parts dev q l (as ++ [a]) → a.testBit 0 = true →
      PrhSays w dev (q + l) (.error (.eof, what, p)) →
      PartsSay w dev q (.truncation,
        text "iodevice::index_record: Missing next PRH. (" ++ what ++ text ")", p)
  /-- what is wrong with the header of a further one -/
  | next (l a p : Nat) (as : List Nat) (e : IoErr) (what : Text) : Parts dev q l (as ++ [a]) →
      a.testBit 0 = true → PrhSays w dev (q + l) (.error (e, what, p)) → e ≠ .eof →
      PartsSay w dev q (e, what, p)
  | failed (l p : Nat) (as : List Nat) (what : Text) : Parts dev q l as → dev.src.data.length < q + l →
      dev.src.ending ≠ .eof → what = w.read ∨ what = w.seek → q ≤ p →
      PartsSay w dev q (.stream, what, p)
  | inconsistent (l a : Nat) (as : List Nat) : Parts dev q l (as ++ [a]) → a.testBit 0 = false →
      q + l ≤ dev.src.data.length → ¬ Consistent (as ++ [a]) →
      PartsSay w dev q (.inconsistent,
        text "iodevice::index_record: predecessor/successor inconsistency", q + l)

/-- What comes of indexing a record from `pos` on, and what is said if there is none. -/
inductive RecordSays (w : Whats) (dev : Device) (pos : Nat) : Told RecordInfo → Prop where
  | good (q l a : Nat) (as : List Nat) (t : Byte) : NextHeader dev pos q → dev.src.data[q + 4]? = some t →
      t.toNat ∈ types → Parts dev q l (as ++ [a]) → a.testBit 0 = false → q + l ≤ dev.src.data.length →
      Consistent (as ++ [a]) → RecordSays w dev pos (.ok (⟨t.toNat, l, q⟩, q + l))
  /-- there is no header of a physical record, or it is not in order -/
  | header (e : IoErr × Text × Nat) : PrhSays w dev pos (.error e) → RecordSays w dev pos (.error e)
  /-- the file ends behind the header of the physical record -/
  | noType (q : Nat) : NextHeader dev pos q → dev.src.data.length = q + 4 → dev.src.ending = .eof →
      RecordSays w dev pos (.error (.truncation,
        text "iodevice::index_record: iodevice::read_logical_header: unexpected end-of-file", q + 4))
  /-- the file ends behind the type of the record -/
  | halfType (q : Nat) : NextHeader dev pos q → dev.src.data.length = q + 5 → dev.src.ending = .eof →
      RecordSays w dev pos (.error (.truncation,
        text "iodevice::index_record: iodevice::read_logical_header: could not read full header from disk",
        q + 5))
  | failedType (q : Nat) : NextHeader dev pos q → dev.src.data.length < q + 6 → dev.src.ending ≠ .eof →
      RecordSays w dev pos (.error (.stream, w.read, q + 4))
  /-- the type is none of the standard -/
  | rectype (q : Nat) (t : Byte) : NextHeader dev pos q → dev.src.data[q + 4]? = some t → t.toNat ∉ types →
      RecordSays w dev pos (.error (.rectype,
        text "iodevice::index_record: Found invalid record type (" ++ Text.ofNat t.toNat ++
          text ") when reading header at ptell (" ++ Text.ofNat (dev.ptell (q + 6) - 2) ++ text ")", q + 6))
  /-- the physical records of it are not in order -/
  | parts (q : Nat) (t : Byte) (e : IoErr × Text × Nat) : NextHeader dev pos q →
      dev.src.data[q + 4]? = some t → t.toNat ∈ types → PartsSay w dev q e →
      RecordSays w dev pos (.error e)

end Spec

theorem parts_pos {dev : Device} {q l : Nat} {as : List Nat} (h : Parts dev q l as) : 4 ≤ l := by
  have hm : ∀ a, 4 ≤ minimum a := by intro a; unfold minimum; omega
  induction h with
  | one h1 h2 => exact Nat.le_trans (hm _) h2
  | more l a p as h1 h2 h3 h4 ih => omega

theorem toldPrh_le {w : Whats} {dev : Device} {pos p : Nat} {e : IoErr} {what : Text}
    (h : PrhSays w dev pos (.error (e, what, p))) : pos ≤ p := by
  have key : ∀ q, NextHeader dev pos q → pos ≤ q := by
    rintro q ⟨-, -, ⟨rfl, -⟩ | ⟨-, ⟨k, rfl, -⟩, -⟩⟩
    · exact Nat.le_refl _
    · unfold aligned; omega
  cases h with
  | short q h1 h2 => have := key q h1; omega
  | done q h1 h2 h3 => omega
  | lost q h1 h2 h3 h4 => omega
  | cut q h1 h2 h3 h4 => omega
  | failed q p h1 h2 h3 => exact h3

/-- The end of the loop over the physical records. -/
inductive LoopEnd (w : Whats) (dev : Device) (q : Nat) : Told (List (BitVec 16) × Nat) → Prop where
  | whole (l a : Nat) (as : List Nat) (attrs : List (BitVec 16)) : Parts dev q l (as ++ [a]) →
      attrs.map (·.toNat) = as ++ [a] → a.testBit 0 = false → q + l ≤ dev.src.data.length →
      LoopEnd w dev q (.ok ((attrs, l), q + l))
  | bad (e : IoErr × Text × Nat) : PartsSay w dev q e → LoopEnd w dev q (.error e)

theorem seekOk_over {src : Source} {pos : Nat} (h : (!seekOk src pos) = true) :
    src.data.length < pos ∧ src.ending ≠ .eof := by
  unfold seekOk at h
  split at h
  · simp at h
  · refine ⟨by omega, ?_⟩
    intro he
    rw [he] at h
    simp at h

theorem toldIndexLoop_end (w : Whats) (dev : Device) (q l : Nat) (prh : Prh) (attrs : List (BitVec 16))
    (pos a : Nat) (as : List Nat) (hp : Parts dev q l (as ++ [a])) (ha : prh.attributes.toNat = a)
    (hm : attrs.map (·.toNat) = as ++ [a]) (hq : q ≤ pos) :
    LoopEnd w dev q (toldIndexLoop w dev q l prh attrs pos) := by
  fun_induction toldIndexLoop w dev q l prh attrs pos generalizing a as with
  | case1 l prh attrs pos h1 h2 =>
    obtain ⟨h3, h4⟩ := seekOk_over h2
    exact .bad _ (.failed l _ _ _ hp (by omega) h4 (.inr rfl) hq)
  | case2 l prh attrs pos h1 h2 bs hr =>
    have hl := parts_pos hp
    have := (readAt_ok hr (by omega)).1
    rw [has_succses, ha, Bool.not_eq_true'] at h1
    exact .whole l a as attrs hp hm h1 (by omega)
  | case3 l prh attrs pos h1 h2 bs hr =>
    have hl := parts_pos hp
    rw [has_succses, ha, Bool.not_eq_true'] at h1
    have hlen : dev.src.data.length < q + l := by
      by_contra hc
      rw [readAt_piece (by omega) (by omega)] at hr
      cases hr
    rcases readAt_over (dev := dev) (pos := q + l - 1) (n := 1) (by omega) (by omega) with
      ⟨he, hr'⟩ | ⟨he, hr'⟩
    · rw [hr] at hr'
      cases hr'
      rw [List.length_drop, show q + l - 1 + (dev.src.data.length - (q + l - 1)) = q + l - 1 by omega]
      exact .bad _ (.truncated l a as hp h1 hlen he)
    · rw [hr] at hr'; cases hr'
  | case4 l prh attrs pos h1 h2 hr =>
    have hl := parts_pos hp
    have hlen : dev.src.data.length < q + l := by
      by_contra hc
      rw [readAt_piece (by omega) (by omega)] at hr
      cases hr
    rcases readAt_over (dev := dev) (pos := q + l - 1) (n := 1) (by omega) (by omega) with
      ⟨he, hr'⟩ | ⟨he, hr'⟩
    · rw [hr] at hr'; cases hr'
    · exact .bad _ (.failed l _ _ _ hp hlen he (.inl rfl) (by omega))
  | case5 l prh attrs pos h1 h2 =>
    obtain ⟨h3, h4⟩ := seekOk_over h2
    exact .bad _ (.failed l _ _ _ hp (by omega) h4 (.inr rfl) hq)
  | case6 l prh attrs pos h1 h2 prh' p hr ih =>
    rw [has_succses, ha, Bool.not_eq_true', Bool.not_eq_false] at h1
    have hh := c91_header w dev (q + l)
    rw [hr] at hh
    cases hh with
    | header q' h h3 h4 h5 h6 =>
      have hpos := readPrh_pos ((toldPrh_plain w dev _).symm.trans (told_ok hr))
      refine ih (attrsAt dev q') (as ++ [a]) ?_ h5 ?_ (by omega)
      · rw [h4]
        exact .more l a q' as hp h1 h3 h6
      · rw [List.map_append, hm, List.map_singleton, h5]
  | case7 l prh attrs pos h1 h2 what p hr =>
    rw [has_succses, ha, Bool.not_eq_true', Bool.not_eq_false] at h1
    have hh := c91_header w dev (q + l)
    rw [hr] at hh
    exact .bad _ (.missing l a p as what hp h1 hh)
  | case8 l prh attrs pos h1 h2 e hne hr =>
    obtain ⟨e, what, p⟩ := e
    rw [has_succses, ha, Bool.not_eq_true', Bool.not_eq_false] at h1
    have hh := c91_header w dev (q + l)
    rw [hr] at hh
    exact .bad _ (.next l a p as e what hp h1 hh (by rintro rfl; exact hne _ _ rfl))

/-- **C91** (records).  What comes of indexing a record, for all bytes, and what is said if there is none or
it is not in order. -/
theorem c91_record (w : Whats) (dev : Device) (pos : Nat) : RecordSays w dev pos (toldRecord w dev pos) := by
  have hh := c91_header w dev pos
  unfold toldRecord
  rcases hp : toldPrh w dev pos with e | ⟨prh, p⟩
  · rw [hp] at hh
    exact .header e hh
  · rw [hp] at hh
    cases hh with
    | header q h h1 h2 h3 h4 =>
      have hlen := h1.2.1
      dsimp only
      rw [show q + 4 - 4 = q by omega]
      unfold toldLrh
      by_cases hl : q + 6 ≤ dev.src.data.length
      · rw [readAt_piece (by omega) (by omega)]
        obtain ⟨t, ht⟩ : ∃ t, dev.src.data[q + 4]? = some t :=
          ⟨_, List.getElem?_eq_getElem (by omega)⟩
        obtain ⟨b, hb⟩ : ∃ b, piece dev (q + 4) 2 = [t, b] := by
          have h5 := piece_length (dev := dev) (pos := q + 4) (n := 2) (by omega)
          have h6 : (piece dev (q + 4) 2)[0]? = some t := by
            unfold piece
            rw [List.getElem?_take_of_lt (by omega), List.getElem?_drop]
            exact ht
          match hx : piece dev (q + 4) 2, h5 with
          | [x, y], _ =>
            rw [hx] at h6
            simp at h6
            exact ⟨y, by rw [h6]⟩
        rw [hb]
        dsimp only
        rw [show q + 4 + 2 = q + 6 by omega]
        by_cases hv : (!validRectype t) = true
        · rw [if_pos hv]
          refine .rectype q t h1 ht ?_
          intro hc
          rw [Bool.not_eq_true', (validRectype_iff t).2 hc] at hv
          cases hv
        · rw [if_neg hv]
          rw [Bool.not_eq_true', Bool.not_eq_false] at hv
          have hv' := (validRectype_iff t).1 hv
          have hone : Parts dev q prh.length.toNat ([] ++ [attrsAt dev q]) := by
            rw [h2]; exact .one hlen h4
          have he := toldIndexLoop_end w dev q prh.length.toNat prh [prh.attributes] (q + 6) (attrsAt dev q) []
            hone h3 (by simp [h3]) (by omega)
          rcases hlp : toldIndexLoop w dev q prh.length.toNat prh [prh.attributes] (q + 6) with
            e | ⟨⟨attrs, l⟩, p⟩
          · rw [hlp] at he
            cases he with
            | bad e he => exact .parts q t e h1 ht hv' he
          · rw [hlp] at he
            cases he with
            | whole l a as attrs k1 k2 k3 k4 =>
              dsimp only
              have hcons := c44_consistent attrs
              rw [k2] at hcons
              by_cases hc : (!attrConsistent attrs) = true
              · rw [if_pos hc]
                refine .parts q t _ h1 ht hv' (.inconsistent l a as k1 k3 k4 ?_)
                intro hk
                rw [Bool.not_eq_true', hcons.2 hk] at hc
                cases hc
              · rw [if_neg hc]
                rw [Bool.not_eq_true', Bool.not_eq_false] at hc
                exact .good q l a as t h1 ht hv' k1 k3 k4 (hcons.1 hc)
      · rcases readAt_over (dev := dev) (pos := q + 4) (n := 2) (by omega) (by omega) with
          ⟨he, hr⟩ | ⟨he, hr⟩
        · rw [hr]
          dsimp only
          rw [List.length_drop]
          by_cases h5 : dev.src.data.length = q + 4
          · rw [if_pos (by rw [List.drop_eq_nil_iff]; omega), h5, Nat.sub_self]
            exact .noType q h1 h5 he
          · rw [if_neg (by rw [List.drop_eq_nil_iff]; omega),
              show q + 4 + (dev.src.data.length - (q + 4)) = q + 5 by omega]
            exact .halfType q h1 (by omega) he
        · rw [hr]
          exact .failedType q h1 (by omega) he

/-! ### What is said about records: the index -/

namespace Spec

/-- Records next to each other from a place on, and the place behind them. -/
inductive Run (w : Whats) (dev : Device) : Nat → List RecordInfo → Nat → Prop where
  | nil (p : Nat) : Run w dev p [] p
  | cons (p p' q : Nat) (i : RecordInfo) (is : List RecordInfo) : RecordSays w dev p (.ok (i, p')) →
      Run w dev p' is q → Run w dev p (i :: is) q

/-- Records of data. -/
def Implicit (i : RecordInfo) : Bool := i.type == 0 || i.type == 1

/-- Records that something new begins with: a reel, a tape (also the end of one), or a file. -/
def Begins (i : RecordInfo) : Prop := i.type ∈ [132, 133, 130, 131, 128]

/-- Records that nothing follows: those of reels and tapes, the trailer of a file, the end of the
medium. -/
def Closes (i : RecordInfo) : Prop := i.type ∈ [132, 133, 130, 131, 137, 129]

/-- Why indexing ended behind the records `is`, and what is said. -/
inductive IndexEnd (w : Whats) (dev : Device) (is : List RecordInfo) (q : Nat) : Bool × Nat × Text → Prop where
  /-- a record that nothing follows; what is behind it is not looked at -/
  | closed (i : RecordInfo) (p : Nat) : is.getLast? = some i → Closes i → IndexEnd w dev is q (false, p, [])
  /-- the next record is one of the next file -/
  | next (i : RecordInfo) (p : Nat) : RecordSays w dev q (.ok (i, p)) → Begins i →
      (∃ j ∈ is, Implicit j = false) → IndexEnd w dev is q (false, i.ltell, [])
  | eof (p : Nat) (what : Text) : RecordSays w dev q (.error (.eof, what, p)) →
      IndexEnd w dev is q (false, p, [])
  /-- there is something wrong with the next record -/
  | bad (e : IoErr) (p : Nat) (what : Text) : RecordSays w dev q (.error (e, what, p)) → e ≠ .eof →
      IndexEnd w dev is q (true, p, what)

end Spec

theorem run_snoc {w : Whats} {dev : Device} {p q q' : Nat} {is : List RecordInfo} {i : RecordInfo}
    (h : Run w dev p is q) (hi : RecordSays w dev q (.ok (i, q'))) : Run w dev p (is ++ [i]) q' := by
  induction h with
  | nil p => exact .cons _ _ _ _ _ hi (.nil _)
  | cons p p' q j is hj _ ih => exact .cons _ _ _ _ _ hj (ih hi)

theorem explicit_of {i : RecordInfo} (h : ¬ (i.type = 0 ∨ i.type = 1)) : Implicit i = false := by
  simp only [Implicit, Bool.or_eq_false_iff, beq_eq_false_iff_ne]
  exact ⟨fun hc => h (.inl hc), fun hc => h (.inr hc)⟩

theorem filters_ex {is : List RecordInfo} {i : RecordInfo} (h : ¬ (i.type = 0 ∨ i.type = 1)) :
    is.filter (fun i => !Implicit i) ++ [i] = (is ++ [i]).filter (fun i => !Implicit i) ∧
      is.filter Implicit = (is ++ [i]).filter Implicit := by
  simp [List.filter_append, explicit_of h]

theorem filters_im {is : List RecordInfo} {i : RecordInfo} (h : i.type = 0 ∨ i.type = 1) :
    is.filter (fun i => !Implicit i) = (is ++ [i]).filter (fun i => !Implicit i) ∧
      is.filter Implicit ++ [i] = (is ++ [i]).filter Implicit := by
  have : Implicit i = true := by simpa [Implicit] using h
  simp [List.filter_append, this]

theorem index_next {w : Whats} {dev : Device} {pos p : Nat} {i : RecordInfo} {is : List RecordInfo}
    (h : RecordSays w dev pos (.ok (i, p))) (h1 : i.type ∈ [132, 133, 130, 131, 128])
    (h2 : (is.filter (fun i => !Implicit i) ++ [i]).length ≠ 1) : IndexEnd w dev is pos (false, i.ltell, []) := by
  refine .next i p h h1 ?_
  have : is.filter (fun i => !Implicit i) ≠ [] := by intro hc; rw [hc] at h2; exact h2 rfl
  obtain ⟨j, hj⟩ := List.exists_mem_of_ne_nil _ this
  rw [List.mem_filter] at hj
  exact ⟨j, hj.1, by simpa using hj.2⟩

theorem toldIndexFrom_says (w : Whats) (dev : Device) (ex im : List RecordInfo) (pos : Nat)
    (is : List RecordInfo) (hr : Run w dev 0 is pos)
    (hex : ex = is.filter (fun i => !Implicit i)) (him : im = is.filter Implicit) :
    ∃ is q, Run w dev 0 is q ∧
      (toldIndexFrom w dev ex im pos).1.explicits = is.filter (fun i => !Implicit i) ∧
      (toldIndexFrom w dev ex im pos).1.implicits = is.filter Implicit ∧
      IndexEnd w dev is q ((toldIndexFrom w dev ex im pos).1.incomplete,
        (toldIndexFrom w dev ex im pos).1.pos, (toldIndexFrom w dev ex im pos).2) := by
  have said := c91_record w dev pos
  fun_induction toldIndexFrom w dev ex im pos generalizing is with
  | case1 ex im pos what p h =>
    rw [h] at said
    exact ⟨is, pos, hr, hex, him, .eof p what said⟩
  | case2 ex im pos e what p hne h =>
    rw [h] at said
    exact ⟨is, pos, hr, hex, him, .bad e p what said (fun hc => hne hc)⟩
  | case3 ex im pos info p h h1 ih =>
    rw [h] at said
    subst hex him
    exact ih (is ++ [info]) (run_snoc hr said) (filters_im h1).1 (filters_im h1).2 (c91_record w dev p)
  | case4 ex im pos info p h h1 h2 h3 =>
    rw [h] at said
    subst hex
    exact ⟨is, pos, hr, rfl, him, index_next said (by simp; tauto) (by omega)⟩
  | case5 ex im pos info p h h1 h2 h3 =>
    rw [h] at said
    subst hex him
    refine ⟨is ++ [info], p, run_snoc hr said, (filters_ex h1).1, (filters_ex h1).2, ?_⟩
    exact .closed info _ (by simp) (by simp [Closes]; tauto)
  | case6 ex im pos info p h h1 h2 h3 h4 ih =>
    rw [h] at said
    subst hex him
    exact ih (is ++ [info]) (run_snoc hr said) (filters_ex h1).1 (filters_ex h1).2 (c91_record w dev p)
  | case7 ex im pos info p h h1 h2 h3 h4 =>
    rw [h] at said
    subst hex
    exact ⟨is, pos, hr, rfl, him, index_next said (by simp; tauto) h4⟩
  | case8 ex im pos info p h h1 h2 h3 h4 =>
    rw [h] at said
    subst hex him
    refine ⟨is ++ [info], p, run_snoc hr said, (filters_ex h1).1, (filters_ex h1).2, ?_⟩
    exact .closed info _ (by simp) (by simp [Closes]; tauto)
  | case9 ex im pos info p h h1 h2 h3 h4 ih =>
    rw [h] at said
    subst hex him
    exact ih (is ++ [info]) (run_snoc hr said) (filters_ex h1).1 (filters_ex h1).2 (c91_record w dev p)

/-- **C91** (index).  The index has the records next to each other from the start on, explicit and implicit
ones apart, up to a record that nothing follows, to the first of the next file, to the end, or to the first
that is not in order; exactly then it is incomplete, and what is said is what is wrong with this one. -/
theorem c91_index (w : Whats) (dev : Device) :
    ∃ is q, Run w dev 0 is q ∧
      (toldIndexRecords w dev 0).1.explicits = is.filter (fun i => !Implicit i) ∧
      (toldIndexRecords w dev 0).1.implicits = is.filter Implicit ∧
      IndexEnd w dev is q ((toldIndexRecords w dev 0).1.incomplete,
        (toldIndexRecords w dev 0).1.pos, (toldIndexRecords w dev 0).2) :=
  toldIndexFrom_says w dev [] [] 0 [] (.nil 0) rfl rfl

/-! ### Model: what is reported -/

/-- load.py:152 and 229 -/
def fileContext (w : Whats) : Text := text "dlisio.lis.load: file " ++ w.path

/-- load.py:183-184 and 205-206, and `record_info.__repr__`, ext/lis.cpp:715-719. -/
def recordContext (w : Whats) (i : RecordInfo) : Text :=
  text "dlisio.lis.load: file " ++ w.path ++ text ", record " ++
    (text "dlisio.core.record_info(type=" ++ w.rectype i.type ++ text ", ltell=" ++ Text.ofNat i.ltell ++
      text ")")

/-- A report of `index_logical_file`, load.py:150-156, 181-189, 203-210 and 227-233. -/
def stopReport (context problem : Text) (offset : Nat) : Report where
  grade := .known .critical
  context := context
  problem := problem
  action := text "Indexing stopped at physical tell " ++ Text.ofNat offset ++ text " (dec)"

/-- What `index_logical_file` reports about a stream, load.py:161-235: the states of
`indexLogical` (Verif/Lis/Load.lean) are not given once more. -/
def toldLogical (w : Whats) (isTif : Bool) (dev : Device) (eof : Nat → Bool) : List Report :=
  let index := toldIndexRecords w dev 0
  let ptell := dev.ptell index.1.pos
  let offset := if isTif && !eof index.1.pos then ptell - 12 else ptell
  let size := index.1.explicits.length + index.1.implicits.length
  let finish := if index.1.incomplete then [stopReport (fileContext w) index.2 offset] else []
  match index.1.explicits with
  | [] => finish
  | first :: _ =>
    if isDelimiter first then
      if size ≠ 1 then
        [stopReport (recordContext w first)
          (text "Delimiter file size is " ++ Text.ofNat size ++ text " != 1") offset]
      else
        match toldReadRecord w dev first with
        | .error (_, what, _) => [stopReport (recordContext w first) what offset]
        | .ok _ => finish
    else finish

/-- What `index_logical_file` reports, load.py:141-235. -/
def toldLogicalFile (w : Whats) (d : Disk) (isTif : Bool) (s : Indexer) : List Report :=
  match d.lis isTif s.offset with
  | .eof => []
  | .osError => [stopReport (fileContext w) (w.opens s.offset) s.offset]
  | .stream dev eof => toldLogical w isTif dev eof

/-- What the loop in `load` reports, load.py:83-88. -/
def toldLoadLoop (w : Whats) (d : Disk) (isTif raises : Bool) : Nat → Indexer → List Report
  | 0, _ => []
  | n + 1, s =>
    if s.complete then []
    else
      toldLogicalFile w d isTif s ++
        match indexLogicalFile d isTif raises s with
        | (true, _) => []
        | (false, s) => toldLoadLoop w d isTif raises n s

/-- `load`, load.py:79-90: what is raised before indexing starts (107, 113 and 120-121), or what is
reported in `n` turns of the loop. -/
def toldLoad (w : Whats) (d : Disk) (raises : Bool) (n : Nat) : Except Text (List Report) :=
  match d.raw with
  | none => .error w.raw
  | some src =>
    match checkForTapemarks src with
    | none => .error (text "Cannot read " ++ Text.ofNat 12 ++ text " first bytes of file: " ++ w.path)
    | some (isTif, offset) => .ok (toldLoadLoop w d isTif raises n (Indexer.start offset))

theorem toldIndexRecords_plain (w : Whats) (dev : Device) :
    (toldIndexRecords w dev 0).1 = indexRecords dev 0 := toldIndexFrom_plain w dev [] [] 0

theorem finish_reports (s : Indexer) (raises : Bool) (index : Index) (r : Report) :
    (s.finish raises index).1 = (raises && (if index.incomplete then [r] else []) != []) ∧
      ((if index.incomplete then [r] else []) ≠ [] → raises = false →
        (s.finish raises index).2.complete = true) := by
  unfold Indexer.finish Indexer.critical
  cases index.incomplete <;> cases raises <;> simp

/-- Reports and the rest of a turn go together: an exception exactly if something is reported and the
handler raises; if it does not, the turn is the last. -/
theorem toldLogical_same (w : Whats) (isTif raises : Bool) (dev : Device) (eof : Nat → Bool) (s : Indexer) :
    (indexLogical isTif raises dev eof s).1 = (raises && toldLogical w isTif dev eof != []) ∧
      (toldLogical w isTif dev eof ≠ [] → raises = false →
        (indexLogical isTif raises dev eof s).2.complete = true) ∧
      (toldLogical w isTif dev eof).length ≤ 1 := by
  unfold indexLogical toldLogical
  rw [← toldIndexRecords_plain w dev]
  generalize toldIndexRecords w dev 0 = x
  obtain ⟨⟨ex, im, inc, pos⟩, what⟩ := x
  dsimp only
  have hlen : ∀ r : Report, (if inc = true then [r] else []).length ≤ 1 := by
    intro r; cases inc <;> simp
  match ex with
  | [] =>
    dsimp only
    refine ⟨(finish_reports _ raises _ _).1, (finish_reports _ raises ⟨[], im, inc, pos⟩ _).2, hlen _⟩
  | first :: rest =>
    dsimp only
    by_cases hd : isDelimiter first = true
    · rw [if_pos hd, if_pos hd]
      by_cases hz : (first :: rest).length + im.length ≠ 1
      · rw [if_pos hz, if_pos hz]
        unfold Indexer.critical
        cases raises <;> simp
      · rw [if_neg hz, if_neg hz, ← toldReadRecord_plain w dev first]
        rcases toldReadRecord w dev first with ⟨e, what, p⟩ | ⟨record, p⟩
        · dsimp only [Told.plain]
          unfold Indexer.critical
          cases raises <;> simp
        · dsimp only [Told.plain]
          refine ⟨(finish_reports _ raises _ _).1, (finish_reports _ raises ⟨first :: rest, im, inc, pos⟩ _).2,
            hlen _⟩
    · rw [if_neg hd, if_neg hd]
      refine ⟨(finish_reports _ raises _ _).1, (finish_reports _ raises ⟨first :: rest, im, inc, pos⟩ _).2,
        hlen _⟩

theorem toldLogicalFile_same (w : Whats) (d : Disk) (isTif raises : Bool) (s : Indexer) :
    (indexLogicalFile d isTif raises s).1 = (raises && toldLogicalFile w d isTif s != []) ∧
      (toldLogicalFile w d isTif s ≠ [] → raises = false →
        (indexLogicalFile d isTif raises s).2.complete = true) ∧
      (toldLogicalFile w d isTif s).length ≤ 1 := by
  unfold indexLogicalFile toldLogicalFile
  rcases d.lis isTif s.offset with _ | _ | ⟨dev, eof⟩
  · simp
  · unfold Indexer.critical
    cases raises <;> simp
  · exact toldLogical_same w isTif raises _ _ s

theorem finish_quiet (s : Indexer) (index : Index) (r : Report)
    (h : (if index.incomplete then [r] else []) = []) (a b : Bool) : s.finish a index = s.finish b index := by
  unfold Indexer.finish
  cases hi : index.incomplete
  · rfl
  · rw [hi] at h; simp at h

theorem toldLogical_quiet (w : Whats) (isTif : Bool) (dev : Device) (eof : Nat → Bool) (s : Indexer)
    (h : toldLogical w isTif dev eof = []) (a b : Bool) :
    indexLogical isTif a dev eof s = indexLogical isTif b dev eof s := by
  unfold toldLogical at h
  unfold indexLogical
  rw [← toldIndexRecords_plain w dev]
  generalize toldIndexRecords w dev 0 = x at h ⊢
  obtain ⟨⟨ex, im, inc, pos⟩, what⟩ := x
  dsimp only at h ⊢
  match ex with
  | [] => exact finish_quiet _ _ _ h a b
  | first :: rest =>
    dsimp only at h ⊢
    by_cases hd : isDelimiter first = true
    · rw [if_pos hd] at h
      rw [if_pos hd, if_pos hd]
      by_cases hz : (first :: rest).length + im.length ≠ 1
      · rw [if_pos hz] at h; simp at h
      · rw [if_neg hz] at h
        rw [if_neg hz, if_neg hz, ← toldReadRecord_plain w dev first]
        rcases hr : toldReadRecord w dev first with ⟨e, what, p⟩ | ⟨record, p⟩
        · rw [hr] at h; simp at h
        · rw [hr] at h
          exact finish_quiet _ _ _ h a b
    · rw [if_neg hd] at h
      rw [if_neg hd, if_neg hd]
      exact finish_quiet _ _ _ h a b

theorem toldLogicalFile_quiet (w : Whats) (d : Disk) (isTif : Bool) (s : Indexer)
    (h : toldLogicalFile w d isTif s = []) (a b : Bool) :
    indexLogicalFile d isTif a s = indexLogicalFile d isTif b s := by
  unfold toldLogicalFile at h
  unfold indexLogicalFile
  rcases hd : d.lis isTif s.offset with _ | _ | ⟨dev, eof⟩
  · rfl
  · rw [hd] at h; simp at h
  · rw [hd] at h
    exact toldLogical_quiet w isTif dev eof s h a b

/-! ### What is said when a file is loaded -/

namespace Spec

/-- What is said if a record cannot be read from its first physical record on. -/
inductive ReadFails (w : Whats) (dev : Device) : Nat → IoErr × Text × Nat → Prop where
  | header (p : Nat) (e : IoErr × Text × Nat) : PrhSays w dev p (.error e) → ReadFails w dev p e
  /-- there are less bytes than the header says -/
  | truncated (p q n : Nat) : NextHeader dev p q → dev.src.ending = .eof →
      dev.src.data.length < q + lengthAt dev q →
      ReadFails w dev p (.readTruncated, text "iodevice::read_record: record truncated", n)
  | failed (p q n : Nat) (what : Text) : NextHeader dev p q → dev.src.ending ≠ .eof →
      dev.src.data.length < q + lengthAt dev q → what = w.read ∨ what = w.seek →
      ReadFails w dev p (.stream, what, n)
  /-- something is wrong with a further one -/
  | further (p q : Nat) (e : IoErr × Text × Nat) : NextHeader dev p q → (attrsAt dev q).testBit 0 = true →
      ReadFails w dev (q + lengthAt dev q) e → ReadFails w dev p e

/-- A report that indexing was given up. -/
def Stopped (place problem : Text) (tell : Nat) : Report where
  grade := .known .critical
  context := place
  problem := problem
  action := text "Indexing stopped at physical tell " ++ Text.ofNat tell ++ text " (dec)"

/-- The number that is given for a place in a stream: where it is in the file; on tapes perhaps less by
the length of a tape mark. -/
def TellOf (isTif : Bool) (dev : Device) (p n : Nat) : Prop :=
  n = dev.ptell p ∨ isTif = true ∧ n = dev.ptell p - 12

/-- What is reported about the stream that starts at the offset. -/
inductive RoundSays (w : Whats) (d : Disk) (isTif : Bool) (off : Nat) : Report → Prop where
  | opening : d.lis isTif off = .osError →
      RoundSays w d isTif off (Stopped (text "dlisio.lis.load: file " ++ w.path) (w.opens off) off)
  /-- the next record is not in order -/
  | record (dev : Device) (eof : Nat → Bool) (is : List RecordInfo) (q p n : Nat) (e : IoErr) (what : Text) :
      d.lis isTif off = .stream dev eof → Run w dev 0 is q → RecordSays w dev q (.error (e, what, p)) →
      e ≠ .eof → TellOf isTif dev p n →
      RoundSays w d isTif off (Stopped (text "dlisio.lis.load: file " ++ w.path) what n)
  /-- the first record that is not one of data is one of a reel, of a tape, or the end of the medium, but it
  is not alone -/
  | size (dev : Device) (eof : Nat → Bool) (is : List RecordInfo) (q p n : Nat) (i : RecordInfo) :
      d.lis isTif off = .stream dev eof → Run w dev 0 is q → (is.find? fun i => !Implicit i) = some i →
      i.type ∈ [132, 133, 130, 131, 137] → is.length ≠ 1 → TellOf isTif dev p n →
      RoundSays w d isTif off (Stopped
        (text "dlisio.lis.load: file " ++ w.path ++ text ", record dlisio.core.record_info(type=" ++
          w.rectype i.type ++ text ", ltell=" ++ Text.ofNat i.ltell ++ text ")")
        (text "Delimiter file size is " ++ Text.ofNat is.length ++ text " != 1") n)
  /-- such a record cannot be read -/
  | reading (dev : Device) (eof : Nat → Bool) (q p p' n : Nat) (i : RecordInfo) (e : IoErr) (what : Text) :
      d.lis isTif off = .stream dev eof → Run w dev 0 [i] q →
      i.type ∈ [132, 133, 130, 131, 137] → ReadFails w dev i.ltell (e, what, p') → TellOf isTif dev p n →
      RoundSays w d isTif off (Stopped
        (text "dlisio.lis.load: file " ++ w.path ++ text ", record dlisio.core.record_info(type=" ++
          w.rectype i.type ++ text ", ltell=" ++ Text.ofNat i.ltell ++ text ")") what n)

/-- States that are reached turn by turn. -/
inductive Reached (d : Disk) (isTif raises : Bool) (s : Indexer) : Indexer → Prop where
  | start : Reached d isTif raises s s
  | step (x y : Indexer) : Reached d isTif raises s x → x.complete = false →
      indexLogicalFile d isTif raises x = (false, y) → Reached d isTif raises s y

end Spec

theorem toldReadLoop_fails (w : Whats) (dev : Device) (data : Bytes) (pos : Nat) (e : IoErr × Text × Nat)
    (h : toldReadLoop w dev data pos = .error e) : ReadFails w dev pos e := by
  induction hn : dev.src.data.length - pos using Nat.strong_induction_on generalizing data pos with
  | _ n ih =>
    subst hn
    rw [toldReadLoop] at h
    have hp := c91_header w dev pos
    split at h
    · rename_i e' he
      cases h
      rw [he] at hp
      exact .header _ _ hp
    · rename_i prh p hok
      have hpos := readPrh_pos ((toldPrh_plain w dev _).symm.trans (told_ok hok))
      rw [hok] at hp
      cases hp with
      | header q _ h1 h2 h3 h4 =>
        have hl := h1.2.1
        have hm : minimum (attrsAt dev q) = 4 + (if has prh.attributes PREDCES then 0 else 2) +
            trlen prh.attributes := by
          unfold minimum
          rw [trlen_eq, has_predces, h3]
        dsimp only at h
        generalize (if has prh.attributes PREDCES = true then 0 else 2) = lrh at h hm
        rw [h2] at h
        by_cases k1 : (!seekOk dev.src (q + 4 + lrh)) = true
        · rw [if_pos k1] at h
          cases h
          have := seekOk_over k1
          exact .failed _ q _ _ h1 this.2 (by omega) (.inr rfl)
        · rw [if_neg k1] at h
          rcases hr : readAt dev.src (q + 4 + lrh) (lengthAt dev q - 4 - trlen prh.attributes - lrh) with bs | bs | _
          · rw [hr] at h
            dsimp only at h
            rw [show q + 4 + lrh + (lengthAt dev q - 4 - trlen prh.attributes - lrh) + trlen prh.attributes =
              q + lengthAt dev q by omega] at h
            by_cases k2 : (!seekOk dev.src (q + lengthAt dev q)) = true
            · rw [if_pos k2] at h
              cases h
              have := seekOk_over k2
              exact .failed _ q _ _ h1 this.2 this.1 (.inr rfl)
            · rw [if_neg k2] at h
              by_cases k3 : (!has prh.attributes SUCCSES) = true
              · rw [if_pos k3] at h; cases h
              · rw [if_neg k3] at h
                rw [has_succses, h3, Bool.not_eq_true', Bool.not_eq_false] at k3
                exact .further _ q _ h1 k3 (ih _ (by omega) _ _ h rfl)
          all_goals
            rw [hr] at h
            cases h
            by_cases k0 : lengthAt dev q - 4 - trlen prh.attributes - lrh = 0
            · rw [k0] at hr; simp [readAt] at hr
            have hlen : dev.src.data.length < q + 4 + lrh + (lengthAt dev q - 4 - trlen prh.attributes - lrh) := by
              by_contra hc
              rw [readAt_piece k0 (by omega)] at hr
              cases hr
            rcases readAt_over (dev := dev) k0 hlen with ⟨he, hr'⟩ | ⟨he, hr'⟩ <;> rw [hr] at hr' <;> cases hr'
          · exact .truncated _ q _ h1 he (by omega)
          · exact .failed _ q _ _ h1 he (by omega) (.inl rfl)

/-- **C91** (reading).  What is said if a record that is in the index cannot be read. -/
theorem c91_read (w : Whats) (dev : Device) (pos : Nat) (is : List RecordInfo) (q : Nat)
    (hr : Run w dev pos is q) (i : RecordInfo) (hi : i ∈ is) (e : IoErr × Text × Nat)
    (h : toldReadRecord w dev i = .error e) : ReadFails w dev i.ltell e := by
  have key : i.ltell ≤ dev.src.data.length := by
    clear h
    induction hr with
    | nil p => cases hi
    | cons p p' q j is hj _ ih =>
      rcases List.mem_cons.1 hi with rfl | hi
      · cases hj with
        | good q l a as t h1 h2 h3 h4 h5 h6 h7 => have := h1.2.1; dsimp only; omega
      · exact ih hi
  unfold toldReadRecord at h
  rw [if_neg] at h
  · exact toldReadLoop_fails w dev [] _ e h
  · intro hc
    have := (seekOk_over hc).1
    omega

theorem toldLogical_says (w : Whats) (d : Disk) (isTif : Bool) (off : Nat) (dev : Device) (eof : Nat → Bool)
    (hd : d.lis isTif off = .stream dev eof) (r : Report) (hr : r ∈ toldLogical w isTif dev eof) :
    RoundSays w d isTif off r := by
  obtain ⟨is, q, h1, h2, h3, h4⟩ := c91_index w dev
  have hread : ∀ i e, toldReadRecord w dev i = .error e → i ∈ is → ReadFails w dev i.ltell e :=
    fun i e h hi => c91_read w dev 0 is q h1 i hi e h
  unfold toldLogical at hr
  generalize toldIndexRecords w dev 0 = x at hr h2 h3 h4
  obtain ⟨⟨ex, im, inc, pos⟩, what⟩ := x
  dsimp only at hr h2 h3 h4
  have htell : TellOf isTif dev pos (if (isTif && !eof pos) = true then dev.ptell pos - 12 else dev.ptell pos) := by
    by_cases hc : (isTif && !eof pos) = true
    · rw [if_pos hc]
      exact .inr ⟨(Bool.and_eq_true_iff.1 hc).1, rfl⟩
    · rw [if_neg hc]
      exact .inl rfl
  generalize (if (isTif && !eof pos) = true then dev.ptell pos - 12 else dev.ptell pos) = n at hr htell
  have hfin : r ∈ (if inc = true then [stopReport (fileContext w) what n] else []) →
      RoundSays w d isTif off r := by
    intro hm
    clear hr
    cases h4 with
    | closed | next | eof => simp at hm
    | bad e p what k1 k2 =>
      rw [if_pos rfl, List.mem_singleton] at hm
      subst hm
      exact .record dev eof is q pos n e what hd h1 k1 k2 htell
  have hsize : ex.length + im.length = is.length := by
    rw [h2, h3]
    clear h1 h2 h3 h4 hread
    induction is with
    | nil => rfl
    | cons i is ih => cases hi : Implicit i <;> simp [hi] <;> omega
  rw [hsize] at hr
  match ex with
  | [] => exact hfin hr
  | first :: rest =>
    dsimp only at hr
    by_cases hdel : isDelimiter first = true
    · have htype : first.type ∈ [132, 133, 130, 131, 137] := by
        simp only [isDelimiter, Bool.or_eq_true, decide_eq_true_eq] at hdel
        simp
        tauto
      have hfind : (is.find? fun i => !Implicit i) = some first := by
        rw [← List.head?_filter, ← h2]
        rfl
      have hctx : recordContext w first =
          text "dlisio.lis.load: file " ++ w.path ++ text ", record dlisio.core.record_info(type=" ++
          w.rectype first.type ++ text ", ltell=" ++ Text.ofNat first.ltell ++ text ")" := by
        have : text ", record dlisio.core.record_info(type=" =
          text ", record " ++ text "dlisio.core.record_info(type=" := by decide +kernel
        rw [this]
        simp only [recordContext, List.append_assoc]
      rw [if_pos hdel] at hr
      by_cases hz : is.length ≠ 1
      · rw [if_pos hz, List.mem_singleton, hctx] at hr
        subst hr
        exact .size dev eof is q pos n first hd h1 hfind htype hz htell
      · rw [if_neg hz] at hr
        rcases hk : toldReadRecord w dev first with ⟨e, what', p⟩ | ⟨record, p⟩
        · rw [hk] at hr
          dsimp only at hr
          rw [List.mem_singleton, hctx] at hr
          subst hr
          have hmem : first ∈ is := List.mem_of_find?_eq_some hfind
          have his : is = [first] := by
            obtain ⟨j, hj⟩ := List.length_eq_one_iff.1 (not_not.1 hz)
            rw [hj, List.mem_singleton] at hmem
            rw [hj, hmem]
          rw [his] at h1
          exact .reading dev eof q pos p n first e what' hd h1 htype (hread _ _ hk hmem) htell
        · rw [hk] at hr
          exact hfin hr
    · rw [if_neg hdel] at hr
      exact hfin hr

theorem toldLoadLoop_says (w : Whats) (d : Disk) (isTif raises : Bool) (n : Nat) (s : Indexer) :
    (toldLoadLoop w d isTif raises n s).length ≤ 1 ∧
      ∀ r ∈ toldLoadLoop w d isTif raises n s, ∃ x, Reached d isTif raises s x ∧ x.complete = false ∧
        RoundSays w d isTif x.offset r := by
  have one : ∀ x r, r ∈ toldLogicalFile w d isTif x → RoundSays w d isTif x.offset r := by
    intro x r hr
    unfold toldLogicalFile at hr
    rcases hd : d.lis isTif x.offset with _ | _ | ⟨dev, eof⟩
    · rw [hd] at hr; cases hr
    · rw [hd] at hr
      rw [List.mem_singleton.1 hr]
      exact .opening hd
    · rw [hd] at hr
      exact toldLogical_says w d isTif _ dev eof hd r hr
  have key : ∀ x, Reached d isTif raises s x → (toldLoadLoop w d isTif raises n x).length ≤ 1 ∧
      ∀ r ∈ toldLoadLoop w d isTif raises n x, ∃ x, Reached d isTif raises s x ∧ x.complete = false ∧
        RoundSays w d isTif x.offset r := by
    induction n with
    | zero => intro x _; exact ⟨by simp [toldLoadLoop], by intro r hr; cases hr⟩
    | succ n ih =>
      intro x hx
      rw [toldLoadLoop]
      by_cases hc : x.complete = true
      · rw [if_pos hc]; exact ⟨by simp, by intro r hr; cases hr⟩
      · rw [if_neg hc]
        rw [Bool.not_eq_true] at hc
        obtain ⟨h1, h2, h3⟩ := toldLogicalFile_same w d isTif raises x
        rcases hi : indexLogicalFile d isTif raises x with ⟨_ | _, y⟩
        · rw [hi] at h1 h2
          dsimp only at h1 h2 ⊢
          obtain ⟨k1, k2⟩ := ih y (.step x y hx hc hi)
          by_cases hq : toldLogicalFile w d isTif x = []
          · rw [hq, List.nil_append]
            exact ⟨k1, k2⟩
          · have hr : raises = false := by
              cases raises
              · rfl
              · simp [hq] at h1
            have hcy := h2 hq hr
            have hnil : toldLoadLoop w d isTif raises n y = [] := by
              cases n with
              | zero => rfl
              | succ n => rw [toldLoadLoop, if_pos hcy]
            rw [hnil, List.append_nil]
            exact ⟨h3, fun r hr => ⟨x, hx, hc, one x r hr⟩⟩
        · dsimp only
          rw [List.append_nil]
          exact ⟨h3, fun r hr => ⟨x, hx, hc, one x r hr⟩⟩
  exact key s .start

/-- **C91** (reports).  While a file is loaded there is at most one report, and what it says is so. -/
theorem c91_reports (w : Whats) (d : Disk) (raises : Bool) (n : Nat) (rs : List Report)
    (h : toldLoad w d raises n = .ok rs) :
    ∃ src isTif off, d.raw = some src ∧ checkForTapemarks src = some (isTif, off) ∧ rs.length ≤ 1 ∧
      ∀ r ∈ rs, ∃ x, Reached d isTif raises (Indexer.start off) x ∧ x.complete = false ∧
        RoundSays w d isTif x.offset r := by
  unfold toldLoad at h
  split at h
  · cases h
  · rename_i src hsrc
    split at h
    · cases h
    · rename_i isTif off hc
      cases h
      exact ⟨src, isTif, off, hsrc, hc, toldLoadLoop_says w d isTif raises n _⟩

theorem toldLoadLoop_raised (w : Whats) (d : Disk) (isTif raises : Bool) (n : Nat) (s x : Indexer) (b : Bool)
    (h : loadLoop d isTif raises n s = some (b, x)) :
    b = (raises && toldLoadLoop w d isTif raises n s != []) := by
  induction n generalizing s with
  | zero =>
    unfold loadLoop at h
    split at h
    · cases h; simp [toldLoadLoop]
    · cases h
  | succ n ih =>
    unfold loadLoop at h
    rw [toldLoadLoop]
    split at h
    · rename_i hc
      cases h
      rw [if_pos hc]
      simp
    · rename_i hc
      rw [if_neg hc]
      obtain ⟨h1, h2, h3⟩ := toldLogicalFile_same w d isTif raises s
      split at h
      · rename_i y hi
        rw [hi] at h1 ⊢
        cases h
        simpa using h1
      · rename_i y hi
        rw [hi] at h1 ⊢
        have := ih y h
        dsimp only at h1 ⊢
        rw [this]
        cases raises
        · rfl
        · have h0 : toldLogicalFile w d isTif s = [] := by simpa using h1.symm
          rw [h0, List.nil_append]

/-- **C91** (exceptions).  Loading ends with an exception exactly if the start cannot be read, or if
something is reported and the handler raises on it. -/
theorem c91_raised (w : Whats) (d : Disk) (h : Handler) (n : Nat) (b : Bool) (s : Indexer)
    (hl : load d h.critical.raises n = some (b, s)) :
    (∀ t, toldLoad w d h.critical.raises n = .error t → b = true) ∧
    ∀ rs, toldLoad w d h.critical.raises n = .ok rs → b = (h.logTexts rs).2.isSome := by
  unfold load at hl
  unfold toldLoad
  split at hl
  · rename_i hr
    cases hl
    rw [hr]
    exact ⟨fun _ _ => rfl, by intro rs h; cases h⟩
  · rename_i src hr
    rw [hr]
    dsimp only
    split at hl
    · rename_i hc
      cases hl
      rw [hc]
      exact ⟨fun _ _ => rfl, by intro rs h; cases h⟩
    · rename_i isTif off hc
      rw [hc]
      refine ⟨(by intro t h; cases h), ?_⟩
      intro rs hrs
      obtain ⟨k1, k2⟩ := toldLoadLoop_says w d isTif h.critical.raises n (Indexer.start off)
      have k3 := toldLoadLoop_raised w d isTif h.critical.raises n _ _ _ hl
      cases hrs
      generalize toldLoadLoop w d isTif h.critical.raises n (Indexer.start off) = rs at k1 k2 k3
      match rs, k1 with
      | [], _ => rw [k3]; simp [Handler.logTexts]
      | [r], _ =>
        have hg : r.grade = .known .critical := by
          obtain ⟨x, _, _, hx⟩ := k2 r (by simp)
          cases hx <;> rfl
        rw [k3]
        have hlog : h.logText r = (some (h.critical, formatError r), h.critical.raised (formatError r)) := by
          simp [Handler.logText, hg]
        have := raised_iff h.critical (formatError r)
        simp only [Handler.logTexts, hlog]
        cases hx : h.critical.raised (formatError r) <;> rw [hx] at this <;> simp [← this]

theorem toldLoadLoop_any (w : Whats) (d : Disk) (isTif : Bool) (a b : Bool) (n : Nat) (s : Indexer) :
    toldLoadLoop w d isTif a n s = toldLoadLoop w d isTif b n s := by
  induction n generalizing s with
  | zero => rfl
  | succ n ih =>
    rw [toldLoadLoop, toldLoadLoop]
    by_cases hc : s.complete = true
    · rw [if_pos hc, if_pos hc]
    · rw [if_neg hc, if_neg hc]
      by_cases hq : toldLogicalFile w d isTif s = []
      · rw [toldLogicalFile_quiet w d isTif s hq a b]
        rcases indexLogicalFile d isTif b s with ⟨_ | _, y⟩
        · dsimp only; rw [ih y]
        · rfl
      · have one : ∀ c, (match indexLogicalFile d isTif c s with
            | (true, _) => []
            | (false, s) => toldLoadLoop w d isTif c n s) = [] := by
          intro c
          obtain ⟨h1, h2, -⟩ := toldLogicalFile_same w d isTif c s
          rcases hi : indexLogicalFile d isTif c s with ⟨_ | _, y⟩
          · rw [hi] at h1 h2
            have hr : c = false := by
              cases c
              · rfl
              · simp [hq] at h1
            dsimp only
            cases n with
            | zero => rfl
            | succ n => rw [toldLoadLoop, if_pos (h2 hq hr)]
          · rfl
        rw [one a, one b]

theorem toldLoad_any (w : Whats) (d : Disk) (a b : Bool) (n : Nat) : toldLoad w d a n = toldLoad w d b n := by
  unfold toldLoad
  split
  · rfl
  · split
    · rfl
    · rw [toldLoadLoop_any w d _ a b]

/-- **C91** (handlers).  What is reported does not depend on what the handler does about it. -/
theorem c91_any_handler (w : Whats) (d : Disk) (g h : Handler) (n : Nat) :
    toldLoad w d g.critical.raises n = toldLoad w d h.critical.raises n := toldLoad_any w d _ _ n

theorem toldLoad_quiet (w : Whats) (d : Disk) (n : Nat) (s : Indexer) (h : load d true n = some (false, s))
    (raises : Bool) : toldLoad w d raises n = .ok [] := by
  rw [toldLoad_any w d raises true]
  unfold load at h
  unfold toldLoad
  split at h
  · cases h
  · rename_i src hr
    rw [hr]
    dsimp only
    split at h
    · cases h
    · rename_i isTif off hc
      rw [hc]
      have := toldLoadLoop_raised w d isTif true n _ _ _ h
      dsimp only
      rw [Bool.true_and] at this
      rw [show toldLoadLoop w d isTif true n (Indexer.start off) = [] by simpa using this.symm]

/-- **C91** (no false alarm).  About files that are in order (as in C54, without padding inside of logical
records) nothing is reported. -/
theorem c91_no_alarm (w : Whats) (data : Bytes) (ps : List Part) (e k : Nat) (x : Byte) (hx : Blank x)
    (hd : data.drop e = List.replicate k x) (hps : ps ≠ []) (hpr : Proper ps)
    (hpl : Placed (whole data) 0 (itemsOf ps) e) (h12 : 12 ≤ data.length)
    (htm : ∀ tm, parseTapemark data = some tm → validTapemark tm = false)
    (raises : Bool) (n : Nat) (hn : ps.length < n) : toldLoad w (plainDisk data) raises n = .ok [] := by
  obtain ⟨s, h, -⟩ := c54_load_partial data ps e k x hx hd hps hpr hpl h12 htm true n hn
  exact toldLoad_quiet w _ n s h raises

/-- **C91** (no false alarm).  Neither about tape images that are in order (as in C74). -/
theorem c91_no_alarm_tape (w : Whats) (file junk : Bytes) (lead : Nat) (ss : List Stretch)
    (fin : List Dlis.Spec.Block) (hne : ss ≠ []) (hok : AllOk (12 * lead) ss)
    (hfin : TapeEnd fin junk) (hl : file.length < 2 ^ 32)
    (hf : file = Dlis.Spec.tapeBytes 0 0
      (List.replicate lead .mark ++ (stretchBlocks ss ++ fin)) ++ junk)
    (raises : Bool) (n : Nat) (hn : (ss.flatMap (·.parts)).length < n) :
    toldLoad w (fileDisk file) raises n = .ok [] := by
  obtain ⟨s, h, -⟩ := c74_load_partial file junk lead ss fin hne hok hfin hl hf true n hn
  exact toldLoad_quiet w _ n s h raises

theorem reached_quiet {w : Whats} {d : Disk} {isTif raises : Bool} {n : Nat} {s x t : Indexer} {b : Bool}
    (h : Reached d isTif raises s x) (hl : loadLoop d isTif raises n s = some (b, t))
    (hq : toldLoadLoop w d isTif raises n s = []) :
    ∃ m, loadLoop d isTif raises m x = some (b, t) ∧ toldLoadLoop w d isTif raises m x = [] := by
  induction h with
  | start => exact ⟨n, hl, hq⟩
  | step x y _ hc hi ih =>
    obtain ⟨m, k1, k2⟩ := ih
    cases m with
    | zero => simp [loadLoop, hc] at k1
    | succ m =>
      rw [loadLoop, if_neg (by simp [hc]), hi] at k1
      rw [toldLoadLoop, if_neg (by simp [hc]), hi, List.append_eq_nil_iff] at k2
      exact ⟨m, k1, k2.2⟩

/-- **C91** (silence).  If loading ends and nothing was reported, then all streams on the way could be
opened, and in none of them indexing ended with a record that is not in order: what is not in order and not
reported is behind a record that nothing follows (`c91_silent_defect`), or at the very end
(`c91_end_defect`). -/
theorem c91_silence (w : Whats) (d : Disk) (raises b : Bool) (n : Nat) (s : Indexer)
    (hl : load d raises n = some (b, s)) (hq : toldLoad w d raises n = .ok []) :
    ∃ src isTif off, d.raw = some src ∧ checkForTapemarks src = some (isTif, off) ∧
      ∀ x, Reached d isTif raises (Indexer.start off) x → x.complete = false →
        d.lis isTif x.offset = .eof ∨ ∃ dev eof is q p, d.lis isTif x.offset = .stream dev eof ∧
          Run w dev 0 is q ∧ IndexEnd w dev is q (false, p, []) := by
  unfold toldLoad at hq
  unfold load at hl
  split at hq
  · cases hq
  · rename_i src hsrc
    rw [hsrc] at hl
    dsimp only at hl
    split at hq
    · cases hq
    · rename_i isTif off hc
      rw [hc] at hl
      dsimp only at hl
      refine ⟨src, isTif, off, hsrc, hc, ?_⟩
      intro x hx hnc
      have hq' : toldLoadLoop w d isTif raises n (Indexer.start off) = [] := by simpa using hq
      obtain ⟨m, k1, k2⟩ := reached_quiet hx hl hq'
      cases m with
      | zero => simp [loadLoop, hnc] at k1
      | succ m =>
        rw [toldLoadLoop, if_neg (by simp [hnc]), List.append_eq_nil_iff] at k2
        have k3 := k2.1
        unfold toldLogicalFile at k3
        rcases hd : d.lis isTif x.offset with _ | _ | ⟨dev, eof⟩
        · exact .inl rfl
        · rw [hd] at k3; simp at k3
        · rw [hd] at k3
          dsimp only at k3
          obtain ⟨is, q, h1, h2, h3, h4⟩ := c91_index w dev
          refine .inr ⟨dev, eof, is, q, (toldIndexRecords w dev 0).1.pos, rfl, h1, ?_⟩
          unfold toldLogical at k3
          generalize toldIndexRecords w dev 0 = y at k3 h2 h3 h4 ⊢
          obtain ⟨⟨ex, im, inc, pos⟩, what⟩ := y
          dsimp only at k3 h2 h3 h4 ⊢
          have hinc : inc = false := by
            cases inc
            · rfl
            · exfalso
              match ex with
              | [] => simp at k3
              | first :: rest =>
                dsimp only at k3
                split at k3
                · split at k3
                  · simp at k3
                  · split at k3 <;> simp at k3
                · simp at k3
          subst hinc
          cases h4 with
          | closed i p k1 k2 => exact .closed i _ k1 k2
          | next i p k5 k6 k7 => exact .next i p k5 k6 k7
          | eof p what k1 => exact .eof _ what k1

theorem prhSays_le {w : Whats} {dev : Device} {pos p : Nat} {h : Prh} (hs : PrhSays w dev pos (.ok (h, p))) :
    pos ≤ p := by
  cases hs with
  | header q _ h1 =>
    obtain ⟨-, -, ⟨rfl, -⟩ | ⟨-, ⟨k, rfl, -⟩, -⟩⟩ := h1
    · omega
    · unfold aligned; omega

theorem nextHeader_le {dev : Device} {pos q : Nat} (h : NextHeader dev pos q) : pos ≤ q := by
  obtain ⟨-, -, ⟨rfl, -⟩ | ⟨-, ⟨k, rfl, -⟩, -⟩⟩ := h
  · omega
  · unfold aligned; omega

theorem partsSay_le {w : Whats} {dev : Device} {q p : Nat} {e : IoErr} {what : Text}
    (h : PartsSay w dev q (e, what, p)) : q ≤ p := by
  cases h with
  | truncated l a as h1 => have := parts_pos h1; omega
  | missing l a p as what h1 h2 h3 => have := toldPrh_le h3; omega
  | next l a p as e what h1 h2 h3 => have := toldPrh_le h3; omega
  | failed l p as what h1 h2 h3 h4 h5 => exact h5
  | inconsistent l a as h1 => omega

theorem recordSays_le {w : Whats} {dev : Device} {q p : Nat} {e : IoErr} {what : Text}
    (h : RecordSays w dev q (.error (e, what, p))) : q ≤ p := by
  cases h with
  | header _ h => exact toldPrh_le h
  | noType q h => have := nextHeader_le h; omega
  | halfType q h => have := nextHeader_le h; omega
  | failedType q h => have := nextHeader_le h; omega
  | rectype q t h => have := nextHeader_le h; omega
  | parts q t _ h h1 h2 h3 => have := nextHeader_le h; have := partsSay_le h3; omega

/-- **C91** (place).  For files that are no tape images the number that is given for what is wrong with a
record is not before the place where this record had to start. -/
theorem c91_place (w : Whats) (data : Bytes) (off : Nat) (dev : Device) (eof : Nat → Bool) (q p n : Nat)
    (e : IoErr) (what : Text) (hd : (plainDisk data).lis false off = .stream dev eof)
    (h : RecordSays w dev q (.error (e, what, p))) (ht : TellOf false dev p n) :
    off < data.length ∧ dev.src.data = data.drop off ∧ off + q ≤ n ∧ n = off + p := by
  unfold plainDisk at hd
  dsimp only at hd
  split at hd
  · rename_i ho
    cases hd
    have := recordSays_le h
    rcases ht with rfl | ⟨hc, -⟩
    · exact ⟨ho, rfl, Nat.add_le_add_left this _, rfl⟩
    · cases hc
  · cases hd

/-! ### Defects -/

/-- Texts for the examples. -/
def exWhats : Whats where
  read := text "read"
  seek := text "seek"
  raw := text "raw"
  opens _ := text "opens"
  rectype n := text "lis_rectype." ++ Text.ofNat n
  path := text "a.lis"


/-- **C91** (defect).  Bytes at the end of a file that are no padding are not reported if two bytes of
padding are before them and the file ends before the next multiple of four: the bytes 77 and 78 are lost.
Without the padding they are reported. -/
theorem c91_end_defect :
    (toldLoad exWhats (plainDisk (fileBytes [exPlain 0 128 [3], exPlain 0 64 [4]] ++ [0, 0, 77, 78])) true
      9).toOption = some [] ∧
    (toldLoad exWhats (plainDisk (fileBytes [exPlain 0 128 [3], exPlain 0 64 [4]] ++ [77, 78])) true
      9).toOption = some [Stopped (text "dlisio.lis.load: file a.lis")
        (text "iodevice::read_physical_header: unexpected end-of-file") 16] := by
  decide +kernel

/-- **C91** (defect).  About a tape without data it is said that its first twelve bytes cannot be read,
although they can: two marks have 24 bytes. -/
theorem c91_first_bytes_defect (raises : Bool) :
    toldLoad exWhats (fileDisk (Dlis.Spec.tapeBytes 0 0 [.mark, .mark])) raises 9 =
      .error (text "Cannot read 12 first bytes of file: a.lis") ∧
    (Dlis.Spec.tapeBytes 0 0 [.mark, .mark]).length = 24 := by
  refine ⟨?_, by decide +kernel⟩
  have : checkForTapemarks ⟨Dlis.Spec.tapeBytes 0 0 [.mark, .mark], .eof⟩ = none := by decide +kernel
  unfold toldLoad fileDisk
  dsimp only
  rw [this]
  dsimp only
  congr 1
  decide +kernel

/-- **C91** (defect).  The place that is given for a truncated record is behind the end of the file: the file
has 23 bytes. -/
theorem c91_behind_defect :
    (toldLoad exWhats (plainDisk (fileBytes [exPlain 0 128 [3], exPlain 0 64 [4]] ++
      [1, 0, 0, 0, 64, 0, 1, 2, 3])) true 9).toOption =
      some [Stopped (text "dlisio.lis.load: file a.lis")
        (text "iodevice::index_record: physical record truncated") 269] ∧
    (fileBytes [exPlain 0 128 [3], exPlain 0 64 [4]] ++ [1, 0, 0, 0, 64, 0, 1, 2, 3]).length = 23 := by
  decide +kernel

/-- **C91** (defect).  On a tape image the place can be one before the record that is not in order: that one
starts at 26 (a mark and two records of seven bytes), behind its header is 30, but 18 is given. -/
theorem c91_tape_place_defect :
    (toldLoad exWhats (fileDisk (Dlis.Spec.tapeBytes 0 0 [.data (fileBytes [exPlain 0 128 [3], exPlain 0 64 [4]] ++
      [0, 3, 0, 0, 64, 0]), .mark, .mark])) true 9).toOption =
      some [Stopped (text "dlisio.lis.load: file a.lis")
        (text "iodevice::read_physical_header: Too short record length (was 3 bytes)") 18] ∧
    ((Dlis.Spec.tapeBytes 0 0 [.data (fileBytes [exPlain 0 128 [3], exPlain 0 64 [4]] ++
      [0, 3, 0, 0, 64, 0]), .mark, .mark]).drop 26).take 4 = [0, 3, 0, 0] := by
  decide +kernel

/-- **C91** (defect).  Nothing is reported about a record that is cut off, if it is behind the trailer of a
file. -/
theorem c91_silent_defect :
    (toldLoad exWhats (plainDisk (fileBytes [exPlain 0 128 [3], exPlain 0 129 []] ++
      [0, 99, 0, 0, 128, 0, 1, 2, 3])) true 9).toOption = some [] := by
  decide +kernel

/-- **C91** (defect).  A file of two records both of which are in order is reported, with what "never should
happen": a record of data in front of the reel header. -/
theorem c91_size_defect :
    (toldLoad exWhats (plainDisk (fileBytes [exPlain 0 0 [5], exPlain 0 132 [1]])) true 9).toOption =
      some [Stopped (text "dlisio.lis.load: file a.lis, record dlisio.core.record_info(type=lis_rectype.132, ltell=7)")
        (text "Delimiter file size is 2 != 1") 14] := by
  decide +kernel

/-! ### Examples -/

/-- A type that is none, physical records that do not fit, a header that is missing. -/
example :
    (toldLoad exWhats (plainDisk [0, 8, 0, 0, 128, 0, 1, 2, 0, 8, 0, 0, 77, 0, 0, 0]) true 9).toOption =
      some [Stopped (text "dlisio.lis.load: file a.lis")
        (text "iodevice::index_record: Found invalid record type (77) when reading header at ptell (12)") 14] ∧
    (toldLoad exWhats (plainDisk [0, 8, 0, 0, 128, 0, 1, 2, 0, 8, 0, 1, 64, 0, 0, 0, 0, 8, 0, 0, 3, 4, 5, 6])
      true 9).toOption =
      some [Stopped (text "dlisio.lis.load: file a.lis")
        (text "iodevice::index_record: predecessor/successor inconsistency") 24] ∧
    (toldLoad exWhats (plainDisk [0, 8, 0, 0, 128, 0, 1, 2, 0, 8, 0, 1, 64, 0, 0, 0]) false 9).toOption =
      some [Stopped (text "dlisio.lis.load: file a.lis")
        (text ("iodevice::index_record: Missing next PRH. " ++
          "(iodevice::read_physical_header: end-of-file)")) 16] := by
  decide +kernel

/-- A reel header in two physical records with padding between them (`c44_padding_inside_defect`) is indexed, and
reading it fails. -/
example :
    (toldLoad exWhats (plainDisk [0, 8, 0, 1, 132, 0, 1, 2, 0, 0, 0, 0, 0, 8, 0, 2, 3, 4]) true 9).toOption =
      some [Stopped (text "dlisio.lis.load: file a.lis, record dlisio.core.record_info(type=lis_rectype.132, ltell=0)")
        (text "iodevice::read_record: record truncated") 18] := by
  decide +kernel

/-- The file of C54 is in order. -/
example (raises : Bool) : toldLoad exWhats (plainDisk exFile) raises 9 = .ok [] := by
  exact c91_no_alarm exWhats exFile exParts 88 5 0 (.inl rfl) (by decide) (by decide) exParts_proper
    exFile_placed (by decide) (by decide) raises 9 (by decide)

/-- What the message looks like. -/
example : ((toldLoad exWhats (plainDisk (fileBytes [exPlain 0 128 [3], exPlain 0 64 [4]] ++ [77, 78])) true
      9).toOption.map (·.map formatError)) =
    some [text ("\nProblem:      iodevice::read_physical_header: unexpected end-of-file" ++
      "\nWhere:        dlisio.lis.load: file a.lis" ++
      "\nSeverity:     critical" ++
      "\nAction taken: Indexing stopped at physical tell 16 (dec)")] := by
  decide +kernel

end Dlisio.Lis
