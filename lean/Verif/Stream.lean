/-
Byte streams: the documented behaviour of `lfp` handles as used through
`dlisio::stream` (lib/src/file.cpp).  The lfp library itself is not part of the
repository; this file is the assumption made about it (see DESIGN.md).
-/
import Verif.Basic

namespace Dlisio

/-- What lies behind the last readable byte of a stream: a regular end of file, or
damage (a truncated or malformed envelope), in which case reading across it fails,
and seeking across it may fail as well. -/
inductive Ending where
  | eof
  | broken (seekFails : Bool)
deriving DecidableEq, Repr

/-- A stream handle: its logical bytes (envelopes of the layers below removed) and
what happens after them.  The file content does not change while it is open. -/
structure Source where
  data : Bytes
  ending : Ending
deriving DecidableEq, Repr

/-- Outcome of `stream::read`, file.cpp:41-56: `ok` all bytes asked for; `eof` fewer
bytes (`LFP_EOF`), after which `eof()` is true; `error`: it throws. -/
inductive ReadResult where
  | ok (bs : Bytes)
  | eof (bs : Bytes)
  | error
deriving DecidableEq, Repr

/-- `seek(pos)` followed by `read(dst, n)`, file.cpp:17-27 and 41-56. -/
def readAt (src : Source) (pos n : Nat) : ReadResult :=
  if n = 0 then .ok []
  else if pos + n ≤ src.data.length then .ok ((src.data.drop pos).take n)
  else match src.ending with
    | .eof => .eof (src.data.drop pos)
    | .broken _ => .error

/-- Does `seek(pos)` succeed (file.cpp:17-27)? -/
def seekOk (src : Source) (pos : Nat) : Bool :=
  if pos ≤ src.data.length then true
  else match src.ending with
    | .eof => true
    | .broken f => !f

theorem readAt_ok {src : Source} {pos n : Nat} {bs : Bytes} (h : readAt src pos n = .ok bs)
    (hn : n ≠ 0) : pos + n ≤ src.data.length ∧ bs = (src.data.drop pos).take n := by
  unfold readAt at h
  rw [if_neg hn] at h
  split at h
  · cases h; exact ⟨by assumption, rfl⟩
  · split at h <;> cases h

theorem readAt_length {src : Source} {pos n : Nat} {bs : Bytes} (h : readAt src pos n = .ok bs) :
    bs.length = n := by
  by_cases hn : n = 0
  · subst hn; simp [readAt] at h; simp [h]
  · obtain ⟨h1, rfl⟩ := readAt_ok h hn
    simp; omega

theorem readAt_append (pre mid post : Bytes) (e : Ending) (pos n : Nat)
    (hp : pre.length = pos) (hn : mid.length = n) :
    readAt ⟨pre ++ mid ++ post, e⟩ pos n = .ok mid := by
  subst hp; subst hn
  unfold readAt
  split
  · rename_i h; rw [List.length_eq_zero_iff] at h; rw [h]
  · rw [if_pos (by simp)]
    simp

end Dlisio
