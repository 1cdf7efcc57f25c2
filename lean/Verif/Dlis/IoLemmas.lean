/-
Unfolding lemmas for the loops of `Verif/Dlis/Io.lean`.
-/
import Verif.Dlis.Io
import Verif.Dlis.HeaderProps

namespace Dlisio.Dlis

theorem extractLoop_eq (policy : Policy) (src : Source) (limit : Nat) (pos : Nat) (acc : Bytes)
    (first : Option (Byte × Nat)) (logs : Nat) :
    extractLoop policy src limit pos acc first logs =
      match readAt src pos 4 with
      | .error => .error .stream
      | .eof _ => .error .header
      | .ok buf =>
        match lrsh buf with
        | none => .error .header
        | some hd =>
          if hd.length < 4 then .error .length
          else
            match readAt src (pos + 4) (toRead hd.attrs (limit - acc.length) (hd.length - 4)) with
            | .error => .error .stream
            | .eof _ => .error .body
            | .ok seg =>
              match trimSegment policy hd.attrs acc seg with
              | .error e => .error e
              | .ok (body, l) =>
                if flag hd.attrs SEGATTR_SUCCSEG && decide ((acc ++ body).length < limit) then
                  extractLoop policy src limit (pos + 4 + (hd.length - 4)) (acc ++ body)
                    (some (first.getD (hd.attrs, hd.type))) (logs + l)
                else
                  .ok ({ type := (first.getD (hd.attrs, hd.type)).2,
                         attributes := (first.getD (hd.attrs, hd.type)).1 &&& fmtenc,
                         data := (acc ++ body).take limit }, logs + l) := by
  rw [extractLoop]
  split <;> rename_i h <;> rw [h] <;> rfl

theorem findoffsetsLoop_eq (src : Source) (ofs : Offsets) (lr lrs : Nat) (hasSucc : Bool) :
    findoffsetsLoop src ofs lr lrs hasSucc =
      match readAt src lrs 4 with
      | .error => ⟨ofs.addBroken lr, none⟩
      | .eof bs =>
        if bs.length = 0 then
          if hasSucc then ⟨ofs.addBroken lr, none⟩ else ⟨ofs, none⟩
        else ⟨ofs.addBroken lr, none⟩
      | .ok buf =>
        match lrsh buf with
        | none => ⟨ofs.addBroken lr, none⟩
        | some hd =>
          if hd.length < 4 then ⟨ofs.addBroken lr, none⟩
          else if !flag hd.attrs SEGATTR_PREDSEG && flag hd.attrs SEGATTR_EXFMTLR &&
              decide (hd.type = 0) && decide (ofs.explicits.length ≠ 0) then
            if hasSucc then ⟨ofs.addBroken lr, none⟩
            else ⟨ofs, some lrs⟩
          else if !seekOk src (lrs + hd.length - 1) then ⟨ofs.addBroken lr, none⟩
          else match readAt src (lrs + hd.length - 1) 1 with
            | .error => ⟨ofs.addBroken lr, none⟩
            | _ =>
              if !flag hd.attrs SEGATTR_SUCCSEG then
                findoffsetsLoop src (if flag hd.attrs SEGATTR_EXFMTLR then
                    { ofs with explicits := ofs.explicits ++ [lr] }
                  else { ofs with implicits := ofs.implicits ++ [lr] })
                  (lrs + hd.length) (lrs + hd.length) (flag hd.attrs SEGATTR_SUCCSEG)
              else findoffsetsLoop src ofs lr (lrs + hd.length) (flag hd.attrs SEGATTR_SUCCSEG) := by
  rw [findoffsetsLoop]
  split <;> rename_i h <;> rw [h] <;> rfl

/-- induction along the segments of a stream -/
theorem stream_induction (src : Source) {P : Nat → Prop}
    (step : ∀ pos, (∀ q, pos < q → pos + 4 ≤ src.data.length → P q) → P pos) (pos : Nat) : P pos := by
  induction hn : src.data.length - pos using Nat.strongRecOn generalizing pos with
  | _ n ih =>
    apply step
    intro q hq hle
    exact ih (src.data.length - q) (by omega) q rfl

end Dlisio.Dlis
