/-
The room that texts and names take in the destination of `dlis_packf` (lib/src/dlis/dlisio.cpp).
C11, continued.
-/
import Verif.Dlis.PackProps

namespace Dlisio.Dlis

open _root_.Dlisio.Dlis.Spec

/-- The number of bytes of the UVARI at the beginning. -/
def Spec.uvariWidth (e : Bytes) : Nat :=
  match e with
  | [] => 1
  | b :: _ => if b.toNat < 128 then 1 else if b.toNat < 192 then 2 else 4

theorem uvariWidth_of {n : Nat} {l r : Bytes} (h : Spec.Uvari n l) :
    Spec.uvariWidth (l ++ r) = l.length := by
  unfold Spec.Uvari at h
  unfold Spec.uvariWidth
  rcases h with ⟨hl, hb, hn⟩ | ⟨hl, hb, hn⟩ | ⟨hl, hb, hn⟩
  · obtain ⟨a, rfl⟩ := List.length_eq_one_iff.1 hl
    simp only [beNat, List.length_nil] at hb
    simp only [List.cons_append, List.length_cons, List.length_nil]
    split_ifs <;> omega
  · obtain ⟨a, b, rfl⟩ := List.length_eq_two.1 hl
    have := b.isLt
    simp only [beNat, List.length_nil, List.length_cons] at hb
    simp only [List.cons_append, List.length_cons, List.length_nil]
    split_ifs <;> omega
  · match l, hl with
    | [a, b, c, d], _ =>
      have := b.isLt
      have := c.isLt
      have := d.isLt
      simp only [beNat, List.length_nil, List.length_cons] at hb
      simp only [List.cons_append, List.length_cons, List.length_nil]
      split_ifs <;> omega

theorem packflen_single {c : Reprc} {src : Bytes} {nread nwrite : Nat}
    (h : packflen [c.fmtChar] src = some (.ok, nread, nwrite)) :
    ∃ v e r, Spec.Enc c v e ∧ src = e ++ r ∧ nread = e.length ∧ nwrite = Spec.bytes v.cells := by
  obtain ⟨cs, vs, e, r, hf, hE, rfl, rfl, rfl⟩ := (c11_packflen_ok _ _ _ _).1 h
  have hcs : cs = [c] := format_injective (cs := cs) (cs' := [c]) hf.symm
  subst hcs
  cases hE with
  | @cons _ v e _ _ _ h1 h2 =>
    cases h2
    exact ⟨v, e, r, h1, by simp, by simp, by simp⟩

/-- C11: in the destination an identifier has a length of four bytes instead of one; so has a text,
instead of its UVARI; and a name has an origin of four bytes instead of a UVARI as well. -/
theorem c11_text_sizes (src : Bytes) (nread nwrite : Nat) :
    (packflen [Reprc.ident.fmtChar] src = some (.ok, nread, nwrite) → nwrite = nread + 3) ∧
    (packflen [Reprc.units.fmtChar] src = some (.ok, nread, nwrite) → nwrite = nread + 3) ∧
    (packflen [Reprc.ascii.fmtChar] src = some (.ok, nread, nwrite) →
      nwrite + Spec.uvariWidth src = nread + 4) ∧
    (packflen [Reprc.obname.fmtChar] src = some (.ok, nread, nwrite) →
      nwrite + Spec.uvariWidth src = nread + 7) := by
  refine ⟨fun h => ?_, fun h => ?_, fun h => ?_, fun h => ?_⟩ <;>
    obtain ⟨v, e, r, hE, rfl, rfl, rfl⟩ := packflen_single h
  · obtain ⟨s, rfl, hs⟩ := hE
    obtain ⟨b, hb, rfl⟩ := hs
    simp [Spec.bytes, Val.cells, strCells, Cell.size]; omega
  · obtain ⟨s, rfl, hs⟩ := hE
    obtain ⟨b, hb, rfl⟩ := hs
    simp [Spec.bytes, Val.cells, strCells, Cell.size]; omega
  · obtain ⟨s, rfl, l, hl, rfl⟩ := hE
    rw [List.append_assoc, uvariWidth_of hl]
    simp [Spec.bytes, Val.cells, strCells, Cell.size]; omega
  · obtain ⟨n, rfl, o, i, c, ho, hc, ⟨b, hb, rfl⟩, rfl⟩ := hE
    rw [List.append_assoc, uvariWidth_of ho]
    simp [Spec.bytes, Val.cells, strCells, obnameCells, Cell.size]; omega

/-- C11: the identifier "AB" and the name with origin 300, copy number 1 and identifier "A". -/
example :
    packflen [Reprc.ident.fmtChar] [2, 0x41, 0x42, 7] = some (.ok, 3, 6) ∧
    packflen [Reprc.obname.fmtChar] [0x81, 0x2C, 1, 1, 0x41] = some (.ok, 5, 10) ∧
    Spec.uvariWidth [0x81, 0x2C, 1, 1, 0x41] = 2 := by decide +kernel

end Dlisio.Dlis
