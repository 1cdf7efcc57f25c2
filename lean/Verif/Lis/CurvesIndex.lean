import Verif.Lis.CurvesRows
import Mathlib.Data.List.Dedup
/-
C52: the index of LIS curves, and where reading curves fails.
-/
namespace Dlisio.Lis
open _root_.Dlisio.Lis.Spec

/-! ### The values of the index -/

/-- C52: the index of a sample is on the line between the frames, exactly if the numbers
on the way are `double`s. -/
theorem c52_interpolation (p x : ℚ) (k n : Nat)
    (h2 : Representable64 (x - p)) (h3 : Representable64 ((x - p) / n))
    (h4 : Representable64 ((x - p) / n * k)) (h5 : Representable64 (p + (x - p) / n * k))
    (hn : 0 < n) :
    subIndex (some (.num p)) (.num x) k n = .num (p + (x - p) * k / n) := by
  have hn' : (n : ℚ) ≠ 0 := by positivity
  have e : p + (x - p) * k / n = p + (x - p) / n * k := by ring
  unfold subIndex
  split
  · rename_i h
    subst h
    congr 1
    field_simp
    ring
  · simp only [Flt.sub64, Flt.neg, Flt.add64, Flt.div64, Flt.mul64]
    rw [← sub_eq_add_neg, rnd64_of_representable h2, rnd64_of_representable h3]
    push_cast
    rw [rnd64_of_representable h4, rnd64_of_representable h5, e]

/-- Integers are `double`s. -/
theorem representable64_int (m : ℤ) (h : |m| < 2 ^ 53) : Representable64 m :=
  ⟨m, 0, h, by norm_num, by norm_num, by simp⟩

/-- C52: integers that are a whole number of steps apart are interpolated exactly; the
index can be any integer type. -/
theorem c52_interpolation_integers (p d : ℤ) (k n : Nat) (hn : 0 < n) (hk : k ≤ n)
    (hn' : n < 256) (hp : |p| ≤ 2 ^ 32) (hd : |d * n| ≤ 2 ^ 33) :
    subIndex (some (.num p)) (.num (p + d * n : ℤ)) k n = .num (p + d * k : ℤ) := by
  have h0 : (n : ℚ) ≠ 0 := by positivity
  have e1 : ((p + d * n : ℤ) : ℚ) - p = (d * n : ℤ) := by push_cast; ring
  have e2 : ((d * n : ℤ) : ℚ) / n = d := by push_cast; field_simp
  have e3 : (d : ℚ) * k = (d * k : ℤ) := by push_cast; ring
  have hkn : |d * k| ≤ |d * n| := by
    rw [abs_mul, abs_mul]
    exact mul_le_mul_of_nonneg_left (by simpa using hk) (abs_nonneg d)
  have hdn : |d| ≤ |d * n| := by
    rw [abs_mul]
    have : (1 : ℤ) ≤ |(n : ℤ)| := by simp; omega
    nlinarith [abs_nonneg d]
  have a1 := abs_add_le p (d * n)
  have a2 := abs_add_le p (d * k)
  rw [c52_interpolation _ _ _ _
    (by rw [e1]; exact representable64_int _ (by omega))
    (by rw [e1, e2]; exact representable64_int _ (by omega))
    (by rw [e1, e2, e3]; exact representable64_int _ (by omega))
    (by rw [e1, e2, e3, ← Int.cast_add]; exact representable64_int _ (by omega)) hn, e1]
  congr 1
  push_cast
  field_simp

/-- C52: in general four roundings come between. -/
theorem c52_interpolation_error (p x : ℚ) (k n : Nat) (hn : 0 < n) (hk : k ≤ n) :
    ∃ v, subIndex (some (.num p)) (.num x) k n = .num v ∧
      |v - (p + (x - p) * k / n)| ≤
        6 * 2 ^ (-53 : ℤ) * (|p| + |x|) + 2 * (n + 4) * 2 ^ (-1075 : ℤ) := by
  have hn' : (0 : ℚ) < n := by exact_mod_cast hn
  have hn1 : (1 : ℚ) ≤ n := by exact_mod_cast hn
  have hk' : (k : ℚ) ≤ n := by exact_mod_cast hk
  have hk0 : (0 : ℚ) ≤ k := by positivity
  have hη : (0 : ℚ) < 2 ^ (-1075 : ℤ) := by positivity
  have hpa := abs_nonneg p
  have hxa := abs_nonneg x
  have hN : (2 : ℚ) ^ (-1075 : ℤ) ≤ n * 2 ^ (-1075 : ℤ) := by nlinarith
  unfold subIndex
  split
  · rename_i h
    subst h
    refine ⟨x, rfl, ?_⟩
    have : x - (p + (x - p) * k / k) = 0 := by field_simp; ring
    rw [this, abs_zero]
    positivity
  · simp only [Flt.sub64, Flt.neg, Flt.add64, Flt.div64, Flt.mul64]
    refine ⟨_, rfl, ?_⟩
    rw [← sub_eq_add_neg]
    push_cast
    set d1 := rnd64 (x - p) with hd1
    set d2 := rnd64 (d1 / n) with hd2
    set d3 := rnd64 (d2 * k) with hd3
    have E1 := rnd64_error (x - p)
    have E2 := rnd64_error (d1 / n)
    have E3 := rnd64_error (d2 * k)
    have E4 := rnd64_error (p + d3)
    rw [← hd1] at E1
    rw [← hd2] at E2
    rw [← hd3] at E3
    generalize hηe : (2 : ℚ) ^ (-1075 : ℤ) = η at *
    have hu : (2 : ℚ) ^ (-53 : ℤ) = 1 / 9007199254740992 := by norm_num
    rw [hu] at E1 E2 E3 E4 ⊢
    have hd : |x - p| ≤ |p| + |x| := by
      have := abs_sub x p; linarith
    -- times k, the divisions go away
    have m1 : |d1 / n * k| ≤ |d1| := by
      rw [abs_mul, abs_div, abs_of_pos hn', abs_of_nonneg hk0, div_mul_eq_mul_div, div_le_iff₀ hn']
      exact mul_le_mul_of_nonneg_left hk' (abs_nonneg _)
    have m2 : |(x - p) / n * k - d1 / n * k| ≤ |d1 - (x - p)| := by
      rw [show (x - p) / n * k - d1 / n * k = ((x - p) - d1) / n * k by ring, abs_mul, abs_div,
        abs_of_pos hn', abs_of_nonneg hk0, div_mul_eq_mul_div, div_le_iff₀ hn', abs_sub_comm]
      exact mul_le_mul_of_nonneg_left hk' (abs_nonneg _)
    have m3 : |d2 * k - d1 / n * k| ≤ |d1| * (1 / 9007199254740992) + n * η := by
      rw [← sub_mul, abs_mul, abs_of_nonneg hk0]
      have := mul_le_mul_of_nonneg_right E2 hk0
      have e : |d1 / n| * k ≤ |d1| := by
        rw [abs_mul, abs_of_nonneg hk0] at m1; exact m1
      have : η * k ≤ n * η := by nlinarith
      nlinarith
    have t1 : |d1| ≤ |x - p| + |d1 - (x - p)| := by
      have := abs_add_le (x - p) (d1 - (x - p)); rwa [add_sub_cancel] at this
    have t2 : |d2 * k| ≤ |d1 / n * k| + |d2 * k - d1 / n * k| := by
      have := abs_add_le (d1 / n * k) (d2 * k - d1 / n * k); rwa [add_sub_cancel] at this
    have t3 : |d3| ≤ |d2 * k| + |d3 - d2 * k| := by
      have := abs_add_le (d2 * k) (d3 - d2 * k); rwa [add_sub_cancel] at this
    have t4 : |p + d3| ≤ |p| + |d3| := abs_add_le _ _
    have tot : |rnd64 (p + d3) - (p + (x - p) * k / n)| ≤ |rnd64 (p + d3) - (p + d3)| +
        (|d3 - d2 * k| + (|d2 * k - d1 / n * k| + |(x - p) / n * k - d1 / n * k|)) := by
      have e : rnd64 (p + d3) - (p + (x - p) * k / n) = (rnd64 (p + d3) - (p + d3)) +
        ((d3 - d2 * k) + ((d2 * k - d1 / n * k) + -((x - p) / n * k - d1 / n * k))) := by ring
      rw [e]
      refine (abs_add_le _ _).trans (add_le_add le_rfl ((abs_add_le _ _).trans (add_le_add le_rfl
        ((abs_add_le _ _).trans (add_le_add le_rfl ?_)))))
      rw [abs_neg]
    have eN : 2 * ((n : ℚ) + 4) * η = 2 * (n * η) + 8 * η := by ring
    rw [eN]
    generalize |p| = P at *
    generalize |x| = X at *
    generalize n * η = N at *
    linarith

/-- C52: in mode 1 the frames of a record are `spacing` apart, from the index of the
record on, exactly if these numbers are `double`s. -/
theorem c52_steps (spacing : ℚ) : ∀ (bs : List Bytes) (x : ℚ),
    (∀ i < bs.length, Representable64 (x + i * spacing)) → ∀ (i : Nat) (b : Bytes), bs[i]? = some b →
    (steps (.num spacing) (.num x) bs)[i]? = some (Flt.num (x + i * spacing), b)
  | [], _, _, i, b, h => by simp at h
  | b0 :: bs, x, hrep, 0, b, h => by
    simp only [List.getElem?_cons_zero, Option.some.injEq] at h
    subst h
    simp [steps]
  | b0 :: bs, x, hrep, i + 1, b, h => by
    rw [List.getElem?_cons_succ] at h
    rw [steps, List.getElem?_cons_succ, Flt.add64]
    have hlen : i < bs.length := (List.getElem?_eq_some_iff.1 h).1
    have h1 := hrep 1 (by simp; omega)
    rw [Nat.cast_one, one_mul] at h1
    rw [rnd64_of_representable h1, c52_steps spacing bs (x + spacing) _ i b h]
    · congr 3; push_cast; ring
    · intro j hj
      have := hrep (j + 1) (by simpa using hj)
      convert this using 1
      push_cast; ring

/-- The documented example of `curves` (curves.py:131-137): 300 and 330, three samples. -/
example : [subIndex none (.num 300) 1 3, subIndex none (.num 300) 2 3, subIndex none (.num 300) 3 3] =
      [.num 0, .num 0, .num 300] ∧
    subIndex (some (.num 300)) (.num 330) 1 3 = .num 310 ∧
    subIndex (some (.num 300)) (.num 330) 2 3 = .num 320 ∧
    subIndex (some (.num 300)) (.num 330) 3 3 = .num 330 := by
  refine ⟨by simp [subIndex], ?_, ?_, by simp [subIndex]⟩
  · have := c52_interpolation_integers 300 10 1 3 (by norm_num) (by norm_num) (by norm_num) (by norm_num) (by norm_num)
    norm_num at this; exact this
  · have := c52_interpolation_integers 300 10 2 3 (by norm_num) (by norm_num) (by norm_num) (by norm_num) (by norm_num)
    norm_num at this; exact this

/-- The two frames of `exFrames` in one record. -/
def exDataRecord : DataRecord := ⟨[], [exFrames.take 19, exFrames.drop 19], []⟩

/-- `c52_rows_partial` applies to it, at rate 2: the array has four rows, and the index of
the third is 10, between 9 and 11. -/
example : ∃ conf a, curvesConf exFormat 2 (.num 0) = some conf ∧
    readDataRecords conf [some (exFrames, [])] = .ok a ∧ a.rows = 4 ∧
    a.at 18 = some (.cell (.i32 10), 0) ∧ a.at 22 = some (.cell (.i16 3), 0) := by
  have hs : subIndex (some (.num 9)) (.num 11) 1 2 = .num 10 := by
    have := c52_interpolation_integers 9 1 1 2 (by norm_num) (by norm_num) (by norm_num) (by norm_num) (by norm_num)
    norm_num at this; exact this
  have hc : curvesConf exFormat 2 (.num 0) =
      some ⟨"l1".toList, "i1S3S2b3".toList, 2, 0, .num 0, 9⟩ := by decide +kernel
  have hitems : [exDataRecord].flatMap (·.items exFormat (.num 0)) =
      [(.num 9, exFrames.take 19), (.num 11, exFrames.drop 19)] := by decide +kernel
  have c0 : ∀ b k, k < 2 → indexCell? exFormat 2 none (.num 9) b k = some (.i32 (if k = 0 then 0 else 9)) := by
    intro b k hk
    interval_cases k <;> rfl
  have c1 : ∀ b k, k < 2 → indexCell? exFormat 2 (some (.num 9)) (.num 11) b k =
      some (.i32 (if k = 0 then 10 else 11)) := by
    intro b k hk
    interval_cases k
    · rw [indexCell?, if_neg (by decide), hs]; rfl
    · rfl
  have hrows : rowsOf exFormat 2 none [(.num 9, exFrames.take 19), (.num 11, exFrames.drop 19)] =
      [[.cell (.i32 0), .cell (.i16 1), .cell (.u8 1), .cell (.u8 2), .cell (.u8 3)],
       [.cell (.i32 9), .cell (.i16 2), .cell (.u8 4), .cell (.u8 5), .cell (.u8 6)],
       [.cell (.i32 10), .cell (.i16 3), .cell (.u8 7), .cell (.u8 8), .cell (.u8 9)],
       [.cell (.i32 11), .cell (.i16 4), .cell (.u8 10), .cell (.u8 11), .cell (.u8 12)]] := by
    simp only [rowsOf, show List.range 2 = [0, 1] from rfl, List.map_cons, List.map_nil,
      c0 _ 0 (by norm_num), c0 _ 1 (by norm_num), c1 _ 0 (by norm_num), c1 _ 1 (by norm_num)]
    decide +kernel
  obtain ⟨a, h1, h2, -, h4⟩ := c52_rows_partial hc (by norm_num) (by norm_num) [exDataRecord]
    (by
      intro r hr
      rw [List.mem_singleton] at hr
      subst hr
      refine ⟨rfl, fun b hb => ⟨?_, by simp [Legible, channels, exFormat, exChan, Selected]⟩, by decide⟩
      revert b
      decide +kernel)
    (by
      rw [hitems]
      refine ⟨fun k hk => ?_, fun k hk => ?_, trivial⟩
      · rw [c0 _ k hk]; simp
      · rw [c1 _ k hk]; simp)
  rw [hitems, hrows] at h4
  refine ⟨_, a, hc, h1, h2, ?_, ?_⟩
  · exact (h4 2 _ rfl).2 [] _ _ rfl 0 (by decide)
  · exact (h4 2 _ rfl).2 [.cell (.i32 10)] _ _ rfl 0 (by decide)

/-! ### Where it fails -/

/-- An index, and a channel of `n` bytes with `n` samples. -/
def exFast (n : Nat) : Format := ⟨0, none, [exChan [0x44] 4 1 73, exChan [0x41] n n 66]⟩

/-- **C52 fails** for rates from 128 on: the number of the sample is taken as `int8_t`
(ext/lis.cpp:158), so that the last sample never is the last.  Index 9 with 128 samples:
it is in no row of the array. -/
theorem c52_rate_defect : ∃ conf, curvesConf (exFast 128) 128 (.num 0) = some conf ∧
    ∃ a, readDataRecords conf [some ([0, 0, 0, 9] ++ List.replicate 128 7, [])] = .ok a ∧
      a.rows = 128 ∧ a.at (127 * itemsize (columns (exFast 128) 128)) = some (.cell (.i32 0), 0) ∧
      ∀ e ∈ a.log, e.2 = .cell (.i32 0) ∨ e.2 = .cell (.u8 7) := by
  refine ⟨_, rfl, ?_⟩
  exact ⟨⟨128, (List.range 128).map (fun k => (((5 * k : Nat) : Int), Out.cell (.i32 0))) ++
    (List.range 128).map (fun k => (((5 * k + 4 : Nat) : Int), Out.cell (.u8 7)))⟩, by decide +kernel⟩

/-- From rate 128 on the recorded index is in no row: samples get numbers that are not the
last one. -/
theorem c52_rate_defect_general (x : Flt) (rate k : Nat) (h : 128 ≤ rate) : Idx.value ⟨x, .nan⟩ (toInt8 (k + 1)) rate = .ok (.num 0) := by
  have h1 : toInt8 (k + 1) ≠ rate := by
    rw [toInt8]
    have := BitVec.toInt_lt (x := BitVec.ofNat 8 (k + 1))
    norm_num at this
    omega
  rw [Idx.value, if_neg h1, if_pos rfl]

/-- A format with a text of four bytes. -/
def exText : Format := ⟨0, none, [exChan [0x44] 1 1 66, exChan [0x41] 4 1 65]⟩

/-- **C52 fails** for a record that ends within a text: there is no check (ext/lis.cpp:234-244),
the rest is what is in the memory behind the record. -/
theorem c52_text_past_end_defect : ∃ conf, curvesConf exText 1 (.num 0) = some conf ∧
    readDataRecords conf [some ([5, 0x41, 0x42], [0x58, 0x59])] =
      .ok ⟨1, [(0, .cell (.u8 5)), (1, .str [0x41, 0x42, 0x58, 0x59])]⟩ ∧
    readDataRecords conf [some ([5, 0x41, 0x42], [])] = .overrun := by
  exact ⟨_, rfl, by decide +kernel⟩

/-- Texts are decoded as UTF-8 whatever the encodings set for dlisio: a degree sign in
Latin-1 makes the whole read fail. -/
theorem c52_text_defect : ∃ conf, curvesConf exText 1 (.num 0) = some conf ∧
    readDataRecords conf [some ([5, 0x41, 0xB0, 0x42, 0x43], [])] = .throws := by
  exact ⟨_, rfl, by decide +kernel⟩

/-- A record that ends within a suppressed channel gives a row for the incomplete frame. -/
theorem c52_cut_suppressed_defect : ∃ conf,
    curvesConf ⟨0, none, [exChan [0x44] 1 1 66, exChan [0x41] (-4) 1 66]⟩ 1 (.num 0) = some conf ∧
    readDataRecords conf [some ([5, 0x41], [])] = .ok ⟨1, [(0, .cell (.u8 5))]⟩ := by
  exact ⟨_, rfl, by decide +kernel⟩

/-- A record that ends within a number reads behind the record before it is refused:
`lis_packflen` reads the values (see `c42_packflen`). -/
theorem c52_cut_number_defect : ∃ conf,
    curvesConf ⟨0, none, [exChan [0x44] 1 1 66, exChan [0x41] 4 1 73]⟩ 1 (.num 0) = some conf ∧
    readDataRecords conf [some ([5, 0, 0], [])] = .overrun ∧
    readDataRecords conf [some ([5, 0, 0], [1, 1])] = .throws := by
  exact ⟨_, rfl, by decide +kernel⟩

/-- An integral index can only be interpolated when the samples are whole numbers: 10
behind 9, at rate 2, fails (ext/lis.cpp:259-262). -/
theorem c52_integral_defect : store 73 (subIndex (some (.num 9)) (.num 10) 1 2) = none ∧
    subCell 'l' ⟨.num 10, .num 9⟩ 2 0 = .throws := by
  have h1 : Representable64 (1 / 2) := ⟨1, -1, by norm_num, by norm_num, by norm_num, by norm_num⟩
  have hs : subIndex (some (.num 9)) (.num 10) 1 2 = .num (19 / 2) := by
    have h2 : Representable64 (19 / 2) := ⟨19, -1, by norm_num, by norm_num, by norm_num, by norm_num⟩
    have := c52_interpolation 9 10 1 2
      (by norm_num; exact representable64_int 1 (by norm_num)) (by norm_num; norm_num at h1; exact h1)
      (by norm_num; norm_num at h1; exact h1) (by norm_num; exact h2) (by norm_num)
    norm_num at this
    exact this
  have hv := value_small (x := .num 10) (prev := some (.num 9)) (rate := 2) (k := 0) (by norm_num)
    (by norm_num) (by simp) (by simp)
  rw [zero_add] at hv
  refine ⟨by rw [hs]; decide +kernel, ?_⟩
  rw [subCell]
  change (Idx.value ⟨.num 10, (some (Flt.num 9)).getD .nan⟩ (toInt8 1) 2).bind _ = _
  rw [hv, hs]
  decide +kernel

/-! ### The default rate -/

/-- `uniform_sampling`, curves.py:284-292: all channels beside the index have as many
samples. -/
def uniformSampling (f : Format) : Bool :=
  ((f.specs.zipIdx.filter fun p => !isIndex p.2 f.mode).map fun p => p.1.samples).dedup.length ≤ 1

/-- The start of `curves`, curves.py:255-260: `none` when it raises. -/
def curvesRate (f : Format) (rate : Option Nat) : Option Nat :=
  if !uniformSampling f && rate.isNone then none else some (rate.getD 1)

theorem dedup_one {l : List Nat} : l.dedup.length ≤ 1 ↔ ∀ a ∈ l, ∀ b ∈ l, a = b := by
  have hn := List.nodup_dedup l
  have hm : ∀ a, a ∈ l.dedup ↔ a ∈ l := fun a => List.mem_dedup
  generalize l.dedup = d at hn hm
  constructor
  · intro h a ha b hb
    rw [← hm] at ha hb
    match d, h with
    | [], _ => cases ha
    | [c], _ =>
      simp only [List.mem_singleton] at ha hb
      rw [ha, hb]
  · intro h
    match d with
    | [] => simp
    | [c] => simp
    | c :: e :: d =>
      have := h c ((hm c).1 (by simp)) e ((hm e).1 (by simp))
      simp [this] at hn

/-- Is the channel at this place another than the index? -/
def Spec.beside (f : Format) (i : Nat) (s : SpecCommon) : Prop :=
  f.specs[i]? = some s ∧ ¬ (f.mode = 0 ∧ i = 0)

/-- **C52** (rate).  A rate that is asked for is the one that is read; without, reading is refused
exactly if two channels beside the index are sampled differently. -/
theorem c52_rate (f : Format) :
    (∀ r, curvesRate f (some r) = some r) ∧
    (curvesRate f none = none ↔
      ∃ i j s t, Spec.beside f i s ∧ Spec.beside f j t ∧ s.samples ≠ t.samples) := by
  refine ⟨fun r => by simp [curvesRate], ?_⟩
  have hu : uniformSampling f = true ↔
      ∀ i j s t, Spec.beside f i s → Spec.beside f j t → s.samples = t.samples := by
    unfold uniformSampling
    rw [decide_eq_true_iff, dedup_one]
    have mem : ∀ a, a ∈ ((f.specs.zipIdx.filter fun p => !isIndex p.2 f.mode).map fun p => p.1.samples) ↔
        ∃ i s, Spec.beside f i s ∧ s.samples = a := by
      intro a
      simp only [List.mem_map, List.mem_filter, Prod.exists, List.mk_mem_zipIdx_iff_getElem?, isIndex,
        Spec.beside]
      constructor
      · rintro ⟨s, i, ⟨h1, h2⟩, h3⟩
        exact ⟨i, s, ⟨h1, by simpa [imp_iff_not_or] using h2⟩, h3⟩
      · rintro ⟨i, s, ⟨h1, h2⟩, h3⟩
        exact ⟨s, i, ⟨h1, by simpa [imp_iff_not_or] using h2⟩, h3⟩
    constructor
    · intro h i j s t hs ht
      exact h _ ((mem _).2 ⟨i, s, hs, rfl⟩) _ ((mem _).2 ⟨j, t, ht, rfl⟩)
    · intro h a ha b hb
      obtain ⟨i, s, hs, rfl⟩ := (mem _).1 ha
      obtain ⟨j, t, ht, rfl⟩ := (mem _).1 hb
      exact h i j s t hs ht
  unfold curvesRate
  cases hc : uniformSampling f with
  | true =>
    have := hu.1 hc
    constructor
    · intro h; simp at h
    · rintro ⟨i, j, s, t, h1, h2, h3⟩
      exact absurd (this i j s t h1 h2) h3
  | false =>
    simp only [Bool.not_false, Option.isNone_none, Bool.and_self, if_true, true_iff]
    by_contra h
    push Not at h
    have := hu.2 h
    simp [hc] at this

/-- Cases: the index does not count, two channels do. -/
example : curvesRate ⟨0, none, [exChan [0x44] 4 1 73, exChan [0x41] 2 2 66]⟩ none = some 1 ∧
    curvesRate ⟨1, some 73, [exChan [0x44] 4 1 73, exChan [0x41] 2 2 66]⟩ none = none := by
  decide +kernel

/-- **C52 fails** without a rate when all channels are sampled equally but not once: the
default is 1 all the same, and only the index is read. -/
theorem c52_default_rate_defect : validFormat (exFast 2) = true ∧ curvesRate (exFast 2) none = some 1 ∧
    columns (exFast 2) 1 = [([0x44], 4)] ∧ columns (exFast 2) 2 = [([0x44], 4), ([0x41], 1)] := by
  decide +kernel

end Dlisio.Lis
