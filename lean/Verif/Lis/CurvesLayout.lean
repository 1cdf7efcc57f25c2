import Verif.Lis.Curves
import Verif.Lis.ProtocolProps
/-
C51: the row layout of LIS curves.  What is written to a row, and what is read from a
frame.
-/
namespace Dlisio.Lis
namespace Spec

/-- One entry of a sample with this representation code (LIS79 Appendix B). -/
def entry (code : Nat) (e : Bytes) : Cell :=
  match code with
  | 49 => .float (.num (f16 (beNat e)))
  | 50 => .float (f32lowValue (BitVec.ofNat 32 (beNat e)))
  | 56 => .i8 (twosComplement 8 (beNat e))
  | 68 => .float (.num (rnd32 (f32 (beNat e))))
  | 70 => .float (.num (rnd32 (f32fix (beNat e))))
  | 73 => .i32 (twosComplement 32 (beNat e))
  | 79 => .i16 (twosComplement 16 (beNat e))
  | _ => .u8 (beNat e)

/-- `n` entries in a row. -/
def entries (code : Nat) : Nat → Bytes → List Out
  | 0, _ => []
  | n + 1, b =>
    .cell (entry code (b.take ((width code).getD 0))) :: entries code n (b.drop ((width code).getD 0))

/-- Bytes of one sample of a channel. -/
def sampleBytes (s : SpecCommon) : Nat := s.reservedSize.natAbs / s.samples

/-- The values of a sample: a text, or as many entries as there is room for. -/
def sample (s : SpecCommon) (b : Bytes) : List Out :=
  if s.reprc = 65 then [.str ((utf8Decode b).getD [])]
  else entries s.reprc (sampleBytes s / (width s.reprc).getD 0) b

/-- The channel is not suppressed and sampled at this rate. -/
def Selected (rate : Nat) (s : SpecCommon) : Prop := 0 < s.reservedSize ∧ s.samples = rate

instance (rate : Nat) (s : SpecCommon) : Decidable (Selected rate s) := by
  unfold Selected; infer_instance

/-- The `k`-th values of the channels in a frame, in the order of the channels. -/
def row (rate : Nat) : List SpecCommon → Bytes → Nat → List Out
  | [], _, _ => []
  | s :: specs, b, k =>
    (if Selected rate s then
      sample s (slice b (k * sampleBytes s) (sampleBytes s)) else []) ++
    row rate specs (b.drop s.reservedSize.natAbs) k

/-- Bytes of the channels in a frame. -/
def frameBytes (specs : List SpecCommon) : Nat := (specs.map fun s => s.reservedSize.natAbs).sum

/-- The channels beside the index: the index is the first channel in mode 0, and recorded
once for each record in mode 1. -/
def channels (f : Format) : List SpecCommon := if f.mode = 0 then f.specs.tail else f.specs

/-- The representation code of the index. -/
def indexCode (f : Format) : Nat :=
  if f.mode = 0 then (f.specs.head?.map SpecCommon.reprc).getD 0 else f.depthReprc.getD 0

/-- Bytes of the index in a frame. -/
def indexBytes (f : Format) : Nat := if f.mode = 0 then (width (indexCode f)).getD 0 else 0

/-- Bytes of a number in memory, by representation code: all floats are binary32. -/
def hostWidth (code : Nat) : Nat := if code = 49 then 4 else (width code).getD 0

/-- Bytes of the column of a channel: a pointer for a text. -/
def columnBytes (s : SpecCommon) : Nat :=
  if s.reprc = 65 then 8 else sampleBytes s / (width s.reprc).getD 0 * hostWidth s.reprc

/-- The label of the index. -/
def indexLabel (f : Format) : Bytes :=
  if f.mode = 0 then (f.specs.head?.map SpecCommon.mnemonic).getD [] else [0x44, 0x45, 0x50, 0x54]

/-- The columns: the index and the selected channels. -/
def columns (f : Format) (rate : Nat) : List (Bytes × Nat) :=
  (indexLabel f, hostWidth (indexCode f)) ::
    ((channels f).filter fun s => Selected rate s).map fun s => (s.mnemonic, columnBytes s)

/-- Bytes that the values take in memory. -/
def outBytes (outs : List Out) : Nat := (outs.map Out.size).sum

/-- The values written one after the other from an offset on. -/
def place (off : Int) : List Out → List (Int × Out)
  | [] => []
  | o :: outs => (off, o) :: place (off + o.size) outs

end Spec

open _root_.Dlisio.Lis.Spec

/-! ### Numbers in formats -/

theorem digit_char (d : Nat) (h : d < 10) :
    (Char.ofNat (48 + d)).isDigit = true ∧ (Char.ofNat (48 + d)).toNat - 48 = d := by
  have : ∀ d < 10, (Char.ofNat (48 + d)).isDigit = true ∧ (Char.ofNat (48 + d)).toNat - 48 = d := by
    decide
  exact this d h

theorem strtol_decimal (n : Nat) (rest : List Char) :
    strtol 0 (decimal n ++ rest) = strtol n rest := by
  induction n using Nat.strongRecOn generalizing rest with
  | _ n ih =>
    rw [decimal]
    split
    · rename_i h
      have hd := digit_char n h
      rw [List.singleton_append, strtol, if_pos hd.1, hd.2]
      simp
    · rename_i h
      have hd := digit_char (n % 10) (by omega)
      rw [List.append_assoc, ih (n / 10) (by omega), List.singleton_append, strtol, if_pos hd.1, hd.2,
        show n / 10 * 10 + n % 10 = n by omega]

/-- A format ends or goes on with a character that is not a digit. -/
def NoDigit (fmt : List Char) : Prop := ∀ c ∈ fmt.head?, c.isDigit = false

theorem strtol_number (n : Nat) (rest : List Char) (h : NoDigit rest) :
    strtol 0 (decimal n ++ rest) = (n, rest) := by
  rw [strtol_decimal]
  cases rest with
  | nil => rfl
  | cons c cs => rw [strtol, if_neg (by rw [h c rfl]; simp)]

/-! ### Placed values -/

theorem outBytes_append (a b : List Out) : outBytes (a ++ b) = outBytes a + outBytes b := by
  simp [outBytes]

theorem outBytes_cons (o : Out) (b : List Out) : outBytes (o :: b) = o.size + outBytes b := by
  simp [outBytes]

theorem place_append (off : Int) (a b : List Out) :
    place off (a ++ b) = place off a ++ place (off + outBytes a) b := by
  induction a generalizing off with
  | nil => simp [place, outBytes]
  | cons o a ih =>
    rw [List.cons_append, place, place, ih, List.cons_append, outBytes_cons]
    push_cast
    rw [add_assoc]

/-! ### Samples -/

/-- The types of curves. -/
theorem code_cases {code : Nat} {r : Reprc} (h : Reprc.ofCode code = some r) : code = r.code := by
  unfold Reprc.ofCode at h
  repeat' split at h
  all_goals
    first
    | (cases h; simp only [Reprc.code]; omega)
    | cases h

/-- Codes, characters and widths of numbers. -/
theorem fixed_reprc (r : Reprc) (h1 : r ≠ .string) (h2 : r ≠ .mask) :
    r.fmt ∈ fixedChars ∧ Spec.onDisk r.fmt = some r.size ∧ width r.code = some r.size ∧
    nptypeSize r = some (Spec.inMemory r.fmt) ∧ 0 < r.size ∧ hostSize r.fmt = Spec.inMemory r.fmt ∧
    ∀ e, entry r.code e = Spec.value r.fmt e := by
  cases r <;> first | exact absurd rfl h1 | exact absurd rfl h2 | skip
  all_goals refine ⟨by decide, by decide, by decide, by decide, by decide, by decide, fun e => ?_⟩
  all_goals simp [entry, Reprc.code, Spec.value, Reprc.fmt]

theorem entries_size (r : Reprc) (h1 : r ≠ .string) (h2 : r ≠ .mask) (n : Nat) (b : Bytes) :
    outBytes (entries r.code n b) = n * Spec.inMemory r.fmt := by
  obtain ⟨-, hd, -, -, -, -, he⟩ := fixed_reprc r h1 h2
  induction n generalizing b with
  | zero => simp [entries, outBytes]
  | succ n ih =>
    rw [entries, outBytes_cons, ih, Out.size, he, value_size hd]
    ring

theorem put_ok {cap : Nat} {o : Out} {w w' : Cur} (h : w.put cap o = .ok w') :
    (0 ≤ w.dst ∧ w.dst + o.size ≤ cap) ∧
      w' = { w with dst := w.dst + o.size, log := w.log ++ [(w.dst, o)] } := by
  unfold Cur.put at h
  split at h
  · rename_i hb
    cases h
    exact ⟨hb, rfl⟩
  · cases h

theorem bind_ok {α β : Type} {a : Parsed α} {k : α → Parsed β} {b : β} (h : a.bind k = .ok b) :
    ∃ x, a = .ok x ∧ k x = .ok b := by
  cases a with
  | ok x => exact ⟨x, rfl, h⟩
  | throws => cases h
  | overrun => cases h

theorem known_single {r : Reprc} (h1 : r ≠ .string) (h2 : r ≠ .mask) : Spec.Known [r.fmt] := by
  intro c hc
  rw [List.mem_singleton.1 hc, (fixed_reprc r h1 h2).2.1]
  simp

theorem total_single (g : Char → Nat) (c : Char) : Spec.total g [c] = g c := by
  simp [Spec.total]

theorem disk_reprc {r : Reprc} (h1 : r ≠ .string) (h2 : r ≠ .mask) : Spec.disk r.fmt = r.size := by
  simp [Spec.disk, (fixed_reprc r h1 h2).2.1]

/-- One round of the loop over entries. -/
theorem readEntries_succ (xs : Bytes) (len cap : Nat) (r : Reprc) (h1 : r ≠ .string)
    (h2 : r ≠ .mask) (n : Nat) (w : Cur) :
    readEntries xs len cap r.fmt (n + 1) w =
      if xs.length < w.ptr + r.size then .overrun
      else if len < w.ptr + r.size then .throws
      else (w.put cap (.cell (entry r.code ((xs.drop w.ptr).take r.size)))).bind fun w =>
        readEntries xs len cap r.fmt n { w with ptr := w.ptr + r.size } := by
  have hk := known_single h1 h2
  have hp := (fixed_reprc r h1 h2).2.2.2.2.1
  rw [readEntries, c42_packflen _ hk, c42_packf _ hk, total_single, total_single, disk_reprc h1 h2,
    List.length_drop]
  by_cases hl : xs.length < w.ptr + r.size
  · rw [if_neg (by omega), if_pos hl]
  · have hle : r.size ≤ xs.length - w.ptr := by omega
    rw [if_neg hl]
    simp only [if_pos hle, Spec.values, disk_reprc h1 h2, (fixed_reprc r h1 h2).2.2.2.2.2.2]

theorem readEntries_ok {xs : Bytes} {len cap : Nat} {r : Reprc} (h1 : r ≠ .string)
    (h2 : r ≠ .mask) {n : Nat} {w w' : Cur} (h : readEntries xs len cap r.fmt n w = .ok w') :
    w' = ⟨w.ptr + n * r.size, w.dst + n * Spec.inMemory r.fmt,
      w.log ++ place w.dst (entries r.code n (xs.drop w.ptr))⟩ := by
  obtain ⟨-, hd, hw, -, -, -, he⟩ := fixed_reprc r h1 h2
  induction n generalizing w with
  | zero => cases h; simp [entries, place]
  | succ n ih =>
    rw [readEntries_succ xs len cap r h1 h2] at h
    split at h
    · cases h
    split at h
    · cases h
    obtain ⟨w1, hput, h⟩ := bind_ok h
    obtain ⟨-, rfl⟩ := put_ok hput
    have := ih h
    rw [this, Out.size, he, value_size hd]
    have hwd : (width r.code).getD 0 = r.size := by rw [hw]; rfl
    rw [Cur.mk.injEq]
    refine ⟨by ring, by push_cast; ring, ?_⟩
    simp only [entries, place, hwd, he, Out.size, value_size hd, List.drop_drop, List.append_assoc,
      List.singleton_append]

/-- The format of a selected channel, and its column. -/
theorem channel_cases (s : SpecCommon) (hv : validSpec s = true) (rate : Nat)
    (hs : Selected rate s) :
    0 < rate ∧ s.reservedSize.natAbs = rate * sampleBytes s ∧ (s.reservedSize.natAbs : Int) = s.reservedSize ∧
    ((s.reprc = 65 ∧ channelFmt rate s = some ('a' :: decimal (sampleBytes s)) ∧ specSize s = some 8) ∨
    ∃ (r : Reprc) (n : ℕ), r ≠ .string ∧ r ≠ .mask ∧ s.reprc = r.code ∧ sampleBytes s = n * r.size ∧
      channelFmt rate s = some (r.fmt :: decimal n) ∧ specSize s = some (n * Spec.inMemory r.fmt)) := by
  obtain ⟨hpos, hrate⟩ := hs
  unfold validSpec at hv
  simp only [Bool.and_eq_true, decide_eq_true_eq, Bool.not_eq_true', decide_eq_false_iff_not,
    Bool.or_eq_true] at hv
  obtain ⟨⟨⟨⟨-, hsamp⟩, hdiv⟩, hrep⟩, hent⟩ := hv
  obtain ⟨m, hm⟩ : ∃ m : ℕ, s.reservedSize = m := ⟨s.reservedSize.toNat, by omega⟩
  have hr0 : 0 < s.samples := by omega
  have hmod : m % s.samples = 0 := by rw [hm] at hdiv; exact_mod_cast hdiv
  have hmul : m = s.samples * (m / s.samples) := by
    have := Nat.div_add_mod m s.samples; omega
  have hsb : sampleBytes s = m / s.samples := by rw [sampleBytes, hm]; rfl
  refine ⟨by omega, ?_, by omega, ?_⟩
  · rw [hsb, ← hrate, hm]; exact hmul
  have hfmt : ∀ x : Option (List Char), (match Reprc.ofCode s.reprc with
      | none => none
      | some .string => some (Reprc.string.fmt :: decimal (sampleSize s))
      | some .mask => some (Reprc.mask.fmt :: decimal (sampleSize s))
      | some r => some (r.fmt :: decimal (sampleSize s / r.size))) = x → channelFmt rate s = x := by
    intro x hx
    rw [channelFmt, if_neg (by omega), if_neg (by simp [hrate]), ← hx]
    rfl
  match hc : Reprc.ofCode s.reprc with
  | none => rw [validReprc, hc] at hrep; cases hrep
  | some r =>
    have hcode := code_cases hc
    by_cases h1 : r = .string
    · subst h1
      left
      refine ⟨hcode, hfmt _ ?_, ?_⟩
      · rw [hc]; rfl
      · rw [specSize, hc]; rfl
    · by_cases h2 : r = .mask
      · subst h2; rw [validReprc, hc] at hrep; cases hrep
      · right
        obtain ⟨-, hd, hw, hnp, hr0', -, -⟩ := fixed_reprc r h1 h2
        have hent' : s.reservedSize / s.samples % sizeofType s.reprc = 0 := by
          rcases hent with h | h
          · rw [hc] at h; exact absurd (Option.some.inj h) h1
          · exact h
        rw [sizeofType, hc] at hent'
        simp only at hent'
        have hq : s.reservedSize / (s.samples : Int) = ((m / s.samples : ℕ) : Int) := by
          rw [hm]; push_cast; rfl
        rw [hq] at hent'
        have hmod2 : m / s.samples % r.size = 0 := by exact_mod_cast hent'
        have hmul2 : m / s.samples = r.size * (m / s.samples / r.size) := by
          have := Nat.div_add_mod (m / s.samples) r.size; omega
        refine ⟨r, m / s.samples / r.size, h1, h2, hcode, ?_, hfmt _ ?_, ?_⟩
        · rw [hsb, mul_comm]; exact hmul2
        · have : sampleSize s = m / s.samples := by rw [sampleSize, hm]; rfl
          rw [hc, this]
          cases r <;> first | exact absurd rfl h1 | exact absurd rfl h2 | rfl
        · have h3 : specSize s = (nptypeSize r).map (· * (s.reservedSize / s.samples / r.size).toNat) := by
            rw [specSize, hc]
            cases r <;> first | exact absurd rfl h1 | rfl
          rw [h3, hnp, hq, Option.map_some]
          congr 1
          rw [show ((m / s.samples : ℕ) : Int) / (r.size : Int) = ((m / s.samples / r.size : ℕ) : Int) by
            push_cast; rfl]
          rw [Int.toNat_natCast, mul_comm]

theorem entries_take {code : Nat} {z : Nat} (hw : (width code).getD 0 = z) (n : Nat) (b : Bytes) :
    entries code n (b.take (n * z)) = entries code n b := by
  induction n generalizing b with
  | zero => rfl
  | succ n ih =>
    rw [entries, entries, hw, List.take_take, Nat.min_eq_left (by rw [Nat.succ_mul]; omega),
      List.drop_take, show (n + 1) * z - z = n * z by rw [Nat.succ_mul]; omega, ih]

/-- A sample that is read: the values of its bytes, in the place given, and as many bytes
as the column has. -/
theorem readSample_ok {xs : Bytes} {len cap rate c : Nat} {s : SpecCommon} {tok rest : List Char}
    {w w' : Cur} {fmt : List Char} (hv : validSpec s = true) (hs : Selected rate s)
    (ht : channelFmt rate s = some tok) (hc : specSize s = some c) (hr : NoDigit rest)
    (h : readSample xs len cap (tok ++ rest) w = .ok (fmt, w')) :
    fmt = rest ∧ w' = ⟨w.ptr + sampleBytes s, w.dst + c, w.log ++ place w.dst
      (sample s (slice xs w.ptr (sampleBytes s)))⟩ ∧
    outBytes (sample s (slice xs w.ptr (sampleBytes s))) = c := by
  obtain ⟨-, -, -, hcase⟩ := channel_cases s hv rate hs
  rcases hcase with ⟨hcode, htok, hsize⟩ | ⟨r, n, h1, h2, hcode, hsb, htok, hsize⟩
  · rw [htok] at ht; cases ht
    rw [hsize] at hc; cases hc
    rw [List.cons_append, readSample, if_neg (by decide), if_pos rfl, strtol_number _ _ hr] at h
    simp only at h
    split at h
    · cases h
    split at h
    · cases h
    rename_i t htext
    obtain ⟨w1, hput, h⟩ := bind_ok h
    obtain ⟨-, rfl⟩ := put_ok hput
    cases h
    have : sample s (slice xs w.ptr (sampleBytes s)) = [.str t] := by
      rw [sample, if_pos hcode, slice, htext]; rfl
    rw [this]
    exact ⟨rfl, rfl, rfl⟩
  · rw [htok] at ht; cases ht
    rw [hsize] at hc; cases hc
    obtain ⟨hch, -, hw, -, hpos, -, -⟩ := fixed_reprc r h1 h2
    have hw' : (width r.code).getD 0 = r.size := by rw [hw]; rfl
    have hsam : sample s (slice xs w.ptr (sampleBytes s)) = entries r.code n (xs.drop w.ptr) := by
      have hne : s.reprc ≠ 65 := by
        rw [hcode]
        cases r <;> first | exact absurd rfl h1 | decide
      rw [sample, if_neg hne, slice, hcode, hw', hsb, Nat.mul_div_cancel _ hpos, entries_take hw']
    rw [List.cons_append, readSample, if_pos hch, strtol_number _ _ hr] at h
    obtain ⟨w1, hw1, h⟩ := bind_ok h
    cases h
    rw [hsam]
    refine ⟨rfl, ?_, entries_size r h1 h2 n _⟩
    rw [readEntries_ok h1 h2 hw1, hsb]
    push_cast
    rfl

theorem slice_drop (xs : Bytes) (p i n : Nat) : slice (xs.drop p) i n = slice xs (p + i) n := by
  rw [slice, slice, List.drop_drop]

/-- All samples of a channel: one in each row. -/
theorem readSamples_ok {xs : Bytes} {len cap rate c : Nat} {conf : Conf} {s : SpecCommon}
    {tok rest : List Char} (hv : validSpec s = true) (hs : Selected rate s)
    (ht : channelFmt rate s = some tok) (hc : specSize s = some c) (hr : NoDigit rest)
    (start : Int) (p : Nat) : ∀ (n k : Nat) (fmt : List Char) (w : Cur) (fmt' : List Char) (w' : Cur),
    readSamples xs len cap conf (tok ++ rest) start n k fmt w = .ok (fmt', w') →
    w.ptr = p + k * sampleBytes s →
    (0 < n → fmt' = rest ∧ w'.dst = start + conf.framesize * ((k + n : ℕ) - 1) + c) ∧
    w'.ptr = p + (k + n) * sampleBytes s ∧
    (∃ L, w'.log = w.log ++ L ∧ ∀ e, e ∈ L ↔ ∃ j, k ≤ j ∧ j < k + n ∧
      e ∈ place (start + conf.framesize * j) (sample s (slice xs (p + j * sampleBytes s) (sampleBytes s)))) ∧
    ∀ j, k ≤ j → j < k + n →
      outBytes (sample s (slice xs (p + j * sampleBytes s) (sampleBytes s))) = c
  | 0, k, fmt, w, fmt', w', h, hp => by
    cases h
    refine ⟨by simp, by simpa using hp, ⟨[], by simp, fun e => ?_⟩, ?_⟩
    · simp; intros; omega
    · intros; omega
  | n + 1, k, fmt, w, fmt', w', h, hp => by
    rw [readSamples] at h
    obtain ⟨⟨f1, w1⟩, h1, h⟩ := bind_ok h
    obtain ⟨rfl, rfl, hout⟩ := readSample_ok hv hs ht hc hr h1
    simp only at h hout
    obtain ⟨hd, hptr, ⟨L, hL, hmem⟩, hsz⟩ := readSamples_ok hv hs ht hc hr start p n (k + 1) _ _ _ _ h (by
      simp only; rw [hp]; ring)
    rw [hp] at hout
    refine ⟨fun _ => ?_, by rw [hptr]; ring, ?_, ?_⟩
    · cases n with
      | zero =>
        cases h
        refine ⟨rfl, ?_⟩
        simp
      | succ n =>
        obtain ⟨h1, h2⟩ := hd (by omega)
        refine ⟨h1, ?_⟩
        rw [h2]
        push_cast
        ring
    · simp only [hp] at hL
      refine ⟨_, by rw [hL, List.append_assoc], fun e => ?_⟩
      rw [List.mem_append, hmem]
      constructor
      · rintro (h | ⟨j, h1, h2, h3⟩)
        · exact ⟨k, by omega, by omega, h⟩
        · exact ⟨j, by omega, by omega, h3⟩
      · rintro ⟨j, h1, h2, h3⟩
        by_cases hj : j = k
        · subst hj; exact Or.inl h3
        · exact Or.inr ⟨j, by omega, by omega, h3⟩
    · intro j h1 h2
      by_cases hj : j = k
      · subst hj; exact hout
      · exact hsz j (by omega) (by omega)

theorem fmt_noDigit (r : Reprc) : r.fmt.isDigit = false ∧ r.fmt ≠ 'S' := by
  cases r <;> decide

theorem channelFmt_head {rate : Nat} {s : SpecCommon} {tok : List Char}
    (h : channelFmt rate s = some tok) : ∃ c t, tok = c :: t ∧ c.isDigit = false := by
  unfold channelFmt at h
  split at h
  · cases h; exact ⟨_, _, rfl, by decide⟩
  split at h
  · cases h; exact ⟨_, _, rfl, by decide⟩
  split at h
  · cases h
  all_goals (cases h; exact ⟨_, _, rfl, (fmt_noDigit _).1⟩)

theorem channelsFmt_noDigit {mode : Int} {rate : Nat} : ∀ {i : Nat} {specs : List SpecCommon}
    {fmt : List Char}, channelsFmt mode rate i specs = some fmt → NoDigit fmt
  | _, [], _, h => by cases h; intro c hc; cases hc
  | i, s :: specs, fmt, h => by
    rw [channelsFmt] at h
    split at h
    · exact channelsFmt_noDigit h
    · split at h
      · rename_i a b ha hb
        cases h
        obtain ⟨c, t, rfl, hc⟩ := channelFmt_head ha
        intro x hx
        cases hx
        exact hc
      · cases h

/-- A channel that is not selected has a format to skip it. -/
theorem channelFmt_skip {rate : Nat} {s : SpecCommon} (hv : validSpec s = true)
    (hs : ¬ Selected rate s) : channelFmt rate s = some ('S' :: decimal s.reservedSize.natAbs) := by
  have h0 : s.reservedSize ≠ 0 := by
    unfold validSpec at hv
    simp only [Bool.and_eq_true, decide_eq_true_eq] at hv
    exact hv.1.1.1.1
  unfold channelFmt
  split
  · rfl
  · rw [if_pos]
    intro h
    exact hs ⟨by omega, h⟩

/-- The columns of the channels that are not the index. -/
theorem channelColumns_cons {mode : Int} {rate i : Nat} {s : SpecCommon} {specs : List SpecCommon}
    {cols : List (Bytes × Nat)} (hv : validSpec s = true) (hi : isIndex i mode = false)
    (h : channelColumns mode rate i (s :: specs) = some cols) :
    if Selected rate s then ∃ c cs, specSize s = some c ∧
      channelColumns mode rate (i + 1) specs = some cs ∧ cols = (s.mnemonic, c) :: cs
    else channelColumns mode rate (i + 1) specs = some cols := by
  have h0 : s.reservedSize ≠ 0 := by
    unfold validSpec at hv
    simp only [Bool.and_eq_true, decide_eq_true_eq] at hv
    exact hv.1.1.1.1
  rw [channelColumns, hi, Bool.false_or] at h
  split
  · rename_i hs
    obtain ⟨hs1, hs2⟩ := hs
    rw [if_neg (by omega), if_pos (by simpa using hs2)] at h
    split at h
    · rename_i c cs h1 h2
      cases h
      exact ⟨c, cs, h1, h2, rfl⟩
    · cases h
  · rename_i hs
    split at h
    · exact h
    · rw [if_neg] at h
      · exact h
      · intro h'
        exact hs ⟨by omega, by simpa using h'⟩

theorem isIndex_succ (i : Nat) (mode : Int) : isIndex (i + 1) mode = false := by
  simp [isIndex]

/-- All channels that are not the index: the bytes reserved for them are read, and each row
has the columns of its channels. -/
theorem readChannels_ok {xs : Bytes} {len cap rate : Nat} {conf : Conf} {mode : Int}
    (hconf : conf.samples = rate) : ∀ (specs : List SpecCommon) (i n : Nat) (fmt : List Char)
    (cols : List (Bytes × Nat)) (w w' : Cur), isIndex i mode = false →
    (∀ s ∈ specs, validSpec s = true) →
    channelsFmt mode rate i specs = some fmt → channelColumns mode rate i specs = some cols →
    readChannels xs len cap conf n fmt w = .ok w' →
    w'.ptr = w.ptr + frameBytes specs ∧ w'.dst = w.dst + itemsize cols ∧
    (∃ L, w'.log = w.log ++ L ∧ ∀ e, e ∈ L ↔ ∃ k < rate,
      e ∈ place (w.dst + conf.framesize * k) (row rate specs (xs.drop w.ptr) k)) ∧
    ∀ k < rate, outBytes (row rate specs (xs.drop w.ptr) k) = itemsize cols
  | [], i, n, fmt, cols, w, w', hi, hv, hf, hcol, h => by
    cases hf; cases hcol
    cases n <;> cases h
    all_goals
      refine ⟨by simp [frameBytes], by simp [itemsize], ⟨[], by simp, fun e => ?_⟩, ?_⟩
      · simp [row, place]
      · intros; rfl
  | s :: specs, i, n, fmt, cols, w, w', hi, hv, hf, hcol, h => by
    have hvs := hv s (by simp)
    have hvr : ∀ t ∈ specs, validSpec t = true := fun t ht => hv t (by simp [ht])
    rw [channelsFmt, hi] at hf
    simp only [Bool.false_eq_true, if_false] at hf
    split at hf
    case h_2 => cases hf
    rename_i tok fmt1 htok hfmt1
    cases hf
    have hnd := channelsFmt_noDigit hfmt1
    have hcols := channelColumns_cons hvs hi hcol
    have hfb : frameBytes (s :: specs) = s.reservedSize.natAbs + frameBytes specs := by
      simp [frameBytes]
    by_cases hs : Selected rate s
    · rw [if_pos hs] at hcols
      obtain ⟨c, cs, hc, hcs, rfl⟩ := hcols
      obtain ⟨hr0, hres, -, hcase⟩ := channel_cases s hvs rate hs
      obtain ⟨ch, t, rfl, hS⟩ : ∃ ch t, tok = ch :: t ∧ ch ≠ 'S' := by
        rcases hcase with ⟨-, h, -⟩ | ⟨r, m, -, -, -, -, h, -⟩
        · rw [h] at htok; cases htok; exact ⟨_, _, rfl, by decide⟩
        · rw [h] at htok; cases htok; exact ⟨_, _, rfl, (fmt_noDigit r).2⟩
      cases n with
      | zero => cases h
      | succ n =>
        rw [List.cons_append, readChannels, if_neg hS, ← List.cons_append, hconf] at h
        obtain ⟨⟨f1, w1⟩, h1, h'⟩ := bind_ok h
        clear h
        obtain ⟨hd, hptr, ⟨L1, hL1, hm1⟩, hsz1⟩ :=
          readSamples_ok hvs hs htok hc hnd w.dst w.ptr rate 0 _ _ _ _ h1 (by simp)
        obtain ⟨rfl, hdst⟩ := hd hr0
        obtain ⟨hptr2, hdst2, ⟨L2, hL2, hm2⟩, hsz2⟩ :=
          readChannels_ok hconf specs (i + 1) n _ cs _ _ (isIndex_succ i mode) hvr hfmt1 hcs h'
        simp only at hptr2 hdst2 hL2 hm2 hsz2
        have hptr1 : w1.ptr = w.ptr + s.reservedSize.natAbs := by rw [hptr, hres]; simp
        have hdst1 : w1.dst - conf.framesize * ((rate : Int) - 1) = w.dst + c := by
          rw [hdst]; push_cast; ring
        have hrow : ∀ k, row rate (s :: specs) (xs.drop w.ptr) k =
            sample s (slice xs (w.ptr + k * sampleBytes s) (sampleBytes s)) ++
            row rate specs (xs.drop (w.ptr + s.reservedSize.natAbs)) k := by
          intro k
          rw [row, if_pos hs, slice_drop, List.drop_drop]
        rw [hptr1] at hm2 hsz2
        refine ⟨by rw [hptr2, hptr1, hfb]; ring, ?_, ⟨L1 ++ L2, by rw [hL2, hL1, List.append_assoc], ?_⟩, ?_⟩
        · rw [hdst2, hdst1]
          simp only [itemsize, List.map_cons, List.sum_cons]
          push_cast
          ring
        · intro e
          rw [List.mem_append, hm1, hm2, hdst1]
          have hpl : ∀ k < rate, (e ∈ place (w.dst + conf.framesize * k) (row rate (s :: specs) (xs.drop w.ptr) k) ↔
              (e ∈ place (w.dst + conf.framesize * k) (sample s (slice xs (w.ptr + k * sampleBytes s) (sampleBytes s))) ∨
              e ∈ place (w.dst + c + conf.framesize * k) (row rate specs (xs.drop (w.ptr + s.reservedSize.natAbs)) k))) := by
            intro k hk
            rw [hrow, place_append, List.mem_append, hsz1 k (by omega) (by omega)]
            rw [show w.dst + (conf.framesize : Int) * k + c = w.dst + c + conf.framesize * k by ring]
          constructor
          · rintro (⟨k, -, hk, h⟩ | ⟨k, hk, h⟩)
            · exact ⟨k, by omega, (hpl k (by omega)).2 (Or.inl h)⟩
            · exact ⟨k, hk, (hpl k hk).2 (Or.inr h)⟩
          · rintro ⟨k, hk, h⟩
            rcases (hpl k hk).1 h with h | h
            · exact Or.inl ⟨k, by omega, by omega, h⟩
            · exact Or.inr ⟨k, hk, h⟩
        · intro k hk
          rw [hrow, outBytes_append, hsz1 k (by omega) (by omega), hsz2 k hk]
          simp [itemsize]
    · rw [if_neg hs] at hcols
      rw [channelFmt_skip hvs hs] at htok
      cases htok
      cases n with
      | zero => cases h
      | succ n =>
        rw [List.cons_append, readChannels, if_pos rfl, strtol_number _ _ hnd] at h
        obtain ⟨hptr2, hdst2, ⟨L2, hL2, hm2⟩, hsz2⟩ :=
          readChannels_ok hconf specs (i + 1) n _ cols _ _ (isIndex_succ i mode) hvr hfmt1 hcols h
        simp only at hptr2 hdst2 hL2 hm2 hsz2
        have hrow : ∀ k, row rate (s :: specs) (xs.drop w.ptr) k =
            row rate specs (xs.drop (w.ptr + s.reservedSize.natAbs)) k := by
          intro k
          rw [row, if_neg hs, List.nil_append, List.drop_drop]
        refine ⟨by rw [hptr2, hfb]; ring, hdst2, ⟨L2, hL2, fun e => ?_⟩, ?_⟩
        · rw [hm2]
          simp only [hrow]
        · intro k hk
          rw [hrow]
          exact hsz2 k hk

/-! ### Frames -/

theorem indexReprc_valid {r : Nat} (h : validReprc r = true) (hs : Reprc.ofCode r ≠ some .string) :
    ∃ c : Reprc, Reprc.ofCode r = some c ∧ r = c.code ∧ c ≠ .string ∧ c ≠ .mask := by
  match hc : Reprc.ofCode r with
  | none => rw [validReprc, hc] at h; cases h
  | some c =>
    refine ⟨c, rfl, code_cases hc, ?_, ?_⟩
    · rintro rfl; exact hs hc
    · rintro rfl; rw [validReprc, hc] at h; cases h

/-- What is known of the configuration of an accepted format. -/
theorem conf_facts {f : Format} {rate : Nat} {spacing : Flt} {conf : Conf}
    (h : curvesConf f rate spacing = some conf) :
    (f.mode = 0 ∨ f.mode = 1) ∧ conf.mode = f.mode ∧ conf.samples = rate ∧ rate < 256 ∧
    (f.mode = 1 → conf.spacing = spacing) ∧
    (∀ s ∈ channels f, validSpec s = true) ∧
    ∃ (r : Reprc) (i : Nat) (cols : List (Bytes × Nat)), r ≠ .string ∧ r ≠ .mask ∧
      indexCode f = r.code ∧ conf.indexfmt = [r.fmt, '1'] ∧ isIndex i f.mode = false ∧
      channelsFmt f.mode rate i (channels f) = some conf.fmtstr ∧
      channelColumns f.mode rate i (channels f) = some cols ∧
      conf.framesize = Spec.inMemory r.fmt + itemsize cols ∧
      frameBytes f.specs = indexBytes f + frameBytes (channels f) ∧
      (f.mode = 0 → indexBytes f = r.size) ∧
      ∃ cs, dfsrColumns f rate = some cs ∧ conf.framesize = itemsize cs := by
  unfold curvesConf at h
  split at h
  · cases h
  rename_i hvalid
  split at h
  case h_2 => cases h
  rename_i idx fmt cols hfmt hcols
  split at h
  case isFalse => cases h
  rename_i hrate
  cases h
  simp only [Bool.not_eq_true, Bool.not_eq_false'] at hvalid
  unfold validFormat at hvalid
  rw [Bool.and_eq_true] at hvalid
  obtain ⟨hmode, hvalid⟩ := hvalid
  have hmode : f.mode = 0 ∨ f.mode = 1 := by simpa using hmode
  match hspecs : f.specs with
  | [] => rw [hspecs] at hvalid; cases hvalid
  | first :: others =>
    rw [hspecs] at hvalid
    simp only at hvalid
    rcases hmode with h0 | h1
    · -- mode 0
      rw [if_pos h0] at hvalid
      simp only [h0, ne_eq, not_true_eq_false, decide_false, Bool.false_or, Bool.and_eq_true,
        decide_eq_true_eq] at hvalid
      obtain ⟨⟨⟨hv1, hv2⟩, hvi⟩, hall⟩ := hvalid
      obtain ⟨r, hr, hcode, hr1, hr2⟩ := indexReprc_valid hv1 hv2
      have hvall : ∀ s ∈ first :: others, validSpec s = true := by simpa using hall
      obtain ⟨-, hd, hw, hnp, hpos, -, -⟩ := fixed_reprc r hr1 hr2
      have hic : indexCode f = r.code := by rw [indexCode, if_pos h0, hspecs]; exact hcode
      have hib : indexBytes f = r.size := by rw [indexBytes, if_pos h0, hic, hw]; rfl
      have hch : channels f = others := by rw [channels, if_pos h0, hspecs]; rfl
      -- the index channel has one entry
      unfold validIndex at hvi
      simp only [Bool.and_eq_true, Bool.not_eq_true', decide_eq_false_iff_not] at hvi
      obtain ⟨⟨hi1, hi2⟩, hi3⟩ := hvi
      have hvf := hvall first (by simp)
      have hsel : Selected 1 first := by
        unfold validSpec at hvf
        simp only [Bool.and_eq_true, decide_eq_true_eq, Bool.not_eq_true', decide_eq_false_iff_not] at hvf
        exact ⟨by omega, by omega⟩
      obtain ⟨-, hres, hcast, hcase⟩ := channel_cases first hvf 1 hsel
      rw [sizeofType, hr] at hi3
      simp only at hi3
      have hone : first.reservedSize.natAbs = r.size ∧ specSize first = some (Spec.inMemory r.fmt) := by
        rcases hcase with ⟨h65, -, -⟩ | ⟨r', n, _, _, hc', hsb, _, hsz⟩
        · rw [h65] at hcode
          exfalso
          cases r <;> first | exact hr1 rfl | exact hr2 rfl | (revert hcode; decide)
        · have hrr : r' = r := by
            rw [hcode] at hc'
            cases r <;> cases r' <;> first | rfl | (revert hc'; decide)
          subst hrr
          have h2 := hsel.1
          have hn : n = 1 := by
            have : n * r'.size ≤ r'.size := by omega
            have hn1 : n ≤ 1 := by
              by_contra hn
              have := Nat.mul_le_mul_right r'.size (show 2 ≤ n by omega)
              omega
            have hn0 : n ≠ 0 := by rintro rfl; omega
            omega
          subst hn
          rw [one_mul] at hsb hsz
          exact ⟨by omega, hsz⟩
      -- formats
      unfold dfsrFmt at hfmt
      split at hfmt
      case h_2 => cases hfmt
      rename_i r' fmt' hr' hfmt'
      cases hfmt
      have : r' = r := by
        rw [indexReprc, if_neg (by omega), hspecs] at hr'
        simp only [List.head?_cons, Option.bind_some] at hr'
        rw [hr] at hr'
        exact (Option.some.inj hr').symm
      subst this
      have hidx0 : isIndex 0 f.mode = true := by simp [isIndex, h0]
      rw [hspecs, channelsFmt, if_pos hidx0] at hfmt'
      have hcols' := hcols
      rw [dfsrColumns, if_neg (by omega), hspecs, channelColumns, if_neg (by omega), hidx0,
        Bool.true_or, if_pos rfl, hone.2] at hcols'
      split at hcols'
      case h_2 => cases hcols'
      rename_i c cs hc hcs
      cases hc
      cases hcols'
      refine ⟨Or.inl h0, rfl, rfl, hrate, fun h => by omega, ?_, r', 1, cs, hr1, hr2, hic, rfl,
        isIndex_succ 0 _, by rw [hch]; exact hfmt', by rw [hch]; exact hcs, ?_, ?_, fun _ => hib,
        _, hcols, rfl⟩
      · intro s hs; rw [hch] at hs; exact hvall s (by simp [hs])
      · simp [itemsize]
      · rw [hib, hch, ← hone.1]; simp [frameBytes]
    · -- mode 1
      rw [if_neg (by omega)] at hvalid
      match hdr : f.depthReprc with
      | none => rw [hdr] at hvalid; cases hvalid
      | some d =>
        rw [hdr] at hvalid
        have hne : f.mode ≠ 0 := by omega
        simp only [hne, ne_eq, not_false_eq_true, decide_true, Bool.true_or, Bool.and_eq_true,
          decide_eq_true_eq] at hvalid
        obtain ⟨⟨⟨hv1, hv2⟩, -⟩, hall⟩ := hvalid
        obtain ⟨r, hr, hcode, hr1, hr2⟩ := indexReprc_valid hv1 hv2
        have hvall : ∀ s ∈ first :: others, validSpec s = true := by simpa using hall
        obtain ⟨-, hd, hw, hnp, hpos, -, -⟩ := fixed_reprc r hr1 hr2
        have hic : indexCode f = r.code := by rw [indexCode, if_neg hne, hdr]; exact hcode
        have hib : indexBytes f = 0 := by rw [indexBytes, if_neg hne]
        have hch : channels f = first :: others := by rw [channels, if_neg hne, hspecs]
        have hir : indexReprc f = some r := by
          rw [indexReprc, if_pos h1, hdr, Option.bind_some, hr]
        unfold dfsrFmt at hfmt
        rw [hir] at hfmt
        split at hfmt
        case h_2 => cases hfmt
        rename_i r' fmt' hr' hfmt'
        cases hr'
        cases hfmt
        have hcols' := hcols
        rw [dfsrColumns, if_pos h1, hir, Option.bind_some, hnp] at hcols'
        split at hcols'
        case h_2 => cases hcols'
        rename_i c cs hc hcs
        cases hc
        cases hcols'
        rw [hspecs] at hfmt' hcs
        refine ⟨Or.inr h1, rfl, rfl, hrate, fun _ => if_pos h1, ?_, r, 0, cs, hr1, hr2, hic, rfl, ?_,
          by rw [hch]; exact hfmt', by rw [hch]; exact hcs, ?_, ?_, fun h => by omega, _, hcols, rfl⟩
        · intro s hs; rw [hch] at hs; exact hvall s hs
        · simp [isIndex, hne]
        · simp [itemsize]
        · rw [hib, hch, zero_add]

/-- Reading one entry with the format of an index. -/
theorem readSample_index {xs : Bytes} {len cap : Nat} {r : Reprc} (h1 : r ≠ .string)
    (h2 : r ≠ .mask) (w : Cur) :
    readSample xs len cap [r.fmt, '1'] w =
      if xs.length < w.ptr + r.size then .overrun
      else if len < w.ptr + r.size then .throws
      else (w.put cap (.cell (entry r.code (slice xs w.ptr r.size)))).bind fun w =>
        .ok ([], { w with ptr := w.ptr + r.size }) := by
  have hst : strtol 0 ['1'] = (1, []) := by decide
  rw [readSample, if_pos (fixed_reprc r h1 h2).1, hst]
  simp only
  rw [readEntries_succ xs len cap r h1 h2]
  split
  · rfl
  split
  · rfl
  · rw [slice]
    cases (w.put cap (.cell (entry r.code ((xs.drop w.ptr).take r.size)))) <;> rfl

theorem entry_size {r : Reprc} (h1 : r ≠ .string) (h2 : r ≠ .mask) (e : Bytes) :
    (entry r.code e).size = Spec.inMemory r.fmt := by
  obtain ⟨-, hd, -, -, -, -, he⟩ := fixed_reprc r h1 h2
  rw [he, value_size hd]

theorem readIndex_eq {xs : Bytes} {len : Nat} {r : Reprc} (h1 : r ≠ .string) (h2 : r ≠ .mask)
    {conf : Conf} (hf : conf.indexfmt = [r.fmt, '1']) (ptr : Nat) (ix : Idx) :
    readIndex xs len conf ptr ix =
      if xs.length < ptr + r.size then .overrun
      else if len < ptr + r.size then .throws
      else .ok (ptr + r.size, ix.update (entry r.code (slice xs ptr r.size)).toFlt) := by
  have hh := (fixed_reprc r h1 h2).2.2.2.2.2.1
  rw [readIndex, hf]
  simp only
  rw [if_pos (fixed_reprc r h1 h2).1, readSample_index h1 h2]
  simp only
  split
  · rfl
  split
  · rfl
  · rw [Cur.put, if_pos]
    · rfl
    · simp only [Out.size, entry_size h1 h2, hh]
      omega

/-- What the reader writes for the index in subframe `k` (from 0) of a frame. -/
def subCell (ch : Char) (ix : Idx) (samples k : Nat) : Parsed Cell :=
  (ix.value (toInt8 (k + 1)) samples).bind (indexCell ch)

theorem indexCell_size {r : Reprc} {x : Flt} {c : Cell} (h : indexCell r.fmt x = .ok c) :
    c.size = Spec.inMemory r.fmt := by
  cases r
  case string => cases h
  case mask => cases h
  all_goals
    unfold indexCell at h
    simp only [Reprc.fmt] at h
    first
    | (cases h; rfl)
    | (simp at h; done)
    | (simp at h; obtain ⟨n, -, h⟩ := bind_ok h; cases h; rfl)

theorem writeIndices_ok {cap : Nat} {conf : Conf} {ix : Idx} {ch : Char} {t : List Char}
    (hf : conf.indexfmt = ch :: t) (start : Int) : ∀ (n k : Nat) (cur : Int) (log : List (Int × Out)) (cur' : Int)
    (log' : List (Int × Out)),
    writeIndices cap conf ix n (k + 1) (start + conf.framesize * k) cur log = .ok (cur', log') →
    ∃ cs : Nat → Cell, (∀ j, k ≤ j → j < k + n → subCell ch ix conf.samples j = .ok (cs j)) ∧
    (0 < n → cur' = start + conf.framesize * ((k + n : ℕ) - 1) + (cs (k + n - 1)).size) ∧
    ∃ L, log' = log ++ L ∧ ∀ e, e ∈ L ↔ ∃ j, k ≤ j ∧ j < k + n ∧
      e = (start + conf.framesize * j, .cell (cs j))
  | 0, k, cur, log, cur', log', h => by
    cases h
    refine ⟨fun _ => .u8 0, by intros; omega, by simp, [], by simp, fun e => ?_⟩
    simp; intros; omega
  | n + 1, k, cur, log, cur', log', h => by
    rw [writeIndices] at h
    obtain ⟨x, hx, h⟩ := bind_ok h
    obtain ⟨w, hw, h⟩ := bind_ok h
    rw [writeIndex, hf] at hw
    simp only at hw
    obtain ⟨c, hc, hw⟩ := bind_ok hw
    obtain ⟨-, rfl⟩ := put_ok hw
    simp only at h
    rw [show start + (conf.framesize : Int) * k + conf.framesize = start + conf.framesize * ((k + 1 : ℕ)) by
      push_cast; ring] at h
    obtain ⟨cs, hcs, hcur, L, hL, hm⟩ := writeIndices_ok hf start n (k + 1) _ _ _ _ h
    have hk : subCell ch ix conf.samples k = .ok c := by rw [subCell, hx]; exact hc
    refine ⟨fun j => if j = k then c else cs j, ?_, ?_, _, by rw [hL, List.append_assoc], ?_⟩
    · intro j h1 h2
      by_cases hj : j = k
      · subst hj; simpa using hk
      · simp only [if_neg hj]; exact hcs j (by omega) (by omega)
    · intro _
      cases n with
      | zero =>
        cases h
        simp [Out.size]
      | succ n =>
        rw [hcur (by omega)]
        have h1 : k + (n + 1 + 1) - 1 ≠ k := by omega
        simp only [if_neg h1]
        rw [show k + (n + 1 + 1) - 1 = k + 1 + (n + 1) - 1 by omega]
        push_cast
        ring
    · intro e
      rw [List.singleton_append, List.mem_cons, hm]
      constructor
      · rintro (rfl | ⟨j, h1, h2, rfl⟩)
        · exact ⟨k, by omega, by omega, by simp⟩
        · refine ⟨j, by omega, by omega, ?_⟩
          have hj : j ≠ k := by omega
          simp only [if_neg hj]
      · rintro ⟨j, h1, h2, rfl⟩
        by_cases hj : j = k
        · subst hj; simp
        · right
          refine ⟨j, by omega, by omega, ?_⟩
          simp only [if_neg hj]

/-- The index part of a frame. -/
theorem frameIndex_ok {xs : Bytes} {len cap rate : Nat} {conf : Conf} {r : Reprc} {w : Cur}
    {ix : Idx} {w' : Cur} {ix' : Idx} (h1 : r ≠ .string) (h2 : r ≠ .mask)
    (hf : conf.indexfmt = [r.fmt, '1']) (hrate : conf.samples = rate) (hr0 : 0 < rate)
    (h : frameIndex xs len cap conf w ix = .ok (w', ix')) :
    w'.ptr = w.ptr + (if conf.mode = 0 then r.size else 0) ∧
    w'.dst = w.dst + Spec.inMemory r.fmt ∧
    ix' = (if conf.mode = 0 ∧ 1 < rate then ix.update (entry r.code (slice xs w.ptr r.size)).toFlt
      else ix) ∧
    ∃ cs : Nat → Cell, (∀ k < rate, (cs k).size = Spec.inMemory r.fmt ∧
      if conf.mode = 0 ∧ rate = 1 then cs k = entry r.code (slice xs w.ptr r.size)
      else subCell r.fmt ix' rate k = .ok (cs k)) ∧
    ∃ L, w'.log = w.log ++ L ∧ ∀ e, e ∈ L ↔ ∃ k < rate, e = (w.dst + conf.framesize * k, .cell (cs k)) := by
  unfold frameIndex at h
  rw [hrate] at h
  split at h
  · rename_i hm
    obtain ⟨⟨f1, w1⟩, hs, h⟩ := bind_ok h
    cases h
    rw [hf, readSample_index h1 h2] at hs
    split at hs
    · cases hs
    split at hs
    · cases hs
    obtain ⟨w2, hput, hs⟩ := bind_ok hs
    obtain ⟨-, rfl⟩ := put_ok hput
    cases hs
    have hr1 : rate = 1 := by omega
    subst hr1
    refine ⟨by simp [hm.1], by simp [Out.size, entry_size h1 h2], by simp, fun _ => entry r.code (slice xs w.ptr r.size),
      ?_, _, rfl, ?_⟩
    · intro k hk
      refine ⟨entry_size h1 h2 _, ?_⟩
      rw [if_pos ⟨hm.1, rfl⟩]
    · intro e
      simp
  · rename_i hm
    obtain ⟨⟨p, ix1⟩, hp, h⟩ := bind_ok h
    obtain ⟨⟨cur, log⟩, hw, h⟩ := bind_ok h
    cases h
    obtain ⟨cs, hcs, hcur, L, hL, hmem⟩ := writeIndices_ok hf w.dst rate 0 _ _ _ _
      (by simpa using hw)
    have hsz : ∀ k < rate, (cs k).size = Spec.inMemory r.fmt := by
      intro k hk
      have := hcs k (by omega) (by omega)
      rw [subCell] at this
      obtain ⟨x, -, hx⟩ := bind_ok this
      exact indexCell_size hx
    have hpp : p = w.ptr + (if conf.mode = 0 then r.size else 0) ∧
        ix1 = (if conf.mode = 0 ∧ 1 < rate then ix.update (entry r.code (slice xs w.ptr r.size)).toFlt
          else ix) := by
      split at hp
      · rename_i hm0
        rw [readIndex_eq h1 h2 hf] at hp
        split at hp
        · cases hp
        split at hp
        · cases hp
        cases hp
        rw [if_pos hm0, if_pos hm0.1]
        exact ⟨rfl, rfl⟩
      · rename_i hm0
        cases hp
        have : conf.mode ≠ 0 := by
          intro h0
          by_cases h : 1 < rate
          · exact hm0 ⟨h0, h⟩
          · exact hm ⟨h0, h⟩
        rw [if_neg hm0, if_neg this]
        exact ⟨rfl, rfl⟩
    refine ⟨hpp.1, ?_, hpp.2, cs, ?_, L, hL, fun e => ?_⟩
    · simp only
      rw [hcur hr0, hsz _ (by omega)]
      push_cast
      ring
    · intro k hk
      refine ⟨hsz k hk, ?_⟩
      rw [if_neg, ← hrate]
      · exact hcs k (by omega) (by omega)
      · rintro ⟨h0, h1⟩
        exact hm ⟨h0, by omega⟩
    · rw [hmem]
      simp

/-- A frame that is read: the bytes of all channels are consumed, and the `k`-th row gets an
index and the `k`-th values of the channels. -/
theorem readFrame_ok {f : Format} {rate : Nat} {spacing : Flt} {conf : Conf}
    (hc : curvesConf f rate spacing = some conf) (hr0 : 0 < rate)
    {xs : Bytes} {len cap : Nat} {w : Cur} {ix : Idx} {w' : Cur} {ix' : Idx}
    (h : readFrame xs len cap conf w ix = .ok (w', ix')) :
    w'.ptr = w.ptr + frameBytes f.specs ∧ w'.dst = w.dst + rate * conf.framesize ∧
    ∃ (r : Reprc) (cs : Nat → Cell), r ≠ .string ∧ r ≠ .mask ∧ indexCode f = r.code ∧
    ix' = (if f.mode = 0 ∧ 1 < rate then ix.update (entry r.code (slice xs w.ptr r.size)).toFlt
      else ix) ∧
    (∀ k < rate, if f.mode = 0 ∧ rate = 1 then cs k = entry r.code (slice xs w.ptr r.size)
      else subCell r.fmt ix' rate k = .ok (cs k)) ∧
    (∀ k < rate, outBytes (.cell (cs k) :: row rate (channels f) (xs.drop (w.ptr + indexBytes f)) k) =
      conf.framesize) ∧
    ∃ L, w'.log = w.log ++ L ∧ ∀ e, e ∈ L ↔ ∃ k < rate, e ∈ place (w.dst + conf.framesize * k)
      (.cell (cs k) :: row rate (channels f) (xs.drop (w.ptr + indexBytes f)) k) := by
  obtain ⟨hmode, hcm, hsam, -, -, hv, r, i, cols, h1, h2, hcode, hfmt, hi, hcf, hcc, hfs, hfb, hib, -⟩ :=
    conf_facts hc
  unfold readFrame at h
  obtain ⟨⟨w1, ix1⟩, hidx, h⟩ := bind_ok h
  obtain ⟨w2, hch, h⟩ := bind_ok h
  simp only [Parsed.ok.injEq, Prod.mk.injEq] at h
  obtain ⟨rfl, rfl⟩ := h
  obtain ⟨hp1, hd1, hix, cs, hcs, L1, hL1, hm1⟩ := frameIndex_ok h1 h2 hfmt hsam hr0 hidx
  obtain ⟨hp2, hd2, ⟨L2, hL2, hm2⟩, hsz⟩ :=
    readChannels_ok hsam (channels f) i _ _ cols _ _ hi hv hcf hcc hch
  have hp1' : w1.ptr = w.ptr + indexBytes f := by
    rw [hp1, hcm]
    rcases hmode with h0 | h0
    · rw [if_pos h0, hib h0]
    · rw [if_neg (by omega), indexBytes, if_neg (by omega)]
  simp only at hp2 hd2 hL2 hm2 hsz
  rw [hp1'] at hm2 hsz
  rw [hcm] at hix hcs
  refine ⟨?_, ?_, r, cs, h1, h2, hcode, hix, fun k hk => (hcs k hk).2, ?_, L1 ++ L2, ?_, ?_⟩
  · simp only
    rw [hp2, hp1', hfb]
    ring
  · simp only
    rw [hd2, hd1, hsam, hfs]
    push_cast
    ring
  · intro k hk
    rw [outBytes_cons, hsz k hk, Out.size, (hcs k hk).1, hfs]
  · simp only
    rw [hL2, hL1, List.append_assoc]
  · intro e
    rw [List.mem_append, hm1, hm2]
    have hpl : ∀ k < rate, (e ∈ place (w.dst + conf.framesize * k)
        (.cell (cs k) :: row rate (channels f) (xs.drop (w.ptr + indexBytes f)) k) ↔
        (e = (w.dst + conf.framesize * k, .cell (cs k)) ∨
          e ∈ place (w1.dst + conf.framesize * k) (row rate (channels f) (xs.drop (w.ptr + indexBytes f)) k))) := by
      intro k hk
      rw [place, List.mem_cons, Out.size, (hcs k hk).1, hd1]
      rw [show w.dst + (conf.framesize : Int) * k + Spec.inMemory r.fmt =
        w.dst + Spec.inMemory r.fmt + conf.framesize * k by ring]
    constructor
    · rintro (⟨k, hk, h⟩ | ⟨k, hk, h⟩)
      · exact ⟨k, hk, (hpl k hk).2 (Or.inl h)⟩
      · exact ⟨k, hk, (hpl k hk).2 (Or.inr h)⟩
    · rintro ⟨k, hk, h⟩
      rcases (hpl k hk).1 h with h | h
      · exact Or.inl ⟨k, hk, h⟩
      · exact Or.inr ⟨k, hk, h⟩

/-! ## C51 -/

theorem hostWidth_reprc {r : Reprc} (h1 : r ≠ .string) (h2 : r ≠ .mask) :
    hostWidth r.code = Spec.inMemory r.fmt := by
  cases r <;> first | exact absurd rfl h1 | exact absurd rfl h2 | decide

theorem specSize_column {rate : Nat} {s : SpecCommon} (hv : validSpec s = true)
    (hs : Selected rate s) : specSize s = some (columnBytes s) := by
  obtain ⟨-, -, -, hcase⟩ := channel_cases s hv rate hs
  rcases hcase with ⟨hcode, -, hsize⟩ | ⟨r, n, h1, h2, hcode, hsb, -, hsize⟩
  · rw [hsize, columnBytes, if_pos hcode]
  · obtain ⟨-, -, hw, -, hpos, -, -⟩ := fixed_reprc r h1 h2
    have hne : s.reprc ≠ 65 := by
      rw [hcode]
      cases r <;> first | exact absurd rfl h1 | decide
    rw [hsize, columnBytes, if_neg hne, hcode, hw, hsb, Option.getD_some, Nat.mul_div_cancel _ hpos,
      hostWidth_reprc h1 h2]

theorem channelColumns_eq {mode : Int} {rate : Nat} : ∀ (specs : List SpecCommon) (i : Nat),
    isIndex i mode = false → (∀ s ∈ specs, validSpec s = true) →
    channelColumns mode rate i specs =
      some ((specs.filter fun s => Selected rate s).map fun s => (s.mnemonic, columnBytes s))
  | [], i, hi, hv => rfl
  | s :: specs, i, hi, hv => by
    have hvs := hv s (by simp)
    have ih := channelColumns_eq (mode := mode) (rate := rate) specs (i + 1) (isIndex_succ i mode)
      (fun t ht => hv t (by simp [ht]))
    have h0 : s.reservedSize ≠ 0 := by
      unfold validSpec at hvs
      simp only [Bool.and_eq_true, decide_eq_true_eq] at hvs
      exact hvs.1.1.1.1
    rw [channelColumns, hi, Bool.false_or, ih]
    by_cases hs : Selected rate s
    · rw [if_neg (by have := hs.1; omega), if_pos (by simpa using hs.2), specSize_column hvs hs,
        List.filter_cons_of_pos (by simpa using hs)]
      rfl
    · rw [List.filter_cons_of_neg (by simpa using hs)]
      split
      · rfl
      · rw [if_neg]
        intro h
        exact hs ⟨by omega, by simpa using h⟩

theorem channelsFmt_some {mode : Int} {rate : Nat} : ∀ (specs : List SpecCommon) (i : Nat),
    (∀ s ∈ specs, validSpec s = true) → ∃ fmt, channelsFmt mode rate i specs = some fmt
  | [], i, hv => ⟨[], rfl⟩
  | s :: specs, i, hv => by
    have hvs := hv s (by simp)
    obtain ⟨b, hb⟩ := channelsFmt_some (mode := mode) (rate := rate) specs (i + 1)
      (fun t ht => hv t (by simp [ht]))
    rw [channelsFmt, hb]
    split
    · exact ⟨b, rfl⟩
    · by_cases hs : Selected rate s
      · obtain ⟨-, -, -, ⟨-, h, -⟩ | ⟨r, n, -, -, -, -, h, -⟩⟩ := channel_cases s hvs rate hs
        · rw [h]; exact ⟨_, rfl⟩
        · rw [h]; exact ⟨_, rfl⟩
      · rw [channelFmt_skip hvs hs]; exact ⟨_, rfl⟩

/-- **C51** (columns).  The columns of the type built for the array are the index and the
selected channels in their order, each with the size of its values. -/
theorem c51_columns {f : Format} (hv : validFormat f = true) (rate : Nat) :
    dfsrColumns f rate = some (columns f rate) := by
  unfold validFormat at hv
  rw [Bool.and_eq_true] at hv
  obtain ⟨hmode, hvalid⟩ := hv
  have hmode : f.mode = 0 ∨ f.mode = 1 := by simpa using hmode
  match hspecs : f.specs with
  | [] => rw [hspecs] at hvalid; cases hvalid
  | first :: others =>
    rw [hspecs] at hvalid
    simp only at hvalid
    rcases hmode with h0 | h1
    · rw [if_pos h0] at hvalid
      simp only [h0, ne_eq, not_true_eq_false, decide_false, Bool.false_or, Bool.and_eq_true,
        decide_eq_true_eq] at hvalid
      obtain ⟨⟨⟨hv1, hv2⟩, hvi⟩, hall⟩ := hvalid
      obtain ⟨r, hr, hcode, hr1, hr2⟩ := indexReprc_valid hv1 hv2
      have hvall : ∀ s ∈ first :: others, validSpec s = true := by simpa using hall
      unfold validIndex at hvi
      simp only [Bool.and_eq_true, Bool.not_eq_true', decide_eq_false_iff_not] at hvi
      obtain ⟨⟨hi1, hi2⟩, hi3⟩ := hvi
      have hvf := hvall first (by simp)
      have hsel : Selected 1 first := by
        unfold validSpec at hvf
        simp only [Bool.and_eq_true, decide_eq_true_eq, Bool.not_eq_true', decide_eq_false_iff_not] at hvf
        exact ⟨by omega, by omega⟩
      have hidx0 : isIndex 0 f.mode = true := by simp [isIndex, h0]
      have hsz := specSize_column hvf hsel
      obtain ⟨-, hres, hcast, hcase⟩ := channel_cases first hvf 1 hsel
      rw [sizeofType, hr] at hi3
      simp only at hi3
      obtain ⟨-, -, hw, -, hpos, -, -⟩ := fixed_reprc r hr1 hr2
      have hone : columnBytes first = hostWidth first.reprc := by
        rcases hcase with ⟨h65, -, -⟩ | ⟨r', n, h1', h2', hc', hsb, _, _⟩
        · rw [h65] at hcode
          exfalso
          cases r <;> first | exact hr1 rfl | exact hr2 rfl | (revert hcode; decide)
        · have hrr : r' = r := by
            rw [hcode] at hc'
            cases r <;> cases r' <;> first | rfl | (revert hc'; decide)
          subst hrr
          have h2 := hsel.1
          have hn : n = 1 := by
            have : n * r'.size ≤ r'.size := by omega
            have hn1 : n ≤ 1 := by
              by_contra hn
              have := Nat.mul_le_mul_right r'.size (show 2 ≤ n by omega)
              omega
            have hn0 : n ≠ 0 := by rintro rfl; omega
            omega
          subst hn
          have hne : first.reprc ≠ 65 := by
            rw [hcode]
            cases r' <;> first | exact absurd rfl h1' | decide
          rw [columnBytes, if_neg hne, hsb, hcode, hw, Option.getD_some, one_mul,
            Nat.div_self hpos, one_mul]
      rw [dfsrColumns, if_neg (by omega), hspecs, channelColumns, if_neg (by omega), hidx0,
        Bool.true_or, if_pos rfl, hsz, channelColumns_eq others 1 (isIndex_succ 0 _)
          (fun s hs => hvall s (by simp [hs])), columns, indexLabel, indexCode, channels, if_pos h0,
        if_pos h0, if_pos h0, hspecs, hone]
      rfl
    · rw [if_neg (by omega)] at hvalid
      have hne : f.mode ≠ 0 := by omega
      match hdr : f.depthReprc with
      | none => rw [hdr] at hvalid; cases hvalid
      | some d =>
        rw [hdr] at hvalid
        simp only [hne, ne_eq, not_false_eq_true, decide_true, Bool.true_or, Bool.and_eq_true,
          decide_eq_true_eq] at hvalid
        obtain ⟨⟨⟨hv1, hv2⟩, -⟩, hall⟩ := hvalid
        obtain ⟨r, hr, hcode, hr1, hr2⟩ := indexReprc_valid hv1 hv2
        have hvall : ∀ s ∈ first :: others, validSpec s = true := by simpa using hall
        have hir : indexReprc f = some r := by
          rw [indexReprc, if_pos h1, hdr, Option.bind_some, hr]
        rw [dfsrColumns, if_pos h1, hir, Option.bind_some, (fixed_reprc r hr1 hr2).2.2.2.1, hspecs,
          channelColumns_eq _ 0 (by simp [isIndex, hne]) hvall, columns, indexLabel, indexCode,
          channels, if_neg hne, if_neg hne, if_neg hne, hdr, hspecs, ← hostWidth_reprc hr1 hr2,
          ← hcode]
        rfl

/-- **C51** (accepted).  Every format that passes the validation can be read at every rate
that fits in 8 bits. -/
theorem c51_accepted {f : Format} (hv : validFormat f = true) (rate : Nat) (hr : rate < 256)
    (spacing : Flt) : ∃ conf, curvesConf f rate spacing = some conf := by
  have hcols := c51_columns hv rate
  have hv' := hv
  unfold validFormat at hv'
  rw [Bool.and_eq_true] at hv'
  obtain ⟨hmode, hvalid⟩ := hv'
  have hmode : f.mode = 0 ∨ f.mode = 1 := by simpa using hmode
  have hfmt : ∃ p, dfsrFmt f rate = some p := by
    match hspecs : f.specs with
    | [] => rw [hspecs] at hvalid; cases hvalid
    | first :: others =>
      rw [hspecs] at hvalid
      simp only at hvalid
      split at hvalid
      · cases hvalid
      · rename_i r hr'
        simp only [Bool.and_eq_true, decide_eq_true_eq] at hvalid
        obtain ⟨⟨⟨hv1, hv2⟩, -⟩, hall⟩ := hvalid
        obtain ⟨c, hc, -, -, -⟩ := indexReprc_valid hv1 hv2
        have hvall : ∀ s ∈ first :: others, validSpec s = true := by simpa using hall
        obtain ⟨fmt, hf⟩ := channelsFmt_some (mode := f.mode) (rate := rate) _ 0 hvall
        have hir : indexReprc f = some c := by
          rcases hmode with h0 | h1
          · rw [if_pos h0] at hr'
            cases hr'
            rw [indexReprc, if_neg (by omega), hspecs]
            exact hc
          · rw [if_neg (by omega)] at hr'
            rw [indexReprc, if_pos h1, hr']
            exact hc
        refine ⟨([c.fmt, '1'], fmt), ?_⟩
        rw [dfsrFmt, hir, hspecs, hf]
  obtain ⟨⟨a, b⟩, hfmt⟩ := hfmt
  rw [curvesConf, hv, hfmt, hcols]
  simp [hr]

/-- **C51** (rates above 0).  Whenever a frame of an accepted format is read, the bytes consumed are those
reserved for all channels (also for suppressed ones and for those of another rate), and
each of its rows is filled from the first to the last byte: the values written to row `k`
are placed one after the other and have the size of a row of the array. -/
theorem c51_frame_partial {f : Format} {rate : Nat} {spacing : Flt} {conf : Conf}
    (hc : curvesConf f rate spacing = some conf) (hr0 : 0 < rate)
    {xs : Bytes} {len cap : Nat} {w : Cur} {ix : Idx} {w' : Cur} {ix' : Idx}
    (h : readFrame xs len cap conf w ix = .ok (w', ix')) :
    w'.ptr = w.ptr + (f.specs.map fun s => s.reservedSize.natAbs).sum ∧
    w'.dst = w.dst + rate * itemsize (columns f rate) ∧
    ∃ rows : Nat → List Out, (∀ k < rate, outBytes (rows k) = itemsize (columns f rate)) ∧
      ∃ L, w'.log = w.log ++ L ∧ ∀ e, e ∈ L ↔
        ∃ k < rate, e ∈ place (w.dst + itemsize (columns f rate) * k) (rows k) := by
  have hv : validFormat f = true := by
    unfold curvesConf at hc
    split at hc
    · cases hc
    · rename_i hv; simpa using hv
  have hfs : conf.framesize = itemsize (columns f rate) := by
    obtain ⟨-, -, -, -, -, -, r, i, cols, -, -, -, -, -, -, -, -, -, -, cs, hcs, hfs⟩ := conf_facts hc
    rw [c51_columns hv] at hcs
    cases hcs
    exact hfs
  obtain ⟨hp, hd, r, cs, -, -, -, -, -, hsz, L, hL, hm⟩ := readFrame_ok hc hr0 h
  rw [hfs] at hd hsz hm
  exact ⟨hp, hd, fun k => .cell (cs k) :: row rate (channels f) (xs.drop (w.ptr + indexBytes f)) k,
    hsz, L, hL, hm⟩

/-- A channel for the examples. -/
def exChan (mnemonic : Bytes) (reserved : Int) (samples reprc : Nat) : SpecCommon :=
  ⟨mnemonic, [], [], [], 0, reserved, samples, reprc⟩

/-- A 32-bit index, a 16-bit channel with two samples, a suppressed channel, a text and
three bytes with two samples each. -/
def exFormat : Format :=
  ⟨0, none, [exChan [0x44, 0x45, 0x50, 0x54] 4 1 73, exChan [0x41] 4 2 79, exChan [0x42] (-3) 1 66,
    exChan [0x43] 2 1 65, exChan [0x44] 6 2 66]⟩

/-- Two of its frames. -/
def exFrames : Bytes :=
  [0, 0, 0, 9, 0, 1, 0, 2, 7, 7, 7, 0x41, 0x42, 1, 2, 3, 4, 5, 6,
   0, 0, 0, 11, 0, 3, 0, 4, 7, 7, 7, 0x43, 0x44, 7, 8, 9, 10, 11, 12]

/-- The format at rate 2: 19 bytes of a frame give two rows of 9 bytes. -/
example : curvesConf exFormat 2 (.num 0) =
      some ⟨"l1".toList, "i1S3S2b3".toList, 2, 0, .num 0, 9⟩ ∧
    columns exFormat 2 = [([0x44, 0x45, 0x50, 0x54], 4), ([0x41], 2), ([0x44], 3)] ∧
    itemsize (columns exFormat 2) = 9 ∧ frameBytes exFormat.specs = 19 := by decide +kernel

/-- Read at rate 1. -/
example : (curvesConf exFormat 1 (.num 0)).map (readDataRecords · [some (exFrames, [])]) =
    some (.ok ⟨2, [(0, .cell (.i32 9)), (4, .str [0x41, 0x42]), (12, .cell (.i32 11)),
      (16, .str [0x43, 0x44])]⟩) := by decide +kernel

/-- **C51 fails** for the rate 0, which is not refused: the array has no rows, but an index
is written for every frame (mode 0). -/
theorem c51_rate_zero_defect : validFormat exFormat = true ∧
    (curvesConf exFormat 0 (.num 0)).map (readDataRecords · [some (exFrames, [])]) =
      some .overrun := by decide +kernel

end Dlisio.Lis
