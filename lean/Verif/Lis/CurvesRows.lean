import Verif.Lis.CurvesLayout
/-
C52: the rows of LIS curves.
-/
namespace Dlisio.Lis
namespace Spec

/-- The texts of the selected channels in a frame can be decoded. -/
def Legible (rate : Nat) : List SpecCommon → Bytes → Prop
  | [], _ => True
  | s :: specs, b =>
    (Selected rate s → s.reprc = 65 → ∀ k < rate,
      utf8Decode (slice b (k * sampleBytes s) (sampleBytes s)) ≠ none) ∧
    Legible rate specs (b.drop s.reservedSize.natAbs)

/-- The integer that a number is. -/
def integer (lo hi : Int) : Flt → Option Int
  | .num q => if q.den = 1 ∧ lo ≤ q.num ∧ q.num ≤ hi then some q.num else none
  | _ => none

/-- A `double` as a value of the type of the index: integers must be exact. -/
def store (code : Nat) (x : Flt) : Option Cell :=
  match code with
  | 56 => (integer (-128) 127 x).map .i8
  | 79 => (integer (-32768) 32767 x).map .i16
  | 73 => (integer (-2147483648) 2147483647 x).map .i32
  | 66 => (integer 0 255 x).map fun n => .u8 n.toNat
  | _ =>
    match x with
    | .num q => some (.float (.round q))
    | .inf s => some (.float (.inf s))
    | .nan => none

/-- The index of sample `k` of `n` (from 1) in a frame with index `x`, behind a frame with
index `p`: on the line between them; zero in the first frame but for its last sample. -/
def subIndex (prev : Option Flt) (x : Flt) (k n : Nat) : Flt :=
  if k = n then x
  else
    match prev with
    | none => .num 0
    | some p => p.add64 (((x.sub64 p).div64 n).mul64 k)

/-- The index written for row `k` (from 0) of a frame `b` with index `x`: as recorded if it
is recorded and needed once. -/
def indexCell? (f : Format) (rate : Nat) (prev : Option Flt) (x : Flt) (b : Bytes) (k : Nat) :
    Option Cell :=
  if f.mode = 0 ∧ rate = 1 then some (entry (indexCode f) (b.take (indexBytes f)))
  else store (indexCode f) (subIndex prev x (k + 1) rate)

/-- The rows of frames: each with its index and bytes. -/
def rowsOf (f : Format) (rate : Nat) : Option Flt → List (Flt × Bytes) → List (List Out)
  | _, [] => []
  | prev, (x, b) :: items =>
    ((List.range rate).map fun k =>
      .cell ((indexCell? f rate prev x b k).getD (.u8 0)) ::
        row rate (channels f) (b.drop (indexBytes f)) k) ++
    rowsOf f rate (some x) items

/-- All indices have a value of the type of the index. -/
def Writable (f : Format) (rate : Nat) : Option Flt → List (Flt × Bytes) → Prop
  | _, [] => True
  | prev, (x, b) :: items =>
    (∀ k < rate, indexCell? f rate prev x b k ≠ none) ∧ Writable f rate (some x) items

/-- A data record: the index before the frames (mode 1), the frames, and what is in the
memory behind it. -/
structure DataRecord where
  start : Bytes
  frames : List Bytes
  stale : Bytes

/-- The data of the record. -/
def DataRecord.data (r : DataRecord) : Bytes := r.start ++ r.frames.flatten

/-- The record is one of the format: whole frames with legible texts, behind an index in
mode 1. -/
structure DataRecord.Ok (f : Format) (rate : Nat) (r : DataRecord) : Prop where
  start : r.start.length = if f.mode = 0 then 0 else (width (indexCode f)).getD 0
  frames : ∀ b ∈ r.frames, b.length = frameBytes f.specs ∧
    Legible rate (channels f) (b.drop (indexBytes f))
  some : f.mode = 1 → r.frames ≠ []

/-- Frames with indices `x`, `x + spacing`, ... -/
def steps (spacing : Flt) : Flt → List Bytes → List (Flt × Bytes)
  | _, [] => []
  | x, b :: bs => (x, b) :: steps spacing (x.add64 spacing) bs

/-- The frames of a record with their indices: recorded in the frame, or counted from the
one of the record. -/
def DataRecord.items (f : Format) (spacing : Flt) (r : DataRecord) : List (Flt × Bytes) :=
  if f.mode = 0 then r.frames.map fun b => ((entry (indexCode f) (b.take (indexBytes f))).toFlt, b)
  else steps spacing (entry (indexCode f) r.start).toFlt r.frames

/-- The array holds the values from an offset on, byte by byte. -/
def Holds (a : Rows) (off : Nat) (outs : List Out) : Prop :=
  ∀ pre o post, outs = pre ++ o :: post → ∀ i < o.size,
    a.at (off + outBytes pre + i) = some (o, i)

end Spec

open _root_.Dlisio.Lis.Spec

/-! ### No failure on whole frames -/

theorem put_safe {cap : Nat} {o : Out} {w : Cur} (h0 : 0 ≤ w.dst) (h1 : w.dst + o.size ≤ cap) :
    w.put cap o = .ok { w with dst := w.dst + o.size, log := w.log ++ [(w.dst, o)] } := by
  rw [Cur.put, if_pos ⟨h0, h1⟩]

theorem readEntries_safe {xs : Bytes} {len cap : Nat} {r : Reprc} (h1 : r ≠ .string)
    (h2 : r ≠ .mask) (hlen : len ≤ xs.length) : ∀ (n : Nat) (w : Cur), 0 ≤ w.dst →
    w.dst + n * Spec.inMemory r.fmt ≤ cap → w.ptr + n * r.size ≤ len →
    ∃ w', readEntries xs len cap r.fmt n w = .ok w'
  | 0, w, _, _, _ => ⟨w, rfl⟩
  | n + 1, w, hd, hc, hp => by
    have he := entry_size h1 h2 ((xs.drop w.ptr).take r.size)
    have hmem : (0 : Int) ≤ (n : Int) * Spec.inMemory r.fmt := by positivity
    push_cast at hc
    rw [add_mul, one_mul] at hc hp
    rw [readEntries_succ xs len cap r h1 h2, if_neg (by omega), if_neg (by omega),
      put_safe hd (by rw [Out.size, he]; omega)]
    simp only [Parsed.bind]
    refine readEntries_safe h1 h2 hlen n _ ?_ ?_ ?_
    · simp only; omega
    · simp only [Out.size, he]; omega
    · simp only; omega

theorem readSample_safe {xs : Bytes} {len cap rate c : Nat} {s : SpecCommon} {tok rest : List Char}
    {w : Cur} (hv : validSpec s = true) (hs : Selected rate s)
    (ht : channelFmt rate s = some tok) (hc : specSize s = some c) (hr : NoDigit rest)
    (hlen : len ≤ xs.length) (hd : 0 ≤ w.dst) (hcap : w.dst + c ≤ cap)
    (hp : w.ptr + sampleBytes s ≤ len)
    (hl : s.reprc = 65 → utf8Decode (slice xs w.ptr (sampleBytes s)) ≠ none) :
    ∃ p, readSample xs len cap (tok ++ rest) w = .ok p := by
  obtain ⟨-, -, -, hcase⟩ := channel_cases s hv rate hs
  rcases hcase with ⟨hcode, htok, hsize⟩ | ⟨r, n, h1, h2, hcode, hsb, htok, hsize⟩
  · rw [htok] at ht; cases ht
    rw [hsize] at hc; cases hc
    obtain ⟨t, ht⟩ := Option.ne_none_iff_exists'.1 (hl hcode)
    rw [slice] at ht
    rw [List.cons_append, readSample, if_neg (by decide), if_pos rfl, strtol_number _ _ hr]
    simp only
    rw [if_neg (by omega), ht]
    simp only
    rw [put_safe hd (by simpa [Out.size] using hcap)]
    exact ⟨_, rfl⟩
  · rw [htok] at ht; cases ht
    rw [hsize] at hc; cases hc
    rw [List.cons_append, readSample, if_pos (fixed_reprc r h1 h2).1, strtol_number _ _ hr]
    obtain ⟨w', hw'⟩ := readEntries_safe h1 h2 hlen n w hd (by push_cast at hcap; exact hcap)
      (by rw [← hsb]; exact hp)
    simp only
    rw [hw']
    exact ⟨_, rfl⟩

theorem readSamples_safe {xs : Bytes} {len cap rate c : Nat} {conf : Conf} {s : SpecCommon}
    {tok rest : List Char} (hv : validSpec s = true) (hs : Selected rate s)
    (ht : channelFmt rate s = some tok) (hc : specSize s = some c) (hr : NoDigit rest)
    (hlen : len ≤ xs.length) (start : Int) (hstart : 0 ≤ start) (p : Nat)
    (hl : s.reprc = 65 → ∀ k < rate,
      utf8Decode (slice xs (p + k * sampleBytes s) (sampleBytes s)) ≠ none)
    (hcap : ∀ k < rate, start + conf.framesize * k + c ≤ cap)
    (hp : p + rate * sampleBytes s ≤ len) : ∀ (n k : Nat) (fmt : List Char) (w : Cur),
    k + n = rate → w.ptr = p + k * sampleBytes s →
    ∃ q, readSamples xs len cap conf (tok ++ rest) start n k fmt w = .ok q
  | 0, k, fmt, w, _, _ => ⟨_, rfl⟩
  | n + 1, k, fmt, w, hk, hw => by
    have hmul : (k + 1) * sampleBytes s ≤ rate * sampleBytes s := Nat.mul_le_mul_right _ (by omega)
    have hmul' : (k + 1) * sampleBytes s = k * sampleBytes s + sampleBytes s := by ring
    obtain ⟨⟨f1, w1⟩, h1⟩ := readSample_safe (xs := xs) (len := len) (cap := cap) (rest := rest)
      (w := { w with dst := start + conf.framesize * k }) hv hs ht hc hr hlen
      (by simp only; positivity) (hcap k (by omega)) (by simp only; omega)
      (fun h => by simp only [hw]; exact hl h k (by omega))
    rw [readSamples, h1]
    obtain ⟨-, rfl, -⟩ := readSample_ok hv hs ht hc hr h1
    simp only [Parsed.bind]
    exact readSamples_safe hv hs ht hc hr hlen start hstart p hl hcap hp n (k + 1) _ _ (by omega)
      (by simp only; rw [hw]; ring)

theorem decimal_length (n : Nat) : 0 < (decimal n).length := by
  rw [decimal]; split <;> simp

theorem readChannels_safe {xs : Bytes} {len cap rate : Nat} {conf : Conf} {mode : Int}
    (hconf : conf.samples = rate) (hlen : len ≤ xs.length) :
    ∀ (specs : List SpecCommon) (i n : Nat) (fmt : List Char)
    (cols : List (Bytes × Nat)) (w : Cur), isIndex i mode = false →
    (∀ s ∈ specs, validSpec s = true) →
    channelsFmt mode rate i specs = some fmt → channelColumns mode rate i specs = some cols →
    0 ≤ w.dst → (∀ k < rate, w.dst + conf.framesize * k + itemsize cols ≤ cap) →
    w.ptr + frameBytes specs ≤ len → Legible rate specs (xs.drop w.ptr) → fmt.length ≤ n →
    ∃ w', readChannels xs len cap conf n fmt w = .ok w'
  | [], i, n, fmt, cols, w, hi, hv, hf, hcol, hd, hcap, hp, hl, hn => by
    cases hf
    cases n <;> exact ⟨_, rfl⟩
  | s :: specs, i, n, fmt, cols, w, hi, hv, hf, hcol, hd, hcap, hp, hl, hn => by
    have hvs := hv s (by simp)
    have hvr : ∀ t ∈ specs, validSpec t = true := fun t ht => hv t (by simp [ht])
    rw [channelsFmt, hi] at hf
    simp only [Bool.false_eq_true, if_false] at hf
    split at hf
    case h_2 => cases hf
    rename_i tok fmt1 htok hfmt1
    cases hf
    have hnd := channelsFmt_noDigit hfmt1
    have hcols := channelColumns_cons hvs hi hcol
    have hfb : frameBytes (s :: specs) = s.reservedSize.natAbs + frameBytes specs := by
      simp [frameBytes]
    rw [hfb] at hp
    obtain ⟨hl1, hl2⟩ := hl
    rw [List.drop_drop] at hl2
    by_cases hs : Selected rate s
    · rw [if_pos hs] at hcols
      obtain ⟨c, cs, hc, hcs, rfl⟩ := hcols
      have hcsz : itemsize ((s.mnemonic, c) :: cs) = c + itemsize cs := by simp [itemsize]
      obtain ⟨hr0, hres, -, hcase⟩ := channel_cases s hvs rate hs
      obtain ⟨ch, t, rfl, hS⟩ : ∃ ch t, tok = ch :: t ∧ ch ≠ 'S' := by
        rcases hcase with ⟨-, h, -⟩ | ⟨r, m, -, -, -, -, h, -⟩
        · rw [h] at htok; cases htok; exact ⟨_, _, rfl, by decide⟩
        · rw [h] at htok; cases htok; exact ⟨_, _, rfl, (fmt_noDigit r).2⟩
      cases n with
      | zero => simp at hn
      | succ n =>
        rw [List.cons_append, readChannels, if_neg hS, ← List.cons_append, hconf]
        obtain ⟨⟨f1, w1⟩, h1⟩ := readSamples_safe (conf := conf) (cap := cap) hvs hs htok hc hnd hlen w.dst hd w.ptr
          (fun h k hk => by rw [← slice_drop]; exact hl1 hs h k hk)
          (fun k hk => by have := hcap k hk; rw [hcsz] at this; push_cast at this; omega)
          (by rw [← hres]; omega) rate 0 (ch :: t ++ fmt1) w (by omega) (by simp)
        obtain ⟨hd1, hptr, -, -⟩ := readSamples_ok hvs hs htok hc hnd w.dst w.ptr rate 0 _ _ _ _ h1 (by simp)
        obtain ⟨rfl, hdst⟩ := hd1 hr0
        rw [h1]
        simp only [Parsed.bind]
        have hptr1 : w1.ptr = w.ptr + s.reservedSize.natAbs := by rw [hptr, hres]; simp
        have hdst1 : w1.dst - conf.framesize * ((rate : Int) - 1) = w.dst + c := by
          rw [hdst]; push_cast; ring
        refine readChannels_safe hconf hlen specs (i + 1) n _ cs _ (isIndex_succ i mode) hvr hfmt1 hcs ?_ ?_ ?_ ?_ ?_
        · simp only; rw [hdst1]; omega
        · intro k hk
          simp only
          have := hcap k hk
          rw [hcsz] at this
          push_cast at this
          rw [hdst1]
          omega
        · simp only; rw [hptr1]; omega
        · simp only; rw [hptr1]; exact hl2
        · simp at hn ⊢; omega
    · rw [if_neg hs] at hcols
      rw [channelFmt_skip hvs hs] at htok
      cases htok
      cases n with
      | zero => simp at hn
      | succ n =>
        rw [List.cons_append, readChannels, if_pos rfl, strtol_number _ _ hnd]
        refine readChannels_safe hconf hlen specs (i + 1) n _ cols _ (isIndex_succ i mode) hvr hfmt1 hcols hd hcap ?_ hl2 ?_
        · simp only; omega
        · simp at hn ⊢; omega

theorem writeIndices_safe {cap : Nat} {conf : Conf} {ix : Idx} {r : Reprc} {t : List Char}
    (hf : conf.indexfmt = r.fmt :: t) (start : Int) (hstart : 0 ≤ start)
    (hcap : ∀ k < conf.samples, start + conf.framesize * k + Spec.inMemory r.fmt ≤ cap)
    (hsub : ∀ k < conf.samples, ∃ c, subCell r.fmt ix conf.samples k = .ok c) :
    ∀ (n k : Nat) (cur : Int) (log : List (Int × Out)), k + n = conf.samples →
    ∃ q, writeIndices cap conf ix n (k + 1) (start + conf.framesize * k) cur log = .ok q
  | 0, k, cur, log, _ => ⟨_, rfl⟩
  | n + 1, k, cur, log, hk => by
    obtain ⟨c, hc⟩ := hsub k (by omega)
    rw [subCell] at hc
    obtain ⟨x, hx, hc⟩ := bind_ok hc
    have hsz := indexCell_size hc
    rw [writeIndices, hx]
    simp only [Parsed.bind]
    rw [writeIndex, hf]
    simp only
    rw [hc]
    simp only [Parsed.bind]
    rw [put_safe (by simp only; positivity) (by simp only [Out.size]; rw [hsz]; exact hcap k (by omega))]
    simp only
    rw [show start + (conf.framesize : Int) * k + conf.framesize = start + conf.framesize * ((k + 1 : ℕ)) by
      push_cast; ring]
    exact writeIndices_safe hf start hstart hcap hsub n (k + 1) _ _ (by omega)

/-- Whole frames are read if their texts can be decoded and the index can be written. -/
theorem readFrame_safe {f : Format} {rate : Nat} {spacing : Flt} {conf : Conf}
    (hc : curvesConf f rate spacing = some conf) (hr0 : 0 < rate)
    {xs : Bytes} {len cap : Nat} {w : Cur} {ix : Idx} {r : Reprc} (hr1 : r ≠ .string) (hr2 : r ≠ .mask)
    (hcode : indexCode f = r.code)
    (hlen : len ≤ xs.length) (hp : w.ptr + frameBytes f.specs ≤ len) (hd : 0 ≤ w.dst)
    (hcap : w.dst + rate * conf.framesize ≤ cap)
    (hl : Legible rate (channels f) (xs.drop (w.ptr + indexBytes f)))
    (hi : ¬ (f.mode = 0 ∧ rate = 1) → ∀ k < rate, ∃ c, subCell r.fmt
      (if f.mode = 0 ∧ 1 < rate then ix.update (entry r.code (slice xs w.ptr r.size)).toFlt
      else ix) rate k = .ok c) :
    ∃ p, readFrame xs len cap conf w ix = .ok p := by
  obtain ⟨hmode, hcm, hsam, -, -, hv, r', i, cols, h1, h2, hcode', hfmt, hii, hcf, hcc, hfs, hfb, hib, -⟩ :=
    conf_facts hc
  have hrr : r' = r := by
    rw [hcode] at hcode'
    cases r <;> cases r' <;> first | rfl | (revert hcode'; decide)
  subst hrr
  have hcapk : ∀ k < rate, w.dst + conf.framesize * k + conf.framesize ≤ cap := by
    intro k hk
    have : (conf.framesize : Int) * (k + 1) ≤ conf.framesize * rate :=
      mul_le_mul_of_nonneg_left (by exact_mod_cast hk) (by positivity)
    have e : (conf.framesize : Int) * (k + 1) = conf.framesize * k + conf.framesize := by ring
    have e2 : (rate : Int) * conf.framesize = conf.framesize * rate := by ring
    omega
  have hfi : ∃ q, frameIndex xs len cap conf w ix = .ok q := by
    rw [frameIndex, hsam]
    split
    · rename_i hm
      rw [hfmt, readSample_index h1 h2, if_neg, if_neg, put_safe hd]
      · exact ⟨_, rfl⟩
      · have := hcapk 0 hr0
        rw [Out.size, entry_size h1 h2]
        push_cast at this
        omega
      · have := hib (by rw [← hcm]; exact hm.1); omega
      · have := hib (by rw [← hcm]; exact hm.1); omega
    · rename_i hm
      have hne : ¬ (f.mode = 0 ∧ rate = 1) := by rw [← hcm]; rintro ⟨a, b⟩; exact hm ⟨a, by omega⟩
      have hsub := hi hne
      rw [hcm]
      have hstep : (if f.mode = 0 ∧ 1 < rate then readIndex xs len conf w.ptr ix else Parsed.ok (w.ptr, ix)) =
          .ok (if f.mode = 0 ∧ 1 < rate then w.ptr + r'.size else w.ptr,
            if f.mode = 0 ∧ 1 < rate then ix.update (entry r'.code (slice xs w.ptr r'.size)).toFlt else ix) := by
        split
        · rename_i hm0
          have := hib hm0.1
          rw [readIndex_eq h1 h2 hfmt, if_neg (by omega), if_neg (by omega)]
        · rfl
      rw [hstep]
      simp only [Parsed.bind]
      obtain ⟨q, hq⟩ := writeIndices_safe (cap := cap) (conf := conf)
        (ix := if f.mode = 0 ∧ 1 < rate then ix.update (entry r'.code (slice xs w.ptr r'.size)).toFlt else ix)
        hfmt w.dst hd (fun k hk => by
          rw [hsam] at hk
          have := hcapk k hk
          rw [hfs] at this ⊢
          push_cast at this ⊢
          omega) (by rw [hsam]; exact hsub) rate 0 w.dst w.log (by omega)
      rw [show w.dst + (conf.framesize : Int) * ((0 : ℕ) : Int) = w.dst by simp] at hq
      rw [hq]
      exact ⟨_, rfl⟩
  obtain ⟨⟨w1, ix1⟩, hfi⟩ := hfi
  obtain ⟨hp1, hd1, -, -⟩ := frameIndex_ok h1 h2 hfmt hsam hr0 hfi
  have hp1' : w1.ptr = w.ptr + indexBytes f := by
    rw [hp1, hcm]
    rcases hmode with h0 | h0
    · rw [if_pos h0, hib h0]
    · rw [if_neg (by omega), indexBytes, if_neg (by omega)]
  obtain ⟨w2, hch⟩ := readChannels_safe (cap := cap) hsam hlen (channels f) i conf.fmtstr.length _ cols w1 hii hv hcf hcc
    (by rw [hd1]; omega) (fun k hk => by
      have := hcapk k hk
      rw [hd1]
      rw [hfs] at this ⊢
      push_cast at this ⊢
      omega) (by omega) (by rw [hp1']; exact hl) le_rfl
  rw [readFrame, hfi]
  simp only [Parsed.bind]
  rw [hch]
  exact ⟨_, rfl⟩

/-! ### The values of a frame -/

theorem toInt8_small {n : Nat} (h : n ≤ 127) : toInt8 n = n := by
  rw [toInt8, BitVec.toInt_eq_toNat_of_lt] <;> rw [BitVec.toNat_ofNat, Nat.mod_eq_of_lt (by omega)]
  omega

theorem value_small {x : Flt} {prev : Option Flt} {rate k : Nat} (hr : rate ≤ 127) (hk : k < rate)
    (hx : x ≠ .nan) (hp : prev ≠ some .nan) :
    Idx.value ⟨x, prev.getD .nan⟩ (toInt8 (k + 1)) rate = .ok (subIndex prev x (k + 1) rate) := by
  rw [toInt8_small (by omega), Idx.value]
  unfold subIndex
  by_cases h : k + 1 = rate
  · rw [if_pos (by exact_mod_cast h), if_pos h, Idx.index, if_neg hx]
  · rw [if_neg (by exact_mod_cast h), if_neg h]
    cases prev with
    | none => rfl
    | some p =>
      have : p ≠ .nan := fun e => hp (by rw [e])
      simp only [Option.getD_some]
      rw [if_neg this, if_neg (by push_cast; omega), Idx.index, if_neg hx]
      rfl

theorem toIntegral_integer {lo hi : Int} {x : Flt} {n : Int} (h : integer lo hi x = some n) :
    toIntegral lo hi x = .ok n := by
  cases x <;> simp only [integer, reduceCtorEq] at h
  rename_i q
  split at h
  case isFalse => cases h
  rename_i hq
  cases h
  rw [toIntegral, if_pos hq.1, if_pos hq.2]

theorem indexCell_store {r : Reprc} (h1 : r ≠ .string) (h2 : r ≠ .mask) {x : Flt} {c : Cell}
    (h : store r.code x = some c) : indexCell r.fmt x = .ok c := by
  cases r
  case string => exact absurd rfl h1
  case mask => exact absurd rfl h2
  case i8 =>
    simp only [store, Reprc.code, Option.map_eq_some_iff] at h
    obtain ⟨n, hn, rfl⟩ := h
    simp [indexCell, Reprc.fmt, toIntegral_integer hn, Parsed.bind]
  case i16 =>
    simp only [store, Reprc.code, Option.map_eq_some_iff] at h
    obtain ⟨n, hn, rfl⟩ := h
    simp [indexCell, Reprc.fmt, toIntegral_integer hn, Parsed.bind]
  case i32 =>
    simp only [store, Reprc.code, Option.map_eq_some_iff] at h
    obtain ⟨n, hn, rfl⟩ := h
    simp [indexCell, Reprc.fmt, toIntegral_integer hn, Parsed.bind]
  case byte =>
    simp only [store, Reprc.code, Option.map_eq_some_iff] at h
    obtain ⟨n, hn, rfl⟩ := h
    simp [indexCell, Reprc.fmt, toIntegral_integer hn, Parsed.bind]
  all_goals
    cases x <;> simp only [store, Reprc.code, reduceCtorEq, Option.some.injEq] at h <;> subst h <;>
      simp [indexCell, Reprc.fmt, toFloat]

theorem store_nan (code : Nat) : store code .nan = none := by
  unfold store
  split <;> rfl

theorem row_append {rate k : Nat} (hk : k < rate) : ∀ (specs : List SpecCommon) (b t : Bytes),
    frameBytes specs ≤ b.length → row rate specs (b ++ t) k = row rate specs b k
  | [], _, _, _ => rfl
  | s :: specs, b, t, h => by
    have hfb : frameBytes (s :: specs) = s.reservedSize.natAbs + frameBytes specs := by
      simp [frameBytes]
    rw [hfb] at h
    rw [row, row, List.drop_append_of_le_length (by omega), row_append hk specs _ t (by simp; omega)]
    split
    · rename_i hs
      have h2 : (k + 1) * sampleBytes s ≤ s.reservedSize.natAbs := by
        refine (Nat.mul_le_mul_right _ (show k + 1 ≤ s.samples by rw [hs.2]; omega)).trans ?_
        rw [sampleBytes]; exact Nat.mul_div_le _ _
      rw [add_mul, one_mul] at h2
      rw [slice, slice, List.drop_append_of_le_length (by omega),
        List.take_append_of_le_length (by simp; omega)]
    · rfl

theorem legible_append {rate : Nat} : ∀ (specs : List SpecCommon) (b t : Bytes),
    frameBytes specs ≤ b.length → Legible rate specs b → Legible rate specs (b ++ t)
  | [], _, _, _, _ => trivial
  | s :: specs, b, t, h, hl => by
    have hfb : frameBytes (s :: specs) = s.reservedSize.natAbs + frameBytes specs := by
      simp [frameBytes]
    rw [hfb] at h
    refine ⟨fun hs hc k hk => ?_, ?_⟩
    · have h2 : (k + 1) * sampleBytes s ≤ s.reservedSize.natAbs := by
        refine (Nat.mul_le_mul_right _ (show k + 1 ≤ s.samples by rw [hs.2]; omega)).trans ?_
        rw [sampleBytes]; exact Nat.mul_div_le _ _
      rw [add_mul, one_mul] at h2
      rw [slice, List.drop_append_of_le_length (by omega),
        List.take_append_of_le_length (by simp; omega)]
      exact hl.1 hs hc k hk
    · rw [List.drop_append_of_le_length (by omega)]
      exact legible_append specs _ t (by simp; omega) hl.2

/-- The rows of one frame. -/
def frameRows (f : Format) (rate : Nat) (prev : Option Flt) (x : Flt) (b : Bytes) : List (List Out) :=
  (List.range rate).map fun k =>
    .cell ((indexCell? f rate prev x b k).getD (.u8 0)) ::
      row rate (channels f) (b.drop (indexBytes f)) k

theorem code_injective {r r' : Reprc} (h : r.code = r'.code) : r = r' := by
  cases r <;> cases r' <;> first | rfl | (revert h; decide)

/-- The index that a frame is read with. -/
def ixOf (f : Format) (rate : Nat) (ix : Idx) (b : Bytes) : Idx :=
  if f.mode = 0 ∧ 1 < rate then ix.update (entry (indexCode f) (b.take (indexBytes f))).toFlt else ix

theorem readFrame_step {f : Format} {rate : Nat} {spacing : Flt} {conf : Conf}
    (hc : curvesConf f rate spacing = some conf) (hr0 : 0 < rate) (hr : rate ≤ 127)
    {xs t : Bytes} {len cap : Nat} {w : Cur} {ix : Idx} {prev : Option Flt} {x : Flt} {b : Bytes}
    (hb : b.length = frameBytes f.specs) (hx : xs.drop w.ptr = b ++ t)
    (hlen : len ≤ xs.length) (hp : w.ptr + frameBytes f.specs ≤ len) (hd : 0 ≤ w.dst)
    (hcap : w.dst + rate * conf.framesize ≤ cap)
    (hl : Legible rate (channels f) (b.drop (indexBytes f)))
    (hix : ¬ (f.mode = 0 ∧ rate = 1) → ixOf f rate ix b = ⟨x, prev.getD .nan⟩ ∧ prev ≠ some .nan)
    (hw : ∀ k < rate, indexCell? f rate prev x b k ≠ none) :
    ∃ w', readFrame xs len cap conf w ix = .ok (w', ixOf f rate ix b) ∧
      w'.ptr = w.ptr + frameBytes f.specs ∧ w'.dst = w.dst + rate * conf.framesize ∧
      (∀ o ∈ frameRows f rate prev x b, outBytes o = conf.framesize) ∧
      ∃ L, w'.log = w.log ++ L ∧ ∀ e, e ∈ L ↔ ∃ (k : Nat) (o : List Out), (frameRows f rate prev x b)[k]? = some o ∧
        e ∈ place (w.dst + conf.framesize * k) o := by
  obtain ⟨hmode, -, -, -, -, -, r, -, -, h1, h2, hcode, -, -, -, -, -, hfb, hib, -⟩ := conf_facts hc
  have hsl : f.mode = 0 → slice xs w.ptr r.size = b.take (indexBytes f) := by
    intro h0
    rw [slice, hx, hib h0, List.take_append_of_le_length (by have := hib h0; omega)]
  have hixeq : (if f.mode = 0 ∧ 1 < rate then ix.update (entry r.code (slice xs w.ptr r.size)).toFlt
      else ix) = ixOf f rate ix b := by
    unfold ixOf
    split
    · rename_i h0
      rw [hsl h0.1, hcode]
    · rfl
  have hdrop : xs.drop (w.ptr + indexBytes f) = b.drop (indexBytes f) ++ t := by
    rw [← List.drop_drop, hx, List.drop_append_of_le_length (by omega)]
  have hcells : ∀ k < rate, ∃ c, indexCell? f rate prev x b k = some c ∧
      (¬ (f.mode = 0 ∧ rate = 1) → subCell r.fmt (ixOf f rate ix b) rate k = .ok c) := by
    intro k hk
    obtain ⟨c, hcc⟩ := Option.ne_none_iff_exists'.1 (hw k hk)
    refine ⟨c, hcc, fun hne => ?_⟩
    obtain ⟨e1, e2⟩ := hix hne
    have hnan : x ≠ .nan := by
      rintro rfl
      have := hw (rate - 1) (by omega)
      rw [indexCell?, if_neg hne, subIndex.eq_def, if_pos (by omega), store_nan] at this
      exact this rfl
    rw [e1, subCell, value_small hr hk hnan e2]
    rw [indexCell?, if_neg hne, hcode] at hcc
    exact indexCell_store h1 h2 hcc
  obtain ⟨⟨w', ix'⟩, hok⟩ := readFrame_safe (cap := cap) (ix := ix) hc hr0 h1 h2 hcode hlen hp hd hcap
    (by rw [hdrop]; exact legible_append _ _ _ (by simp; omega) hl)
    (by
      intro hne k hk
      obtain ⟨c, -, h⟩ := hcells k hk
      rw [hixeq]
      exact ⟨c, h hne⟩)
  obtain ⟨hptr, hdst, r', cs, -, -, hcode', hix', hcs, hsz, L, hL, hm⟩ := readFrame_ok hc hr0 hok
  have hrr : r' = r := code_injective (by rw [← hcode', hcode])
  subst hrr
  rw [hixeq] at hix'
  subst hix'
  have hrow : ∀ k < rate, (.cell (cs k) :: row rate (channels f) (xs.drop (w.ptr + indexBytes f)) k) =
      (.cell ((indexCell? f rate prev x b k).getD (.u8 0)) ::
        row rate (channels f) (b.drop (indexBytes f)) k : List Out) := by
    intro k hk
    rw [hdrop, row_append hk _ _ _ (by simp; omega)]
    obtain ⟨c, hcc, hsub⟩ := hcells k hk
    have := hcs k hk
    rw [hcc, Option.getD_some]
    split at this
    · rename_i h0
      rw [indexCell?, if_pos h0] at hcc
      cases hcc
      rw [this, hsl h0.1, hcode]
    · rename_i h0
      rw [hsub h0] at this
      cases this
      rfl
  refine ⟨w', hok, hptr, hdst, ?_, L, hL, ?_⟩
  · intro o ho
    rw [frameRows, List.mem_map] at ho
    obtain ⟨k, hk, rfl⟩ := ho
    rw [List.mem_range] at hk
    rw [← hrow k hk]
    exact hsz k hk
  · intro e
    rw [hm]
    constructor
    · rintro ⟨k, hk, he⟩
      refine ⟨k, .cell (cs k) :: row rate (channels f) (xs.drop (w.ptr + indexBytes f)) k, ?_, he⟩
      rw [frameRows, List.getElem?_map, List.getElem?_range hk, Option.map_some, hrow k hk]
    · rintro ⟨k, o, ho, he⟩
      rw [frameRows, List.getElem?_map, Option.map_eq_some_iff] at ho
      obtain ⟨k', hk', rfl⟩ := ho
      rw [List.getElem?_eq_some_iff] at hk'
      obtain ⟨hk, hk'⟩ := hk'
      simp only [List.length_range, List.getElem_range] at hk hk'
      subst hk'
      rw [← hrow k hk] at he
      exact ⟨k, hk, he⟩

/-! ### All frames -/

/-- The rows so far are in the array. -/
structure Inv (fs rate : Nat) (rows : List (List Out)) (s : Reader) : Prop where
  frames : s.frames = rows.length
  dst : s.dst = (rows.length * fs : Nat)
  size : ∀ o ∈ rows, outBytes o = fs
  log : ∀ e, e ∈ s.log ↔ ∃ i o, rows[i]? = some o ∧ e ∈ place ((i * fs : Nat) : Int) o
  dvd : rate ∣ s.allocated ∧ rate ∣ s.frames
  le : s.frames ≤ s.allocated ∧ 0 < s.allocated

theorem Inv.grow {rate : Nat} {conf : Conf} {rows : List (List Out)} {s : Reader}
    (h : Inv conf.framesize rate rows s) : Inv conf.framesize rate rows (s.grow conf) ∧
    s.frames + rate ≤ (s.grow conf).allocated ∧ (s.grow conf).frames = s.frames ∧
    (s.grow conf).idx = s.idx := by
  obtain ⟨⟨a, ha⟩, ⟨b, hb⟩⟩ := h.dvd
  have h0 := h.le
  unfold Reader.grow
  split
  · rename_i he
    refine ⟨⟨h.frames, ?_, h.size, h.log, ⟨⟨b * 2, ?_⟩, h.dvd.2⟩, ?_, ?_⟩, ?_, rfl, rfl⟩
    · simp only; rw [h.frames]; push_cast; rfl
    · simp only; rw [hb]; ring
    · simp only; omega
    · simp only; omega
    · simp only
      have : 1 ≤ b := by
        rcases Nat.eq_zero_or_pos b with rfl | h'
        · simp at hb; omega
        · exact h'
      have : rate * 1 ≤ rate * b := Nat.mul_le_mul_left _ this
      omega
  · rename_i he
    refine ⟨h, ?_, rfl, rfl⟩
    have hlt : rate * b < rate * a := by omega
    have : b + 1 ≤ a := by
      have := lt_of_mul_lt_mul_left hlt (Nat.zero_le rate)
      omega
    have : rate * (b + 1) ≤ rate * a := Nat.mul_le_mul_left _ this
    rw [mul_add, mul_one] at this
    omega

theorem Inv.append {rate : Nat} {fs : Nat} {rows new : List (List Out)} {s : Reader} {w' : Cur}
    (h : Inv fs rate rows s) (hn : new.length = rate) (ha : s.frames + rate ≤ s.allocated)
    (hd : w'.dst = s.dst + rate * fs) (hsz : ∀ o ∈ new, outBytes o = fs)
    {L : List (Int × Out)} (hL : w'.log = s.log ++ L)
    (hm : ∀ e, e ∈ L ↔ ∃ (k : Nat) (o : List Out), new[k]? = some o ∧ e ∈ place (s.dst + fs * k) o) (ix : Idx) :
    Inv fs rate (rows ++ new) { s with dst := w'.dst, log := w'.log, frames := s.frames + rate, idx := ix } := by
  refine ⟨?_, ?_, ?_, ?_, ⟨h.dvd.1, ?_⟩, ha, h.le.2⟩
  · simp only; rw [h.frames, List.length_append, hn]
  · simp only; rw [hd, h.dst, List.length_append, hn]; push_cast; ring
  · intro o ho
    rcases List.mem_append.1 ho with ho | ho
    exacts [h.size o ho, hsz o ho]
  · intro e
    simp only
    rw [hL, List.mem_append, h.log, hm]
    constructor
    · rintro (⟨i, o, hi, he⟩ | ⟨k, o, hk, he⟩)
      · refine ⟨i, o, ?_, he⟩
        rw [List.getElem?_append_left]
        · exact hi
        · exact (List.getElem?_eq_some_iff.1 hi).1
      · refine ⟨rows.length + k, o, ?_, ?_⟩
        · rw [List.getElem?_append_right (by omega)]; simpa using hk
        · rw [h.dst] at he
          rw [show (((rows.length + k) * fs : ℕ) : Int) = (rows.length * fs : ℕ) + fs * k by push_cast; ring]
          exact he
    · rintro ⟨i, o, hi, he⟩
      rcases Nat.lt_or_ge i rows.length with hlt | hge
      · rw [List.getElem?_append_left hlt] at hi
        exact Or.inl ⟨i, o, hi, he⟩
      · rw [List.getElem?_append_right hge] at hi
        refine Or.inr ⟨i - rows.length, o, hi, ?_⟩
        rw [h.dst]
        rw [show ((rows.length * fs : ℕ) : Int) + fs * ((i - rows.length : ℕ) : Int) = (i * fs : ℕ) by
          rw [Nat.cast_sub hge]; push_cast; ring]
        exact he
  · simp only; exact Dvd.dvd.add h.dvd.2 dvd_rfl

/-- The index behind frames. -/
def lastOf : Option Flt → List (Flt × Bytes) → Option Flt
  | prev, [] => prev
  | _, (x, _) :: items => lastOf (some x) items

theorem rowsOf_append (f : Format) (rate : Nat) : ∀ (a : List (Flt × Bytes)) (prev : Option Flt)
    (b : List (Flt × Bytes)),
    rowsOf f rate prev (a ++ b) = rowsOf f rate prev a ++ rowsOf f rate (lastOf prev a) b
  | [], _, _ => rfl
  | (x, y) :: a, prev, b => by
    rw [List.cons_append, rowsOf, rowsOf, rowsOf_append f rate a (some x) b, List.append_assoc, lastOf]

theorem writable_append (f : Format) (rate : Nat) : ∀ (a : List (Flt × Bytes)) (prev : Option Flt)
    (b : List (Flt × Bytes)),
    Writable f rate prev (a ++ b) ↔ Writable f rate prev a ∧ Writable f rate (lastOf prev a) b
  | [], _, _ => by simp [Writable, lastOf]
  | (x, y) :: a, prev, b => by
    rw [List.cons_append, Writable, Writable, writable_append f rate a (some x) b, lastOf, and_assoc]

/-- One round of the loop. -/
theorem round_step {f : Format} {rate : Nat} {spacing : Flt} {conf : Conf}
    (hc : curvesConf f rate spacing = some conf) (hr0 : 0 < rate) (hr : rate ≤ 127)
    {xs t : Bytes} {len ptr : Nat} {prev : Option Flt} {x : Flt} {b : Bytes} {s : Reader}
    {rows : List (List Out)} (hI : Inv conf.framesize rate rows s)
    (hb : b.length = frameBytes f.specs) (hx : xs.drop ptr = b ++ t)
    (hlen : len ≤ xs.length) (hp : ptr + frameBytes f.specs ≤ len)
    (hl : Legible rate (channels f) (b.drop (indexBytes f)))
    (hix : ¬ (f.mode = 0 ∧ rate = 1) → ixOf f rate s.idx b = ⟨x, prev.getD .nan⟩ ∧ prev ≠ some .nan)
    (hw : ∀ k < rate, indexCell? f rate prev x b k ≠ none) :
    ∃ w', readFrame xs len ((s.grow conf).allocated * conf.framesize) conf
        ⟨ptr, (s.grow conf).dst, (s.grow conf).log⟩ (s.grow conf).idx =
        .ok (w', ixOf f rate s.idx b) ∧ w'.ptr = ptr + frameBytes f.specs ∧
      ∀ ix, Inv conf.framesize rate (rows ++ frameRows f rate prev x b)
        { s.grow conf with dst := w'.dst, log := w'.log, frames := (s.grow conf).frames + conf.samples, idx := ix } := by
  obtain ⟨hI', ha, hf, hi⟩ := hI.grow
  obtain ⟨-, -, hsam, -⟩ := conf_facts hc
  rw [hi]
  have hcap : (s.grow conf).dst + rate * conf.framesize ≤ ((s.grow conf).allocated * conf.framesize : ℕ) := by
    rw [hI'.dst, ← hI'.frames, hf]
    have := Nat.mul_le_mul_right conf.framesize ha
    rw [add_mul] at this
    exact_mod_cast this
  obtain ⟨w', hok, hptr, hdst, hsz, L, hL, hm⟩ := readFrame_step (cap := (s.grow conf).allocated * conf.framesize)
    (w := ⟨ptr, (s.grow conf).dst, (s.grow conf).log⟩) hc hr0 hr hb hx hlen hp
    (by simp only; rw [hI'.dst]; positivity) hcap hl hix hw
  refine ⟨w', hok, hptr, fun ix => ?_⟩
  rw [hsam]
  exact hI'.append (by simp [frameRows]) (by rw [hf]; exact ha) hdst hsz hL hm ix

theorem rowsOf_cons (f : Format) (rate : Nat) (prev : Option Flt) (x : Flt) (b : Bytes)
    (items : List (Flt × Bytes)) :
    rowsOf f rate prev ((x, b) :: items) = frameRows f rate prev x b ++ rowsOf f rate (some x) items := rfl

theorem readFrames_done (xs : Bytes) (len : Nat) (conf : Conf) (n : Nat) (s : Reader) :
    readFrames xs len conf n len s = .ok s := by
  cases n <;> rw [readFrames] <;> simp

theorem notNan_of_cells {f : Format} {rate : Nat} (hr0 : 0 < rate) {prev : Option Flt} {x : Flt}
    {b : Bytes} (hne : ¬ (f.mode = 0 ∧ rate = 1))
    (hw : ∀ k < rate, indexCell? f rate prev x b k ≠ none) : x ≠ .nan := by
  rintro rfl
  have := hw (rate - 1) (by omega)
  rw [indexCell?, if_neg hne, subIndex.eq_def, if_pos (by omega), store_nan] at this
  exact this rfl

/-- What the index channel remembers. -/
def Remembers (f : Format) (rate : Nat) (prev : Option Flt) (s : Reader) : Prop :=
  ¬ (f.mode = 0 ∧ rate = 1) → s.idx.current = prev.getD .nan ∧ prev ≠ some .nan

theorem readFrames_mode0 {f : Format} {rate : Nat} {spacing : Flt} {conf : Conf}
    (hc : curvesConf f rate spacing = some conf) (hr0 : 0 < rate) (hr : rate ≤ 127)
    (hm : f.mode = 0) {xs stale : Bytes} {len : Nat} (hlen : len ≤ xs.length) :
    ∀ (bs : List Bytes) (n ptr : Nat) (prev : Option Flt) (rows : List (List Out)) (s : Reader),
    Inv conf.framesize rate rows s → Remembers f rate prev s →
    (∀ b ∈ bs, b.length = frameBytes f.specs ∧ Legible rate (channels f) (b.drop (indexBytes f))) →
    0 < frameBytes f.specs →
    xs.drop ptr = bs.flatten ++ stale → len = ptr + bs.flatten.length → bs.length ≤ n →
    Writable f rate prev (bs.map fun b => ((entry (indexCode f) (b.take (indexBytes f))).toFlt, b)) →
    ∃ s', readFrames xs len conf n ptr s = .ok s' ∧
      Inv conf.framesize rate (rows ++ rowsOf f rate prev
        (bs.map fun b => ((entry (indexCode f) (b.take (indexBytes f))).toFlt, b))) s' ∧
      Remembers f rate (lastOf prev
        (bs.map fun b => ((entry (indexCode f) (b.take (indexBytes f))).toFlt, b))) s'
  | [], n, ptr, prev, rows, s, hI, hR, _, _, _, hl, _, _ => by
    have : len = ptr := by simpa using hl
    subst this
    exact ⟨s, readFrames_done _ _ _ _ _, by simpa [rowsOf] using hI, by simpa [lastOf] using hR⟩
  | b :: bs, n, ptr, prev, rows, s, hI, hR, hbs, hpos, hx, hl, hn, hw => by
    obtain ⟨hb, hleg⟩ := hbs b (by simp)
    obtain ⟨-, hcm, -⟩ := conf_facts hc
    rw [List.flatten_cons, List.append_assoc] at hx
    rw [List.flatten_cons, List.length_append] at hl
    obtain ⟨hw1, hw2⟩ := hw
    cases n with
    | zero => simp at hn
    | succ n =>
      obtain ⟨w', hok, hptr, hI'⟩ := round_step hc hr0 hr hI hb hx hlen (by omega) hleg
        (x := (entry (indexCode f) (b.take (indexBytes f))).toFlt) (prev := prev)
        (by
          intro hne
          obtain ⟨h1, h2⟩ := hR hne
          refine ⟨?_, h2⟩
          rw [ixOf, if_pos ⟨hm, by omega⟩, Idx.update, h1]) hw1
      rw [readFrames, if_neg (by omega)]
      simp only
      rw [hok]
      simp only [Parsed.bind]
      rw [if_neg (by rw [hcm]; omega)]
      simp only
      have hR' : Remembers f rate (some (entry (indexCode f) (b.take (indexBytes f))).toFlt)
          { s.grow conf with dst := w'.dst, log := w'.log, frames := (s.grow conf).frames + conf.samples, idx := ixOf f rate s.idx b } := by
        intro hne
        simp only
        refine ⟨?_, ?_⟩
        · rw [ixOf, if_pos ⟨hm, by omega⟩]; rfl
        · have := notNan_of_cells hr0 hne hw1
          simpa using this
      obtain ⟨s', h1, h2, h3⟩ := readFrames_mode0 hc hr0 hr hm hlen bs n w'.ptr _ _ _ (hI' _) hR'
        (fun b hb => hbs b (by simp [hb])) hpos
        (by rw [hptr, ← List.drop_drop, hx, ← hb, List.drop_left]) (by omega) (by simpa using hn) hw2
      refine ⟨s', h1, ?_, h3⟩
      rw [List.map_cons, rowsOf_cons, ← List.append_assoc]
      exact h2

theorem readFrames_mode1 {f : Format} {rate : Nat} {spacing : Flt} {conf : Conf}
    (hc : curvesConf f rate spacing = some conf) (hr0 : 0 < rate) (hr : rate ≤ 127)
    (hm : f.mode = 1) {xs stale : Bytes} {len : Nat} (hlen : len ≤ xs.length) :
    ∀ (bs : List Bytes) (n ptr : Nat) (prev : Option Flt) (x : Flt) (rows : List (List Out)) (s : Reader),
    Inv conf.framesize rate rows s → s.idx = ⟨x, prev.getD .nan⟩ → prev ≠ some .nan → bs ≠ [] →
    (∀ b ∈ bs, b.length = frameBytes f.specs ∧ Legible rate (channels f) (b.drop (indexBytes f))) →
    0 < frameBytes f.specs →
    xs.drop ptr = bs.flatten ++ stale → len = ptr + bs.flatten.length → bs.length ≤ n →
    Writable f rate prev (steps spacing x bs) →
    ∃ s', readFrames xs len conf n ptr s = .ok s' ∧
      Inv conf.framesize rate (rows ++ rowsOf f rate prev (steps spacing x bs)) s' ∧
      Remembers f rate (lastOf prev (steps spacing x bs)) s'
  | [], n, ptr, prev, x, rows, s, hI, hR, _, h, _, _, _, _, _, _ => absurd rfl h
  | b :: bs, n, ptr, prev, x, rows, s, hI, hidx, hnn, _, hbs, hpos, hx, hl, hn, hw => by
    obtain ⟨hb, hleg⟩ := hbs b (by simp)
    obtain ⟨-, hcm, -, -, hsp, -⟩ := conf_facts hc
    have hne : ¬ (f.mode = 0 ∧ rate = 1) := by omega
    rw [List.flatten_cons, List.append_assoc] at hx
    rw [List.flatten_cons, List.length_append] at hl
    obtain ⟨hw1, hw2⟩ := hw
    have hixof : ixOf f rate s.idx b = ⟨x, prev.getD .nan⟩ := by rw [ixOf, if_neg (by omega), hidx]
    have hxn := notNan_of_cells hr0 hne hw1
    cases n with
    | zero => simp at hn
    | succ n =>
      obtain ⟨w', hok, hptr, hI'⟩ := round_step hc hr0 hr hI hb hx hlen (by omega) hleg
        (x := x) (prev := prev) (fun _ => ⟨hixof, hnn⟩) hw1
      rw [readFrames, if_neg (by omega)]
      simp only
      rw [hok, hixof]
      simp only [Parsed.bind]
      cases bs with
      | nil =>
        have hlast : w'.ptr = len := by simp at hl; omega
        rw [if_neg (by omega), hlast]
        simp only
        refine ⟨_, readFrames_done _ _ _ _ _, ?_, ?_⟩
        · rw [steps, rowsOf_cons]
          simpa [steps, rowsOf] using hI' _
        · intro _
          refine ⟨rfl, ?_⟩
          simpa [lastOf, steps] using hxn
      | cons b' bs =>
        have hb' := (hbs b' (by simp)).1
        rw [if_pos ⟨by rw [hcm]; exact hm, by rw [List.flatten_cons, List.length_append] at hl; omega⟩,
          Idx.index, if_neg hxn]
        simp only
        obtain ⟨s', h1, h2, h3⟩ := readFrames_mode1 hc hr0 hr hm hlen (b' :: bs) n w'.ptr (some x)
          (x.add64 spacing) _ _ (hI' (Idx.update ⟨x, prev.getD .nan⟩ (x.add64 conf.spacing)))
          (by simp only; rw [hsp hm]; rfl) (by simpa using hxn) (by simp)
          (fun b hb => hbs b (by simp [hb])) hpos
          (by rw [hptr, ← List.drop_drop, hx, ← hb, List.drop_left]) (by omega) (by simpa using hn) hw2
        refine ⟨s', h1, ?_, h3⟩
        rw [steps, rowsOf_cons, ← List.append_assoc]
        exact h2

theorem frameBytes_pos {f : Format} {rate : Nat} {spacing : Flt} {conf : Conf}
    (hc : curvesConf f rate spacing = some conf) : 0 < frameBytes f.specs := by
  have hv : validFormat f = true := by
    unfold curvesConf at hc
    split at hc
    · cases hc
    · rename_i hv; simpa using hv
  unfold validFormat at hv
  rw [Bool.and_eq_true] at hv
  obtain ⟨-, hv⟩ := hv
  match hspecs : f.specs with
  | [] => rw [hspecs] at hv; cases hv
  | first :: others =>
    rw [hspecs] at hv
    simp only at hv
    split at hv
    · cases hv
    · simp only [List.all_cons, Bool.and_eq_true] at hv
      obtain ⟨-, h, -⟩ := hv
      unfold validSpec at h
      simp only [Bool.and_eq_true, decide_eq_true_eq] at h
      have : frameBytes (first :: others) = first.reservedSize.natAbs + frameBytes others := by
        simp [frameBytes]
      omega

theorem flatten_length (n : Nat) : ∀ bs : List Bytes, (∀ b ∈ bs, b.length = n) →
    bs.flatten.length = bs.length * n
  | [], _ => by simp
  | b :: bs, h => by
    rw [List.flatten_cons, List.length_append, h b (by simp), flatten_length n bs (fun b hb => h b (by simp [hb])),
      List.length_cons]
    ring

theorem readDataRecord_ok {f : Format} {rate : Nat} {spacing : Flt} {conf : Conf}
    (hc : curvesConf f rate spacing = some conf) (hr0 : 0 < rate) (hr : rate ≤ 127)
    (rec : DataRecord) (hrec : rec.Ok f rate) (prev : Option Flt) (rows : List (List Out)) (s : Reader)
    (hI : Inv conf.framesize rate rows s) (hR : Remembers f rate prev s)
    (hw : Writable f rate prev (rec.items f spacing)) :
    ∃ s', readDataRecord conf rec.data rec.stale s = .ok s' ∧
      Inv conf.framesize rate (rows ++ rowsOf f rate prev (rec.items f spacing)) s' ∧
      Remembers f rate (lastOf prev (rec.items f spacing)) s' := by
  obtain ⟨hmode, hcm, -, -, -, -, r, -, -, h1, h2, hcode, hfmt, -⟩ := conf_facts hc
  have hpos := frameBytes_pos hc
  have hfl := flatten_length (frameBytes f.specs) rec.frames (fun b hb => (hrec.frames b hb).1)
  have hfuel : rec.frames.length ≤ rec.data.length := by
    have : rec.frames.length * 1 ≤ rec.frames.length * frameBytes f.specs := Nat.mul_le_mul_left _ hpos
    rw [DataRecord.data, List.length_append]
    omega
  have hlen : rec.data.length ≤ (rec.data ++ rec.stale).length := by simp
  have hst := hrec.start
  unfold readDataRecord
  rcases hmode with h0 | hm1
  · rw [if_pos h0] at hst
    have hstart : rec.start = [] := List.length_eq_zero_iff.1 hst
    rw [if_neg (by rw [hcm]; omega)]
    simp only [Parsed.bind]
    rw [DataRecord.items, if_pos h0] at hw ⊢
    refine readFrames_mode0 hc hr0 hr h0 hlen rec.frames _ 0 prev rows _ ?_ hR hrec.frames hpos
      (stale := rec.stale) ?_ ?_ hfuel hw
    · exact ⟨hI.frames, hI.dst, hI.size, hI.log, hI.dvd, hI.le⟩
    · simp [DataRecord.data, hstart]
    · simp [DataRecord.data, hstart]
  · rw [if_neg (by omega), hcode] at hst
    have hsize : rec.start.length = r.size := by
      rw [hst]; cases r <;> rfl
    have hdl : rec.data.length = r.size + rec.frames.flatten.length := by
      rw [DataRecord.data, List.length_append, hsize]
    have htake : slice (rec.data ++ rec.stale) 0 r.size = rec.start := by
      rw [slice, List.drop_zero, DataRecord.data, List.append_assoc, ← hsize, List.take_left]
    have hne : ¬ (f.mode = 0 ∧ rate = 1) := by omega
    obtain ⟨hR1, hR2⟩ := hR hne
    rw [if_pos (by rw [hcm]; exact hm1), readIndex_eq h1 h2 hfmt, if_neg (by omega), if_neg (by omega)]
    simp only [Parsed.bind]
    rw [DataRecord.items, if_neg (by omega)] at hw ⊢
    refine readFrames_mode1 hc hr0 hr hm1 hlen rec.frames _ _ prev _ rows _ ?_ ?_ hR2 (hrec.some hm1)
      hrec.frames hpos (stale := rec.stale) ?_ ?_ hfuel hw
    · exact ⟨hI.frames, hI.dst, hI.size, hI.log, hI.dvd, hI.le⟩
    · simp only [Idx.update]
      rw [htake, hR1, hcode]
    · rw [DataRecord.data, List.append_assoc, zero_add, ← hsize, List.drop_left]
    · omega

theorem readRecords_ok {f : Format} {rate : Nat} {spacing : Flt} {conf : Conf}
    (hc : curvesConf f rate spacing = some conf) (hr0 : 0 < rate) (hr : rate ≤ 127) :
    ∀ (recs : List DataRecord), (∀ r ∈ recs, r.Ok f rate) →
    ∀ (prev : Option Flt) (rows : List (List Out)) (s : Reader),
    Inv conf.framesize rate rows s → Remembers f rate prev s →
    Writable f rate prev (recs.flatMap (·.items f spacing)) →
    ∃ s', readRecords conf (recs.map fun r => some (r.data, r.stale)) s = .ok s' ∧
      Inv conf.framesize rate (rows ++ rowsOf f rate prev (recs.flatMap (·.items f spacing))) s'
  | [], _, prev, rows, s, hI, hR, _ => ⟨s, rfl, by simpa [rowsOf] using hI⟩
  | r :: recs, hok, prev, rows, s, hI, hR, hw => by
    rw [List.flatMap_cons, writable_append] at hw
    obtain ⟨s1, h1, h2, h3⟩ := readDataRecord_ok hc hr0 hr r (hok r (by simp)) prev rows s hI hR hw.1
    obtain ⟨s2, h4, h5⟩ := readRecords_ok hc hr0 hr recs (fun r hr => hok r (by simp [hr])) _ _ s1 h2 h3 hw.2
    refine ⟨s2, ?_, ?_⟩
    · rw [List.map_cons, readRecords, h1]
      exact h4
    · rw [List.flatMap_cons, rowsOf_append, ← List.append_assoc]
      exact h5

/-! ### The bytes of the array -/

/-- The value at a byte of values one after the other. -/
def locate : List Out → Nat → Option (Out × Nat)
  | [], _ => none
  | o :: outs, k => if k < o.size then some (o, k) else locate outs (k - o.size)

theorem place_bounds {e : Int × Out} : ∀ {outs : List Out} {off : Int}, e ∈ place off outs →
    off ≤ e.1 ∧ e.1 + e.2.size ≤ off + outBytes outs
  | [], off, h => by simp [place] at h
  | o :: outs, off, h => by
    rw [place, List.mem_cons] at h
    rw [outBytes_cons]
    push_cast
    rcases h with rfl | h
    · simp only
      have : (0 : Int) ≤ outBytes outs := by positivity
      omega
    · have := place_bounds h
      omega

theorem place_locate {e : Int × Out} : ∀ {outs : List Out} {off : Int}, e ∈ place off outs →
    ∀ k : Nat, e.1 ≤ off + k → off + k < e.1 + e.2.size →
    locate outs k = some (e.2, (off + k - e.1).toNat)
  | [], off, h, _, _, _ => by simp [place] at h
  | o :: outs, off, h, k, h1, h2 => by
    rw [place, List.mem_cons] at h
    rw [locate]
    rcases h with rfl | h
    · simp only at h1 h2 ⊢
      rw [if_pos (by omega)]
      simp
    · have hb := place_bounds h
      rw [if_neg (by omega), place_locate h (k - o.size) (by omega) (by omega)]
      congr 3
      omega

theorem mem_place (off : Int) (pre : List Out) (o : Out) (post : List Out) :
    (off + outBytes pre, o) ∈ place off (pre ++ o :: post) := by
  rw [place_append, List.mem_append]
  exact Or.inr (by rw [place]; simp)

theorem at_of_log {a : Rows} {k : Nat} {t : Out × Nat}
    (h1 : ∃ e ∈ a.log, e.1 ≤ (k : Int) ∧ (k : Int) < e.1 + e.2.size)
    (h2 : ∀ e ∈ a.log, e.1 ≤ (k : Int) → (k : Int) < e.1 + e.2.size → (e.2, ((k : Int) - e.1).toNat) = t) :
    a.at k = some t := by
  obtain ⟨e, he, hk⟩ := h1
  have hsome : (a.log.reverse.find? fun w => w.1 ≤ (k : Int) ∧ (k : Int) < w.1 + w.2.size).isSome := by
    rw [List.find?_isSome]
    exact ⟨e, by simpa using he, by simpa using hk⟩
  obtain ⟨w, hw⟩ := Option.isSome_iff_exists.1 hsome
  have hw1 := List.find?_some hw
  have hw2 := List.mem_of_find?_eq_some hw
  simp only [decide_eq_true_eq] at hw1
  rw [Rows.at, hw, Option.map_some, h2 w (by simpa using hw2) hw1.1 hw1.2]

theorem holds_of_log {fs : Nat} {rows : List (List Out)} {a : Rows}
    (hsz : ∀ o ∈ rows, outBytes o = fs)
    (hlog : ∀ e, e ∈ a.log ↔ ∃ i o, rows[i]? = some o ∧ e ∈ place ((i * fs : Nat) : Int) o)
    {i : Nat} {outs : List Out} (hi : rows[i]? = some outs) : Holds a (i * fs) outs := by
  intro pre o post he j hj
  have hmem : (((i * fs : Nat) : Int) + outBytes pre, o) ∈ place ((i * fs : Nat) : Int) outs := by
    rw [he]; exact mem_place _ _ _ _
  have hfs : outBytes outs = fs := hsz outs (List.mem_of_getElem? hi)
  have hb := place_bounds hmem
  simp only at hb
  rw [hfs] at hb
  have hloc := place_locate hmem (outBytes pre + j) (by push_cast; omega) (by push_cast; omega)
  refine at_of_log ⟨_, (hlog _).2 ⟨i, outs, hi, hmem⟩, by push_cast; omega, by push_cast; omega⟩ ?_
  intro e hel h1 h2
  obtain ⟨i', outs', hi', he'⟩ := (hlog e).1 hel
  have hb' := place_bounds he'
  rw [hsz outs' (List.mem_of_getElem? hi')] at hb'
  have hii : i' = i := by
    have e1 : i' * fs < (i + 1) * fs := by rw [add_mul, one_mul]; omega
    have e2 : i * fs < (i' + 1) * fs := by rw [add_mul, one_mul]; omega
    have := lt_of_mul_lt_mul_right e1 (Nat.zero_le _)
    have := lt_of_mul_lt_mul_right e2 (Nat.zero_le _)
    omega
  subst hii
  rw [hi] at hi'
  cases hi'
  have hloc' := place_locate he' (outBytes pre + j) (by push_cast at *; omega) (by push_cast at *; omega)
  rw [hloc'] at hloc
  simp only [Option.some.injEq, Prod.mk.injEq] at hloc ⊢
  obtain ⟨ha, hb2⟩ := hloc
  refine ⟨ha, ?_⟩
  push_cast at hb2 ⊢
  omega

theorem rowsOf_length (f : Format) (rate : Nat) : ∀ (items : List (Flt × Bytes)) (prev : Option Flt),
    (rowsOf f rate prev items).length = items.length * rate
  | [], _ => by simp [rowsOf]
  | (x, b) :: items, prev => by
    rw [rowsOf, List.length_append, rowsOf_length f rate items, List.length_map, List.length_range,
      List.length_cons]
    ring

theorem steps_length (spacing : Flt) : ∀ (bs : List Bytes) (x : Flt),
    (steps spacing x bs).length = bs.length
  | [], _ => rfl
  | b :: bs, x => by rw [steps, List.length_cons, steps_length spacing bs, List.length_cons]

theorem items_length (f : Format) (spacing : Flt) (r : DataRecord) :
    (r.items f spacing).length = r.frames.length := by
  unfold DataRecord.items
  split
  · simp
  · exact steps_length _ _ _

/-- **C52** (rates up to 127; see `c52_rate_defect`).  Records of whole frames give the
array with the rows of all frames, in order, `rate` for each; every byte of a row is that
of the value in its place. -/
theorem c52_rows_partial {f : Format} {rate : Nat} {spacing : Flt} {conf : Conf}
    (hc : curvesConf f rate spacing = some conf) (hr0 : 0 < rate) (hr : rate ≤ 127)
    (recs : List DataRecord) (hok : ∀ r ∈ recs, r.Ok f rate)
    (hw : Writable f rate none (recs.flatMap (·.items f spacing))) :
    ∃ a, readDataRecords conf (recs.map fun r => some (r.data, r.stale)) = .ok a ∧
      a.rows = (recs.map fun r => r.frames.length).sum * rate ∧
      (rowsOf f rate none (recs.flatMap (·.items f spacing))).length = a.rows ∧
      ∀ i outs, (rowsOf f rate none (recs.flatMap (·.items f spacing)))[i]? = some outs →
        outBytes outs = itemsize (columns f rate) ∧ Holds a (i * itemsize (columns f rate)) outs := by
  have hfs : conf.framesize = itemsize (columns f rate) := by
    have hv : validFormat f = true := by
      unfold curvesConf at hc
      split at hc
      · cases hc
      · rename_i hv; simpa using hv
    obtain ⟨-, -, -, -, -, -, r, i, cols, -, -, -, -, -, -, -, -, -, -, cs, hcs, hfs⟩ := conf_facts hc
    rw [c51_columns hv] at hcs
    cases hcs
    exact hfs
  have hlen : (rowsOf f rate none (recs.flatMap (·.items f spacing))).length =
      (recs.map fun r => r.frames.length).sum * rate := by
    rw [rowsOf_length, List.length_flatMap]
    congr 2
    exact List.map_congr_left fun r _ => items_length f spacing r
  obtain ⟨-, -, hsam, -⟩ := conf_facts hc
  cases recs with
  | nil => exact ⟨⟨0, []⟩, by simp [readDataRecords, readRecords, Parsed.bind], by simp, by simp [rowsOf], by simp [rowsOf]⟩
  | cons r0 recs =>
    have hI : Inv conf.framesize rate []
        ⟨0, [], 0, ((r0 :: recs).map fun r => some (r.data, r.stale)).length * conf.samples, .init⟩ := by
      refine ⟨rfl, by simp, by simp, by simp, ⟨?_, by simp⟩, by simp, ?_⟩
      · simp only; rw [hsam]; exact Dvd.intro_left _ rfl
      · simp only; rw [hsam]; simpa using hr0
    have hR : Remembers f rate none
        ⟨0, [], 0, ((r0 :: recs).map fun r => some (r.data, r.stale)).length * conf.samples, .init⟩ :=
      fun _ => ⟨rfl, by simp⟩
    obtain ⟨s', h1, h2⟩ := readRecords_ok hc hr0 hr (r0 :: recs) hok none [] _ hI hR hw
    rw [List.nil_append] at h2
    have hrows : (if s'.allocated > s'.frames then s'.frames else s'.allocated) = s'.frames := by
      have := h2.le
      split <;> omega
    refine ⟨⟨s'.frames, s'.log⟩, ?_, ?_, ?_, ?_⟩
    · rw [readDataRecords, h1]
      simp only [Parsed.bind]
      rw [hrows]
    · simp only; rw [h2.frames, hlen]
    · simp only; rw [h2.frames]
    · intro i outs hi
      rw [← hfs]
      exact ⟨h2.size _ (List.mem_of_getElem? hi), holds_of_log (a := ⟨s'.frames, s'.log⟩) h2.size h2.log hi⟩

end Dlisio.Lis
