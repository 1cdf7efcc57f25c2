import Verif.Double
import Verif.Utf8
import Verif.Lis.Protocol
/-
Model of reading LIS curves: the layout computed by python/dlisio/lis/curves.py and the
reader of python/dlisio/ext/lis.cpp.

The array is represented by the writes to it: offset from the begin of the buffer and
what is written.  A write outside the allocated rows, a read past the end of the memory
behind the record, and an endless loop are `Parsed.overrun`.  Counters are unbounded.
-/
namespace Dlisio.Lis

/-- On with the next step after one that succeeded. -/
def Parsed.bind {α β : Type} (a : Parsed α) (k : α → Parsed β) : Parsed β :=
  match a with
  | .ok a => k a
  | .throws => .throws
  | .overrun => .overrun

/-! ### The layout, curves.py -/

/-- What `curves` uses of a data format specification: `depth_mode`, `depth_reprc` and
`specs`, dataformatspec.py:130-149 and curves.py:461-525.  The entries are taken to be
integers. -/
structure Format where
  mode : Int
  depthReprc : Option Nat
  specs : List SpecCommon
deriving DecidableEq

/-- `is_index`, curves.py:312-316. -/
def isIndex (i : Nat) (mode : Int) : Bool := mode = 0 && i = 0

/-- Sizes of the types in `nptype`, curves.py:12-22; objects are pointers of 64 bits. -/
def nptypeSize : Reprc → Option Nat
  | .f16 => some 4 | .f32 => some 4 | .f32low => some 4 | .f32fix => some 4
  | .i8 => some 1 | .i16 => some 2 | .i32 => some 4 | .byte => some 1
  | .string => some 8 | .mask => none

/-- `reprc2fmt`, curves.py:295-309 with the characters of lis/types.h:140-151. -/
def Reprc.fmt : Reprc → Char
  | .i8 => 's' | .i16 => 'i' | .i32 => 'l' | .f16 => 'e' | .f32 => 'f'
  | .f32low => 'r' | .f32fix => 'p' | .string => 'a' | .byte => 'b' | .mask => 'm'

/-- `validate_reprc`, curves.py:447-458: `false` when it raises. -/
def validReprc (r : Nat) : Bool :=
  match Reprc.ofCode r with
  | none => false
  | some c => (nptypeSize c).isSome

/-- The checks on one specification block, curves.py:497-525.  The float divisions are of
integers below 2^16; `% 1` is zero exactly when the division is exact. -/
def validSpec (s : SpecCommon) : Bool :=
  s.reservedSize ≠ 0 && !decide (s.samples < 1) && s.reservedSize % s.samples = 0 &&
    validReprc s.reprc &&
    (Reprc.ofCode s.reprc = some .string ||
      decide (s.reservedSize / s.samples % sizeofType s.reprc = 0))

/-- The checks on the index channel, curves.py:483-495. -/
def validIndex (s : SpecCommon) : Bool :=
  !decide (s.reservedSize < 0) && !decide (1 < s.samples) &&
    !decide (sizeofType s.reprc < s.reservedSize)

/-- `validate_dfsr`, curves.py:461-525: `false` when it raises. -/
def validFormat (f : Format) : Bool :=
  (f.mode = 0 || f.mode = 1) &&
  match f.specs with
  | [] => false
  | first :: _ =>
    match if f.mode = 0 then some first.reprc else f.depthReprc with
    | none => false
    | some r =>
      validReprc r && Reprc.ofCode r ≠ some .string && (f.mode ≠ 0 || validIndex first) &&
        f.specs.all validSpec

/-- `str(n)` for the numbers in the format, curves.py:375-394. -/
def decimal (n : Nat) : List Char :=
  if n < 10 then [Char.ofNat (48 + n)] else decimal (n / 10) ++ [Char.ofNat (48 + n % 10)]

/-- `abs(int( spec.reserved_size / spec.samples) )`, curves.py:385. -/
def sampleSize (s : SpecCommon) : Nat := s.reservedSize.natAbs / s.samples

/-- The format of one channel, curves.py:375-394; `none` for an unknown representation
code. -/
def channelFmt (rate : Nat) (s : SpecCommon) : Option (List Char) :=
  if s.reservedSize < 0 then some ('S' :: decimal s.reservedSize.natAbs)
  else if s.samples ≠ rate then some ('S' :: decimal s.reservedSize.natAbs)
  else
    match Reprc.ofCode s.reprc with
    | none => none
    | some .string => some (Reprc.string.fmt :: decimal (sampleSize s))
    | some .mask => some (Reprc.mask.fmt :: decimal (sampleSize s))
    | some r => some (r.fmt :: decimal (sampleSize s / r.size))

/-- The loop over the channels from number `i` on, curves.py:371-394, joined as in 396. -/
def channelsFmt (mode : Int) (rate : Nat) : Nat → List SpecCommon → Option (List Char)
  | _, [] => some []
  | i, s :: specs =>
    if isIndex i mode then channelsFmt mode rate (i + 1) specs
    else
      match channelFmt rate s, channelsFmt mode rate (i + 1) specs with
      | some a, some b => some (a ++ b)
      | _, _ => none

/-- The representation code of the index, curves.py:363-367. -/
def indexReprc (f : Format) : Option Reprc :=
  if f.mode = 1 then f.depthReprc.bind fun r => Reprc.ofCode r
  else f.specs.head?.bind fun s => Reprc.ofCode s.reprc

/-- `dfsr_fmtstr`, curves.py:318-396: `indexfmt` and `fmtstr`. -/
def dfsrFmt (f : Format) (rate : Nat) : Option (List Char × List Char) :=
  match indexReprc f, channelsFmt f.mode rate 0 f.specs with
  | some r, some fmt => some ([r.fmt, '1'], fmt)
  | _, _ => none

/-- `spec_dtype`, curves.py:398-412: its item size. -/
def specSize (s : SpecCommon) : Option Nat :=
  match Reprc.ofCode s.reprc with
  | none => none
  | some .string => nptypeSize .string
  | some r => (nptypeSize r).map (· * (s.reservedSize / s.samples / r.size).toNat)

/-- The loop of `dfsr_dtype`, curves.py:430-433: mnemonics and item sizes. -/
def channelColumns (mode : Int) (rate : Nat) : Nat → List SpecCommon → Option (List (Bytes × Nat))
  | _, [] => some []
  | i, s :: specs =>
    if s.reservedSize < 0 then channelColumns mode rate (i + 1) specs
    else if isIndex i mode || s.samples = rate then
      match specSize s, channelColumns mode rate (i + 1) specs with
      | some n, some cols => some ((s.mnemonic, n) :: cols)
      | _, _ => none
    else channelColumns mode rate (i + 1) specs

/-- `types` of `dfsr_dtype`, curves.py:424-433; `DEPT` is `default_index_mnem`,
dataformatspec.py:44. -/
def dfsrColumns (f : Format) (rate : Nat) : Option (List (Bytes × Nat)) :=
  if f.mode = 1 then
    match (indexReprc f).bind nptypeSize, channelColumns f.mode rate 0 f.specs with
    | some n, some cols => some (([0x44, 0x45, 0x50, 0x54], n) :: cols)
    | _, _ => none
  else channelColumns f.mode rate 0 f.specs

/-- `dtype.itemsize` of a structured type without alignment: the sum of its columns. -/
def itemsize (cols : List (Bytes × Nat)) : Nat := (cols.map Prod.snd).sum

/-! ### Reading samples, ext/lis.cpp -/

/-- What is written to a column: a number, or the pointer to a string. -/
inductive Out where
  | cell (c : Cell)
  | str (t : List Nat)
deriving DecidableEq

/-- Bytes written. -/
def Out.size : Out → Nat
  | .cell c => c.size
  | .str _ => 8

/-- `ptr`, as offset from the begin of the record, `dst`, as offset from the begin of the
array, and the writes to the array so far. -/
structure Cur where
  ptr : Nat
  dst : Int
  log : List (Int × Out)
deriving DecidableEq

/-- `std::memcpy( dst, ... ); dst += sizeof(...)` for an array of `cap` bytes. -/
def Cur.put (cap : Nat) (o : Out) (w : Cur) : Parsed Cur :=
  if 0 ≤ w.dst ∧ w.dst + o.size ≤ cap then
    .ok { w with dst := w.dst + o.size, log := w.log ++ [(w.dst, o)] }
  else .overrun

/-- `std::strtol( fmt, &next, 10 )` for the plain numbers of `dfsr_fmtstr`: the number,
which is `n` followed by the digits read, and the rest. -/
def strtol : Nat → List Char → Nat × List Char
  | n, [] => (n, [])
  | n, c :: cs => if c.isDigit then strtol (n * 10 + (c.toNat - 48)) cs else (n, c :: cs)

/-- The loop over the entries of a sample, ext/lis.cpp:223-230: `xs` is the record and the
memory behind it, `len` the size of the record. -/
def readEntries (xs : Bytes) (len cap : Nat) (ch : Char) : Nat → Cur → Parsed Cur
  | 0, w => .ok w
  | n + 1, w =>
    match packflen [ch] (xs.drop w.ptr) with
    | none => .overrun
    | some (_, skip, _) =>
      if len < w.ptr + skip then .throws
      else
        match packf [ch] (xs.drop w.ptr) with
        | some (.ok, [c]) =>
          (w.put cap (.cell c)).bind fun w =>
            readEntries xs len cap ch n { w with ptr := w.ptr + skip }
        | _ => .overrun

/-- The characters of the first case of `read_sample`, ext/lis.cpp:210-217. -/
def fixedChars : List Char := ['s', 'i', 'l', 'e', 'f', 'r', 'p', 'b']

/-- `read_sample`, ext/lis.cpp:194-252: the rest of the format.  The string is decoded
strictly (`py::str( ptr, len )`); the object it replaces is not modelled. -/
def readSample (xs : Bytes) (len cap : Nat) (fmt : List Char) (w : Cur) :
    Parsed (List Char × Cur) :=
  match fmt with
  | [] => .throws
  | ch :: fmt =>
    if ch ∈ fixedChars then
      (readEntries xs len cap ch (strtol 0 fmt).1 w).bind fun w => .ok ((strtol 0 fmt).2, w)
    else if ch = 'a' then
      if xs.length < w.ptr + (strtol 0 fmt).1 then .overrun
      else
        match utf8Decode ((xs.drop w.ptr).take (strtol 0 fmt).1) with
        | none => .throws
        | some t =>
          (w.put cap (.str t)).bind fun w =>
            .ok ((strtol 0 fmt).2, { w with ptr := w.ptr + (strtol 0 fmt).1 })
    else .throws

/-! ### The index -/

/-- `class indexchannel`, ext/lis.cpp:130-185. -/
structure Idx where
  current : Flt
  previous : Flt
deriving DecidableEq

/-- A new `indexchannel`, ext/lis.cpp:183-184. -/
def Idx.init : Idx := ⟨.nan, .nan⟩

/-- `indexchannel::index`, ext/lis.cpp:132-137. -/
def Idx.index (ix : Idx) : Parsed Flt := if ix.current = .nan then .throws else .ok ix.current

/-- `indexchannel::update`, ext/lis.cpp:139-142. -/
def Idx.update (ix : Idx) (x : Flt) : Idx := ⟨x, ix.current⟩

/-- `indexchannel::value`, ext/lis.cpp:158-180. -/
def Idx.value (ix : Idx) (sample : Int) (samples : Nat) : Parsed Flt :=
  if sample = samples then ix.index
  else if ix.previous = .nan then .ok (.num 0)
  else if sample > samples then .throws
  else ix.index.bind fun x =>
    .ok (ix.previous.add64 (((x.sub64 ix.previous).div64 samples).mul64 sample))

/-- The conversion of the loop variable to `std::int8_t` at the call ext/lis.cpp:402. -/
def toInt8 (n : Nat) : Int := (BitVec.ofNat 8 n).toInt

/-- `struct frameconfig`, ext/lis.cpp:102-109. -/
structure Conf where
  indexfmt : List Char
  fmtstr : List Char
  samples : Nat
  mode : Int
  spacing : Flt
  framesize : Nat
deriving DecidableEq

/-- `to_dst` for integral types, ext/lis.cpp:254-266: a value with a fraction, an infinity
or NaN is refused (`fmod` of the last two is NaN); the conversion of a value out of range
is undefined. -/
def toIntegral (lo hi : Int) (x : Flt) : Parsed Int :=
  match x with
  | .num q => if q.den = 1 then (if lo ≤ q.num ∧ q.num ≤ hi then .ok q.num else .overrun) else .throws
  | _ => .throws

/-- `to_dst` for `float`, ext/lis.cpp:268-276. -/
def toFloat (x : Flt) : Flt :=
  match x with
  | .num q => .round q
  | .inf s => .inf s
  | .nan => .nan

/-- The types in `write_index`, ext/lis.cpp:285-303. -/
def indexCell (ch : Char) (x : Flt) : Parsed Cell :=
  if ch = 's' then (toIntegral (-128) 127 x).bind fun n => .ok (.i8 n)
  else if ch = 'i' then (toIntegral (-32768) 32767 x).bind fun n => .ok (.i16 n)
  else if ch = 'l' then (toIntegral (-2147483648) 2147483647 x).bind fun n => .ok (.i32 n)
  else if ch = 'e' ∨ ch = 'f' ∨ ch = 'r' ∨ ch = 'p' then .ok (.float (toFloat x))
  else if ch = 'b' then (toIntegral 0 255 x).bind fun n => .ok (.u8 n.toNat)
  else .throws

/-- `write_index`, ext/lis.cpp:278-306. -/
def writeIndex (cap : Nat) (conf : Conf) (x : Flt) (w : Cur) : Parsed Cur :=
  match conf.indexfmt with
  | [] => .throws
  | ch :: _ => (indexCell ch x).bind fun c => w.put cap (.cell c)

/-- `static_cast< double >` of a host variable, ext/lis.cpp:321: exact. -/
def Cell.toFlt : Cell → Flt
  | .i8 x => .num x
  | .i16 x => .num x
  | .i32 x => .num x
  | .float x => x
  | .u8 x => .num x

/-- The size of the buffer in `from_src`, ext/lis.cpp:313 with 333-341. -/
def hostSize (ch : Char) : Nat :=
  if ch = 's' ∨ ch = 'b' then 1 else if ch = 'i' then 2 else 4

/-- `read_index` with `from_src`, ext/lis.cpp:308-359. -/
def readIndex (xs : Bytes) (len : Nat) (conf : Conf) (ptr : Nat) (ix : Idx) :
    Parsed (Nat × Idx) :=
  match conf.indexfmt with
  | [] => .throws
  | ch :: _ =>
    if ch ∈ fixedChars then
      (readSample xs len (hostSize ch) conf.indexfmt ⟨ptr, 0, []⟩).bind fun r =>
        match r.2.log with
        | [(_, .cell c)] => .ok (r.2.ptr, ix.update c.toFlt)
        | _ => .overrun
    else .throws

/-! ### Frames and records -/

/-- The loop over the subframes, ext/lis.cpp:399-407, from number `sub` on; result:
`current` and the writes. -/
def writeIndices (cap : Nat) (conf : Conf) (ix : Idx) :
    Nat → Nat → Int → Int → List (Int × Out) → Parsed (Int × List (Int × Out))
  | 0, _, _, current, log => .ok (current, log)
  | n + 1, sub, dst, _, log =>
    (ix.value (toInt8 sub) conf.samples).bind fun x =>
    (writeIndex cap conf x ⟨0, dst, log⟩).bind fun w =>
    writeIndices cap conf ix n (sub + 1) (dst + conf.framesize) w.dst w.log

/-- The loop over the samples of a channel, ext/lis.cpp:437-440, from number `s` on;
`fmt` is the value of the variable before. -/
def readSamples (xs : Bytes) (len cap : Nat) (conf : Conf) (samplefmt : List Char) (start : Int) :
    Nat → Nat → List Char → Cur → Parsed (List Char × Cur)
  | 0, _, fmt, w => .ok (fmt, w)
  | n + 1, s, _, w =>
    (readSample xs len cap samplefmt { w with dst := start + conf.framesize * s }).bind fun r =>
    readSamples xs len cap conf samplefmt start n (s + 1) r.1 r.2

/-- The loop over the channels, ext/lis.cpp:418-444.  Every channel takes at least one
character, so the length of the format bounds the number of rounds; more than that is an
endless loop. -/
def readChannels (xs : Bytes) (len cap : Nat) (conf : Conf) : Nat → List Char → Cur → Parsed Cur
  | _, [], w => .ok w
  | 0, _ :: _, _ => .overrun
  | n + 1, ch :: fmt, w =>
    if ch = 'S' then
      readChannels xs len cap conf n (strtol 0 fmt).2 { w with ptr := w.ptr + (strtol 0 fmt).1 }
    else
      (readSamples xs len cap conf (ch :: fmt) w.dst conf.samples 0 (ch :: fmt) w).bind fun r =>
      readChannels xs len cap conf n r.1
        { r.2 with dst := r.2.dst - conf.framesize * ((conf.samples : Int) - 1) }

/-- The index part of `read_frame`, ext/lis.cpp:379-410. -/
def frameIndex (xs : Bytes) (len cap : Nat) (conf : Conf) (w : Cur) (ix : Idx) :
    Parsed (Cur × Idx) :=
  if conf.mode = 0 ∧ ¬ 1 < conf.samples then
    (readSample xs len cap conf.indexfmt w).bind fun r => .ok (r.2, ix)
  else
    (if conf.mode = 0 ∧ 1 < conf.samples then readIndex xs len conf w.ptr ix
      else .ok (w.ptr, ix)).bind fun p =>
    (writeIndices cap conf p.2 conf.samples 1 w.dst w.dst w.log).bind fun c =>
    .ok (⟨p.1, c.1 - conf.framesize * ((conf.samples : Int) - 1), c.2⟩, p.2)

/-- `read_frame`, ext/lis.cpp:361-450. -/
def readFrame (xs : Bytes) (len cap : Nat) (conf : Conf) (w : Cur) (ix : Idx) :
    Parsed (Cur × Idx) :=
  (frameIndex xs len cap conf w ix).bind fun p =>
  (readChannels xs len cap conf conf.fmtstr.length conf.fmtstr p.1).bind fun w =>
  .ok ({ w with dst := w.dst + conf.framesize * ((conf.samples : Int) - 1) }, p.2)

/-- The variables of `read_data_records`, ext/lis.cpp:521-545. -/
structure Reader where
  dst : Int
  log : List (Int × Out)
  frames : Nat
  allocated : Nat
  idx : Idx
deriving DecidableEq

/-- The `if` at ext/lis.cpp:475-478 with `resize` at 534-542: `dst` is set to the begin of
the new buffer and advanced by the rows that are filled. -/
def Reader.grow (conf : Conf) (s : Reader) : Reader :=
  if s.frames = s.allocated then
    { s with allocated := s.frames * 2, dst := s.frames * conf.framesize }
  else s

/-- The loop over the frames of a record, ext/lis.cpp:474-488, with `ptr`.  The first
argument bounds the number of rounds; a frame that takes no bytes would make the loop
endless. -/
def readFrames (xs : Bytes) (len : Nat) (conf : Conf) : Nat → Nat → Reader → Parsed Reader
  | n, ptr, s =>
    if ¬ ptr < len then .ok s
    else
      match n with
      | 0 => .overrun
      | n + 1 =>
        let s := s.grow conf
        (readFrame xs len (s.allocated * conf.framesize) conf ⟨ptr, s.dst, s.log⟩ s.idx).bind fun r =>
        (if conf.mode = 1 ∧ r.1.ptr < len then
            r.2.index.bind fun x => .ok (r.2.update (x.add64 conf.spacing))
          else .ok r.2).bind fun ix =>
        readFrames xs len conf n r.1.ptr
          { s with dst := r.1.dst, log := r.1.log, frames := s.frames + conf.samples, idx := ix }

/-- `read_data_record`, ext/lis.cpp:452-489; `stale` is the memory behind the record. -/
def readDataRecord (conf : Conf) (data stale : Bytes) (s : Reader) : Parsed Reader :=
  (if conf.mode = 1 then readIndex (data ++ stale) data.length conf 0 s.idx
    else .ok (0, s.idx)).bind fun p =>
  readFrames (data ++ stale) data.length conf data.length p.1 { s with idx := p.2 }

/-- The loop over the records, ext/lis.cpp:547-559.  A record is its data and the memory
behind; `none` is an exception from `read_record`. -/
def readRecords (conf : Conf) : List (Option (Bytes × Bytes)) → Reader → Parsed Reader
  | [], s => .ok s
  | none :: _, _ => .throws
  | some (data, stale) :: records, s =>
    (readDataRecord conf data stale s).bind fun s => readRecords conf records s

/-- The returned array: number of rows and the writes to it. -/
structure Rows where
  rows : Nat
  log : List (Int × Out)
deriving DecidableEq

/-- `read_data_records`, ext/lis.cpp:492-565, after `implicits_of`. -/
def readDataRecords (conf : Conf) (records : List (Option (Bytes × Bytes))) : Parsed Rows :=
  (readRecords conf records ⟨0, [], 0, records.length * conf.samples, .init⟩).bind fun s =>
  .ok ⟨if s.allocated > s.frames then s.frames else s.allocated, s.log⟩

/-- The byte at an offset of the array: what was written there last, and which of its
bytes. -/
def Rows.at (a : Rows) (k : Nat) : Option (Out × Nat) :=
  (a.log.reverse.find? fun w => w.1 ≤ (k : Int) ∧ (k : Int) < w.1 + w.2.size).map fun w =>
    (w.2, ((k : Int) - w.1).toNat)

/-- `curves`, curves.py:253-281, after the check of the sample rates: `none` when the
format is refused.  `spacing` is `directional_spacing()`.  Labels are left out here (see
`Labels.lean`); a rate out of range is refused in the conversion to `std::uint8_t`. -/
def curvesConf (f : Format) (rate : Nat) (spacing : Flt) : Option Conf :=
  if !validFormat f then none
  else
    match dfsrFmt f rate, dfsrColumns f rate with
    | some (idx, fmt), some cols =>
      if rate < 256 then
        some ⟨idx, fmt, rate, f.mode, if f.mode = 1 then spacing else .num 0, itemsize cols⟩
      else none
    | _, _ => none

end Dlisio.Lis
