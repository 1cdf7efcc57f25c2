# Formal model of dlisio: design

Source under study: equinor/dlisio at the pinned commit in `/repo` (C++ core in
`lib/`, Python extension in `python/dlisio/ext`, Python package in
`python/dlisio`). The code is read as text; it is neither built nor run.
Properties are listed in `properties.jsonl`, the status of each in
`MANIFEST.json`.

## Trusted base

* Lean 4.33.0 kernel, and the Mathlib modules that are imported one by one.
* Axioms: at most `propext`, `Classical.choice`, `Quot.sound` (each theorem can be
  checked with `#print axioms`). No axioms of our own, no `sorry`, no
  `native_decide`, no `bv_decide`.
* The transcription of the C++/Python functions into Lean definitions. Every model
  definition cites file and lines. The abstraction choices are:
  * A byte (`char`/`uint8_t`) is `BitVec 8`; fixed-width C integers are `BitVec n`
    or `Int`/`Nat` with the wrap-around written out where the C code can wrap.
  * A `const char*` cursor is the list of bytes from the cursor on. A decoder
    returns `some (value, rest)`; `none` stands for "the C code reads past the end
    of the buffer" (undefined behaviour). Theorems about memory safety are theorems
    saying the result is not `none`.
  * Exceptions and error codes are values (`Except`, enumerations).
  * `lfp` (the external layered-file library, not in `/repo`) is a parameter: the
    logical byte sequence and the documented behaviour of seek/read/eof. See
    `Verif/Stream.lean`.
  * `Float`/`double` arithmetic is exact arithmetic in ℚ plus a separate theorem
    that all intermediate results are representable, so IEEE rounding is the
    identity; IEEE interpretation of bit patterns is given by a small specification.
  * fmt::format, std::map, numpy, pybind11, Python `re` are represented by the
    mathematical objects they implement (strings, association lists, dtype lists).
  * Curves (`Dlis/Curves.lean`): the NumPy buffer is a partial map from byte offsets to
    (item, byte of item); pointers have 8 bytes. `np.empty` + `resize` keep the bytes
    already written. What lies behind the data of a record in memory is an arbitrary
    list `stale`; a decoder that runs out of it is undefined behaviour.
    `PyUnicode_FromString` is a UTF-8 decoder (`Utf8.lean`, with its own
    specification), `PyDateTime_FromDateAndTime` the range checks of CPython.
  * `np.dtype([...])` (`Dlis/Frame.lean`): names and titles must be pairwise different,
    an empty name is replaced by the title; struct types are packed; sub-array types
    must be smaller than 2^31 bytes (the limit on the size of the whole is left out).
    A Python `str` is a list of code points. `dtype_fmt.format` is a parameter, a
    partial function of name, origin and copy number.
  * Object store (`Dlis/Store.lean`): `string -> str` conversion is a total function `dec`
    (with strict decoding an exception would escape; left out), the class of an object is a
    flag `known`, a user matcher is a pure Boolean function that does not raise, the
    iteration order of a Python `set` is a parameter that permutes without repetition, and
    the error handler is a predicate on severities. Objects are compared as `basic_object`
    in C++ does, floats by IEEE equality.
  * Attribute access (`Dlis/Attribute.lean`): class rules are parameters; `None` and the
    empty list are identified where the code treats them alike; `str.isspace` as in CPython;
    warnings through `logging` are left out.
  * Dimensions (`Dlis/Dimension.lean`): NumPy's `prod`, `%` and `/` on 64-bit integers,
    `np.ndarray(shape, buffer)` as a check on the number of bytes, and the 2^31 limit on the
    size of a sub-array type.
  * Loading (`Dlis/Load.lean`): what lfp does with one file is the parameter `Disk`; the
    theorems about handles hold for every `Disk`. `rawDisk` is lfp for files without tape
    marks: visible records one after the other, a wrong or cut-off header or body is damage,
    and the physical tell after a seek lies in the body that contains the byte. Exceptions of
    `peof` are left out; the file does not change while it is loaded.
  * LIS numbers (`Lis/Types.lean`): a float is a rational, an infinity or NaN; the sign of
    zero is not distinguished. `std::pow(2, x)` is correctly rounded, products of a binary32
    mantissa and a power are rounded once to binary32.
  * LIS records (`Lis/Protocol.lean`): a parser gives a value, an exception or `overrun`
    (a read past the record); the text of exceptions is left out. In `Lis/InfoProps.lean`
    numpy is trusted for assignment to cells, negative indices and refusal of field names
    that are no `str`.
  * `std::upper_bound` in `Lis/Implicits.lean` gives the first greater element of a sorted
    range.
  * LIS I/O (`Lis/Io.lean`): the physical position of a logical one is an arbitrary
    function; a read that is cut short is at the end of the file (otherwise it throws); the
    position after a read that throws is left where it was and nothing is claimed of it.
  * LIS curves (`Lis/Curves.lean`, `Double.lean`): the array is the list of writes to it, a
    byte of it is what was written there last; a write outside is `overrun`. `double`s are
    rationals rounded to 53 bits (no overflow: they come from binary32 and 32-bit values),
    `static_cast` to an integer type out of range is undefined. `py::str(ptr, len)` is a
    strict UTF-8 decoder.
  * Reports (`Dlis/Eflr.lean`, `Messages.lean`): pybind11 turns the `std::string` arguments of
    `PyErrorHandler::log` into `str` as UTF-8 and throws if they are not.
  * LIS labels (`Lis/Labels.lean`): mnemonics are decoded by an arbitrary total function;
    `np.dtype` names a field without a name after its position and refuses names that occur
    twice; `Counter` and `dict` keep the order of insertion.
  * LIS logical files (`Lis/DataFormat.lean`, `Lis/LogicalFile.lean`, `Lis/EndToEnd.lean`):
    pybind11 conversions of entry values are those of `Value.double` and `Value.int`; objects
    are identified by class and content; memory behind the data of a record is the parameter
    `stale`.
  * LIS loading (`Lis/Load.lean`): a `Disk` says what `core.open` and `core.openlis` give at
    each offset; reels and tapes are objects in two lists, logical files refer to them by
    number; of the error handler only counts whether it raises on critical issues; exceptions
    of `ptell`, `eof` and `close` are left out. `plainDisk` is the file opened at an offset
    without any layer, and reads past its end give `eof`.
* Not modelled: the lfp implementation (visible-record envelope and tape image
  unwrapping), OS file I/O, memory allocation failure, pybind11 conversions,
  the `str` of single values and `np.array2string` in `describe()`, big-endian hosts.

## Layout

`Verif/` modules: `Basic` (bytes), `Dlis/*` (C++ dlis core and Python dlis),
`Lis/*` (LIS), each model file with a corresponding `...Props.lean` holding the
property theorems with examples; `Spec` files hold the independent
specifications the theorem statements use.

## Plan per property

* **C01 UVARI decode/encode** — Model decoder/encoder on byte lists; spec = arithmetic value of the encoding. Round trip for x in range of width; negation witness for 0x4000..0xBFFF with width 2.
* **C02 Fixed-width integers** — Spec = base-256 big-endian sum and two's complement; both round trips for all BitVec patterns.
* **C03 String types** — Decoder/encoder on lists; round trip for all strings in range with any continuation; consumption lemma.
* **C04 DTIME** — Both directions by byte arithmetic.
* **C05 Object references** — Composition of C01/C03.
* **C06 FSHORT value** — Value in ℚ against closed formula; representability in binary32.
* **C07 IBM float (ISINGL) decode** — BitVec 32 model, ℚ semantics of IBM and IEEE patterns; exactness on the stated range, negation witnesses elsewhere (partial).
* **C08 VAX float (VSINGL) decode** — As C07.
* **C09 Declared sizes agree with consumption** — Per code: consumption of decoder equals table, for all contents.
* **C10 IBM float round trip** — Exactness of encoder in terms of ℚ values when no bits are dropped, error bound otherwise.
* **C11 packf and packflen agree** — packf as recursion over format; packflen as separate recursion; equality and append law by induction.
* **C12 pack_size is sound** — pack_size recursion; soundness by induction over format.
* **C13 Storage label parsing** — SUL parser model; field spec; encode/parse theorem.
* **C14 Locating label and first visible record** — Search = first occurrence (spec by prefix/infix).
* **C15 Segment header decode** — Finite bit facts for every pattern.
* **C16 Segment trimming** — Trim model; spec segment = body ++ pad ++ checksum ++ length.
* **C17 Record extraction is concatenation of segment bodies** — Stream model, extract loop; theorem for every segmentation by induction.
* **C18 Partial extraction is a prefix** — Induction over the loop with remaining bytes.
* **C19 Record index partitions the file** — findoffsets loop against a list of encoded records; induction.
* **C20 Indexing truncated or damaged files** — Invariants over arbitrary streams (termination measure = file length).
* **C21 Frame data index** — Fold model; characterisation by filter.
* **C22 Fingerprints identify objects** — Fingerprint string model; injectivity via parsing back; counterexample across types.
* **C23 Template inheritance** — parse_template/parse_objects on byte lists; per-characteristic lookup spec.
* **C24 EFLR encode/parse round trip** — Encoder spec for EFLRs (relation with optional characteristics), parse of encoding by induction.
* **C25 Parsing object sets is one-shot and never loses parsed objects** — State machine of object_set; idempotence over access histories; monotonicity of parsed objects.
* **C26 Count/representation changes without value** — patch_missing_value over typed vectors.
* **C27 Object attribute container** — Association-list model; laws over histories.
* **C28 Pool queries** — Pool as list of sets; result = flatMap/filter spec.
* **C29 Curve rows** — read_fdata state machine with allocated rows; equality with list-of-rows spec, capacity invariant.
* **C30 Row layout agrees with dtype** — fmtstr and dtype built from channels; bytes written vs itemsize by induction over channels.
* **C31 No reads past the record** — Bounds-checked vs unchecked samples; positive theorem for fixed-size codes, counterexamples for variable-length ones (partial).
* **C32 No-format data** — Fold model; concatenation spec.
* **C33 object() lookup** — object() over match list.
* **C34 Cache transparency** — Cache state machine; invariant; counterexample for the empty name (partial).
* **C35 Attribute access** — __getitem__ as a function of attic/attributes/linkage.
* **C36 Reference resolution** — lookup by fingerprint; uses C22.
* **C37 Error handler contract** — ErrorHandler.log as function; trace property.  pybind11 decodes the place
  of a problem as UTF-8 before Python sees it (`ObjectSet.tellable`), which fails for some sets (partial).
* **C38 Column labels** — dtype/mkunique on lists of strings; uniqueness (maybe only partial), counterexample if false.
* **C39 Dimension and sampling** — validshape/sampling on lists; length and order laws.
* **C40 dlis.load splits the file in logical files** — load loop as state machine with effect trace (open/close), all failure points.
* **C41 LIS numbers** — BitVec models with ℚ semantics.
* **C42 LIS packf and packflen agree** — As C11.
* **C43 LIS physical/logical headers and padding** — PRH/LRH bits, padding skipping over stream model.
* **C44 LIS index** — index_records against list of encoded records; counterexample with inner padding (partial).
* **C45 LIS record read** — read_record against split into physical records.
* **C46 LIS implicit records belong to the right DFSR** — implicits_of on sorted list; slice spec.
* **C47 DFSR parse** — Parser over byte lists; encode/parse round trip; truncation rejected.
* **C48 LIS information records** — As C47.
* **C49 LIS header/trailer records** — Fixed offsets, length check.
* **C50 LIS text records** — Identity.
* **C51 LIS row layout** — fmtstr/dtype from spec blocks; byte counts by induction.
* **C52 LIS curve rows** — Row state machine; index recursion; counterexample at high rates (partial).
* **C53 LIS channel labels** — unique_mnemonics; counterexamples; conditional uniqueness (partial).
* **C54 LIS reel and tape assignment** — Loop over delimiters with trace of open/close.
* **C55 Tapemark detection** — Little-endian arithmetic.
* **C56 String decoding** — Decoders as parameters; first success spec; counterexample for NUL (partial).
* **C57 Object sets stay inside the record** — Parser over a byte list; safety for well-formed sets, counterexample for truncated ones (partial).
* **C58 No released objects in the array** — Array items include `dangling`; invariant over the row loop; counterexample for dates that do not exist.
* **C59 Tolerated violations are reported** — Equality of parser runs on the descriptor with and without the flag, up to one log entry.
* **C60 Stash** — dict comprehension over attributes; one entry per attribute without a rule; counterexample without value (partial).
* **C61 LIS entry blocks** — Getters over the entry list against a table of types and defaults; counterexample for spec_block_type (partial).
* **C62 LIS logical file** — parse_record as dispatch; relation between data and content; index listing the records of the file (`Listed`).
* **C63 LIS curves end to end** — Composition: file bytes → index → data records of a specification → rows (partial by the conditions of C52/C53).
* **C64 Attributes of a logical file** — Descriptors as queries of the store (C34); partition of the objects by type; counterexamples for equal fingerprints and the empty type (partial).
* **C65 Curves end to end** — Composition: disk → logical files (C40) → index by fingerprint as a Python dict (C21, C22, C56) → channels of the frame by reference (C35) → layout (C30) → rows (C29); stated by names and record contents only; four counterexamples on complete files (partial).
* **C66 (frame and curve of a channel)** — `Dlis/ChannelFrame.lean`. `Channel.frame` is modelled with
  the store that it changes; `frame not in frames` compares contents, and a frame that was added in
  the same round of the loop is the identical object. The result of `Channel.curves` is a column:
  the array of C65 with stride, offset and type. Indexing a structured array by a title is trusted
  to find the field with this name or title.
* **C67 (tape images)** — `Dlis/TapeImage.lean`. `tapeDisk` says what lfp makes of a tape image whose
  marks are in order: data of tape records up to the next file mark, `ptell` of a byte is where this
  byte is, `ptell` at the end is behind the file mark, `peof` iff this is the end of the file. lfp
  tries to recover from marks that are not in order; this is simplified to an error. That a file may
  end without file marks is taken from python/data/tif/templates/7.dlis and its test. `At` connects
  a position in the file with the parts of the tape that are still to come.
* **C54, first offset** — `Lis/TapeStart.lean`: `c54_tapemarks`, `c54_no_tapemarks` characterise
  `check_for_tapemarks` for every content of a file.
* **C68** — `Dlis/Sampled.lean`: `Parameter.values`, `Computation.values`, `Measurement.samples`,
  `.reference` and the like on top of C35 (access to DIMENSION and ZONES) and C39 (reshaping).
  `Samples.get` is NumPy's index in C order, `Spec.columnMajor` the order of the standard. Trusted:
  `np.array` keeps the values of a list (or refuses it); dimensions that are no natural numbers lead
  to an exception in NumPy.
* **C69** — the classes of objects (`Dlis/Classes.lean`).  The tables `attributes` and `linkage` and
  the properties of all 22 classes are written down as they are in the code; what is documented
  (docstrings, completed by RP66) is a separate table, `Spec.documented`, of property, label, shape
  and reference.  The theorem says of each row what the property gives for absent attributes,
  attributes without value, plain values and references, after any history.  `Group.objects` and
  `Wellref.coordinates` are modelled statement by statement.  What all objects inherit (`name`,
  `describe`, ...) is left out.  Keys of the dict of coordinates are compared as values of the
  model, which is right for strings only.  Defects: five documented names do not exist; `TypeError`
  for groups whose OBJECT-LIST has no value or whose OBJECT-TYPE is missing; access by label depends
  on an earlier use of `objects`; coordinates of the same name are lost.
* **C70** — the summaries of objects (`describe`), in Describe.lean and DescribeProps.lean.  A
  summary is modelled as the list of its rows: a title, and the value and the units shown beside
  it.  Layout (wrapping, alignment, headers) and the text form of values are added in C83 and C85.  The
  specification is a table of titles, each with the property it means (`Spec.titles`,
  `Spec.pairs`, `Spec.frameTitles`, `Spec.sampledTitles`, `Spec.descriptions`); the theorems say that
  whenever there is a summary, each of these rows is there and shows that property of C69, and that
  there is a summary for the classes whose parts do not raise (`c70_summary`).  Defects: no summary
  for splices with an output channel, for frames whose first channel is not found and for objects
  with an unknown attribute without value; swapped tolerances of coefficients; a zone whose
  description is the label of one of its attributes; an unknown
  attribute whose label is not UTF-8 (`c70_label_defect`); zoned values without dimension; pairs of absent
  values are shown as such.
* **C71** — the summaries of logical files (`LogicalFile.describe`, `PhysicalFile.describe`), in
  FileSummary.lean, over the loading of objects (C34, C64) and the properties (C69).  Stated by the
  objects of the file only: each type once, its number of objects, known or unknown, all numbers
  together being all objects; the description is the ID of the only file header (`c71_header`).
  Defects: no summary if the type of a set is not UTF-8, or if the ID of the header is a reference
  whose name is not (`format` takes its `repr`).  Layout is added in C84.
* **C72** — equality of objects, in Equality.lean over the comparisons of Store.lean.  Numbers are
  specified by the IEEE 754 number that a pattern denotes (`Spec.ieee`), for both precisions; that
  `==` of C++ does what the model says is an assumption on the compiler.  Besides the laws of an
  equivalence: equal objects give equal results for every attribute, class and state.  Defects: type
  ignored, NaN, order of the attributes.
* **C73** — handles of loaded files, in Session.lean: any sequence of closing, reading and access to
  metadata, on top of what loading leaves open (C40, C54).  Assumption about lfp: `lfp_close` frees the
  handle, so that any later use is undefined behaviour.  Sequences are arbitrary lists, the
  specification is a relation between any two steps.
* **C74** — LIS files stored as tape images, in Lis/TapeImage.lean: what lfp makes of tape marks is
  `tapeRecords` of C67; on top of it the loop of C54.  A tape is a list of stretches between file
  marks, each a list of delimiters and logical files whose bytes are cut into tape records.  The
  condition that each part starts a tape record is needed (`c74_inside_defect`).  Termination is for
  all byte strings.
* C75 (Lis/Accessors.lean): the methods of a LIS logical file that return records, against the numbers
  of LIS79; taken together they are a permutation of what all records stand for.
* C76 (Lis/FileCurves.lean): composition of C74/C54, C62, C63 and C75: from the bytes of a file, with
  tape marks or without, to the array of the curves of a specification in a logical file.
* C77, C78 (Dlis/FromDisk.lean): composition for DLIS.  `Medium` is a labelled file, one without label, or
  a tape image; `HoldsSets` says which object sets the records are laid out as; `recorded` are the objects in
  them.  Nothing is modelled in this file; the hypotheses are only about what is on the medium.
- C79 Construct.lean: `LogicalFile.__init__` (`LogFile.init`) and `load` with it (`loadPy`).  `load` of Load.lean,
  which C40, C67, C77 and C78 are about, leaves the constructor out; `c79_load_partial` says when this makes no
  difference, and `c79_update_defect` when it does: then `load` raises.
- C80 Label.lean: `LogicalFile.storage_label` (`LogFile.storageLabel`) on top of C13 and the loaded files of C77.
  Assumption: pybind11 turns a `char` array into `str` as UTF-8 and throws if it is not; whether Python turns
  warnings into exceptions is a parameter.
- C81 Recorded.lean: C66 (frame, curve and index of a channel) in terms of what is recorded on the medium, through
  `loadPy` (C79).  No further code is modelled, so the assumptions are those of C66 and C79.
- C82 Search.lean: `regex_matcher` with a model of `re.match` for patterns of characters and dots with `*`, `+`, `?`
  (backtracking; the specification `Spec.Begins` is a relation between the text of the pattern and the candidate),
  `LogicalFile.find` and `LogicalFile.load`.  Assumption: `re.compile`/`re.match` behave so; ignoring case outside
  ASCII is a parameter.
- C83 Layout.lean: `describe_header`, `describe_dict`, `describe_text`, `describe_array` with a model of `textwrap.fill`
  of Python (munging of white space and the loop of `_wrap_chunks`; splitting, breaking of long words and `isspace` are
  parameters with the assumptions `Spec.Wraps`).  Given: the `str` of values, units after `strip`, and the output of
  `np.array2string`.  Widths are positive.
- C84 SummaryText.lean: the text of `LogicalFile.describe` and `PhysicalFile.describe`, composed of C71 (what is shown),
  C83 (layout) and C79 (loading from a medium).  `str` of a description that is neither a text nor `None` is given.
  Further assumption: the characters 33 to 126 are not white space (`Spec.Printed`).
- C85 ObjectText.lean: the text of `BasicObject.describe`, composed of C70 (what is shown) and C83 (layout).  Headers are
  added to the rows of Describe.lean (`describe_parts` proves that the rows are the same).  The specification `Spec.Laid`
  relates what is displayed to a text, `Spec.Outline` says which headings there are.  Simplified: the summary of an object
  in place of a description is made after the other rows.  `str` of texts, whole numbers, dates, truth values and objects is
  modelled (`Printer.single`) and specified (`Spec.Word`); that of floats and of bytes, and `np.array2string`, are given.
  `str` of a reference that is shown as it is raises if its names are not UTF-8 (`DVal.writes`); for arrays of samples, which
  NumPy may abbreviate, whether it does is given (`Printer.shows`).
- C86 RecordedText.lean: no new model.  What is recorded in the file (`Spec.recorded`, C77) is related to the lines of the
  printed summaries (`Spec.Tells`), with `Spec.Entered` for the text of the values and `Spec.UnitsOf` for the units.  Floats
  and lists of objects are left out, because what is printed for them is given (C85).
- C87 Messages.lean: `ErrorHandler.log` with its texts and its callers.  Elsewhere an entry of a log is its severity only; here
  the texts of the entries are arbitrary, `c87_set_query` and `c87_access` relate both.  A severity that is none of the four is
  given by its text.
- C88 EflrLog.lean: the parser of Eflr.lean once more, with the texts of the entries and of the exceptions.  `c88_same` proves that
  it is the same parser, so nothing else depends on it.  The specification of what entries say is `Spec.ProblemTrue`,
  `Spec.ActionTrue`, `Spec.kindEntry`, `Spec.typeEntry`, `Spec.templateEntries`, `Spec.objectEntries` and `Spec.Interruption`; `templateEntries` and `objectEntries` are in LoadTexts.lean.
- C89 IoLog.lean and ReadLog.lean: `findoffsets`, `extract` and `findfdata` of Io.lean, and the loops of ext/dlis.cpp over records,
  once more with the texts of what is reported; the same is read (first parts of the theorems).  What is said is specified by
  `Spec.SuspensionTrue`, `Spec.ExtractTrue`, `Spec.FdataTrue`, `Spec.SampleTrue`, `Spec.SetFault`, and the sequence of reports by
  `Spec.ReadLog`, `Spec.CurveLog` and `Spec.SetLog`.  Given are: the physical position that the stream tells (`ptell`), and the texts of
  exceptions of the stream, of pybind11 and of the standard library (`Whats`, `SampleWhats`).  The notes about trailers that
  are logged before an exception are in the texts, but not in the severities of Io.lean.
- C90 LoadLog.lean: Load.lean once more with the texts of what is reported while a file is loaded (`toldLoad`); the same is loaded
  (`c90_same`).  What is said is specified by `Spec.SulSearch`, `Spec.VrSearch` (in terms of the first occurrence of `RECORD` and of
  `FF 01` in the 200 bytes that are searched), `Spec.LayerSays`, `Spec.FileSays` and `Spec.RoundSays`, with those of C89 for the records.
  Given are the texts of the stream and of the `RuntimeError`s that the error handler raises (`LoadWhats`).  Actions that raise something
  else than a `RuntimeError` are left out.  An error handler that raises because of a label that is not expected does so inside of the `try` of
  `find_sul`, so that the exception is passed over and no label is read; `findReadSul` of Load.lean follows load.py in this.
- **C91** (Verif/Lis/LoadLog.lean): `toldPrh` … `toldLoad` are the functions of Io.lean and Load.lean with the texts of exceptions and reports; that they do the same is
  proved (`…_plain`, `…_same`).  Of `index_logical_file` only the reports are given once more (`toldLogical`), its states are those of Load.lean.  The
  specification says for all bytes where the next header is (`NextHeader`), when there is none (`RunsOut`), which physical records belong together (`Parts`), and what
  has to be said about them, with the texts as literals.  Given are the texts of the stream, of `core.open`/`core.openlis`, of the values of `lis_rectype`, and the path (`Whats`).
- **C92** (Verif/Lis/ParseLog.lean): `explainEntry` … `explainRecord` are the parsers of Protocol.lean and LogicalFile.lean with the texts of their exceptions, as bytes, because
  mnemonics are quoted as they are in the file; that they do the same is proved (`…_plain`).  The specification (`EntryFault`, `ComponentFault`, `DfsrFault`, `InfoFault`,
  `RecordFault`) says for all bytes what is wrong and has the texts as literals.  What the user sees is `ParseError.shown`: pybind11 passes `what()` to
  `PyErr_SetString`, a C string in UTF-8 (trusted; what CPython does if it is not UTF-8 depends on its version).  `str(LogicalFile)` is arbitrary.  `literalChars` is a
  simplification procedure for proofs; the kernel checks what it proves.
- **C93** (Lis/CurvesLog.lean).  `explainCurves` is `Dfsr.config` of C61 with the exceptions of `curves` and what is logged, `explainMetadata` and `Dfsr.explain` likewise.  The
  specification lists what can be wrong with a field, a channel, the index, the spacing and the whole (`CurveFault`), each with its text; it speaks of values of entry blocks
  and of divisibility, not of the order of the checks.  Texts of mnemonics, floats, values and of NumPy's exception are arbitrary; a `TypeError` has no text (`KindFault` says when).
- **C94** (Dlis/LookupLog.lean).  The `explain…` functions are those of C34–C36 with the text of the exception or warning.  `pyFormat` is `str.format` for templates with `{}` only.
  The specification says what is wrong in terms of the objects of the file (`LookupFault`, `RefFault`, `TooMany`).  `repr` of values that are not references is arbitrary (`other`).
- **C95** (Dlis/FrameLog.lean).  The same for channels and frames (models of C66 and C38) and for shapes of values (C39).  What attribute access logs meanwhile (C94) is left out.
  What `dtype_fmt.format` does is arbitrary: a label, an `IndexError` or `ValueError`, or another exception; so is the text of NumPy's exception.  `explainColumns` accesses all
  channels before the first column is made.
- **C96** (UserLog.lean).  `explainLabel`, `explainFingerprint` and `explainTable` are the models of C80, C22 and C48 with texts.  `LabelTold` says what is said in terms of the
  fields of a label as in C13; `TableFault` speaks of the bytes of a record.  How the type of a record is written is arbitrary.
- C97 Reprs.lean: `__repr__` of references, objects, tape marks, headers, records and indices.  Injectivity is shown by
  splitting the texts at the first or last occurrence of a character that cannot be in a number or in a type; UTF-8 is
  injective (`utf8_injective`).  Trusted: `str` of an enumerator of pybind11 is `lis_rectype.` and its name.
- C98 RawRead.lean: `stream.get`, `lis_stream.read` and the buffer of `storage_label`.  A buffer is a part of the memory of its owner, with item size and
  stride; writing beyond that memory is the outcome `outside`.  Trusted: `py::buffer::request()` hands out buffers with any
  stride and does not ask for memory that may be written; lfp raises for offsets and lengths below zero.  What lfp has
  stored before it fails is arbitrary.
- C99 Dlis/LoadTexts.lean: the messages that `format_error` makes of the reports of Dlis/IoLog.lean, Dlis/ReadLog.lean and Dlis/LoadLog.lean, written out
  in the specification (`LoadNote.message`) independently of the report.  The texts of exceptions are arbitrary; that they say
  what is true is C88 to C90.
  Lis/LoadTexts.lean: the same for Lis/LoadLog.lean, with the names of record types of Reprs.lean.
