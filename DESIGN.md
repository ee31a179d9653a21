# Formal model of vfbLib in Lean 4

The deliverable is the Lake project in `lean/`. `Verif/Model/*.lean` is the model (every definition cites file and lines in /repo),
`Verif/Spec/*.lean` is the vocabulary that the statements use, `Verif/Props/*.lean` has the theorems (`Cnn_…` belongs to property Cnn),
`Verif/Lemmas/*.lean` has lemmas that are not about the code. `properties.jsonl` has the properties in English, `MANIFEST.json` maps them to
theorems, `seeded/LOG.jsonl` records the wrong programs that the theorems were tested against. Concrete cases that meet the
hypotheses stand beside the theorems or at the end of their modules as `example`s; `Verif/Props/Witnesses.lean` has further ones.

## Approach

* Bytes are `List UInt8`; text is a list of code points (`List Nat`); Python `int` is `Int`; dicts are association lists (`dictGet`, `dictSet`,
  `DictOk` = no key twice), so that the order of insertion is kept; lists are indexed by `pyIndex`, with negative indices.
* A reader (`R`) is a function from the remaining stream to either a value or a Python exception, *together with* the remaining stream
  (so that `try/except` keeps the stream position). A short read returns fewer bytes, and `int.from_bytes(b"")` is 0, exactly as in Python.
* A compiler (`W`) returns the bytes or the exception. Exceptions carry their class (`PyErr`).
* `for _ in range(n)` is recursion on `n.toNat`; `while` loops take fuel; running out of fuel is the error `fuel`, which no Python program raises.
  For each loop we prove either that a fuel bound suffices (termination) or that every amount of fuel runs out (divergence).
* Doubles that are only read and written are opaque 64-bit patterns. Where the code calculates with floats, the model uses rational numbers and
  the rounding function `fl` to 53 bits (round half to even); `Dbl.toRat` decodes a pattern. Overflow to infinity is not modelled.
* A property the code violates: the statement in `properties.jsonl` is worded as the exact truth, with the condition under which it holds, and
  the violation is proved with a witness (`…_defect`, `…_lost`, `…_not_stable`, …).
* "Round-trips" is always stated as the exact format (what the bytes are: `CompilesTo`), as parsing what was written (`RoundTrips`), and as
  *stability* of everything that the parser accepts: `StableExactly p w P` says that for parsed data `d`, compiling and parsing gives `d` again **iff** `P d`.

## Plan per property

What is modelled (in parentheses the model file), and how it is proved.

### Encoded integers, text, framing, container

* **C01–C05 encoded integers** (Stream) – `write_value`/`read_value` branch by branch; round trip by cases on the ranges and linear arithmetic; shortest
  form by comparing with every byte list that the reader decodes; sequences by induction; error behaviour by cases on the first byte.
* **C06 fixed-width integers** (Py, Stream) – base-256 digits, induction on the width.
* **C07 text** (Text, Stream) – cp1252 as a table of 256 entries; finite lemma about the table by kernel evaluation, strings by induction.
* **C08, C09 framing, header** (Stream, Container) – reader after writer, field by field.
* **C10–C14, C16, C53, C54 container** (Container) – `Vfb`, `VfbEntry`, `VfbHeader` as a state machine, generic in the codec of the entries; induction
  over entries for reading and writing, over histories of operations for the caches; divergence without end entry by induction on the fuel.
* **any accepted byte string** (Props/AnyFile, Props/AnyFileTools) – C10, C16, C53, C88, C90, C92, C97, C98 are also stated for every byte string the
  reader accepts, not only for files laid out by the specification: inversion of the reader (`readEntry_inv`, `readLoop_inv`), induction on the loop;
  `Spec.LaidOut` says what such a byte string looks like, whatever trailing data or non-canonical sizes it has.
* **C12 drop_keys** (Container) – reader with and without drop set run side by side.
* **C15 table of entries** (Table) – the dispatch table from id to parser and compiler over a sum type of decompiled data; stability by cases over
  the table from the theorems for each kind. Entries without data: by cases over the table.
* **C57 termination of decompile** (all parsers) – every parser preserves "not out of fuel" when the fuel is the length of the payload.

### Entry formats

All with the lemmas `Enc w p a` (reader after writer) and `Post`/`Consuming` (what a successful read says about the data); lists by induction.

* **C17, C18 hex, bit lists** (Base) – digits; binary induction; divergence for negative numbers.
* **C19–C22 value lists, encoding, mapping mode, class flags** (Base, TextEntries).
* **C23, C24 bitmaps** (Bitmap) – run-length decoder against "expand the runs"; the reader bounded by the payload; Windows bitmaps.
* **C25, C26, C29, C35 numeric entries, unicode ranges, version, gasp, VDMX** (Numeric).
* **C27, C28, C56 strings, vendor, features, names** (TextEntries) – `splitlines`, `join`, Mac Roman and cp1252 tables.
* **C30, C31 guides** (Guides) – `atan2`/`tan` are parameters (`AngleOps`) with the law that decoding inverts encoding.
* **C32, C33 PostScript info, options, PCLT** (Ps). **C34 options** (Options). **C36–C38 TrueType info, stems, zones** (TrueType).
* **C39, C40 axes, masters, instances, cmaps, binary tables** (Mm) – scaling by 10000 with `fl`.
* **C41, C46 outlines, masks** (Outline); **C42 glyphs** (Glyph); **C43 merging masters** (Merge); **C44, C45, C47 small glyph entries, GDEF, kern pairs**
  (GlyphEntries). The glyph parser's section loop terminates because every section consumes a byte.

### VFB glyphs as font objects

* **C67–C69 drawing to and from a VFB glyph** (VfbPens) – point pen and segment pen as lists of calls; geometry of a path as specification
  (`Spec/VfbPens`); drawing back by induction over the contours. **C70 hints of a VFB glyph** (VfbHints).

### Conversion to UFO

* **C48 timestamps** (UfoTime) – datetime as microseconds since the epoch.
* **C49, C58 groups, C50 kerning** (UfoGroups, UfoKerning) – loops as folds with invariants; effective kerning of a glyph pair as specification.
* **C51, C52 PostScript hints, point labels** (UfoHints, UfoLabels) – state invariant (`GoodFont`: labels and points are inverse to each other) over all
  histories of calls, recursion through components bounded by the recursion limit.
* **C55 contours** (UfoPaths) – UFO contour and VFB contour denote the same path; split at "move" nodes by induction. **C82 compatibility** – two runs
  of the same loop on two masters.
* **C59, C60 TrueType commands and program** (UfoTth) – commands against a table; XML text read back by a specified reader.
* **C61–C63 stems, zones, vfb2tth** (UfoStems, Tth) – from the file bytes to the lib; the alias between two dicts is modelled by a reference.
* **C64–C66 glyph building** (UfoGlyph) – the fold over the entries against "blocks" of entries that start with a glyph.
* **C71–C74 masters, designspace, instances, axes** (UfoMasters). **C75–C77 classes, features, kerning feature** (UfoFeatures) – the regular expression as a
  matcher, proved equal to a declarative description.
* **C78, C79 font info and lib** (UfoInfo); **C80 info of a master** (UfoMasterInfo); **C81 guidelines** (UfoGuides). Specification: a relation "this entry
  says that this attribute has this value"; the result is the last entry that says something.
* **C83 a master of a glyph** (UfoMasterGlyph), **C84 the whole conversion, C85 point names through all UFOs** (UfoConvert) – composition of the above; the
  state of the labels is followed through `build`, the first master and all others.

* **C96 exactly which fonts can be converted** (UfoSuccess…) – the exact condition for success of the whole conversion, and of `vfb3ufo`, assembled from the
  conditions of the parts (C59, C64, C72–C76, C78, C80, C81, C83) and new ones for stems, zones, axes, hints and labels. "Each entry fits to those before it" is
  proved with an invariant over all prefixes of the entries. Hypotheses: data of the right types (which reading guarantees, C90), zones before glyphs,
  components that nest less deep than the recursion limit.

### Tools and files

* **C91 glyph objects** (VfbSession) – a state machine: the entry, one `VfbGlyph` and a list of `VfbGlyphMaster` objects with their caches; all histories of calls,
  by induction over the history; "as unused objects would" compares with the state in which all caches are forgotten.

* **C92 vfbcu2qu, C93 unitsPerEm** (Cu2qu) – the command as a function of the disk; fontTools' conversion is a parameter with one law (glyphs without contours are not
  modified); C93 by induction over the history. **C94 format_assembly** (UfoAsm) – the loop against a counting specification of the depth. **C95 diffvfb** (Diff) –
  reading twice is reading once: the settings after reading are a fixed point.

* **C86 interrupted saves** (Save) – a save as a list of file operations (truncate, append); a crash leaves any prefix of the bytes of the operations issued;
  reading a prefix of a file by induction over the frames.
* **C87 yuri** (Yuri) – encoder and decoder loop of the command line tool, on top of C01/C05.
* **C88 JSON export** (Json) – the dictionary handed to `orjson`, entry by entry (`List.Forall₂`), generic in the table of entries and instantiated with the
  actual one through C15.
* **C89 files of vfb3ufo** (Cmdline) – the command as a list of writes to a file system (a function from paths to contents); every moment of the run is a
  prefix of this list.
* **C90 end to end** (EndToEnd) – composition of reading a file (C08–C16, with the real table of parsers), the conversion (C64–C85) and the files of the
  command (C89): statements relate the payload bytes of the input file to the UFOs and the designspace on disk.  No new model.
* **C97 vfb2tth** (Commands, TthSuccess, TthFile) – the command from the bytes of the file to the file written, over a disk (paths to bytes): reading (C08), the
  loop that decompiles only what it looks at, `exportTth` (C62), the serialiser as a parameter that may raise.  The exact success condition is proved by an
  invariant of the loop (`Collected`).
* **C98 vfb2json** (Commands) – the same for `save_vfb_json`, on top of C88.
* **C99 hints of format 1** (AdobeHints) – the XML tree, `iter()` as pre-order, the loop with its two variables, `int()` of a text; the XML parser and
  `bytes.decode` are parameters.  Proved by splitting the elements into hint sets (a fold lemma for the elements of one, then induction over them from the right).
* **C100 fonts put together by a user** (Build) – `Storable` lists, class by class, the data that are kept (the fixed points of C17–C45); every class is shown to
  keep them (`C100_entry`), then write_ok and read_file of the container are composed.  `Agrees` ties the attributes of the font to its three special entries.
* **C101 editing a file** (Build) – on top of `C10_every_file` (which file an accepted byte string stands for): each entry of the edited font is written as a
  payload that is read back as that entry, by induction along the entries, with the settings that each prefix produces; insertions and deletions (Rework) by
  induction on the editing relation `Reworked`.
* **C102 lookups** (Mapping) – the loop of `_decompile_glyphs` with the objects it makes (references to entries are positions plus the number of the reading), all
  lookup calls of `Vfb` and `VfbMaster`, histories of calls.  Invariant `Mirrors` along the entries; refinement of the model of C54.
* **C103 editing** (Edit, EditLemmas, EditSize, WriteRead) – `master[name]`, `clearContours()`, `getPointPen()` and the pen calls with their effect on the entries of
  the font, then `write` and `read` again.  Composes C10 (any accepted file), C102 (lookup), C67 (drawing and merging), C42/C44/C32 (entry cycles) by a general
  lemma: a font whose entries are changed by a relation for which single steps exist is written and read again (`rewrite_font`).
* **C104 dependence** (UfoBuild, Cmdline; Spec/UfoParts) – no new model: the builder's loop is split into four loops over disjoint groups of ids (`foldlM_parts`), each of
  which commutes with filtering; lifted to files by C90_read (decoding is a function of the payload and the context, the context of 10/1503/1269 only).
* **C105 encoding** (VfbSession, Cmdline; Spec/Encoding) – no new model: a relation between two fonts equal up to encoding and option is kept by every call (each
  function of the model that receives them), by induction along the entries and the history; UTF-8 is specified by arithmetic on code points.
* **C106 ids of instructions** (UfoHash) – `HashPointPen` of fontTools as a function from the UFO to a list of calls, and the text of each call; floats as text, SHA-512
  and the recursion limit are parameters. Proved: soundness and uniqueness of the drawing (induction on depth), unique decodability of the text (each call's text is a
  prefix code if no digit follows), failure on cycles.
* **C107 independence of masters** (UfoConvert; files in Props/UfoIndepFiles) – a relation between two lists of entries (Spec/UfoIndep: equal except for the values of other masters), kept by every step of
  the builder; the labels made while another master is converted depend on the hint masks only; every function that extracts a value of master k gives equal results.
* **C108 saved copies** (all tools) – the copy consists of the same entries with other payloads for the same data (`Piece`); composition of C15/C16 with C88, C90, C95, C97.
  `C108_every_file`: the same for whatever byte string is accepted as a file; every reader reads it like the file of the same entries in the usual form.
* **C109 segment pen** (SegPen) – `getPen()` is fontTools' `SegmentToPointPen` with `GuessSmoothPointPen` in front of the point pen of C67; both are modelled from their
  published source, which points are guessed to be smooth is a parameter. The collected points by induction over the segments, then C67's reader; copying by composition with C68.

No property of the list is "not applicable".

## Trusted base

* The kernel of Lean 4.33.0. Axioms: every theorem depends at most on `propext`, `Classical.choice` and `Quot.sound` (`vcheck` lists them; there are
  none of our own, and no compiled evaluation is used: closed computations are done by `decide +kernel`).
* Our reading of the Python source (the code was not executed) and of the semantics of Python, `struct`, `int.to_bytes`, codecs, `round`,
  `str.splitlines`, `re`, `html.escape`, `base64`.
* The specifications in `Verif/Spec`.

Parameters of the model (theorems hold for every value of them, laws are hypotheses where needed):
`AngleOps` (the angle of a guide: `atan2`/`tan`), `deg` (its value in degrees, between -90 and 90), `AsmOps` (fontTools' `Program`: disassembling and assembling
TrueType instructions), `HashOps` (text of a float, SHA-512), `fmt` (`strftime`), `upper` (upper case of an axis name), `depth` (Python's recursion limit).

### Modelled

`helpers.py`, `value.py`-like reading and writing in `parsers/base.py`, `compilers/base.py`, `parsers/value.py`, `compilers/value.py`; all parser and compiler
classes in `parsers/` and `compilers/` that `constants.py` refers to, with the table itself; `vfb/vfb.py`, `vfb/entry.py`, `vfb/header.py`, `vfb/glyph.py`,
`vfb/pens.py`, `vfb/info.py`; `cu2qu.py`, `diff.py`; `json.py` (up to the dictionary that is serialised); the command `vfb3ufo` of `cmdline.py`; the tool `yuri`; `truetype.py`; `tth.py` with its command (the serialiser is a parameter); the command `vfb2json`; `ufo/builder.py`, `ufo/designspace.py`, `ufo/features.py`, `ufo/glyph.py`,
`ufo/groups.py`, `ufo/guides.py`, `ufo/info.py`, `ufo/instructions.py`, `ufo/kerning.py`, `ufo/paths.py`, `ufo/pshints.py`, `ufo/time.py`, `ufo/tth.py`.

### Not modelled

* Conversion of command line arguments to integers; the XML parser (a parameter in C99); the conversion of curves (`fontTools.cu2qu`), `difflib`, `orjson` (parameters in C92, C95).
* Logging, timing output, the parsing of command lines (`argparse`), `templates`, type declarations, JSON/TOML/YAML serialisation.
* The file system: paths are reduced to their last component; "written" means the bytes or objects handed over, except in C13 and C86 (one file,
  truncated and appended to) and in C89 (paths to contents; a UFO is one object, saved at once).
* fontTools, ufoLib2, designspaceLib: objects of ufoLib2 only hold the values (no validation, no writing of XML). `HashPointPen` (C106) and the pens behind `getPen()` (C109) are modelled from our
  knowledge of fontTools, its source not being part of the repository.
* Which of two simultaneous exceptions is raised, in outlines, glyph sections and between the independent parts of `build`.
* Entries without an id in the table, parser classes overridden by the caller, streams that do not start at position 0.
* Aliasing of lists between entries (except where a theorem is about it: stems' "round" dict, deletion of hint masks and previews in C66).
* Overflow of floats to infinity in calculations; integers beyond the recursion or memory limits.

Simplifications of single definitions are noted in their comments.

## Findings

Theorems that prove a defect of the code (all are also worded in `properties.jsonl`):

* C02 signed and unsigned readers disagree on written values; C05 truncated integers are read as if complete.
* C11 a file without end entry is read forever; truncated payloads are accepted. C13 a failed write leaves a truncated file; C14 the header of an entry is
  cached and stale after a change. C53/C54 stale glyph names and master count; looking up a glyph empties its entry.
* C18/C57 a negative flag value makes decompiling loop forever. C36 TrueType info without end marker likewise.
* C22, C24, C26–C28, C31, C33, C34, C36–C39, C42, C44 list exactly which stored data changes in a decompile-compile cycle.
* C43 merging is not failure-atomic. C51 a link of length 20 becomes a ghost hint. C59 TrueType programs refer to point names that the closing of a contour
  removed. C61/C63 third duplicates of stem names, six ppm values. C65 the last glyph replaces an earlier glyph of its name. C66 conversion deletes hint masks from
  the font. C67–C70 losses when drawing (skew, curves without on-curve points, unclosed runs). C71 axis count squared. C76 deleted kerning groups that kerning refers to.
  C77 forms of feature code that are misread. C82 closing of contours depends on coordinates, so masters may become incompatible. C83 glyph notes are never written.
  C85 hints of composites refer to names that the first UFO lacks. C86 a failed save destroys the old file; one cut of a file is read without error.
  C87 `--long` has no effect; a zero byte ends decoding. C105 the option for Unicode strings has no effect; UTF-8 texts are misread.
  C106 ids of large coordinates collide; a cycle of components with instructions ends the conversion.
  C91 outlines and names cached by glyph objects are stale; a failed drawing is repeated as a partial one; `master_index` is ignored by `drawPoints`.
  C92 `vfbcu2qu` never converts anything. C93 the units per em are cached for ever. C95 `diffvfb` reads files twice.
  C97 `vfb2tth` cannot export a font without zone deltas or with a one-pixel table; its error report is unreachable. C98 `--minimal` has no effect; a failed
  serialisation leaves an empty file.
  C102 keys are not the glyph names; stale objects after reading another file; incomplete mapping after a failure. C103 after any lookup, saving the font
  loses the names, metrics and outlines of all glyphs that were not drawn anew, and of those everything but the outlines.
  C100 a new font lacks header, end entry and number of masters, each with a different failure.
  C99 a second "hintSetList" drops the hint sets before the last one of the first list.
  C109 a cubic curve that closes a contour at its start is silently stored as a quadratic one.
  C89 `-j` overwrites files without `-fo`; the output path and `--ttx` are ignored; UFOs before a blocked file stay behind.
