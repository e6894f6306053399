# Formal model of osmio in Lean 4

The model is in `lean/Verif/`. It is a function by function transcription of the Rust
source in `/repo` (osmio 0.16.1) into total, computable Lean functions. Every definition
cites the file and lines it models. The properties are in `properties.jsonl`; `MANIFEST.json`
maps each property to the theorems that prove it.

## Layout

| directory | contents |
|---|---|
| `Verif/Lib/` | models of things outside the repository the code calls (IEEE doubles, Rust number parsing/printing, chrono, an XML tokenizer, protobuf wire format, serde_json strings). Each is a concrete definition of documented behaviour, not an axiom. |
| `Verif/Model/` | models of the repository's code |
| `Verif/Spec/` | small independent specifications the theorems refer to |
| `Verif/Proofs/` | helper lemmas |
| `Verif/Props/` | the property theorems (`C01_...`), each with an `example` showing its hypotheses can be met, beside it or in one of the `Witness*` files |

## Conventions

* A Rust `String`/`&str`/`SmolStr` is `List Char` (Lean's `Char` is exactly a Unicode scalar value).
* `i64`/`i32`/`u32` stored in objects are Lean's `Int64`/`Int32`/`UInt32`. Arithmetic that can overflow
  is done on `Int` and checked/wrapped explicitly, with a build-mode flag (debug panics, release wraps).
* A panic is an explicit value (`Except Panic _`), with what had been written before the panic kept
  where it is observable. `&mut self` becomes a returned new state.
* Partial results: where the English property is false of the code, the theorem proving the part that
  holds is named `..._partial`, and next to it is a theorem proving the negation of the full claim from a
  concrete witness (`..._fails`).

## Plan per property

| id | model | proof |
|---|---|---|
| C01, C03, C04 | doubles as sign + exact rational with a concrete round-to-nearest-even (53 bits, subnormals, overflow); `degrees`, `TryFrom<f64>` as in lib.rs | relative error bound 2^-53 of rounding; half-unit argument over all of i32; the rounding is proved to be the one of IEEE 754 (`Spec/Ieee.lean`: nearest, ties to the even significand), so conversions are described exactly. C03 is partial: NaN is accepted as 0 (proved) |
| C02 | shortest round trip digit search for `Display`, full Rust float grammar for `from_str` | uniqueness of the short decimal in the rounding interval |
| C05 | `set_lat_lon` with both conversions | case analysis on the two results |
| C06–C10 | chrono civil calendar and RFC 3339 parser; `TimestampFormat` | calendar inverse by linear integer arithmetic; parser run on symbolic digit strings; C06/C08/C09 partial with counterexamples (u32/i32 casts, mixed comparison). Exact conditions: `Props/TimestampExact.lean` |
| C11–C16, C19 | each of the nine concrete types and three sum types as its own structure and instance of a class mirroring the traits | class laws proved for every instance; induction over operation histories. Exact conditions for C12, C15, C20: `Props/ObjectsExact.lean` |
| C17 | `objects()` as the list of a reader's results until None, `filter_map` | induction |
| C18 | match tables | case analysis |
| C20 | serde_json escaping and sorted map | JSON string decoder specification, inverse proof |
| C21–C26, C29 | writer as a state machine over a sink with an arbitrary fault schedule | induction over histories; C23 and C26 partial with counterexamples. Exact conditions: `Props/WriterExact.lean`, `Props/XmlHeader.lean` (an invariant of the parser: which names it can report) |
| C27, C28 | XML tokenizer automaton + readers | symbolic run of the automaton over the writer's output |
| C30–C34 | readers over event lists | induction over events; C33 false, proved by witness |
| C35–C40, C47–C49 | block decoders of stringpbf and arcpbf with panics and build modes | induction over the delta loops against prefix-sum specifications |
| C41–C46, C51 | file framing, reader state with buffer and filter | induction over blocks, truncation analysis |
| C50 | wire format and generated `merge_from`/`write_to` | parse after print is identity |
| C52–C57 | quick-xml event streams; for C52–C55 also bytes, through a tokenizer (`Lib/QuickXmlBytes`) and the grammar of C64 | induction over events, over the grammar; C55/C56 false, proved by witness |
| C58–C60 | the uncompiled modules; for C59 also the `BufWriter` between the writer and the file, of any capacity (`Model/NodeStoreBuffered`) | induction; counterexamples; refinement of the unbuffered writer |
| C61 | the derived builders as records of options | induction over the setter calls |
| C62 | tokenizer automaton, reader over its events | an error event is never skipped without a panic |
| C63 | byte sources with errors (`Source`) | case analysis on where the error is; witness for block boundaries |
| C64, C30–C33 on texts | a grammar of XML 1.0 (`Spec/XmlLex.lean`): layout, quotes, references, comments, CDATA, processing instructions | the tokenizer run over the grammar by induction on derivations; open elements as a stack; objects inside objects (`Spec/XmlNested.lean`): the sequence of end tags cuts any document into pieces, one per object |
| C62, C64, C30–C33 on every file | a grammar of well formed documents with name spaces (`Spec/XmlGrammar.lean`) | the parser accepts exactly the grammar: completeness by induction on derivations (`Proofs/XmlGrammarRun`), soundness by inverting runs, longest text first (`Proofs/XmlGrammarInv`); an unreadable file has one error event, which some call must reach |
| C65 | the block decoders; independent predicates of what a block must hold (`Spec/PbfReadable.lean`) and of the numbers that must be in range in builds with overflow checks (`Spec/PbfChecked.lean`) | equivalence, by splitting the dense loop into independent parts; false of the format, proved by classes of blocks that are refused |
| C66 | `f32` as a bit pattern, exact widening to `f64` (`Lib/Float32.lean`) | the product of a 24 bit significand and 10^7 is representable, so only one rounding is left |
| C67 | the parser of `f64` as a grammar (`Spec/Coord.lean`) | parser = grammar, both ways; two rounding errors of 2^-21 units each; exact result by IEEE rounding (`C67_rounding`); `C04` for the order |
| C68 | `decode_line` and the reader of `src/opl/mod.rs` (uncompiled); the format as a relation between objects and lines (`Spec/Opl.lean`) | induction over the lists and the lines; false for escaped names, empty ways, short lines (proved) |
| C69, C70 | the program as a machine that makes one database operation per step; a file is what was committed last; which operations fail is an input; `Model/TagsToSqliteMain.lean` starts from arguments and files | invariant of the machine, a measure for termination; counting map and sorted list for the report |
| C71 | the number parsers of the standard library (`Lib/RustNum.lean`); decimal notation as a relation (`Spec/Integer.lean`) | parser = relation, both ways |
| C72 | `Debug for f64` (`Lib/Float64Debug.lean`): shortest digits, exponent notation below 1e-4 | the shortest digits are those of the coordinate (C02); the text is a decimal number of that value, so C67 reads it back |
| C73 | generated `compute_size`, and `write_to_with_cached_sizes` with computed length prefixes | for each message: part by part, size = bytes written = bytes specified, by induction over the nesting |
| C74 | derived `Serialize`/`Deserialize` through `serde_json` | JSON strings and whole numbers as relations, parser exact by induction, written text is in the relation |
| C75 | `intoInner` of readers (what the source has yet to give) and writers | induction on the frames with the generic `gnext`; writers from C23/C24 |
| C76 | `ParseLatLonError.display` and `source`, with the printing of doubles | seventeen digits always suffice (numbers near a double round to it); exact form of the error from C03 |
| C77 | the readers and writers of C22–C28 and C41, put together | every decoded object has all its fields (facts of C41); exact round trip of documents |
| C78 | the four methods with their default bodies and overrides; programs of arbitrary calls | `next` commutes with setting the flag; induction over the program |
| C79 | the parser, readers and writers of C22–C28 and C52, put together | invariant of the parser: values have only characters of XML; exact round trip of documents |
| C80 | derived `==` of the twelve object types, field by field | case analysis; representation lemma for stored tags |
| C81 | the three readers over any `read_exact`, with the loop of the standard library over any `read`, `BufReader` and `Take` | well-founded induction for the loop; simulation of the readers |
| C82 | both writers over any `write!`, with the loops of the standard library (`write_all`, `write_fmt`) over any `write`, and `BufWriter` | well-founded induction for the loop; a logical relation closed under the combinators |
| C83 | XML readers over sources that can fail | the events of a prefix are a prefix of the events; induction over the events |
| C84 | writers and readers of XML and change files, cut at any byte | the parser emits the end of an element only at its last character; induction over the pieces of the document |
| C85 | changeset readers over a tokenizer whose source fails | events that do not depend on what follows; every call either returns or sees the end; false for cut files, by witness |
| C86 | opening by name; bzip2 as any function from sources to sources | composition of C27, C41, C52, C53, C84, C85; a reader that panics at the end of its bytes also panics if the source fails there |
| C87 | both programs, with a clock that is any function, and the text of `osmio-pbf-read-speed` (`Model/ProgramText.lean`, `Lib/Separator.lean`) | induction over the loop of the reader; the seconds as C02, the rate by the error of three roundings; false for deleted nodes, by witness |
| C88 | tags_mut as a change of the lent map; edits as a list | induction over the edits, lookup in a filtered list |
| C89 | both parsers (xml-rs, quick-xml) over a byte source, pulled event by event through a `BufReader`; what text settles results | simulation of the parser that sees the whole text, with the bytes read so far as part of the invariant |
| C90 | the sizes of the buffers (`vec![0; n]`) and of the reserved capacity, as a log beside the readers | a relation between what there is, what is asked for and what is left, closed under composition along rounds and calls |
| C91 | the readers of PBF files | induction over the frames before it; the stream of blobs stays the same |
| C92 | zlib streams as a relation between bytes and data (RFC 1950, 1951); a decompressor bit by bit; the readers of PBF files | the decompressor undoes every stream (canonical codes: a word read so far is never below the first of the next length; Kraft sum) and takes nothing else; then the readers depend on the data alone |
| C93 | bzip2 streams as a relation between bytes and data; the decoder of many streams as a loop over a decompressor of one; a decompressor bit by bit | the decompressor undoes every stream and, on a part of one, fails at the end (it never looks past its stream); induction over the streams; composition with C84, C85, C86, C69 |
| C94 | scripts of changes as lists; their effect on what an object shows, in Spec/Edit.lean; the program makes them through the mutators of the model | induction over the script with the mutator laws of C13; composition with the exact round trip of C77 and C79 |
| C95 | the bodies of the unbounded loops (Model/Loops.lean); repeating a body until it leaves, as an inductive relation | each round takes bytes from the source, by strong induction on what is left; the bounds in the model are never reached |
| C96 | the readers of PBF, changesets, tags and XML on concatenations; `Whole` (Spec/Join.lean): sound markup, as many elements ended as begun | PBF: induction on the frames, then on the blobs; changesets: the events of a concatenation are those of the parts up to text in between, and a reader that has not been told the end does not look further; XML: once something has been reported a declaration is an error whatever it says; `Read::chain` (Lib/Chain.lean): it delivers the one source and then the other, so the streams theorems of C81 apply |
| C97 | every accessor, `new`, `clear` and `default_instance` of the generated code (`Model/Accessors.lean`, transcribed by `tools/genaccess.py`); fields and defaults from the .proto files (`Spec/AccessorList.lean`) | one call at a time for each pair of fields, then induction on the calls |
| C98 | `merge_from` and `is_initialized` of every message (`Model/Proto.lean`); the fields a byte string has (`Spec/WireFields.lean`), what fields say (`Spec/WireValues.lean`), field numbers and types from the .proto files (`Spec/PbfDecode.lean`) | merging acts on each member separately, then induction on the fields for each kind of member |
| C99 | the readers, from bytes to getters; formulas for the objects of a block (`Spec/PbfShown.lean`), frames, headers and blobs (`Spec/PbfShownFile.lean`), wire format (`Spec/PbfDecode.lean`) | the decoders of ways, relations and dense nodes against the formulas by induction on the lists; frames by induction on the stream; C98 for messages |
| C100 | the readers on files of any frames | from C99 and that bytes are made of frames in one way only; the counterexample for every blob with neither raw nor zlib data, with an lzma blob as instance |
| C101 | the changeset readers on any bytes; the division into parts in `Spec/QuickTokens.lean`, the results in `Spec/ChangesetAny.lean` and `Spec/ChangesetHeard.lean` | the tokenizer against its description by induction on the bytes; the readers by induction on the parts; uniqueness of the described results |
| C102 | the XML and OSC readers on any bytes; beginnings of documents in `Spec/XmlAny.lean`, with the grammar of `Spec/XmlGrammar.lean` and the pieces of `Spec/XmlNested.lean` | beginnings are the texts after which the parser is between two parts (both directions by induction on the parts); every tag is reported at such a place (case distinction on the step of the parser), so the last one decides; the readers by induction on the pieces |
| C103 | the PBF readers on any bytes; beginnings of files in `Spec/PbfDamage.lean`, with the frames of `Spec/PbfShownFile.lean` | induction on the blobs a source gives: a frame is read exactly if its blob is decoded whole, and the first that is not ends the reading with nothing; uniqueness because bytes are made of frames in one way |
| C104 | the PBF readers called again after panics on any bytes; `Resumed`, `Gives` in `Spec/PbfResume.lean` | the state left by a panic is the source after the frame and, for the readers that push into their own buffer, the objects pushed; induction on `Gives`, which every byte string has, and uniqueness of the results of calling |
| C105 | the owned-string reader after `nodes()`, `ways()`, `relations()` on any bytes; `only`, `KindShown`, `KindGives` in `Spec/PbfMethods.lean` | with the filter a group is decoded as the group without the other kinds is without a filter; then as C99, C103 and C104 |
| C106 | `fromIter` of both writers; `stubOf`, `sentOf` in `Spec/WriterAny.lean` | induction on the objects with a relation between a call and what it sends and returns (`Does`); reading back as C27, C28; any sink by the simulation of C82 |
| C107 | `filter_map` over a `next` that may panic (`Model/ReaderPanics.lean`) | induction on the calls; then C99, C102, C103 and C81 |
| C108 | `derive(Debug)` of all object types and of changesets (`Model/ObjDebug.lean`, `Model/ChangesetDebug.lean`), the builders of `core::fmt` and `Debug for str` (`Lib/RustDebug.lean`) | each part ends where it ends whatever follows, by induction; coordinates by C72 |
| C109 | `write_obj` of both writers, through every getter it calls | equal to a function of the values of the getters; each attribute and element ends where it ends whatever follows, by induction; coordinates by C02 |
| C110 | the writers over any sink (C82), the readers over any source (C81), the loop over a reader | a loop is the same if all finite numbers of calls are (induction over it); then C27, C28, C77, C79, C84, C94 |

## Trusted base

* **Kernel.** Lean 4.33.0's kernel. Nothing is accepted by compiled code: there is no `native_decide`, `bv_decide`, `sorry`, `admit`,
  `axiom`, `implemented_by` or `unsafe` in the sources. Concrete examples use `decide +kernel` or `rfl`, which the kernel evaluates itself.
* **Axioms.** Every theorem depends on a subset of `propext`, `Classical.choice`, `Quot.sound` (checked with `#print axioms` for all theorems of
  `MANIFEST.json` by `tools/axioms.sh`); no other axiom occurs.
* **Transcription.** The definitions in `Verif/Model` are written by hand from the Rust source (three object families and the protobuf
  messages by the generators in `tools/`, whose output is committed). That they say what the Rust code does is not proved; each cites its lines.
  `Props/RepoTests.lean` runs the repository's own tests on the model: all those that are compiled, the documentation tests, and of the uncompiled ones
  those whose functions still exist. All come out as their authors expect, up to the differences listed at its end.
* **Library models.** The definitions in `Verif/Lib` stand for code outside the repository. They are definitions, not assumptions, but that the
  libraries behave like them is trusted. `tools/vectors.py check` compares them with other implementations on random inputs, whole and damaged: zlib, bzip2,
  expat, JSON, UTF-8, dates, integers, and the parsing and printing of floats (185 000 inputs in the last run, no difference); `Props/LibTests.lean` has
  some ninety of these for the kernel. The models:
  * `Float64`: IEEE-754 binary64 multiplication, division, rounding (proved equal to the definition in `Spec/Ieee.lean`), `as i32`; Rust's float grammar and shortest `Display`.
  * `RustNum`, `Machine`: integer parsing, printing, overflow in checked and unchecked builds, slice indexing. Whether `Iterator::zip` computes one
    more element of its first iterator after the last pair is not specified by the standard library (`opaque zipPeeks`).
  * `Chrono`: `DateTime::from_timestamp`, `to_rfc3339_opts(Secs, true)`, `parse_from_rfc3339`.
  * `Utf8`, `Json`, `SerdeJson`: strict UTF-8; `serde_json` strings and `BTreeMap` order, written and read; whole numbers as `serde_json` reads them.
  * `Xml`: the pull parser of xml-rs as an automaton over characters. Document type declarations are an error in the model; the size limits of
    the parser are left out. Whether white space in attribute values is normalised, and whether
    more elements may follow the root element, are parameters (`Xml.Config`), so theorems hold for both. A source that fails gives the parser
    the events of the characters that came before, then an error, then the end. `XmlPull`: when the parser reads. It takes one byte after the other
    and hands an event out at the character that completes it; it reads nothing else ahead.
  * `QuickXml`, `QuickXmlBytes`: what `read_event_into`, `attributes` and `normalized_value` of quick-xml give, and the tokenizer on bytes. After the end of the input every call gives `Eof`. `QuickXmlSource`: over a source that fails, the events that return without asking for more come first, then one error; what comes after the error is arbitrary;
    an element left open at the end of the input is not an error (the default configuration). `QuickXmlPull`: when the tokenizer reads. A call looks at the buffer, which is filled by one read when it is empty, until
    it has seen where the event ends; the first call drops a byte order mark if the first portion begins with a whole one.
  * `Protobuf`: fields of the wire format as rust-protobuf 3.7.2 reads and writes them. Depth limits are left out. What becomes of a
    number that is read into 32 bits and does not fit (error, cut off) is not known: three `opaque` constants (`Proto.Wide`), which are neither axioms nor
    definitions that could be unfolded, so theorems hold whatever they are.
  * `Io`: sinks with an arbitrary schedule of failures. Sources (`Machine`) are lists of bytes and errors. `Chain`, `Take`: `Read::read` of `std::io::Chain` and `std::io::Take`. `BufWriter`: its `write`, `write_all`, `flush_buf` and drop. `AnyIo`: the calls of `Read` and `Write` below
    that, with `read_exact`, `write_all`, `write_fmt` and `BufReader` as the standard library has them; C81 and C82 tie the two together.
    Assumed of an implementation: it gives or takes no more than asked, takes nothing when it fails, and is not interrupted for ever.
  * `RustDebug`: `DebugStruct`, `DebugTuple`, `DebugList` and `DebugMap` with and without `#`, and the escapes of `Debug for str`; which characters need none is a parameter.
  * `Separator`: commas between groups of three digits, and `{:.3}` of a double (to the nearest, of two the even one), as separator 0.4 and the standard library print them.
  * `derive_builder`: setters and `build` as generated (`Model/Builder.lean`).
  * `zlib`: the decompressor is a parameter (any partial function from bytes to bytes), so theorems hold for every decompressor; where a file is
    written, the hypothesis is that decompressing what the compressor made gives the original. C92 replaces this by the format itself
    (`Spec/Zlib.lean`, RFC 1950 and 1951): assumed of `flate2` is only that it gives back what a valid stream stands for. `Lib/Zlib.lean` is a
    decompressor that does. What `flate2` makes of invalid streams stays open.
  * `HashMap` iteration order is a parameter (any permutation) wherever it can be observed.

### What is modelled

| source | model |
|---|---|
| `src/lib.rs` | coordinates, timestamps, object types, the traits with all their default methods, reader trait and iterators |
| `src/utils.rs` | all |
| `src/obj_types/*` | all three families and sum types, builders, conversions |
| `src/xml/mod.rs`, `src/osc/mod.rs` | readers and writers |
| `src/stringpbf/mod.rs`, `src/arcpbf/mod.rs`, `src/stringpbf/node_id_pos.rs` | all of decoding and reading |
| `src/*pbf/fileformat.rs`, `osmformat.rs` | merge, required fields, write |
| `src/changesets.rs` | both readers, accessors |
| `src/bin/osmio-changeset-tags-to-sqlite.rs` | the whole run, but for progress messages; SQLite as a file with atomic commits |
| `src/bin/osmio-osc-debug.rs`, `src/bin/osmio-pbf-read-speed.rs` | both loops, with the values printed; the clock is any function. The text of both: of the first as C108, of the second with commas (the crate separator 0.4, `Lib/Separator.lean`) |
| `src/opl/mod.rs`, `src/nodestore.rs`, `src/nodechain.rs` | not compiled into the crate at this commit; modelled as written (see C58–C60, C68) |

### What is not modelled

* Progress messages of `osmio-changeset-tags-to-sqlite`; `src/tests.rs` and the test modules.
* The file system: opening a name gives an error or a source. libbz2: in C86 the decompressor is any function from sources to sources; in C93 `MultiBzDecoder` is a loop over a decompressor of one stream, of which it is supposed that it undoes the streams of the format (`Spec/Bzip2.lean`), and on a part of a stream gives a part of its data and then an error. What it does on other bytes is not modelled, nor are reads after an error.
* Descriptors and reflection of the generated protobuf code, which osmio does not call; unknown fields kept for re-encoding.
* Memory: allocation failure and capacity hints (`reserve`), except where the code itself panics on sizes, and except the sizes of the buffers that the PBF readers ask for (C90).
