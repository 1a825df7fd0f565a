# Formal model of otake84/dlhn in Lean 4

## 1. What is modelled

| Layer | Rust source | Lean module (under `lean/Verif`) |
|---|---|---|
| results, panics, targets | language semantics | `Model/Outcome.lean` |
| `std::io::Read` and programs that read | `read_exact`, `take(..).read_to_string` | `Model/Reader.lean` |
| `std::io::Write` and programs that write | `write_all` | `Model/Writer.lean` |
| prefix varint | `dlhn/src/prefix_varint.rs` (= `dlhn_derive/src/prefix_varint.rs`) | `Model/Varint.lean` |
| zigzag | `dlhn/src/zigzag.rs` | `Model/ZigZag.lean` |
| serde's data model | serde | `Model/Serde.lean` |
| serializer | `dlhn/src/ser.rs` | `Model/Ser.lean` |
| deserializer | `dlhn/src/de.rs` | `Model/De.lean` |
| headers | `dlhn/src/header/{mod,ser,de}.rs` | `Model/Header.lean` |
| big numbers | `dlhn/src/big_*.rs`, `dlhn/src/format/big_*.rs` | `Model/BigNum.lean` |
| dates and timestamps | `dlhn/src/date*.rs`, `dlhn/src/format/date*.rs` | `Model/Date.lean` |
| dynamic bodies | `dlhn/src/body/mod.rs` | `Model/Body.lean` |
| `SerializeHeader` impls, derive macro | `dlhn/src/header/ser.rs`, `dlhn_derive/src/lib.rs` | `Model/Derive.lean` |
| `T::deserialize` of such types | `dlhn/src/de.rs` driven by serde's and serde_derive's impls | `Model/DeriveDe.lean` |
| any `Deserialize` implementation | `dlhn/src/de.rs` (`Deserializer` and its access objects) | `Model/Visit.lean`, `Model/VisitStd.lean` |
| readers after an error | `std::io::Read::read_exact` (default), `Take::read_to_string` | `Model/After.lean` |
| buffered readers and writers | std's `BufReader` (`read`, `read_exact`) and `BufWriter` (`write_all`, `flush_buf`, `drop`); the flush of the writer behind is not modelled | `Model/Buffered.lean` |
| readers of any behaviour | the contract of `Read::read`; `read_exact`, `Take::read_to_end` as loops over it (readers that claim more bytes than fit in the buffer are excluded) | `Model/AnyReader.lean` |
| combined readers | `read` of std's `Take`, `Chain` and `BufReader` | `Model/Adapters.lean` |
| writers of any behaviour | the contract of `Write::write`; `write_all` as a loop over it (the panic of `write_all` on a writer that claims more bytes than it was given is not modelled) | `Model/AnyWriter.lean` |
| byte slices as readers | std's `impl Read for &[u8]` (`Cursor` likewise), both versions of `read_exact` | `Model/Slice.lean` |
| types with `default`, `alias`, `deny_unknown_fields`, `other`, `untagged`, `tag`, `flatten` | the impls serde_derive generates for these attributes, driving `dlhn/src/{ser,de}.rs` | `Model/Attrs.lean` |
| adjacently tagged enums (`tag` with `content`), in both ways serde_derive has generated them | the generated impls, driving `dlhn/src/{ser,de}.rs` | `Model/Adjacent.lean` |
| types with `into`, `from`, `try_from`, `transparent` | the impls serde_derive generates for these attributes, driving `dlhn/src/{ser,de}.rs` | `Model/Convert.lean` |
| fields and variants with `with`, `serialize_with`, `deserialize_with`; composites of parts with any implementations | the impls serde_derive generates, driving `dlhn/src/{ser,de}.rs` | `Model/With.lean` |
| `Deserialize` implementations that catch errors | `dlhn/src/de.rs` (`Deserializer` and its access objects) | `Model/Catch.lean` |
| any `Serialize` implementation | `dlhn/src/ser.rs` (`Serializer`, `MapKeySerializer` and the compound serializers) | `Model/SerImpl.lean` |
| `Ipv4Addr`, as an example of a type with two forms | serde's implementations (not in /repo) | `Model/HumanReadable.lean` |
| `Duration`, `SystemTime`, `Range`, `Bound`, `Result`, `IpAddr`, `OsString`, `NonZero`, `CString`, `PathBuf`, `usize`, sets | serde's implementations (not in /repo), error texts abbreviated, the order inside sets not modelled | `Model/StdTypes.lean` |
| `==` of bodies, headers, numbers, dates | derives in `dlhn/src/body/mod.rs`, `header/mod.rs`, `big_*.rs`, `date*.rs`; IEEE 754 equality of floats on bit patterns | `Model/Eq.lean` |
| recursive types | `dlhn/src/de.rs`, `dlhn/src/header/ser.rs`, `dlhn_derive/src/lib.rs` | `Model/Rec.lean` |

Specifications that do not use the model's helpers live in `Spec/`, helper
lemmas in `Proof/`, and the property theorems, named `Cnn_..`, with their
non-vacuity examples in `Props/`.

### How it is modelled

* **Outcome.** A call returns `ok`, `err` or `panic` (with a reason: `todo!()`,
  arithmetic overflow, capacity overflow, allocation failure, stack overflow,
  out-of-range time arithmetic). Build mode (overflow checks on or off) and the
  target (pointer width, memory limit) are parameters, never fixed. The memory
  limit is per single request: `allocate n` is a capacity overflow above
  `isize::MAX`, an allocation failure above the limit, and granted otherwise.
* **Decoders** are values of a free monad `Prog` whose nodes are the reader
  calls the Rust code makes (`read_exact(n)`, `take(n).read_to_string`) and the
  explicit allocations (`Vec::with_capacity`, `vec![0; n]`). One interpreter runs
  a program on a byte list, another on a *scripted reader* (chunks, `Interrupted`,
  failures, end of file) through the loop `read_exact` performs. Theorems about
  all schedules therefore quantify over scripts.
* **Encoders** are programs of `write_all` calls, interpreted on a `Vec` and on a
  scripted writer (short writes, `Interrupted`, failure, `Ok(0)`).
* **Integers** are Lean's fixed-width `UInt8..UInt64`, `Int8..Int64`; the Rust
  shifts, masks and casts are transcribed one by one. Floats are bit patterns.
* **Strings** are Lean `String`s, i.e. valid UTF-8 byte arrays.
* **serde.** `Val` has one constructor per `Serializer` method and `Ty` one per
  `Deserializer` request; `Has` says which values a type has. For the derive macro
  `RTy` is a surface syntax of Rust types with attributes, and `Carrier T` are the
  values of such a type.
* **Hand-written `Deserialize` implementations** are trees of the calls they make on the
  deserializer and on the `SeqAccess`, `MapAccess`, `EnumAccess` and `VariantAccess` it hands
  out, with arbitrary continuations. The ones serde and serde_derive provide are written
  this way too and proved equal to the decoder of `Model/De.lean` (C87).
* **Recursion.** `deserialize_header` recurses as deep as the input nests; the
  model takes the stack depth as a parameter and reports exhaustion as a panic
  (C33). `T::deserialize` and `T::serialize_header` of recursive types recurse as
  deep as the input, or for ever; `Model/Rec.lean` counts nested calls of named
  types in the same way (C84-C86). `Body::deserialize`, `Body::validate` and serializing
  bodies and headers are structurally recursive in the model; `Model/Stack.lean` has them
  again counting nested calls (C128); `Model/RecSer.lean` counts the nested `serialize` calls of
  named types (C129). All other functions are structurally recursive over types
  or values; the stack they need is not modelled.

## 2. Trusted base

* Lean's kernel. Axioms: at most `propext`, `Classical.choice`, `Quot.sound`;
  section 6 lists them per theorem. No axiom is added, and no `sorry`,
  `native_decide`, `bv_decide`, `implemented_by` or `unsafe` is used.
* That the transcription of the Rust code is faithful. Every definition of the
  model cites its lines. `Conformance.lean` runs the unit-test vectors of the
  repository (literal bytes copied from its tests and README) on the model. These
  are tests of the transcription, not proofs, and no property rests on them.
* That these parts of other crates behave as their comments in the model say:
  * `std::io`: `read_exact`, `write_all`, `Take::read_to_string`, and how they
    treat `Interrupted`, short and zero transfers; `BufReader` and `BufWriter`;
  * `std` collections: `Vec::with_capacity`, `BTreeMap::insert` and iteration order,
    derived `Ord`, casts, shifts and overflow checks;
  * `serde`: implementations for the standard types (`Model/StdTypes.lean`); `serde_derive`: the calls made by derived
    `Serialize` and `Deserialize` impls (`Model/De.lean`, `Model/Derive.lean`,
    `Model/DeriveDe.lean`, `Model/Date.lean` for `DateTime`, `Model/SerIf.lean` and
    `Model/Attrs.lean` and `Model/Convert.lean` for attributes);
  * `num_bigint`: `to_bytes_le`, `from_bytes_le`, `to_signed_bytes_le`,
    `from_signed_bytes_le`, `Zero`; `bigdecimal`: `normalized`,
    `into_bigint_and_exponent`, `new` (`Model/BigNum.lean`);
  * `time`: `Date::{year, ordinal, from_ordinal_date}` and the range -9999..=9999,
    `OffsetDateTime::{unix_timestamp, nanosecond, from_unix_timestamp, +}`
    (`Model/Date.lean`).

Not modelled:

* `leb128.rs`: commented out of `lib.rs`, not part of the crate. `dlhn_bench`, except for its type and data in `Conformance`.
* `Debug` texts, `Clone`, `Hash`. The texts of `Error::Message` are those of the code and of
  serde's generated code, except those of the standard library's types (abbreviated).
* serde attributes other than `skip`, `skip_serializing`, `skip_serializing_if` (the ones
  the macro looks at), `skip_deserializing`, `default`, `alias`, `deny_unknown_fields`, `other`,
  `untagged`, `tag`, `content`, `flatten`, `transparent`, `from`, `try_from`, `into` and `with` (with
  `serialize_with`, `deserialize_with`): `getter`.
* Generic parameters and where clauses of derive inputs (the macro emits an `impl` without them,
  so such inputs do not compile). The stack used by
  dropping, comparing or cloning a deeply nested value, header or body.
* Memory other than the explicit allocations named above: the growth of a `Vec` or
  `String` while data arrive (dlhn gives no `size_hint`, so serde preallocates nothing), and the
  boxes and tree nodes of a decoded value.

## 3. Plan per property

For each property: what is modelled, how it is proved (and, in `Props/`, where).

* **C01 Unsigned integers round-trip in a stream.** Transcribed shift/mask code (`Model/Varint`, `Model/ZigZag`) proved equal to the arithmetic specification `Spec/Varint`, `Spec/ZigZag`; decoding the encoding with any suffix returns the value and the suffix. `Props/Ints`.
* **C02 Signed integers round-trip in a stream.** As C01, composed with the zigzag bijection.
* **C03 Unsigned integer wire format.** The encoder equals `varint w v`; the number of groups is characterised by powers of 128.
* **C04 Integer encodings are the shortest the decoder accepts.** Every accepted byte string for a value is at least as long as its encoding: case analysis on the leading ones of the first byte.
* **C05 ZigZag maps signed integers to their magnitude order.** Serialized bytes are `varint w (zigzag v)`; `zigzag` is a bijection ordered by magnitude: linear arithmetic.
* **C06 Integer decoding is total and consumes a length fixed by the first byte.** The decoder equals `varintDecode`, which is total with a length fixed by the first byte; `decide +kernel` over all 256 first bytes.
* **C07 Typed round-trip for the serde data model.** Structural induction over `Ty` and `Val` (mutual with payloads): the serializer writes `wire v`, the decoder inverts it. `Props/Typed`.
* **C08 Encodings of one type are prefix-free.** From C07 applied twice.
* **C09 Concatenated values decode as a stream.** Induction over the list of values, C07 with the remaining stream as suffix.
* **C10 Truncated input is always detected.** Generic lemma about programs (`Proof/ProgGen`): a run that consumes its input fails with the end-of-input error on every strict prefix; by induction over programs, for all types; types without text on every target (`Proof/NoText`, `Props/TypedAny`).
* **C11 A decoder only depends on the bytes it consumes.** Generic lemma about programs: a successful run does not depend on what follows; types without text on every target (`Props/TypedAny`).
* **C12 Decoded values re-encode, no longer than what was read.** Induction over types: a decoded value has the type, so it re-encodes (C07); lengths through C04.
* **C13 Decoding untrusted bytes never panics for supported types.** A predicate `Total` closed under the program constructors, by induction over types; byte-buffer loop by an invariant.
* **C14 Unsupported requests fail predictably.** Case analysis: exactly the listed requests reach `todo!()` or the 128-bit errors; serialization succeeds iff `Serializable`.
* **C15 Boolean and Option tags are strict.** Case analysis on the tag byte.
* **C16 String decoding accepts exactly length-prefixed UTF-8.** Both paths (stack buffer, `take`) equal: length, then that many bytes, valid UTF-8. On every target in `Props/TypedAny`.
* **C17 Byte-buffer decoding accepts exactly length-prefixed bytes.** Loop invariant of the chunked read: result is the prefix read so far. On every target in `Props/TypedAny`, with an invariant for lengths beyond usize.
* **C18 char round-trips and rejects empty strings.** From C16; first character of the string.
* **C19 Only string map keys serialize.** Serializing a map succeeds iff all keys are strings; the first bad key stops it after the preceding entries.
* **C20 Sequences of undeclared length are not self-delimiting.** Bytes computed; two different values with the same bytes; witness.
* **C21 Enum variant indices survive exactly below 16384.** `varint 32 i` read as 16-bit varint returns `i` iff `i < 16384`.
* **C22 Names are not on the wire; structs, tuples and newtypes are transparent.** `Spec/Names.erase` forgets names; induction over values.
* **C23 Floats keep every bit.** Bit patterns through little-endian bytes.
* **C24 Reader chunking is invisible.** Induction over programs and scripts: a run on a script is a run on the delivered bytes. `Props/Io`, `Props/Header`, `Props/Body`.
* **C25 Reader failures surface as errors.** Same simulation with the ending of the script. On 64-bit targets every decoder is strict (`Prog.Strict`: what it returns is decided by the bytes it consumed), on every target the decoders of types, headers, derived types, implementations and recursive definitions without text are (`Proof/NoTextAll.lean`, induction over each).
* **C26 Writer short writes are invisible.** Induction over writer programs: benign scripts do not change the outcome.
* **C27 A failing writer leaves a prefix and reports Write.** Induction over writer programs: any script gives the full result or an error and a strict prefix.
* **C28 Torn output never decodes as the value.** C27 with C10 (C31, C41).
* **C29 Typed decoding never trusts announced lengths for allocation.** A predicate bounding every `alloc` node, closed under constructors; induction over types.
* **C30 Headers round-trip.** Structural induction over headers. `Props/Header`.
* **C31 deserialize_header accepts exactly the header grammar.** The grammar `HeaderBytes` is an inductive relation; decoder accepts iff the relation holds; outcomes classified.
* **C32 Header member counts wrap at 65536.** Count modulo 65536 computed; re-reading gives a header with fewer members.
* **C33 Header recursion depth is bounded by input length only.** Depth as explicit parameter; exactly the headers of smaller depth decode; family of hostile inputs for each depth.
* **C34 Every built-in type writes the header that describes it.** `Describes T h` relates types and headers inductively; induction over types for the writes and for totality on built-in types. `Props/Derive`.
* **C35 Dynamic bodies round-trip under their header.** Structural induction over headers and bodies; maps through `insertAll` on sorted lists (`Proof/BTree`). `Props/Body`.
* **C36 A dynamically decoded body validates.** `Returns` predicate on programs, induction over headers.
* **C37 Body validation is structural typing.** `Conforms` is an inductive relation; mutual induction.
* **C38 Typed and dynamic views agree.** Mutual induction over types and values (`Proof/DeriveBody`): same bytes, decoded body mirrors the value.
* **C39 Dynamic maps keep the last duplicate and come out sorted.** `BTreeMap` as a sorted association list; invariants of repeated insertion.
* **C40 Unknown enum indices are rejected.** Index selects a member or fails: induction over the member list.
* **C41 Dynamic decoding of truncated input fails.** Generic truncation lemma on the programs of `Body::deserialize`.
* **C42 Array capacity is taken from untrusted input.** The allocation node is reached with the announced length; for every limit an input exceeding it.
* **C43 BigUint conversions and encoding preserve the number.** Digits of naturals in base 256. `Props/BigNum`.
* **C44 BigInt conversions and encoding preserve the number.** Two's complement of minimal length.
* **C45 BigDecimal conversions preserve the numeric value and are canonical.** `normalized` strips trailing zeros: induction; overflow side stated exactly with a witness.
* **C46 format modules and newtypes write the same bytes.** Both writers computed to the same bytes; readers cross-checked.
* **C47 BigUint and BigInt comparison is not numeric.** Lexicographic order on bytes; families of inversions for all n; totality.
* **C48 BigDecimal zero has scale zero.** Invariant of construction and decoding.
* **C49 Calendar dates round-trip.** Linear arithmetic over the calendar range. `Props/Date`.
* **C50 Invalid calendar dates are rejected, not normalised.** Case analysis on validity; leap years by arithmetic.
* **C51 Date decoding at the integer limits.** Overflow conditions computed exactly; both build modes.
* **C52 Timestamps round-trip as instants.** Instant arithmetic over `Int`; boundary outside UTC range.
* **C53 Timestamp decoding can panic only past the end of time.** Exact panic condition; witness.
* **C54 Date and DateTime order chronologically.** Lexicographic order against days/instants; unnormalised counterexample.
* **C55 Derived struct headers list exactly the serialized fields.** `C34` machinery: loop over fields, compile errors, count modulo 65536. `Props/Derive`.
* **C56 Derived enum headers describe every variant.** Loop over variants; member-wise description.
* **C57 Derived header and body agree.** C34 followed by C38 on one stream.
* **C58 Skipped enum variants shift header indices.** Index on the wire is the position among all variants, member index the number of kept ones before: counting lemmas; witness.
* **C59 Announced lengths are truncated on 32-bit targets.** Concrete input on 32-bit targets, decoder computed symbolically. `Props/Typed`.
* **C60 Header decoding amplifies memory.** Potential argument over the allocation requests of the header decoder; family of inputs by induction on n. `Props/Header`.
* **C61 Announced element counts are not bounded by the input for zero-width elements.** Zero-width headers characterised by induction; every other element consumes a byte. `Props/Body`.
* **C62 Dynamic decoding panics only where listed.** Closure predicates over the programs of `Body::deserialize`.
* **C63 Dynamically decoded bodies re-encode canonically.** C36 and canonicity of decoded bodies, then C35.
* **C64 Typed and dynamic decoding disagree on oversized lengths on 32-bit targets.** Concrete input on 32-bit targets.
* **C65 big_decimal and BigDecimal disagree on non-canonical zeros.** Both readers computed on the family of non-canonical zeros. `Props/BigNum`.
* **C66 Numbers, dates and timestamps stream.** Record decoders are programs: generic truncation, locality and reader lemmas. `Props/Records`.
* **C67 Numbers, dates and timestamps panic only where documented.** Closure predicates on the record decoders.
* **C68 The integer coders are exact on any buffer.** The coders on an arbitrary buffer; 8-bit ones included. `Props/Coders`.
* **C69 Skipped fields inside variants are in the header but not in the body.** Header unchanged by field attributes in variants, bytes changed; witnesses. `Props/Derive`.
* **C70 Type headers on failing writers.** Writer simulation (C26, C27) for `serialize_header` of every type. `Props/Derive`.
* **C71 Derived types round-trip.** `deTy` follows serde_derive's `Deserialize` for the type; induction on the type against an independent relation `Returned` between the value written and read. `Props/DeriveDe`.
* **C72 Fields skipped in one direction break the stream.** The fields before the last round-trip by C71's induction; then one step more or less. Witness.
* **C73 Skipped enum variants shift typed decoding.** Counting kept variants along the variant list; witness.
* **C74 Derived types stream.** Closure of the predicate `Strict` over the decoder of every type; sequences by induction. `Props/DeriveIo`.
* **C75 Derived types on hostile input.** Closure of totality, panic sets and allocation bounds over the decoder of every type.
* **C76 Derived types on failing writers.** Closure over the encoder of every type; C71 and C74 for torn values.
* **C77 Typed and dynamic decoding agree on every input.** A simulation between the two decoders as programs, closed under sequencing, loops and map building; induction on the type. The relation `SameContent` compares a typed value and a body by value. `Props/DeriveAgree`.
* **C78 Enum indices are read differently by type and by header.** The two index readers against the varint specification; the simulation of C77 for the payload; witness.
* **C79 Decoded values of derived types re-encode canonically.** A postcondition of the decoder of every type, by induction on the type: the value is fit for C71 and not longer than its input; then C71, and uniqueness of the value returned. Witnesses for the exceptions. `Props/DeriveYield`.
* **C80 Dynamic values are read by type.** Any byte string that encodes a body, map entries in any order, is read by every type with the body's header: induction on the type. `Props/DeriveRead`.
* **C81 Types with the same header read each other's values.** C80 for the bytes of a typed value, which the induction of C38 shows to encode a body that mirrors it.
* **C82 A header and a stream of values are self-describing.** C34 for the header, C38 per value, induction on the sequence; C41 for truncation.
* **C83 Encodings of derived types are unambiguous.** Two runs of C71 on the same bytes; induction on the sequence.
* **C84 Recursive types round-trip.** Decoding with stack `d` succeeds as decoding the type unrolled `d` times does; C07, C10, C12, C24, C29 for the unrolled type. `Model/Rec`, `Props/Rec`.
* **C85 Recursion depth is limited by the stack alone.** A relation between decoders (the same, or out of stack) closed under sequencing; a bound on the input left after each guard; witness by induction.
* **C86 Recursive types have no header.** Closure of `returns or overflows` over the header writer; the set of types without header is endless; induction on the size of a header.
* **C87 Hand-written Deserialize implementations inherit the guarantees.** Implementations as trees of calls (`Model/Visit`), with serde's and serde_derive's own written out with their loops and slots (`Model/VisitStd`); closure of the predicates of C10, C12, C24, C29 over all trees; equality of programs for the standard ones. `Props/Visit`.
* **C88 Visitors are given the serialized elements, and nothing skips the rest.** Induction on the visitor, against a specification that feeds it a list (`Spec/Visit`); C07 for each element.
* **C89 Numbers written with one integer type and read with another.** The decoder's arithmetic on the specified encoding of another width, case by number of 7-bit groups. `Props/Evolve`.
* **C90 Compatible changes of a type.** `Spec/Evolve` says when two values are the same data and which changes of a type are compatible; induction on these: same data have the same bytes, and every value of the old type has a counterpart in the new one; then C07 for the new type.
* **C91 Incompatible changes of a type.** Decoding a struct is decoding a prefix of its fields and then the rest; C07 for the prefix.
* **C92 Decoding makes at most two reader calls per byte.** `Prog.calls` counts reader calls of a run (`Spec/Cost`). A potential argument: two units earned per byte, one spent per call; closed over every decoder. `Props/Cost`.
* **C93 Explicit allocations amount to no more than the input.** The same way: explicit requests against bytes read, closed over every decoder.
* **C94 Decoded values are no larger than their input allows.** Induction on the type (header): parts at most `a` per byte and `b` more, with `a + b` at most the parts of the type; then the length bounds of C13 and C63 on what was read. Derived types: `Spec/Least` counts the bytes a value takes at least and the parts that are read; induction on the type with `Yields`, at most P parts for each byte.
* **C95 Equality of dynamic values and headers.** `Model/Eq` transcribes the derived comparisons; `Spec/Eq` says what number float bits stand for and when two bodies mean the same (maps as functions of the key). Induction on the body; arithmetic on sign, exponent and fraction. `Props/Eq`.
* **C96 Equality and order of numbers and dates.** C43-C45 and C54 for converted values; lexicographic orders are total for stored values; witnesses by decoding overlong numbers.
* **C97 Hand-written Serialize implementations inherit the guarantees.** Implementations as trees of calls that see the errors (`Model/SerImpl`), against a specification of the bytes and error (`Spec/SerImpl`); mutual induction on the tree. For implementations that pass errors on the program is one of those of C27; serde's own are shown to be the programs of `Model/Ser`. `Props/SerImpl`.
* **C98 Map keys are what types show to humans.** Induction on the entries with C97; `Ipv4Addr`'s two implementations are written out (`Model/HumanReadable`); the one address that survives is found by going through all first octets in the kernel (the other octets are determined by it).
* **C99 Declared lengths are not checked.** The decoder's loop split at the number of elements presented; C07 for each of these.
* **C100 Where a failed decode leaves the reader.** `Model/After` runs decoders keeping the reader after a failure. A decoder that ends within its data ends at the same place on all data that begin alike (`Prog.complete`); induction on the program for every kind of reader. The places for each kind of bad data by computation. `Props/After`.
* **C101 Implementations that catch errors.** Implementations as trees whose continuations see the errors (`Model/Catch`), run on any reader; mutual induction on the tree relates two readers, and a tree to the plain implementation it extends. `Props/Catch`.
* **C102 Written data are recognised on every target.** A decoder is tame if a `take` that accepts less than it asked for never accepts all of it (`Prog.Tame`), which holds on every target; on data that can be continued to a success a tame decoder behaves like a strict one. `Recognised` (`Spec/Targets`); the round-trip theorems supply the success. `Props/Targets`.
* **C103 Size limits of encodings.** Limits defined by recursion on types and headers (`Spec/Bounds`); mutual induction with witnesses for both ends (`Sized`). Decoding: a decoded value re-encodes to no more than was consumed (C63), so the lower limit carries over. `Props/Bounds`.
* **C104 Buffers of fixed size.** std's `impl Write for &mut [u8]` as a run of the write program (`WProg.runSlice`); it equals taking a prefix of the output. `Props/Bounds`.
* **C105 Which errors decoding and serializing can return.** Kinds of errors by recursion on the type (`Spec/Errors`). No other error: induction on the type with the invariant that every outcome of the decoder is allowed (`Prog.Outcomes`). Each occurs: an input is built for every kind the type lists. Serializing: the list of faults of a value; induction. `Props/Errors`.
* **C106 Fields left out depending on their value.** `Model/SerIf` is the serializer serde_derive generates, with the predicates as a parameter. Induction on the type shows it equal to `Derive.ser` for values in which no predicate holds; lemmas about appended field lists and variants give the bytes and the reader's view. `Props/SerIf`.
* **C107 Byte slices as readers.** `Model/Slice` runs the decoder on a slice, with the version of std as a parameter. Induction on programs: same result as `Prog.run`, same place as other readers or the start of the failed read; where it stops through `Prog.complete`, as for C100. `Props/Collect`.
* **C108 Collecting data until a value is complete.** The caller's loop is an inductive relation (`Spec/Collect`). Existence by induction on the values sent and on the pieces from C102 (recognised with anything behind, `Err(Read)` on every prefix); uniqueness because the relation is deterministic; independence of the pieces from strictness (C100).
* **C109 Defaults, aliases and denied unknown fields have no effect.** `Model/Attrs` has the visitor serde_derive generates for structs, with what a missing field yields and the aliases as parameters. Induction on the fields with the slots filled so far: the keys dlhn announces are 0, 1, 2, …, each field is found at its own position, and no slot is empty in the end. `Props/Attrs`.
* **C110 Catch-all variants do not skip what they catch.** `otherEnum` is the derived implementation with a fallthrough arm; `run_otherEnum` shows it equal to reading the index and then the variant or the catch-all one. Lists by induction. `Props/Attrs`.
* **C111 Untagged, internally tagged and flattened data are written but not read.** The implementations serde_derive generates, with the buffered content and what is made of it as parameters (the deserializer panics before it matters). Bytes from the theorems on hand-written implementations (C97); headers by computation on particular types. `Props/Attrs`.
* **C112 Buffered writers: Ok is not delivery, and nothing is torn or reordered.** `Model/Buffered` has std's `BufWriter` around a scripted writer. Induction on programs: the accepted bytes followed by the held back ones are what was handed over, or a strict prefix after an error; a separate induction for encodings that fit. `Props/Buffered`.
* **C113 Buffered readers change no result but read ahead.** `Model/Buffered` has std's `BufReader` around a scripted reader, with `read_exact` and `read_to_end` as loops over its `read`. The loops are shown to deliver the buffered bytes followed by those of the reader, then induction on strict programs as for C24. `Props/Buffered`.
* **C114 Values of standard library types.** `Model/StdTypes` transcribes serde's implementations as trees of calls. Bytes from the theorem on what implementations write (C97); reading by unfolding the two-field, enum and sequence visitors once, for any element implementation. No panic from C87. `Props/StdTypes`.
* **C115 Which types can notice bad data.** `Spec/Lenient` says which types. A predicate on programs - every input is read or can be completed - closed under sequencing for strict programs, by induction over the types without text (strict on every target, `Proof/NoText`); for the others the first part that is not lenient is given bad data after the completed ones before it. The same for headers and derived types, where not being read is an error or a panic (`Spec/LenientAll`). `Props/Lenient`, `Props/LenientAll`.
* **C116 Serializing makes few calls on the writer.** `Model/WriteCalls` counts the calls of write behind write_all; `Spec/Sends` lists the buffers. Bounds on write by induction over the script of the writer and the encoder. For write_all a predicate on encoders (at most two calls per byte) closed under sequencing, by induction over values, implementations, bodies, derived types and headers; header encoders leave room for one more call, which pays for the empty buffers of unit and newtype variants. `Props/Sends`.
* **C117 Any reader, whatever it does.** `Model/AnyReader` runs decoders on a relation that says which answers to a `read` are possible; `Spec/AnyReader` says when a result is explained by the bytes handed over. Induction on runs with `Prog.complete`: a strict decoder (on what was written: a tame one) has either ended within the bytes or the last answer was an end. Existence of runs by induction on the program and, inside a loop, on the bytes still asked for and the interruptions still to come. Every run is one on a scripted reader (`C117_replayed`), so the other properties carry over. `Props/AnyReader`.
* **C118 Readers put together with take, chain and BufReader.** `Model/Adapters` has `read` of `Take`, `Chain` and `BufReader`; `Spec/Adapters` says what a combination delivers. Induction on the combination: each `read` takes a prefix of what is delivered, at its end or failure reports it; then C117. Limits by an invariant of runs. `Props/Adapters`.
* **C119 Any writer, whatever it does, and any writer to any reader.** `Model/AnyWriter` runs encoders on a relation that says which answers to a `write` are possible, recording buffers and answers; `Spec/AnyWriter` says what has become of the data. Induction on runs of `write_all` and then of the encoder; every encoder maps all errors of the writer alike (C27). Crash points from the order of the calls; with C117 for readers. Every run is one on a scripted writer (`C119_replayed`), so the other properties carry over. `Props/AnyWriter`.
* **C120 Exactly which bytes are read, and as what.** `Spec/Grammar` defines which byte strings stand for which value, by arithmetic and concatenation. A relation `Parses` between a program and such a predicate is closed under sequencing and repetition; the number forms are shown equal to `varintDecode` by the leading-ones characterisation of bytes; then induction on the type. `Props/Grammar`.
* **C121 Changes of data that go unnoticed.** Induction on the type over the grammar: every form is at least as long as the encoding, and one as long differs from it only in the marker bytes of 16-bit and 32-bit numbers. `Props/Grammar`.
* **C122 Exactly which bytes are read as which dynamic value.** As C120 and C121 for `Body::deserialize`: `Spec/BodyGrammar`, with a predicate for the vectors there is memory for, and a map standing for its entries collected, the last of one key winning. Induction on the header. `Props/BodyGrammar`.
* **C123 Exactly which bytes are read as which value of a derived type.** As C120 for the types of the derive model: `Spec/DeriveGrammar`, with skipped fields taking their default and no bytes, variants counted without the skipped ones, hash maps standing for their entries gathered. Induction on the type declaration. `Props/DeriveGrammar`.
* **C124 Changes of data of a derived type that go unnoticed.** As C121: a relation `Tight` between an encoder and a byte string is closed under sequencing; for the big numbers the shortest form is shown strictly shorter than every other body of the same value; induction on the type declaration. The excluded types have witnesses. `Props/DeriveGrammar`.
* **C125 Exactly which bytes are read on every target.** As C120 with the address size a parameter (`Spec/GrammarAny`): the grammar of a string and of a byte buffer sees what follows and whether its length was cut down. Induction on the type for the equivalence, and again for the agreement of two sizes where no length is cut down. `Props/GrammarAny`.
* **C126 Exactly which bytes are read as a derived type on every target.** As C123 and C125 together (`Spec/TypesAny`): the grammar of a derived type with the address size a parameter and with what follows passed on to the strings inside. Induction on the type declaration for the equivalence, again for the agreement where no length is cut down. `Props/TypesAny`.
* **C127 Exactly which bytes are read as a dynamic value on every target.** As C122 and C125 together (`Spec/TypesAny`): only the memory an array asks for is cut down, not the number of its elements. Induction on the header. `Props/TypesAny`.
* **C128 Only the header decides how deep dynamic values recurse.** `Model/Stack` has the recursive functions again with the number of nested calls the stack has room for; `Spec/Stack` defines how deep a body is. With enough room they are equal as programs (induction on the count); a relation between programs (the same or out of stack) is closed under sequencing. For exactness, a header is cut off at the depth of the stack and the round trip applied to the rest. `Props/Stack`.
* **C129 Values of recursive types can be written on the stack they can be read on.** `Model/RecSer` follows the type of a value as the derived `Serialize` does and counts calls of named types. Induction on the type: it is the serializer of C07 or out of stack after a prefix, equal for values within the depth, and successful only for these; then induction on the depth. `Props/RecSer`.
* **C130 Reading a stream to its end.** `Spec/Log` has the caller's loop as a relation over any reader (Model/AnyReader). Induction on the loop, each step by what C117 says of one value; the writer side is `Delivered` of C119 for the whole stream. Ending: the number of bytes the reader has left goes down with every value (C103). Histories of a log (`Lives`): induction with the invariant that the file is complete values and a strict beginning of one more.
* **C131 Types serialized through another type.** `Model/Convert` has the implementations serde_derive generates, over any implementation of `U`; `Spec/Convert` says what every decoded value is like. A run of two pieces of code in a row on any reader is split by induction on the first; containers by induction on their number of elements. `Props/Convert`.
* **C132 Builds and machines decide whether there is a result, not which.** `Spec/Builds` compares two programs on every reader (Model/AnyReader) or writer. A relation between programs (the same, or the first panics for an admitted reason, allocations related) is closed under sequencing and repetition and implies that; it is shown for each decoder and encoder by induction on the type, header, body, implementation or stack. `Props/Builds`.
* **C133 Adjacently tagged enums.** `Model/Adjacent` has the generated implementations of both generations. Reading: their visitor, given the two keys dlhn announces, is reading the index and then one variant, compared with the enum of C07 case by case; writing: a struct of two fields (C97). `Props/Adjacent`.
* **C134 A log that describes itself survives crashes.** `Spec/SelfLog` has the caller's code, the writer's and the lives of a process, over any reader and writer. The header by C34 and C117, then the loop by C130 with the bodies of C38. Histories: induction with the invariant that the file is a strict beginning of the header and no value was written, or the header and a log in the sense of C130. `Props/SelfLog`.
* **C135 Several writers on one stream.** `Spec/Writers` has the schedules (`Interleaves`) and the number of calls a type allows. The bound by induction on the type; that it is reached by induction with sets of numbers. A schedule of the calls of values that take one call each is a schedule of the values, and the rest is C130. For derived types and dynamic values (`Spec/DerivedWrites`) the bounds, and values that reach them, by induction on the type and the header. The atomicity of one call of `write` is an assumption about the stream. `Props/Writers`, `Props/DerivedWrites`.
* **C136 The bytes are a fingerprint of the data.** `Spec/SameData` says when two values carry the same data. Same data, same bytes: induction on the type, decimals by C45, instants by their nanoseconds being below a second. Same bytes, same data: by C71 both values are read as one value, in an environment that keeps the order of maps, and values that are read as one value carry the same data, by induction on the type. `Props/SameData`.
* **C137 Random access to records of fixed size.** `Spec/Seek` has the file as a list of bytes, what overwriting does to it, and when the limits of C103 coincide. Lists of equal lengths: dropping, replacing, counting, by induction on the list; reading at an offset by the round trips C01, C35 and C71. `Props/Seek`.
* **C138 Bytes as sorted keys.** `Spec/KeyOrder` has the order of values as an inductive relation and the types concerned. Encodings of one type are prefix-free (C08), so that the order of concatenations is that of their parts; both directions by induction on the type, with a pair of values for every other type. `Props/KeyOrder`.
* **C139 Several readers on one stream.** `Spec/Readers` has the readers with what each is doing and the bytes left, and one step of one of them; a decoder is a tree of its calls (`Model/Reader`), so a schedule is a sequence of such steps. Invariant over the steps: what every reader has, and is about to hand out, is what was dealt to it, and the bytes left are those of the values not dealt. The atomicity of one call is an assumption about the stream. The theorem is about any decoder and code; bodies come from C35, derived types from C71. `Props/Readers`.
* **C140 Values inside byte buffers.** A stream of buffers is a stream of values of type byte buffer, so that C130 applies whatever the contents; the bytes of a damaged buffer are those of another buffer of the same length. The changes of the type are those of C91 with nothing behind the value; headers, bodies and derived types come from C30, C35 and C71. `Spec/Frames`, `Props/Frames`.
* **C141 Headers tell whether data can still be read.** `Spec/Grows` has the changes of a header and of a value as inductive relations, and the comparison as a function. For every change of a header, every conforming value has a counterpart with the same bytes (induction on the changes), which is read by C35 and C80; what a type writes is what its body writes (C71). The comparison is proved equivalent to the relation by induction on the headers, with transitivity as the main step. That it misses nothing: counterparts have a common form, and for every rejected pair of headers a value is built whose form no value of the new header has (`Proof/GrowsExact`). `Props/Grows`.
* **C142 Parts of an encoding can be read and replaced.** `Spec/Splice` has the places in a value as an inductive relation, with the function that puts another value there. By induction on the place: the bytes around it do not depend on what is there, and the value stays a value of its type; then the round trips C07 and C35. `Props/Splice`. For derived types the places are those that are serialized (`Spec/SpliceDerived`); the program that writes is shown to be the one for the part between two that do not depend on it; then C71. `Props/SpliceDerived`.
* **C143 Fields and other parts with code of their own.** `Model/With` has the implementations serde_derive generates, with the code of the parts left open (`Impl`, `SerImpl`). The generated visitors are shown to be the parts in sequence, by induction on the list of parts; round trips and runs on any reader follow part by part. `Spec/With`, `Props/With`.
* **C144 Intermediaries that know only the header.** `Spec/Relay` has the code of an intermediary over any reader, rows of them, and the receiver. A value is read as the body of C38, which is good for its header, so that its own bytes are read as the same body (C35) and by the receiving type (C80, C81). One intermediary by C34 and C130; rows by induction, with the invariant that the bytes between two are the header and the bytes of those bodies, up to some value. On machines of different kinds every step is that of one machine, and the builds write the same bytes because a checked build that can write a value writes what an unchecked one does (C132). `Props/Relay`, `Props/RelayMixed`.
* **C145 A message with its header tells its data, whatever the types.** Headers are prefix-free (C30) and a header followed by the bytes of a value is decoded to the header (C34) and to a body that shows the value (C38), so that a message that begins another is decoded to the same header and body. For the converse the body that shows a value is shown to be the only one, by induction on the type (`Proof/Mirror`), and serializes to the bytes of the value (C38). `Props/Message`.
* **C146 Programs connected by pipes: results and deadlocks do not depend on timing.** `Spec/Network` has programs that write to and read from pipes of given capacity, as trees of their calls, and one step of one of them. A step is a sequence of steps of one byte; what a program can do next is determined, and steps of different programs commute because every pipe has one writer and one reader. From this, by induction on the schedules, confluence and the uniqueness of the end. In `NetStep` writing to a pipe whose reader has ended is no error; in `PipeStep` it is one, and the two are shown to agree if at the end nothing is on its way to a program that has ended: what is on its way stays there. `Proof/Network`, `Props/Network`.
* **C147 Conversations that work value by value work byte by byte.** A value is carried through an empty pipe byte by byte, by induction on the calls of the decoder, which makes no call that its value does not fill; conversations by induction, and all other schedules by C146. The decoders that need nothing behind their value are those of C01, C30, C35 and C71. The two arrangements are programs in `Spec/Network`; for the deadlock a schedule that fills both pipes is given and C146 applied. Pipelines (`Spec/Pipeline`) by induction on the number of programs and of values, as conversations. `Spec/Held` has conversations in which pipes hold values; the client that sends first is one, by induction on the requests, and the deadlock is reached by a schedule that fills both pipes behind what they hold. `Props/Network`, `Props/Pipeline`, `Props/Held`.
* **C148 What errors say.** `Spec/ErrorText` gives the texts and says when one names an index of the data. `Proof/ErrorText` has an induction on the calls of a decoder that keeps what was consumed, and shows for every type that a message is one of these texts; the other errors are C105's. For serialization the errors are those of C105, which are enumerated. `Props/ErrorText`.
* **C149 Buffers decoded in place stay apart.** `Spec/TakeFrames` is the receiver, as a relation between readers. The length is read by C118's theorem for written values; C118_frame says that a `take` that is read to its end leaves the reader behind the frame; the sequence is an induction on the receiver's run. What the decoder sees is exactly the buffer, so its outcome is that of `stack_of_strict`. `Props/TakeFrames`.

## 4. Where the code departs from what one would expect

Each is stated as a property with its exact boundary and proved with a witness.

* **C20** Sequences and maps of undeclared length are written without a length and
  cannot be read back.
* **C21** Variant indices are written as `u32` but read as `u16` varints: typed decoding of
  enums breaks for indices of 16384 and above.
* **C32, C55** Headers with 65536 members or more are written with the count modulo
  65536, by `Header::serialize` and by the derive macro, without an error.
* **C33** `deserialize_header` overflows the stack on deeply nested input.
* **C42, C60, C61** `Body::deserialize` allocates the announced number of array
  elements up front (at most 9 bytes abort the process); `deserialize_header` can be made to
  request n vectors of 65535 headers with 4n bytes; arrays of zero-width elements
  have any announced length.
* **C45** `BigDecimal` conversion overflows when normalising moves the scale out of
  `i64` (panic or wrap depending on the build).
* **C47** `Ord` on `BigUint`/`BigInt` is not numeric.
* **C51** Decoding a `Date` overflows at the integer limits (panic or wrap).
* **C52** Timestamps whose UTC instant is out of range do not round-trip.
* **C53** `DateTime` to `OffsetDateTime` panics past the end of time.
* **C54** `DateTime`s with nanoseconds of 10^9 and more do not order chronologically.
* **C58, C69** Skipped enum variants, skipped fields inside variants and a
  skipped newtype field make the derived header disagree with the serialized body.
* **C59, C64, C102** On 32-bit targets announced lengths are truncated to 32 bits, so that
  some inputs nobody wrote are misread; what was written is not (C102).
* **C65** `format::big_decimal` and `BigDecimal` leave the stream at different positions on a
  non-canonical zero.
* **C71** Types that borrow from the input (`&str`, `&Bytes`) serialize but panic when
  deserialized (`todo!()`).
* **C72, C73** A field skipped in one direction only, or a skipped variant before others,
  makes typed decoding read other bytes or another variant. The cause is in
  serde_derive; dlhn's format has no names that would reveal it.
* **C78** Variant indices starting with a byte of 192 or more (no encoder writes one
  below 16384) are read as different variants by the typed and the dynamic decoder;
  `C1 00 00` is the first variant for one and the second for the other.
* **C79** Re-encoding a decoded `bigdecimal::BigDecimal` or `OffsetDateTime` can take more bytes
  than it was read from, and can panic for a decimal at the limit of the scale.
* **C85** Decoding a recursive type has no depth limit: for `struct List { next:
  Option<Box<List>> }` an input of `d` bytes 1 exhausts a stack of `d` levels.
* **C86** `serialize_header` of a recursive type (`struct Tree { children: Vec<Tree> }`
  compiles) never returns: it writes until the stack is exhausted.
* **C88** A visitor that stops before the end of a sequence or map leaves the remaining elements in
  the stream, where the next value is then read from; nothing reports it.
* **C89** Reading a number with another integer type than it was written with is not detected
  and gives a wrong number outside the range both write alike: 16384 as a `u16` is
  524288 as a `u32`, -8193 as an `i16` is 262160 as an `i32`.
* **C91** Fields added to a struct are not skipped by old readers, nor defaulted by new ones.
* **C98** `MapKeySerializer` does not define `is_human_readable`, so serde's default `true` applies,
  while the serializer and the deserializer say `false`. Types with two forms (`Ipv4Addr`,
  `Uuid`, ...) are written as text when they are map keys and read in compact form: another
  key, another value and bytes left in the stream, without an error.
* **C99** The length given to `serialize_seq` or `serialize_map` is not compared with the number of elements.
* **C100** Decoding cannot be retried after a reader failed in the middle of a value (a
  non-blocking or timed-out socket): the bytes already delivered are lost.
* **C101** Elements of unknown enum variants cannot be skipped: their data are read as the next element. A
  list whose elements default on error gets as long as nine bytes announce.
* **C107** `&[u8]` and `Cursor` are left in the middle of a value after missing data with older
  versions of std; decoding again from them can return a value nobody sent.
* **C108** `Error::Read` stands for bad data and for missing data: a caller that collects data
  until a value is complete cannot tell when to give up.
* **C106** The macro rejects `skip_serializing_if` on struct fields because the header cannot
  express it, but does not look at the fields of variants: there it is accepted, and values with
  a field left out are misread, often without an error.
* **C109** `#[serde(default)]` is accepted and never used: fields cannot be added to a struct
  compatibly. `#[serde(alias)]` breaks reading altogether with versions of serde_derive that list
  aliases among the field names (which version is used cannot be seen offline).
* **C110** `#[serde(other)]` does not skip the data of the unknown variant.
* **C111** `untagged`, `tag` and `flatten` serialize, announce a header that does not describe
  the data, and panic (`todo!`) when read.
* **C121** The low bits of the first byte of large 16-bit and 32-bit integers are ignored: 65535
  as a `u16` is written `C0 FF FF` and read from `C0 FF FF` to `FF FF FF`. For types without such
  integers no change that keeps the length goes unnoticed.
* **C122** The order of the entries of a map is not checked by `Body::deserialize`: entries in any
  order are accepted and read as the same map, so reordered data
  go unnoticed, and a map is read from as many encodings as it has orders. `C122_maps` is a witness.

* **C124** `format::big_decimal` and `format::date_time` read forms they never write, of the same
  length as those they write: digits with trailing zeros and nanoseconds of a second and more
  (carried into the seconds). `C124_decimal` and `C124_instant` are witnesses.

* **C130** A stream that ends and one that is torn give the same `Err(Read)`. A writer that appends
  to a torn file without cutting off the torn value makes readers return a value nobody wrote
  (`C130_not_repaired`). The loop over a type whose values take no bytes never ends (`C130_endless`).

* **C131** `#[derive(SerializeHeader)]` ignores `#[serde(into = "..")]`: the header is that of the
  declared fields, while the data are those of the other type. `Body::deserialize` under the header
  returns wrong numbers instead of an error (`C131_header`).
* **C133** Adjacently tagged enums (`tag` and `content`): with the serde of the time of the commit the
  name of the variant is written and its length is read as the index of a variant, so that values come
  back as other values (`E::A(5)` as `E::B(65, ..)`); with newer versions of serde unit and struct
  variants panic (`todo!`) when read.
* **C135** Two threads that serialize to clones of one `File` or pipe mix their values as soon as
  these take more than one call of `write`: pairs nobody wrote are read without an error
  (`C135_mixed`), and even a single `String` takes two (`C135_mixed_text`). Serializing to a `Vec`
  first is safe (`C135_buffered`).
* **C136** The bytes of a type with a `HashMap` are no fingerprint of its values: equal maps with
  another order of iteration, which the standard hasher randomises for each map, have different
  bytes (`C136_hash`). Everything else is canonical (`C136_iff`).
* **C137** A torn overwrite in place is not noticed: a record of floats may read as a mixture of
  the old and the new one (`C137_mixed`), and overwriting a value of a type whose size varies may
  change its neighbour (`C137_shift`), both without an error. The format has no checksum.
* **C139** Two threads that deserialize from clones of one stream mix values as soon as one takes
  more than one call of `read_exact`, without an error (`C139_mixed`, `C139_numbers`); types of
  fixed size are safe if they are read into a buffer first (`C139_buffer`).
* **C141** (`C141_inserted`) the header check of an application must not be a mere check that all old variants occur: data of the first variant are read as the newly inserted one without an error.
* **C143** `#[derive(SerializeHeader)]` ignores `#[serde(with = "..")]` as well: the header lists the
  declared type of the field, whatever its functions write. A `u64` written as text is announced as a
  `u64`, and reading under the header returns other numbers without an error (example in
  `Props/With`).
* **C144** An intermediary that decodes with `Body::deserialize` and serializes again turns the
  bytes `C1 00 00` of an enum, which the derived type reads as its first variant, into those of the
  second variant (`C144_foreign`). It is the disagreement of C78: only data that dlhn did not write
  are concerned.

* **dlhn_bench** The data that `benches/dlhn.rs` decodes are of an earlier form of the integers. They
  are accepted (overlong forms are, C04, C12) and read as another `Test` than `Test::default()`: `c` is
  255 and not 65535, and so on. The benchmark only asks for `Ok`. Nothing in the data tells the version
  of the format (last examples of `Conformance`).
* **C148** The text of `CharSize`, "The size of the char is more than 32bit", never is about a large character: it is shown exactly for an empty string where a char is expected (`C148_char`).

## 5. Testing the theorems against wrong programs

`seeded/LOG.jsonl` records the experiments: an edit of one definition of the model
in a scratch copy, the claim it breaks, and the property theorems that then fail.
A property theorem counts as failed if its own proof breaks or a lemma it depends
on breaks; broken declarations are replaced by `sorry` and the build repeated until
every declaration had its chance. Experiments that no property theorem noticed led
to new or stronger theorems (`theorems_tightened`).

How to read the log. `theorems_failed` lists the theorems of the claimed property that
break or depend on a broken lemma: a broken proof, not a proof that the claim is false.
`first_result` is the result of the run itself where it differs from `result`, and
`claims_at_first` the property an edit was first filed under, where that was changed
after the run. Lines with `sweep` are edits made by a program, without a stated claim:
the build was stopped at the first broken declaration, so they only show that something
failed, and not which claim. 405 further edits of the sweep did not compile and have no
line. The lines with result `survived` or `NOT CAUGHT BY CLAIM` have a note with the
reason: the edit cannot be observed, or is outside of the claim, or led to a tightening.
Earlier versions of the log left out the sweep and 13 attempts.

## 6. Axioms of each property theorem

Printed by `#print axioms`; regenerated with every milestone. No theorem uses `sorryAx`,
`Lean.ofReduceBool` or an axiom of this project.

### no axioms (6 theorems)

C43_value, C54_unnormalised, C132_kept, C132_agree, C148_custom, C148_expected

### `Classical.choice`, `Quot.sound`, `propext` (752 theorems)

C01_u8, C01_u16, C01_u32, C01_u64, C02_i8, C02_i16, C02_i32, C02_i64, C03_groups, C03_u8, C03_u16, C03_u32, C03_u64, C04_shortest, C05_i16, C05_i32, C05_i64, C05_i8, C05_magnitude, C06_nil, C06_u16, C06_u32, C06_u64, C06_i16, C06_i32, C06_i64, C06_value_u64, C06_value_u16, C06_value_u32, C06_value_i16, C06_value_i32, C06_value_i64, C07_roundtrip, C08_prefix_free, C08_injective, C09_stream, C10_truncation, C10_truncation_in_stream, C10_truncation_any, C10_truncation_in_stream_any, C11_locality, C11_locality_any, C12_reencode, C13_no_panic, C13_no_panic_reader, C13_no_panic_supported, C14_todo, C14_todo_run, C14_128_de, C15_bool, C15_option, C16_string, C16_string_err, C16_string_any, C16_string_any_err, C17_byteBuf, C17_byteBuf_err, C17_byteBuf_any, C17_byteBuf_any_err, C17_byteBuf_wrapped, C18_char, C18_char_of_string, C20_seq_undeclared, C20_seq_declared, C20_map_undeclared, C20_not_self_delimiting, C21_index, C21_large_index, C22_struct, C23_f32, C23_f64, C24_any_target, C24_any_target_failing, C24_any_target_body, C24_body, C24_header, C24_reader, C24_chunking, C24_remaining, C25_body, C25_header, C25_enough, C25_failure, C25_typed, C25_impl, C25_derived, C25_recursive, C25_dynamic, C28_body, C28_header, C28_torn, C28_torn_stream, C29_alloc, C30_encoding, C30_roundtrip, C30_prefix_free, C31_accepts, C31_sound, C31_unambiguous, C31_returns, C31_invalid, C31_truncated, C32_wraps, C32_misread, C32_never, C33_exact, C33_bound, C34_header, C35_encoding, C35_roundtrip, C35_prefix_free, C36_decoded_validates, C37_validate, C38_agree, C38_hashmap, C39_last_wins, C39_sorted, C39_order_independent, C40_unknown_index, C40_known_index, C40_known, C41_truncation, C41_locality, C42_outcome, C42_hazard, C42_abort, C42_no_array, C43_shortest, C43_roundtrip, C43_format, C44_convert, C44_shortest, C44_zero, C44_value, C44_roundtrip, C44_format, C45_value, C45_canonical, C45_normal_form, C45_idempotent, C45_roundtrip, C45_format, C45_overflow, C45_overflow_witness, C46_big_decimal_de, C46_date_de, C47_total, C47_total_int, C47_total_decimal, C48_converted, C48_reencode, C49_roundtrip, C49_format, C49_bytes, C50_try_into, C50_format, C50_sound, C50_release, C51_decode, C51_release_reencode, C51_debug_reencode, C51_encode, C52_roundtrip, C52_format, C52_bytes, C52_outside, C53_witness, C54_date_time, C55_struct, C55_accepted, C55_conditional, C55_overflow, C56_enum, C56_conditional, C57_pipeline, C58_index, C58_member, C58_last_fails, C58_witness, C59_string_32bit, C60_bound, C60_amplification, C61_typed_units, C61_dynamic_units, C61_zero_width, C61_array_bounded, C61_map_bounded, C61_seq_bounded, C62_no_panic, C62_no_panic_reader, C62_panics, C62_ser, C63_reencode, C63_shorter, C63_any_target, C64_length_32bit, C65_zero_digits, C66_big, C66_format_big, C66_date, C67_panics, C68_buffer, C68_size, C68_roundtrip, C68_zigzag, C69_unwritten, C69_witness, C69_newtype, C70_benign, C70_prefix, C71_roundtrip, C71_exact, C71_borrowed, C72_swallows, C72_leaves, C72_witness, C73_position, C73_shift, C73_fails, C73_witness, C74_any_target, C74_streams, C74_sequence, C75_panics, C75_returns, C75_alloc, C76_torn, C77_typed, C77_dynamic, C77_errors, C77_checked, C78_index, C78_agree, C78_differ, C79_again, C79_same, C79_shorter, C79_decimal_grows, C79_timestamp_grows, C79_decimal_panics, C80_read, C81_interchange, C82_stream, C82_torn, C83_prefix, C83_prefix_free, C83_stream, C84_any_target, C84_roundtrip, C84_every_value, C84_decoded, C84_prefix_free, C84_truncation, C84_reader, C84_alloc, C85_returns, C85_more_stack, C85_too_deep, C85_enough, C85_exact, C86_dichotomy, C86_writes, C87_any_target, C87_standard, C87_reader, C87_local, C87_returns, C87_panics, C87_todo, C87_alloc, C88_seq, C88_map, C88_array, C88_keys, C88_early, C89_u16_u32, C89_i16_i32, C89_u16_u64, C89_i16_i64, C89_u32_u64, C89_i32_i64, C89_u32_u16, C89_i32_i16, C89_u64_u16, C89_i64_i16, C89_u64_u32, C89_i64_i32, C89_sign16, C89_sign32, C89_sign64, C89_u8, C89_from_u8, C89_to_u8, C89_i8, C90_bytes, C90_read, C90_becomes, C90_rename, C90_append, C91_ignored, C91_missing, C91_unknown, C91_position, C91_reordered, C92_typed, C92_impl, C92_derived, C92_recursive, C92_body, C93_typed, C93_impl, C93_derived, C93_recursive, C94_typed, C94_body, C94_not_dense, C94_derived, C94_derived_needed, C95_floats, C95_meaning, C95_equivalence, C95_roundtrip, C95_validate, C95_identical, C95_length, C95_bytes, C95_header, C96_converted, C96_order, C97_written, C97_ok, C98_keys, C98_bad_key, C98_ipv4_value, C98_ipv4_key, C98_ipv4_lost, C99_more_elements, C99_fewer_elements, C99_missing_elements, C99_more_entries, C99_fewer_entries, C100_where, C100_where_impl, C100_where_derived, C100_where_body, C100_where_header, C100_bad_bool, C100_bad_option, C100_bad_string, C100_bad_char, C100_bad_index, C100_bad_member, C100_bad_element, C100_lost, C100_retry_corrupts, C100_retry, C101_passing, C101_returns, C101_reader, C101_default, C101_isolated_bool, C101_isolated_string, C101_skip_elements, C101_skip_entries, C101_skip_fields, C101_payload, C101_index, C101_not_isolated, C101_amplified, C102_typed, C102_recursive, C102_body, C102_derived, C102_followed, C102_followed_impl, C102_followed_body, C102_followed_derived, C102_not_at_end, C102_chunks, C103_typed, C103_reached, C103_consumes, C103_short, C103_body, C103_body_reached, C103_body_consumes, C103_derived, C103_calendar, C103_timestamp, C103_calendar_reached, C104_enough, C104_too_small, C105_typed, C105_reader, C105_no_key_error, C105_accepts, C105_body, C105_derived, C105_derived_plain, C106_kept, C106_plain, C106_bytes, C106_read, C106_last, C106_witness, C107_as_readers, C107_where, C107_where_impl, C107_where_derived, C107_where_body, C107_retry_corrupts, C107_retry, C108_typed, C108_all, C108_body, C108_derived, C108_pieces, C108_stuck, C108_endless, C109_struct, C109_variant, C109_added, C109_added_end, C109_alias, C110_known, C110_unknown, C110_list, C110_not_isolated, C111_untagged_written, C111_internal_written, C111_buffered, C111_flatten, C111_flatten_panics, C111_header, C112_kept, C112_header, C112_delivered, C112_prefix, C112_benign, C113_any_target, C113_reader, C113_same, C113_next, C113_ahead, C113_lost, C114_duration, C114_duration_input, C114_duration_forms, C114_time, C114_time_before, C114_time_after, C114_range, C114_bound, C114_bound_other, C114_result, C114_ip, C114_os_string, C114_nonzero, C114_cstring, C114_path, C114_usize, C114_isize, C114_set, C114_set_input, C114_returns, C114_errors, C115_lenient, C115_notices, C115_iff, C115_long_enough, C115_body_lenient, C115_body_iff, C115_derived_lenient, C115_derived_iff, C116_typed, C116_impl, C116_body, C116_derived, C116_header, C116_type_header, C117_typed, C117_typed_any, C117_impl, C117_body, C117_derived, C117_written, C117_hangs, C118_stack, C118_stack_any, C118_stack_impl, C118_written, C118_cut, C118_take_fits, C118_take_short, C118_frame, C118_chain, C118_chain_fails, C119_crash, C119_end_to_end, C119_crash_body, C119_crash_derived, C119_crash_recursive, C119_crash_header, C119_end_to_end_body, C119_end_to_end_derived, C119_end_to_end_recursive, C119_end_to_end_header, C120_accepts, C120_rejects, C120_written, C120_unambiguous, C120_typed, C121_canonical, C121_damage, C121_where, C121_u16, C121_u32, C121_i16, C121_i32, C122_accepts, C122_rejects, C122_written, C122_unambiguous, C122_canonical, C122_damage, C122_where, C122_maps, C123_accepts, C123_rejects, C123_else, C123_written, C123_unambiguous, C124_canonical, C124_damage, C124_where, C124_maps, C124_decimal, C124_instant, C125_accepts, C125_rejects, C125_wide, C125_alike, C125_count, C125_text, C126_accepts, C126_else, C126_rejects, C126_wide, C126_alike, C126_count, C127_accepts, C127_rejects, C127_wide, C127_alike, C127_count, C127_disagree, C128_enough, C128_any, C128_exact, C128_serialize, C128_validate, C128_header, C128_header_first, C129_enough, C129_too_deep, C129_threshold, C129_write_back, C129_lists, C130_history_body, C130_history_derived, C130_history_ends, C130_crash_body, C130_crash_derived, C130_kept_body, C130_kept_derived, C130_durable_body, C130_durable_derived, C130_ends_body, C130_bounded_body, C130_endless_body, C130_least, C130_ends_derived, C130_bounded_derived, C130_endless_derived, C130_reader, C130_file, C130_all, C130_ends, C130_bounded, C130_crash, C130_kept, C130_repaired, C130_not_repaired, C130_history, C130_durable, C130_endless, C130_body, C130_derived, C131_exact, C131_checked, C131_from, C131_within, C131_roundtrip, C131_lossy, C131_refused, C131_again, C131_returns, C131_transparent, C131_header, C132_impl, C132_typed, C132_recursive, C132_body, C132_body_checks, C132_body_memory, C132_body_layout, C132_derived_checks, C132_derived_memory, C132_slice, C132_slice_derived, C132_writes_derived, C132_decimal, C132_interchange, C133_written_by_name, C133_read_alike, C133_read, C133_round_trip, C133_confused, C134_reader, C134_crash, C134_history, C134_history_untyped, C135_calls_derived, C135_reached_derived, C135_digits, C135_whole_derived, C135_mixed_derived, C135_calls_body, C135_reached_body, C135_whole_body, C135_reached, C135_unlimited, C135_whole, C135_all, C135_mixed, C135_mixed_text, C135_buffered, C135_buffered_body, C135_buffered_derived, C136_same, C136_told, C136_iff, C136_exact, C137_iff, C137_count, C137_seek, C137_update, C137_torn, C137_mixed, C137_shift, C137_body, C137_derived, C138_iff, C138_text, C138_dates, C139_buffer, C139_direct, C139_any, C139_bodies, C139_derived, C139_all, C139_mixed, C139_numbers, C140_buffers, C140_damage, C140_value, C140_any, C140_messages, C140_derived, C140_old_program, C140_new_program, C140_unknown, C140_cost, C140_length, C141_complete, C141_dynamic, C141_typed, C141_inserted, C142_replace, C142_find, C142_vector, C142_append, C142_dynamic, C142_text, C142_derived, C143_roundtrip, C143_reading, C143_writing, C143_writing_containers, C143_header, C144_relay, C144_unchanged, C144_settled, C144_lossless, C144_broken, C144_ends, C144_reordered, C144_foreign, C144_mixed, C145_told, C145_stream, C145_same, C145_body, C146_timing, C147_held, C147_held_ends, C147_batch, C147_batch_deadlock, C147_refines, C147_ends, C147_forever, C147_typed, C147_headers, C147_bodies, C147_derived, C147_service, C147_crossed, C147_deadlock, C147_pipeline, C147_pipeline_typed, C147_pipeline_bodies, C148_told, C148_told_ser, C148_custom_member, C148_typed, C148_unknown, C148_derived, C148_date, C148_timestamp, C148_body, C148_char, C148_ser, C149_in_step, C149_contents, C149_contents_impl, C149_contents_body, C149_contents_derived, C149_values, C149_values_derived, C149_messages, C149_ends, C149_cut

### `Quot.sound`, `propext` (120 theorems)

C01_prefix_varint_u8, C03_first_byte, C05_bijection, C13_ser_no_panic, C14_128_ser, C14_ser_ok_iff, C19_map_ok_iff, C19_first_bad_key, C19_key_128, C19_empty, C22_names, C22_newtype, C26_body, C26_header, C26_short_writes, C27_body, C27_header, C27_failing_writer, C27_ok, C31_unknown_code, C33_exhausted, C33_exhausting_input_is_valid, C34_total, C34_tuple_limit, C43_convert, C43_zero, C46_big_uint, C46_big_uint_de, C46_big_int, C46_big_int_de, C46_big_decimal, C46_big_decimal_overflow, C46_date, C46_date_time, C46_any_reader_big_uint, C46_any_reader_big_int, C46_any_reader_date, C46_any_reader_date_time, C46_any_writer, C47_small, C47_not_numeric, C47_inversions, C48_decoded, C53_try_into, C53_format, C54_date, C54_date_eq, C55_union, C58_shift, C67_big, C67_date, C69_ignored, C76_benign, C76_prefix, C76_panics, C77_followed, C77_low, C77_text, C86_overflows, C86_never_ok, C86_no_header, C86_witness, C92_header, C94_value, C95_exceptions, C96_decoded, C97_short_writes, C97_returns, C97_failing_writer, C97_until_failure, C97_swallowed, C97_standard, C100_same_outcome, C104_typed, C104_body, C104_derived, C104_header, C104_type_header, C105_ser, C105_writer, C106_undeclared, C106_undeclared_tuple, C107_outcome, C107_versions, C107_where_header, C112_flush, C112_silent, C112_lost, C112_bounded, C114_any_writer, C116_writes, C116_writes_impl, C117_header, C117_ends, C117_replayed, C118_ends, C119_typed, C119_impl, C119_body, C119_derived, C119_header, C119_type_header, C119_ends, C119_hangs, C119_replayed, C132_header, C132_writes_checks, C132_writes_body, C132_writes_header, C132_writes_vec, C133_written_by_variant, C135_calls, C135_bytes, C136_hash, C141_check, C145_without, C146_confluent, C146_settled, C146_endless, C146_closed

### `propext` (5 theorems)

C38_builtin, C77_without, C77_anything, C77_needed, C135_order
