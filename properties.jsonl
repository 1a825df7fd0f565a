{"id": "C01", "title": "Unsigned integers round-trip in a stream", "statement": "For every u8, u16, u32 and u64 value and every byte sequence that follows it, deserializing what Serializer wrote for the value returns exactly that value and leaves the following bytes unread.", "quantifier": "all 2^8+2^16+2^32+2^64 values, all suffixes", "why_tests_cant": "2^64 values cannot be enumerated; the repository has already had one wrong-bit bug (issue #2) that its sampled tests missed.", "anchors": ["dlhn/src/prefix_varint.rs: encode_prefix_varint, decode_prefix_varint (u8,u16,u32,u64)", "dlhn/src/ser.rs: serialize_u8..serialize_u64", "dlhn/src/de.rs: deserialize_u8..deserialize_u64"]}
{"id": "C02", "title": "Signed integers round-trip in a stream", "statement": "For every i8, i16, i32 and i64 value and every byte sequence that follows it, deserializing what Serializer wrote returns exactly that value and leaves the following bytes unread.", "quantifier": "all values of the four signed types, all suffixes", "why_tests_cant": "2^64 values; shift/sign-extension mistakes appear only at particular bit patterns.", "anchors": ["dlhn/src/zigzag.rs: encode_zigzag, decode_zigzag", "dlhn/src/ser.rs: serialize_i8..serialize_i64", "dlhn/src/de.rs: deserialize_i8..deserialize_i64"]}
{"id": "C03", "title": "Unsigned integer wire format", "statement": "The bytes written for an unsigned integer v of width w are exactly the prefix-varint of v: with k the least number with v < 2^(7k) (capped at w/8+1), the first byte carries k-1 leading one bits and the low 8-k bits of v, followed by the remaining bits of v little-endian in k-1 bytes; when k = w/8+1 the first byte is a fixed marker and the rest is v little-endian. u8 is written as one raw byte.", "quantifier": "all values of every unsigned width", "why_tests_cant": "Interoperability with other DLHN implementations depends on every value, not a sample of boundaries.", "anchors": ["dlhn/src/prefix_varint.rs: encode_prefix_varint", "dlhn/src/ser.rs: serialize_u16, serialize_u32, serialize_u64"]}
{"id": "C04", "title": "Integer encodings are the shortest the decoder accepts", "statement": "No byte string that the decoder of an integer type maps to v is shorter than the bytes Serializer writes for v.", "quantifier": "all values v, all byte strings accepted by the decoder", "why_tests_cant": "Quantifies over all accepted byte strings of all values.", "anchors": ["dlhn/src/prefix_varint.rs: encode_prefix_varint, decode_prefix_varint"]}
{"id": "C05", "title": "ZigZag maps signed integers to their magnitude order", "statement": "A signed integer v >= 0 is encoded as the unsigned varint of 2v and v < 0 as that of -2v-1, so k groups of seven bits suffice exactly for -2^(7k-1) <= v < 2^(7k-1); the mapping is a bijection.", "quantifier": "all values of i16, i32, i64", "why_tests_cant": "Universally quantified arithmetic identity over 2^64 values.", "anchors": ["dlhn/src/zigzag.rs: encode_zigzag, decode_zigzag", "dlhn/src/ser.rs: serialize_i16, serialize_i32, serialize_i64"]}
{"id": "C06", "title": "Integer decoding is total and consumes a length fixed by the first byte", "statement": "On any input, decoding a multi-byte integer type either returns a value having consumed exactly the number of bytes announced by the leading one bits of the first byte, or returns Err(Read) because the input is too short. It never panics and never returns any other error. The value is the one the bytes denote, whether or not the form is the shortest.", "quantifier": "all byte strings", "why_tests_cant": "All byte strings, including hostile ones.", "anchors": ["dlhn/src/prefix_varint.rs: decode_prefix_varint", "dlhn/src/de.rs: deserialize_u16.. deserialize_i64"]}
{"id": "C07", "title": "Typed round-trip for the serde data model", "statement": "For every Rust type built from the serde data model shapes the crate supports (bool, integers, floats, char, strings, byte buffers, options, units, newtypes, sequences, tuples, structs, string-keyed maps, enums with at most 16384 variants) and every value of it, deserializing the serialized bytes returns the same value and leaves any following bytes unread.", "quantifier": "all types of unbounded nesting, all values, all suffixes", "why_tests_cant": "Types and values nest without bound; tests only sample.", "anchors": ["dlhn/src/ser.rs: impl Serializer for &mut Serializer", "dlhn/src/de.rs: impl Deserializer for &mut Deserializer"]}
{"id": "C08", "title": "Encodings of one type are prefix-free", "statement": "Two different values of the same supported type never serialize to the same bytes, and neither encoding is a prefix of the other.", "quantifier": "all types, all pairs of values", "why_tests_cant": "Pairs of values of unbounded size.", "anchors": ["dlhn/src/ser.rs: Serializer", "dlhn/src/de.rs: Deserializer"]}
{"id": "C09", "title": "Concatenated values decode as a stream", "statement": "Any sequence of values of any (different) supported types serialized one after another into one output is recovered in order by deserializing one after another from one reader, which ends exactly at the end of the output.", "quantifier": "all lists of (type, value) pairs", "why_tests_cant": "Unbounded histories of operations on one stream.", "anchors": ["dlhn/src/ser.rs: Serializer::new", "dlhn/src/de.rs: Deserializer::new", "dlhn/tests/stream.rs"]}
{"id": "C10", "title": "Truncated input is always detected", "statement": "On 64-bit targets, if an input decodes successfully as a value using all of its bytes, every strictly shorter prefix of it makes the same deserialization return Err(Read) - never a value, a different error or a panic. For types without String and char this holds on every target.", "quantifier": "all types, all inputs, all truncation points", "why_tests_cant": "Every truncation point of every input.", "anchors": ["dlhn/src/de.rs: Deserializer (every read_exact / take site)"]}
{"id": "C11", "title": "A decoder only depends on the bytes it consumes", "statement": "On 64-bit targets, when deserialization succeeds, the consumed bytes are a prefix of the input; replacing everything after that prefix by arbitrary bytes yields the same value and exactly those bytes left over. For types without String and char this holds on every target.", "quantifier": "all types, all inputs, all replacement suffixes", "why_tests_cant": "All inputs and all suffixes.", "anchors": ["dlhn/src/de.rs: Deserializer"]}
{"id": "C12", "title": "Decoded values re-encode, no longer than what was read", "statement": "Whatever value a supported type decodes from arbitrary bytes (fewer than 2^32 of them on 32-bit targets), serializing it succeeds, yields at most as many bytes as were consumed, and decoding those yields the same value again.", "quantifier": "all supported types, all byte strings (canonical or not)", "why_tests_cant": "All accepted byte strings, including non-canonical ones no encoder produces.", "anchors": ["dlhn/src/de.rs: Deserializer", "dlhn/src/ser.rs: Serializer"]}
{"id": "C13", "title": "Decoding untrusted bytes never panics for supported types", "statement": "Deserializing a supported type from any byte string returns Ok or Err; it never panics, overflows or aborts, given memory for 4096 bytes and for the value itself.", "quantifier": "all supported types, all byte strings", "why_tests_cant": "All hostile inputs.", "anchors": ["dlhn/src/de.rs: Deserializer"]}
{"id": "C14", "title": "Unsupported requests fail predictably", "statement": "Types that ask the Deserializer for any, &str, &[u8] or ignored_any panic on every input without consuming anything; i128/u128 return an error on both sides and are never silently truncated.", "quantifier": "all inputs, all i128/u128 values", "why_tests_cant": "All inputs.", "anchors": ["dlhn/src/de.rs: deserialize_any, deserialize_str, deserialize_bytes, deserialize_ignored_any (todo!())", "dlhn/src/ser.rs: Serializer (no serialize_i128/u128)"]}
{"id": "C15", "title": "Boolean and Option tags are strict", "statement": "Decoding a bool, or the tag of an Option, accepts exactly the bytes 0 and 1; any other first byte is Err(Read).", "quantifier": "all first bytes, all following bytes, all payload types", "why_tests_cant": "All payload types and inputs.", "anchors": ["dlhn/src/de.rs: deserialize_bool, deserialize_option", "dlhn/src/ser.rs: serialize_bool, serialize_none, serialize_some"]}
{"id": "C16", "title": "String decoding accepts exactly length-prefixed UTF-8", "statement": "On a 64-bit target, decoding a String succeeds exactly when the input is a length n, n bytes that are valid UTF-8, and then the unread rest; the result is those bytes. The internal 128-byte threshold is not observable. On every target, it succeeds exactly when what follows the length n - n bytes, or fewer if the data end - is valid UTF-8 and has as many bytes as n has after truncation to the width of usize.", "quantifier": "all inputs, all lengths", "why_tests_cant": "All lengths around and beyond the internal threshold (two historical bugs: issues #14, #15).", "anchors": ["dlhn/src/de.rs: deserialize_string"]}
{"id": "C17", "title": "Byte-buffer decoding accepts exactly length-prefixed bytes", "statement": "On a 64-bit target, decoding a byte buffer succeeds exactly when the input is a length n, n bytes, and the unread rest; the result is those n bytes; the 4096-byte chunk loop terminates and is not observable. On a target whose usize cannot hold n, exactly the truncated n, rounded up to whole chunks of 4096 bytes, is read.", "quantifier": "all inputs, all lengths", "why_tests_cant": "All lengths, loop termination for all lengths up to 2^64.", "anchors": ["dlhn/src/de.rs: deserialize_byte_buf"]}
{"id": "C18", "title": "char round-trips and rejects empty strings", "statement": "Every char round-trips; decoding a char from an encoded empty string is Err(CharSize); decoding it from a longer string returns its first char and consumes the whole string.", "quantifier": "all chars, all strings", "why_tests_cant": "All 1,112,064 chars and all strings.", "anchors": ["dlhn/src/de.rs: deserialize_char", "dlhn/src/ser.rs: serialize_char"]}
{"id": "C19", "title": "Only string map keys serialize", "statement": "Serializing a map succeeds exactly when every key is a plain string and every value serializes; otherwise the first offending key yields Err(UnsupportedKeyType), or the message error of 128-bit integers if it is one. The empty map always serializes.", "quantifier": "all maps, all key shapes", "why_tests_cant": "All key shapes and positions.", "anchors": ["dlhn/src/ser.rs: MapKeySerializer, SerializeMap::serialize_key"]}
{"id": "C20", "title": "Sequences of undeclared length are not self-delimiting", "statement": "A sequence or map serialized without a known length writes only its elements: such bytes are not in general read back as the same sequence (a concrete one decodes to a different sequence). With a declared length the bytes are that length followed by the elements.", "quantifier": "all sequences, all declared lengths", "why_tests_cant": "All element lists and hints.", "anchors": ["dlhn/src/ser.rs: serialize_seq, serialize_map", "dlhn/src/de.rs: deserialize_seq, deserialize_map"]}
{"id": "C21", "title": "Enum variant indices survive exactly below 16384", "statement": "An enum variant index serialized by Serializer is read back by Deserializer as the same index exactly when it is below 2^14; at and above 2^14 it is read back as a different index or fails.", "quantifier": "all u32 variant indices", "why_tests_cant": "All indices; the break is at an index tests never reach.", "anchors": ["dlhn/src/ser.rs: serialize_unit_variant, serialize_newtype_variant, serialize_tuple_variant, serialize_struct_variant", "dlhn/src/de.rs: deserialize_identifier, VariantDeserializer"]}
{"id": "C22", "title": "Names are not on the wire; structs, tuples and newtypes are transparent", "statement": "A struct, tuple struct and tuple with the same field values serialize to the same bytes (the concatenation of the fields), a newtype serializes as its content, and names of types, fields and variants never influence the bytes.", "quantifier": "all field lists, all names", "why_tests_cant": "All shapes and names.", "anchors": ["dlhn/src/ser.rs: serialize_struct, serialize_tuple, serialize_newtype_struct, SerializeStruct::serialize_field"]}
{"id": "C23", "title": "Floats keep every bit", "statement": "Every f32 and f64 bit pattern, including NaN payloads and signed zeros, is written as its little-endian bytes and read back bit-identical.", "quantifier": "all 2^32 + 2^64 bit patterns", "why_tests_cant": "All bit patterns.", "anchors": ["dlhn/src/ser.rs: serialize_f32, serialize_f64", "dlhn/src/de.rs: deserialize_f32, deserialize_f64"]}
{"id": "C24", "title": "Reader chunking is invisible", "statement": "Decoding from any reader that delivers the data in arbitrary non-empty chunks interleaved with Interrupted errors until its end gives the same result, and leaves the same unread data, as decoding from the contiguous bytes, on every target. On 64-bit targets, and on all targets for what contains no text, this holds whether the reader then reports the end or a failure, and whatever it does after that.", "quantifier": "all decoders, all chunkings and interruption schedules", "why_tests_cant": "All I/O schedules.", "anchors": ["dlhn/src/de.rs: read_exact / take call sites", "dlhn/src/header/de.rs: deserialize_header", "dlhn/src/prefix_varint.rs: decode_prefix"]}
{"id": "C25", "title": "Reader failures surface as errors", "statement": "If the reader fails after delivering m bytes, decoding returns the same value as on complete data when it needs at most m bytes, and otherwise the reader's error (Err(Read) for bodies, the io::Error for headers). This holds for what was written on every target; for any other data that decode, on 64-bit targets and for what contains no text on every target.", "quantifier": "all decoders, all failure points, all error kinds", "why_tests_cant": "Every failure point.", "anchors": ["dlhn/src/de.rs: .or(Err(Error::Read))", "dlhn/src/header/de.rs: deserialize_header"]}
{"id": "C26", "title": "Writer short writes are invisible", "statement": "Serializing to any writer that accepts arbitrary non-empty portions and may report Interrupted produces exactly the same bytes and result as serializing to a Vec.", "quantifier": "all values, all write schedules", "why_tests_cant": "All I/O schedules.", "anchors": ["dlhn/src/ser.rs: write_all call sites", "dlhn/src/header/ser.rs: write_all call sites"]}
{"id": "C27", "title": "A failing writer leaves a prefix and reports Write", "statement": "If the writer fails at any point, the bytes it has accepted are a prefix of the full encoding and serialization returns Err(Write); serialization reports success only if every byte of the encoding was accepted.", "quantifier": "all values, all failure points", "why_tests_cant": "Every crash point of every value.", "anchors": ["dlhn/src/ser.rs: .or(Err(Error::Write))"]}
{"id": "C28", "title": "Torn output never decodes as the value", "statement": "If writing an encoding is cut off after any strict prefix, decoding what reached the output as the same type returns Err(Read).", "quantifier": "all types and values, all crash points", "why_tests_cant": "Every crash point.", "anchors": ["dlhn/src/ser.rs", "dlhn/src/de.rs"]}
{"id": "C29", "title": "Typed decoding never trusts announced lengths for allocation", "statement": "While decoding a supported type, the decoder itself never requests a single buffer of more than 4096 bytes before the corresponding input has been read.", "quantifier": "all supported types, all byte strings", "why_tests_cant": "All hostile lengths.", "anchors": ["dlhn/src/de.rs: deserialize_byte_buf, deserialize_string, deserialize_seq"]}
{"id": "C30", "title": "Headers round-trip", "statement": "For every header in which every tuple and enum has fewer than 65536 members, and every suffix, deserialize_header on its serialization returns the same header and leaves the suffix unread.", "quantifier": "all headers of unbounded nesting, all suffixes", "why_tests_cant": "Unbounded nesting.", "anchors": ["dlhn/src/header/ser.rs: Header::serialize", "dlhn/src/header/de.rs: deserialize_header"]}
{"id": "C31", "title": "deserialize_header accepts exactly the header grammar", "statement": "deserialize_header returns h exactly on the byte strings that the header grammar assigns to h (type codes, prefix-varint member counts in any accepted form, members in order); an unknown code gives InvalidData, a truncated header gives UnexpectedEof, and it never panics as long as the stack admits one frame more than there are input bytes and a vector of 65535 headers can be allocated.", "quantifier": "all byte strings", "why_tests_cant": "All byte strings.", "anchors": ["dlhn/src/header/de.rs: deserialize_header", "dlhn/src/header/mod.rs: *_CODE"]}
{"id": "C32", "title": "Header member counts wrap at 65536", "statement": "Serializing a tuple or enum header with 65536 or more members writes the count modulo 65536, and deserialize_header then does not return the header.", "quantifier": "all member lists of length >= 65536", "why_tests_cant": "Needs headers of more than 65535 members in general form.", "anchors": ["dlhn/src/header/ser.rs: serialize_inner_vec (inner.len() as u16)"]}
{"id": "C33", "title": "Header recursion depth is bounded by input length only", "statement": "deserialize_header never needs more than one stack frame more than there are input bytes, and on a well-formed header needs exactly as many as the header is deeply nested; conversely every stack bound of d frames is exhausted by an input of d bytes.", "quantifier": "all inputs, all stack bounds", "why_tests_cant": "All stack bounds.", "anchors": ["dlhn/src/header/de.rs: deserialize_header"]}
{"id": "C34", "title": "Every built-in type writes the header that describes it", "statement": "For every type with a built-in SerializeHeader impl (scalars, big numbers, strings, binaries, Option, Vec, maps, tuples of 1 to 16 members, dates), T::serialize_header writes exactly Header::serialize of the header with the same structure, so deserialize_header recovers it.", "quantifier": "all types of unbounded nesting", "why_tests_cant": "Unbounded nesting of generic types.", "anchors": ["dlhn/src/header/ser.rs: impl SerializeHeader for ..., tuple_impls!, Header::serialize"]}
{"id": "C35", "title": "Dynamic bodies round-trip under their header", "statement": "For every header and every Body that validates against it, Body::deserialize on the serialized body returns the same body and leaves any suffix unread, provided the body can exist on the target, no decimal has a scale without digits, dates can be rebased (in builds with overflow checks) and the memory for its vectors is granted.", "quantifier": "all headers, all bodies validating against them, all suffixes", "why_tests_cant": "Unbounded nesting.", "anchors": ["dlhn/src/body/mod.rs: impl Serialize for Body, Body::deserialize, Body::validate"]}
{"id": "C36", "title": "A dynamically decoded body validates", "statement": "Whenever Body::deserialize succeeds, the body it returns validates against the header it was given.", "quantifier": "all headers, all byte strings", "why_tests_cant": "All headers and inputs.", "anchors": ["dlhn/src/body/mod.rs: Body::deserialize, Body::validate"]}
{"id": "C37", "title": "Body validation is structural typing", "statement": "Body::validate(b, h) is true exactly when b has the shape described by h (same scalar kind; every element of an array/map has the member header; tuples match member-wise with equal length; enum index selects an existing member that the payload matches).", "quantifier": "all bodies, all headers", "why_tests_cant": "All pairs.", "anchors": ["dlhn/src/body/mod.rs: Body::validate"]}
{"id": "C38", "title": "Typed and dynamic views agree", "statement": "For every type with a header (without the attributes of C58 and C69) and every value of it, its serialized bytes decode under its own header to a Body that mirrors the value, that Body validates, and, when the type contains no HashMap, serializing the Body gives back the same bytes; with a HashMap it may give other bytes. (Values that exist on the target, memory for their vectors, and dates that can be rebased where overflow is checked.)", "quantifier": "all types with headers, all values", "why_tests_cant": "Unbounded nesting; ties three independent code paths together.", "anchors": ["dlhn/src/body/mod.rs", "dlhn/src/header/ser.rs", "dlhn/src/ser.rs"]}
{"id": "C39", "title": "Dynamic maps keep the last duplicate and come out sorted", "statement": "Body::deserialize of a map yields each key once with the value of its last occurrence, in ascending byte order of keys, independent of the order of distinct keys on the wire.", "quantifier": "all entry lists", "why_tests_cant": "All entry orders and duplicates.", "anchors": ["dlhn/src/body/mod.rs: Header::Map arm of Body::deserialize"]}
{"id": "C40", "title": "Unknown enum indices are rejected", "statement": "Body::deserialize of an enum header with n members returns Err(Read) for every index >= n, and so never yields an enum body without a member.", "quantifier": "all enum headers, all inputs", "why_tests_cant": "All indices.", "anchors": ["dlhn/src/body/mod.rs: Header::Enum arm of Body::deserialize"]}
{"id": "C41", "title": "Dynamic decoding of truncated input fails", "statement": "On 64-bit targets, and on all targets for headers without strings and maps, if Body::deserialize succeeds on an input using all its bytes, it returns Err(Read) on every strictly shorter prefix; and what follows the bytes used has no influence.", "quantifier": "all headers, inputs, truncation points", "why_tests_cant": "Every truncation point.", "anchors": ["dlhn/src/body/mod.rs: Body::deserialize"]}
{"id": "C42", "title": "Array capacity is taken from untrusted input", "statement": "For every memory limit there is an at most 9-byte input on which Body::deserialize with an array header panics or aborts in Vec::with_capacity; bodies whose header contains no array never do so, given memory for vectors as long as the widest tuple of the header.", "quantifier": "all memory limits, all headers", "why_tests_cant": "All memory limits.", "anchors": ["dlhn/src/body/mod.rs: Vec::with_capacity(len as usize)"]}
{"id": "C43", "title": "BigUint conversions and encoding preserve the number", "statement": "Every natural number converted to BigUint, serialized, deserialized and converted back is unchanged; the stored bytes are its minimal little-endian bytes and zero is stored as no bytes.", "quantifier": "all natural numbers", "why_tests_cant": "Unbounded numbers.", "anchors": ["dlhn/src/big_uint.rs: From, Into, Serialize, Deserialize", "dlhn/src/format/big_uint.rs"]}
{"id": "C44", "title": "BigInt conversions and encoding preserve the number", "statement": "Every integer converted to BigInt, serialized, deserialized and converted back is unchanged; the stored bytes are its minimal two's-complement little-endian bytes and zero is stored as no bytes.", "quantifier": "all integers", "why_tests_cant": "Unbounded numbers.", "anchors": ["dlhn/src/big_int.rs: From, Into, Serialize, Deserialize", "dlhn/src/format/big_int.rs"]}
{"id": "C45", "title": "BigDecimal conversions preserve the numeric value and are canonical", "statement": "Every decimal converted to BigDecimal, serialized, deserialized and converted back denotes the same number, and two decimals denoting the same number (1.0 and 1.00) give the same bytes.", "quantifier": "all decimals (digits, scale) whose normalised scale fits i64", "why_tests_cant": "Unbounded digits.", "anchors": ["dlhn/src/big_decimal.rs: From, Into, Serialize, Deserialize", "dlhn/src/format/big_decimal.rs"]}
{"id": "C46", "title": "format modules and newtypes write the same bytes", "statement": "format::big_uint, big_int, big_decimal, date and date_time serialize every value to the same bytes as converting it to the dlhn newtype and serializing that, and each reads back what the other wrote. On any writer they make the same calls of write; on any reader format::big_uint, big_int, date and date_time make the same calls of read as the newtype and return its value converted.", "quantifier": "all numbers, decimals, dates and timestamps", "why_tests_cant": "Unbounded values.", "anchors": ["dlhn/src/format/*.rs", "dlhn/src/big_uint.rs", "dlhn/src/big_int.rs", "dlhn/src/big_decimal.rs", "dlhn/src/date.rs", "dlhn/src/date_time.rs"]}
{"id": "C47", "title": "BigUint and BigInt comparison is not numeric", "statement": "The derived Ord on BigUint/BigInt orders by little-endian bytes: it agrees with numeric order for BigUint of single bytes but not in general (256 < 1).", "quantifier": "pairs of numbers", "why_tests_cant": "Existential over pairs, needs the universal partial statement too.", "anchors": ["dlhn/src/big_uint.rs: derive(PartialOrd, Ord)", "dlhn/src/big_int.rs: derive(PartialOrd, Ord)"]}
{"id": "C48", "title": "BigDecimal zero has scale zero", "statement": "Every BigDecimal obtainable through the public API (conversion or decoding) with no digit bytes has scale 0, hence re-encodes and decodes to itself.", "quantifier": "all reachable BigDecimal values", "why_tests_cant": "All conversion inputs and all decoded byte strings.", "anchors": ["dlhn/src/big_decimal.rs: From, BigDecimalVisitor::visit_seq"]}
{"id": "C49", "title": "Calendar dates round-trip", "statement": "Every time::Date converts to Date, serializes, deserializes and converts back to the same date; format::date does the same; no arithmetic overflows on the way.", "quantifier": "all dates of the supported calendar range", "why_tests_cant": "Millions of dates times two code paths.", "anchors": ["dlhn/src/date.rs", "dlhn/src/format/date.rs"]}
{"id": "C50", "title": "Invalid calendar dates are rejected, not normalised", "statement": "format::date::deserialize returns a date only when the decoded (year, ordinal) names an existing day (366 only in leap years, year within range) and otherwise returns an error.", "quantifier": "all inputs without arithmetic overflow", "why_tests_cant": "All (year, ordinal) pairs.", "anchors": ["dlhn/src/format/date.rs: DateVisitor::visit_seq", "dlhn/src/date.rs: TryInto<time::Date>"]}
{"id": "C51", "title": "Date decoding at the integer limits", "statement": "Decoding a Date overflows exactly when the year offset exceeds i32::MAX-2000 or the ordinal offset is u16::MAX: with overflow checks it panics, without them the value wraps and still re-encodes to the same pair.", "quantifier": "all (year, ordinal) offset pairs, both build modes", "why_tests_cant": "All 2^48 pairs in two build modes.", "anchors": ["dlhn/src/date.rs: DateVisitor::visit_seq, Serialize for Date"]}
{"id": "C52", "title": "Timestamps round-trip as instants", "statement": "Every OffsetDateTime whose UTC instant lies in the supported range converts to DateTime, serializes, deserializes and converts back to the same instant (in UTC); format::date_time does the same; the UTC offset is not preserved.", "quantifier": "all timestamps, nanoseconds and offsets", "why_tests_cant": "Unbounded combination of instants and offsets.", "anchors": ["dlhn/src/date_time.rs", "dlhn/src/format/date_time.rs"]}
{"id": "C53", "title": "Timestamp decoding can panic only past the end of time", "statement": "format::date_time::deserialize and TryInto<OffsetDateTime> panic exactly when the second count is in range but adding the nanosecond field leaves the supported range; nanosecond fields of 10^9 and more otherwise carry into the seconds.", "quantifier": "all (seconds, nanoseconds) pairs", "why_tests_cant": "All pairs.", "anchors": ["dlhn/src/format/date_time.rs: visit_seq", "dlhn/src/date_time.rs: TryInto<OffsetDateTime>"]}
{"id": "C54", "title": "Date and DateTime order chronologically", "statement": "The derived order on Date values of valid dates and on DateTime values converted from timestamps is chronological order.", "quantifier": "all pairs", "why_tests_cant": "All pairs.", "anchors": ["dlhn/src/date.rs: derive(PartialOrd, Ord)", "dlhn/src/date_time.rs: derive(PartialOrd, Ord)"]}
{"id": "C55", "title": "Derived struct headers list exactly the serialized fields", "statement": "derive(SerializeHeader) on a struct with fewer than 65536 serialized fields writes the tuple header of the headers of its fields that are not skipped for serialization, in declaration order; with more fields the count is written modulo 65536. Structs with a conditionally skipped field and unions are rejected at compile time.", "quantifier": "all structs", "why_tests_cant": "All field lists.", "anchors": ["dlhn_derive/src/lib.rs: derive_serialize_header (Struct)", "dlhn_derive/src/lib.rs: is_skip_field"]}
{"id": "C56", "title": "Derived enum headers describe every variant", "statement": "derive(SerializeHeader) on an enum of fewer than 65536 variants, without skipped variants or fields, writes the enum header whose i-th member describes the payload of variant i (unit, the single field, or the tuple of fields).", "quantifier": "all enums", "why_tests_cant": "All variant lists.", "anchors": ["dlhn_derive/src/lib.rs: derive_serialize_header (Enum)"]}
{"id": "C57", "title": "Derived header and body agree", "statement": "For a derived type without skipped enum variants or skipped variant fields, and with fewer than 65536 members in every tuple and enum, every serialized value (that exists on the target, given memory for its vectors, with dates that can be rebased where overflow is checked) decodes under the derived header to a body that mirrors it.", "quantifier": "all derived types, all values", "why_tests_cant": "All type definitions and values.", "anchors": ["dlhn_derive/src/lib.rs", "dlhn/src/body/mod.rs", "dlhn/src/ser.rs"]}
{"id": "C58", "title": "Skipped enum variants shift header indices", "statement": "When a skipped variant precedes another one, the derived header's member list is shifted against the variant index on the wire: values decode with the header member of another variant, and values of the last kept variant never decode under their own derived header.", "quantifier": "all enums with a skipped variant before a kept one", "why_tests_cant": "Statement about all such enums.", "anchors": ["dlhn_derive/src/lib.rs: is_skip_field on variants", "dlhn/src/ser.rs: variant_index"]}
{"id": "C59", "title": "Announced lengths are truncated on 32-bit targets", "statement": "On a 32-bit target the announced length of a string is compared after truncation to 32 bits: a concrete input announcing 2^32+128 bytes but holding 128 decodes successfully, and fails when one more byte follows, so truncation detection and locality do not hold there.", "quantifier": "32-bit targets", "why_tests_cant": "Depends on inputs larger than any test can hold and on the target.", "anchors": ["dlhn/src/de.rs: deserialize_string, deserialize_byte_buf, deserialize_seq"]}
{"id": "C60", "title": "Header decoding amplifies memory", "statement": "Every allocation deserialize_header requests is for at most 65535 headers and there are at most half as many requests as input bytes; but for every n an input of only 4n bytes makes it request n nested vectors of 65535 headers before it reports UnexpectedEof.", "quantifier": "all inputs, all n", "why_tests_cant": "Statement about all inputs and an unbounded family of hostile ones.", "anchors": ["dlhn/src/header/de.rs: Vec::with_capacity in the tuple and enum arms"]}
{"id": "C61", "title": "Announced element counts are not bounded by the input for zero-width elements", "statement": "An input of at most nine bytes decodes as a Vec<()> (and, memory permitting, as a dynamic array of units) of any announced length; the zero-width headers are exactly unit and tuples of zero-width headers; every other decoded array, every map and every typed sequence of non-empty elements has fewer elements than the bytes it was read from.", "quantifier": "all lengths, all headers, all inputs", "why_tests_cant": "Unbounded lengths and inputs.", "anchors": ["dlhn/src/body/mod.rs: Header::Array and Header::Map arms", "dlhn/src/de.rs: deserialize_seq"]}
{"id": "C62", "title": "Dynamic decoding panics only where listed", "statement": "Body::deserialize returns Ok or Err for every input when the header has no array and no date (given memory for its widest tuple); for all headers the only ways not to return are a refused allocation (array or tuple) and an arithmetic overflow (date, builds with overflow checks). Serializing a body succeeds on a Vec whenever its dates can be rebased.", "quantifier": "all headers, inputs, readers, build modes", "why_tests_cant": "All inputs.", "anchors": ["dlhn/src/body/mod.rs: Body::deserialize, Serialize for Body"]}
{"id": "C63", "title": "Dynamically decoded bodies re-encode canonically", "statement": "Whenever Body::deserialize succeeds, serializing the body succeeds and is not longer than the bytes consumed, and it decodes to the same body whatever follows: on 64-bit targets always, on 32-bit targets if the lengths in the body fit its address space.", "quantifier": "all headers, all byte strings", "why_tests_cant": "All byte strings including non-canonical ones.", "anchors": ["dlhn/src/body/mod.rs: Body::deserialize, Serialize for Body"]}
{"id": "C64", "title": "Typed and dynamic decoding disagree on oversized lengths on 32-bit targets", "statement": "On a 32-bit target the input announcing 2^32 one-byte elements and nothing else decodes as an empty Vec<u8> by type, but is Err(Read) under the array header.", "quantifier": "32-bit targets, both build modes", "why_tests_cant": "Depends on the target and a length no test can allocate.", "anchors": ["dlhn/src/body/mod.rs: for _ in 0..len", "dlhn/src/de.rs: deserialize_seq (count as usize)"]}
{"id": "C65", "title": "big_decimal and BigDecimal disagree on non-canonical zeros", "statement": "On digits that are a non-empty encoding of zero, deserializing the BigDecimal newtype consumes the scale that follows, format::big_decimal::deserialize does not, so the two leave the stream at different positions.", "quantifier": "all non-empty digit strings of value zero, all scales", "why_tests_cant": "Only foreign bytes show it; infinitely many of them.", "anchors": ["dlhn/src/format/big_decimal.rs: visit_seq", "dlhn/src/big_decimal.rs: BigDecimalVisitor::visit_seq"]}
{"id": "C66", "title": "Numbers, dates and timestamps stream", "statement": "Deserializing BigUint, BigInt, BigDecimal, Date or DateTime, or using a format module, reports every truncation as Err(Read), consumes only the bytes of the value, and gives the same result from every reader that delivers the same bytes, on 32-bit and 64-bit targets.", "quantifier": "all inputs, all readers, both build modes", "why_tests_cant": "All truncation points and chunkings.", "anchors": ["dlhn/src/big_uint.rs: Deserialize", "dlhn/src/big_int.rs: Deserialize", "dlhn/src/big_decimal.rs: Deserialize", "dlhn/src/date.rs: Deserialize", "dlhn/src/date_time.rs: Deserialize", "dlhn/src/format/*.rs"]}
{"id": "C67", "title": "Numbers, dates and timestamps panic only where documented", "statement": "Deserializing big numbers and DateTime returns Ok or Err for every input, whatever lengths are announced; the date readers can only panic on arithmetic overflow in builds with overflow checks, and format::date_time only when the instant leaves the supported range.", "quantifier": "all inputs, all readers, both build modes", "why_tests_cant": "All inputs.", "anchors": ["dlhn/src/big_uint.rs: Deserialize", "dlhn/src/date.rs: DateVisitor::visit_seq", "dlhn/src/format/date_time.rs"]}
{"id": "C68", "title": "The integer coders are exact on any buffer", "statement": "Every integer coder of the workspace, including the 8-bit ones and the derive crate's copy, writes the specified bytes into the caller's buffer whatever the buffer held before, returns a size within the buffer, and is inverted by its decoder; the signed coders number 0, -1, 1, -2, ... bijectively.", "quantifier": "all integers, all buffer contents", "why_tests_cant": "2^64 values times all buffer contents.", "anchors": ["dlhn/src/prefix_varint.rs: PrefixVarint", "dlhn_derive/src/prefix_varint.rs: PrefixVarint", "dlhn/src/zigzag.rs: ZigZag"]}
{"id": "C69", "title": "Skipped fields inside variants are in the header but not in the body", "statement": "derive(SerializeHeader) ignores attributes of fields inside enum variants, while serializing leaves skipped ones out: the two disagree, and a concrete enum's value fails to decode under its own derived header. A skipped field of a newtype struct is missing from the header but serialized.", "quantifier": "all enums and variants", "why_tests_cant": "Statement about all enums.", "anchors": ["dlhn_derive/src/lib.rs: derive_serialize_header (Enum)"]}
{"id": "C70", "title": "Type headers on failing writers", "statement": "serialize_header of every built-in or derived type writes the complete header on a writer that is slow or interrupted, and on a failing writer returns the error having written a strict prefix.", "quantifier": "all types, all write schedules", "why_tests_cant": "All write schedules.", "anchors": ["dlhn_derive/src/lib.rs", "dlhn/src/header/ser.rs"]}
{"id": "C71", "title": "Derived types round-trip", "statement": "For a type built from the standard impls and derived structs and enums whose fields are skipped for both directions or none, every value serializes and T::deserialize gives it back from any reader and whatever follows, which is left unread: skipped fields come back as their defaults, decimals as the same number, timestamps as the same instant, HashMaps as the same entries; types with none of these come back identical. Reading a borrowed string or byte slice always panics.", "quantifier": "all derivable types, values, readers, continuations, defaults and HashMap orders", "why_tests_cant": "All type definitions and values.", "anchors": ["dlhn/src/de.rs: Deserializer, SeqAccess, MapAccess, EnumAccess", "dlhn/src/ser.rs: Serializer"]}
{"id": "C72", "title": "Fields skipped in one direction break the stream", "statement": "A struct whose last field is skipped only when serializing is decoded by taking that field from the bytes that follow the value, the other fields being those written, and fails as that fails; one whose last field is skipped only when deserializing decodes, with the default for that field and the other fields as written, but leaves the bytes of the field in the stream.", "quantifier": "all such structs, values, continuations", "why_tests_cant": "All types and all continuations of the stream.", "anchors": ["dlhn/src/de.rs: deserialize_struct", "dlhn/src/ser.rs: SerializeStruct::skip_field"]}
{"id": "C73", "title": "Skipped enum variants shift typed decoding", "statement": "The variant index written counts all variants, the one read counts the variants that can be deserialized: if a skipped variant precedes the written one, T::deserialize never returns the variant written but a later one or an error, and always an error when too few variants are left.", "quantifier": "all enums of at most 16384 variants, values, continuations", "why_tests_cant": "All enum definitions.", "anchors": ["dlhn/src/de.rs: EnumAccess::variant_seed, deserialize_identifier", "dlhn/src/ser.rs: variant_index"]}
{"id": "C74", "title": "Derived types stream", "statement": "T::deserialize of every type reports truncation as Err(Read), consumes only the bytes of the value and does not depend on how the reader delivers them (64-bit targets, and all targets for types without text); any number of values of any round-tripping types written to one stream are read back one after the other.", "quantifier": "all types, inputs, truncation points, readers, sequences of values", "why_tests_cant": "All inputs and schedules.", "anchors": ["dlhn/src/de.rs: Deserializer", "dlhn/src/ser.rs: Serializer"]}
{"id": "C75", "title": "Derived types on hostile input", "statement": "T::deserialize returns Ok or Err for every input and reader, except that a borrowed string or byte slice, a date overflowing in builds with overflow checks, or a timestamp leaving the supported range panics; it never explicitly allocates more than 4096 bytes at once whatever lengths are announced.", "quantifier": "all types, inputs, readers, build modes", "why_tests_cant": "All inputs.", "anchors": ["dlhn/src/de.rs: Deserializer"]}
{"id": "C76", "title": "Derived types on failing writers", "statement": "Serializing a value of any type writes everything on slow or interrupted writers, and on a failing writer returns Err(Write) after a strict prefix, which is never read back as a value of the type; serializing panics only by arithmetic overflow in builds with overflow checks.", "quantifier": "all types, values, write schedules", "why_tests_cant": "All write schedules.", "anchors": ["dlhn/src/ser.rs: Serializer"]}
{"id": "C77", "title": "Typed and dynamic decoding agree on every input", "statement": "For a type and the header that describes it, on every input, canonical or not: if T::deserialize accepts it, Body::deserialize under the header accepts it with the same content and the same number of bytes (unless its request for memory is refused), and conversely (unless a date or time is checked by the type); without enums and checked dates the errors are the same too. Types with bigdecimal::BigDecimal, borrowed data or one-sided skips are excluded, and for types with enums inputs in which some place, read as a 16-bit and as a 32-bit index, gives different numbers one of which is a variant of some enum of the type; inputs without bytes of 192 and above have no such place, nor, for enums of up to 128 variants, have inputs in which a byte of 192 or above is always followed by one of 128 or above, as in UTF-8 text.", "quantifier": "all comparable types, their headers, byte strings, reader endings, defaults and HashMap orders; 64-bit targets", "why_tests_cant": "All byte strings including ones no encoder produces.", "anchors": ["dlhn/src/body/mod.rs: Body::deserialize", "dlhn/src/de.rs: Deserializer"]}
{"id": "C78", "title": "Enum indices are read differently by type and by header", "statement": "T::deserialize reads a variant index as a 16-bit varint, Body::deserialize as a 32-bit one: they agree exactly when the first byte is below 192 or the index is the overlong zero C0 00 00; then the whole enum is decoded alike; on other inputs the two decoders can both succeed with different variants.", "quantifier": "all indices, enums without nested enums, inputs", "why_tests_cant": "All inputs; no encoder produces the ones that differ.", "anchors": ["dlhn/src/de.rs: EnumAccess::variant_seed, deserialize_identifier", "dlhn/src/body/mod.rs: Header::Enum arm"]}
{"id": "C79", "title": "Decoded values of derived types re-encode canonically", "statement": "Whenever T::deserialize succeeds, on canonical input or not, serializing the value succeeds (given that its decimals can be normalised) and decodes to the same value from any reader and whatever follows, up to HashMap order and the representation of bigdecimal::BigDecimal, and exactly without these. It takes no more bytes than were read, except where format::big_decimal or format::date_time normalise: there it can take more, and for a decimal at the limit of the scale serializing panics in builds with overflow checks.", "quantifier": "all round-tripping types, byte strings, readers, defaults, HashMap orders and targets (byte buffers of 2^32 bytes or more, which 32-bit targets cannot hold, excepted)", "why_tests_cant": "All byte strings including ones no encoder produces.", "anchors": ["dlhn/src/de.rs: Deserializer", "dlhn/src/ser.rs: Serializer", "dlhn/src/format/big_decimal.rs", "dlhn/src/format/date_time.rs"]}
{"id": "C80", "title": "Dynamic values are read by type", "statement": "Every body that validates against the header of a type and exists on the target serializes to bytes from which T::deserialize reads a value with the same content, whatever follows; dates and times have to exist where the type checks them, and decimal digits have to be a number where the type holds bigdecimal::BigDecimal.", "quantifier": "all readable types, their headers, valid bodies, readers, continuations, defaults and HashMap orders", "why_tests_cant": "All types and bodies, including bodies no typed value produces.", "anchors": ["dlhn/src/body/mod.rs: Serialize for Body, Header::validate", "dlhn/src/de.rs: Deserializer"]}
{"id": "C81", "title": "Types with the same header read each other's values", "statement": "If two types announce the same header, every value serialized with the first is deserialized by the second as a value with the same content, from any reader and whatever follows, map entries in any order; the same conditions on dates and decimals as for dynamic values apply.", "quantifier": "all pairs of types with equal headers, all values, readers, continuations, defaults and HashMap orders", "why_tests_cant": "All pairs of type definitions and all values.", "anchors": ["dlhn_derive/src/lib.rs", "dlhn/src/ser.rs: Serializer", "dlhn/src/de.rs: Deserializer"]}
{"id": "C82", "title": "A header and a stream of values are self-describing", "statement": "After T::serialize_header and any number of serialized values of T on one stream, a reader that knows no types decodes the header and then each value to a body that mirrors it, leaving exactly what follows; a stream that ends inside a value is Err(Read) at that value.", "quantifier": "all plain types, all sequences of values, continuations and truncation points", "why_tests_cant": "All sequences and truncation points.", "anchors": ["dlhn_derive/src/lib.rs", "dlhn/src/header/de.rs: deserialize_header", "dlhn/src/body/mod.rs: Body::deserialize"]}
{"id": "C83", "title": "Encodings of derived types are unambiguous", "statement": "If the bytes of one value begin those of another value of the same type, the encodings are equal and both are read as the same value; for types that lose nothing the values are equal, and two streams of equally many values have equal bytes only if the values are equal.", "quantifier": "all round-tripping types, all pairs and sequences of values", "why_tests_cant": "All pairs of values.", "anchors": ["dlhn/src/ser.rs: Serializer", "dlhn/src/de.rs: Deserializer"]}
{"id": "C84", "title": "Recursive types round-trip", "statement": "For any set of mutually recursive type definitions, every value however deeply nested serializes, and given stack for its depth deserializes to itself from any reader and whatever follows; no encoding is a prefix of another; decoded values are values of the type and re-encode no longer; truncation is Err(Read) and the result depends only on the bytes the reader delivers (64-bit targets, and all targets for definitions without text); no explicit allocation exceeds 4096 bytes.", "quantifier": "all systems of supported type definitions, values of any depth, stack sizes, readers, continuations", "why_tests_cant": "Unbounded depth and all definitions.", "anchors": ["dlhn/src/de.rs: Deserializer, SeqAccess, MapAccess, EnumAccess", "dlhn/src/ser.rs: Serializer"]}
{"id": "C85", "title": "Recursion depth is limited by the stack alone", "statement": "Decoding a recursive type can only panic by exhausting the stack; a value nested deeper than the stack allows always does, as the decoder has no depth limit; where definitions mention names only inside options, sequences, maps and enums an input shorter than the stack is deep never does, and for a linked list one byte per level is enough to exhaust any stack.", "quantifier": "all systems of definitions, stack sizes, inputs", "why_tests_cant": "All depths and inputs.", "anchors": ["dlhn/src/de.rs: Deserializer"]}
{"id": "C86", "title": "Recursive types have no header", "statement": "A type has a finite header exactly if no chain of mentions from it goes on for ever; then serialize_header writes it. Otherwise serialize_header never returns Ok: it exhausts the stack, or reports the writer's error, for every stack size and writer, and no assignment of headers would be right.", "quantifier": "all systems of struct and enum definitions, stack sizes, writers", "why_tests_cant": "All definitions and stack sizes.", "anchors": ["dlhn_derive/src/lib.rs: derive_serialize_header", "dlhn/src/header/ser.rs: SerializeHeader impls"]}
{"id": "C87", "title": "Hand-written Deserialize implementations inherit the guarantees", "statement": "Any Deserialize implementation that passes errors on, whatever methods, seeds and visitors it uses and in whatever order, consumes only the bytes it needs, reports truncation of them as Err(Read), gives the same result on every reader delivering the same bytes (64-bit targets, and all targets for those that read no strings and chars), never causes an explicit allocation above 4096 bytes, and panics only by asking for deserialize_any, _str, _bytes or _ignored_any, which always do. The implementations serde provides and derives are among them and read what the typed decoder reads.", "quantifier": "all implementations, inputs and readers", "why_tests_cant": "All programs a user may write against the deserializer.", "anchors": ["dlhn/src/de.rs: Deserializer, SeqDeserializer, MapDeserializer, StructDeserializer, VariantDeserializer"]}
{"id": "C88", "title": "Visitors are given the serialized elements, and nothing skips the rest", "statement": "A visitor of a sequence, array or map is given exactly the elements that were serialized, in order, then None as often as it asks, and may stop at any point; the elements it did not ask for stay in the reader, so that the next value read from the stream is the first of them. The keys a struct visitor is given are the announced field names, whatever the input, and cost no bytes.", "quantifier": "all visitors, supported element types, values and continuations", "why_tests_cant": "All visitors and all values.", "anchors": ["dlhn/src/de.rs: SeqDeserializer::next_element_seed, MapDeserializer::next_key_seed, StructDeserializer::next_key_seed"]}
{"id": "C89", "title": "Numbers written with one integer type and read with another", "statement": "Changing the width of an integer type of 16 bits or more never causes an error: below 2^14 (u16 to or from u32, u64) or 2^28 (u32 to or from u64), and the corresponding range around zero for signed types, numbers are read unchanged and nothing is left over; outside, widening silently yields 32 or 8 times the number (signed: a number that is never negative), narrowing silently another number, with bytes left over when it is too large. Changing the signedness yields the zigzag position. A u8 below 2^7 read as a wider type is the number (signed: the number at that zigzag position), from there on it swallows 1 to 8 bytes that follow or fails if there are fewer; a wider number read as a u8 is the number it is written as if below 2^7, otherwise bytes are left over. An i8 behaves as the u8 of the same bits.", "quantifier": "all pairs of integer types, all numbers, all continuations", "why_tests_cant": "2^64 numbers times all continuations.", "anchors": ["dlhn/src/de.rs: deserialize_u16, deserialize_u32, deserialize_u64, deserialize_i16, deserialize_i32, deserialize_i64", "dlhn/src/prefix_varint.rs: PrefixVarint"]}
{"id": "C90", "title": "Compatible changes of a type", "statement": "Data written with a type remain readable, as the same data, after any combination, at any depth, of: renaming types, fields and variants, wrapping and unwrapping newtypes, turning structs into tuples and back, nesting and flattening tuples, changing the kind of a variant's payload without changing its members, appending variants, char to String, String to bytes, bytes to and from Vec<u8>, bool to u8, maps to and from sequences of pairs.", "quantifier": "all pairs of supported types related by such changes, all values, all continuations", "why_tests_cant": "All type definitions and values.", "anchors": ["dlhn/src/ser.rs: Serializer", "dlhn/src/de.rs: Deserializer"]}
{"id": "C91", "title": "Incompatible changes of a type", "statement": "Fields appended to a struct are not ignored by an old reader but left in the stream, and a new reader of old data takes them, even Options, from whatever follows and fails as that fails; a variant unknown to the reader is always an error and never taken for another; reordered variants are read as the variant now in that position, by reading its payload from the bytes of the payload written and those that follow, silently if the payload has the same type.", "quantifier": "all structs, enums, values and continuations; variants with an index below 16384 (larger ones: C21)", "why_tests_cant": "All type definitions, values and continuations.", "anchors": ["dlhn/src/de.rs: deserialize_struct, deserialize_enum, deserialize_identifier", "dlhn/src/ser.rs: SerializeStruct, variant_index"]}
{"id": "C92", "title": "Decoding makes at most two reader calls per byte", "statement": "Whatever is decoded (a typed value, a derived or recursive type, a hand-written Deserialize implementation, a body, a header) and whatever lengths the input announces, a run makes at most two reader calls per byte it consumes, and if it fails at most two per byte of the input and one more.", "quantifier": "all types, implementations, headers, inputs, reader endings and targets", "why_tests_cant": "All inputs, including hostile ones.", "anchors": ["dlhn/src/de.rs: Deserializer", "dlhn/src/body/mod.rs: Body::deserialize", "dlhn/src/header/de.rs: deserialize_header"]}
{"id": "C93", "title": "Explicit allocations amount to no more than the input", "statement": "On 64-bit targets all memory a typed decoder, derived or hand-written, explicitly asks for during a run is together no more than the bytes it consumes, and if it fails no more than the bytes of the input and 4096, whatever lengths are announced.", "quantifier": "all types, implementations, inputs and reader endings; 64-bit targets", "why_tests_cant": "All inputs, including hostile ones.", "anchors": ["dlhn/src/de.rs: deserialize_byte_buf, deserialize_string"]}
{"id": "C94", "title": "Decoded values are no larger than their input allows", "statement": "A decoded value (typed or dynamic) has at most as many parts as its type or header has, times the number of bytes it was read from plus one, unless the type has a sequence whose elements take no bytes; for those there is no bound. For types with derived implementations the same holds of the parts that are read; fields that are left out have the value of Default.", "quantifier": "all supported types, all headers and all derived types without such sequences, all inputs", "why_tests_cant": "Unbounded inputs and values.", "anchors": ["dlhn/src/de.rs: deserialize_seq, deserialize_map", "dlhn/src/body/mod.rs: Body::deserialize"]}
{"id": "C95", "title": "Equality of dynamic values and headers", "statement": "`==` on bodies holds exactly of those that mean the same: floats as numbers (NaN equals nothing, the two zeros are equal), maps by their keys, everything else literally. It is symmetric and transitive, and reflexive exactly on bodies without NaN, so a body read back equals the one written exactly if it holds no NaN. Equal bodies validate against the same headers, take equally many bytes, and are identical unless they hold a zero float; bodies of one header with the same bytes are equal unless they hold a NaN. Headers are equal exactly if their bytes are.", "quantifier": "all bodies, headers and float bit patterns", "why_tests_cant": "All pairs of values.", "anchors": ["dlhn/src/body/mod.rs: Body (derive PartialEq)", "dlhn/src/header/mod.rs: Header (derive PartialEq)"]}
{"id": "C96", "title": "Equality and order of numbers and dates", "statement": "Numbers, decimals, dates and timestamps converted from their source types compare equal exactly if they are the same number, day or instant. Values that were decoded compare by what is stored: the same number in an overlong encoding is not equal. For all values, converted or decoded, exactly one of <, == and > holds and < is transitive.", "quantifier": "all numbers, dates, timestamps and stored values", "why_tests_cant": "All pairs and triples of values.", "anchors": ["dlhn/src/big_uint.rs: BigUint (derive)", "dlhn/src/big_int.rs: BigInt (derive)", "dlhn/src/big_decimal.rs: BigDecimal (derive)", "dlhn/src/date.rs: Date (derive)", "dlhn/src/date_time.rs: DateTime (derive)"]}
{"id": "C97", "title": "Hand-written Serialize implementations inherit the guarantees", "statement": "Any Serialize implementation, whatever methods it calls and whatever it makes of their errors, writes the specified bytes of the values it presents one after the other and returns its own error or one it was given; short writes and interruptions make no difference; nothing panics on any writer. If it passes errors on, a failing writer yields Err(Write) and holds a strict prefix of the bytes, so Ok means everything was written; if not, the bytes are right until the first failed write, and Ok can hide it. The implementations serde provides and derives are among them.", "quantifier": "all implementations and writers", "why_tests_cant": "All programs a user may write against the serializer.", "anchors": ["dlhn/src/ser.rs: Serializer, SerializeSeq, SerializeTuple, SerializeTupleStruct, SerializeTupleVariant, SerializeMap, SerializeStruct, SerializeStructVariant"]}
{"id": "C98", "title": "Map keys are what types show to humans", "statement": "The key of a map entry is written as the string its type serializes to for human-readable formats, and any other key is an error before anything of it is written. Values are written, and keys and values read, in the form for other formats: a type that has both forms round-trips as a value but not as a key. For std::net::Ipv4Addr a map of one entry never round-trips: the reader takes the length and first characters of the text for the address and leaves bytes in the stream, without an error.", "quantifier": "all key and value implementations, all entries; all addresses, values and continuations", "why_tests_cant": "All implementations; 2^40 entries.", "anchors": ["dlhn/src/ser.rs: MapKeySerializer, is_human_readable", "dlhn/src/de.rs: is_human_readable, MapDeserializer::next_key_seed"]}
{"id": "C99", "title": "Declared lengths are not checked", "statement": "The length an implementation passes to serialize_seq or serialize_map is written as it is: if more elements follow, the reader gets the declared number and the others stay in the stream; if fewer follow, the reader takes the missing ones from what comes next, as if that were a sequence or map of the missing number, and fails with Err(Read) if nothing does.", "quantifier": "all element types, values, declared lengths and continuations", "why_tests_cant": "All lengths and continuations.", "anchors": ["dlhn/src/ser.rs: serialize_seq, serialize_map, SerializeSeq::end", "dlhn/src/de.rs: SeqDeserializer, MapDeserializer"]}
{"id": "C100", "title": "Where a failed decode leaves the reader", "statement": "Whether decoding succeeds or fails, and however the reader delivers the data, the reader is left at a place that depends on the bytes only: after the bytes that were enough to decide (a bad boolean or option tag, the whole of a string that is not UTF-8, the index of an unknown variant; later members and elements are not touched), or, if the data did not suffice, after all of them. A reader that fails in the middle of a value (would block, timed out) loses the bytes delivered before: a second attempt starts behind them and can return a wrong value without an error. Only a reader that fails before it delivered anything can be asked again.", "quantifier": "all types, implementations, headers, readers, schedules and failures (for where a decode stops on 32-bit targets: what contains no text)", "why_tests_cant": "All inputs and schedules.", "anchors": ["dlhn/src/de.rs: Deserializer", "dlhn/src/header/de.rs: deserialize_header", "dlhn/src/body/mod.rs: Body::deserialize"]}
{"id": "C101", "title": "Implementations that catch errors", "statement": "An implementation may catch an error of the deserializer or of an access object and go on. It then still cannot be made to panic, and on data that end for good still does the same for every way they are delivered. T::deserialize(d).unwrap_or(default) succeeds on every input, and leaves the reader where T stopped: in a list of booleans or strings exactly the bad elements are replaced, but in a list of enums the data of an unknown variant are read as the next element, a value nobody sent. A list of such elements gets as long as its input announces, up to 2^64 - 1 elements for nine bytes.", "quantifier": "all implementations, readers, element lists and announced lengths", "why_tests_cant": "All programs a user may write against the deserializer, all inputs.", "anchors": ["dlhn/src/de.rs: Deserializer, SeqDeserializer, MapDeserializer, StructDeserializer, EnumAccess, VariantAccess"]}
{"id": "C102", "title": "Written data are recognised on every target", "statement": "On every target, 32-bit ones included: what serialization wrote, for every typed, derived, recursive or dynamic value that exists on the target, is read back from every reader that delivers it, whatever follows, and the reader is left right behind it; every reader that ends or fails earlier yields Err(Read). The same holds of any input, written by anyone, that was once read with data left over. Data from a reader that ends for good are read as in one piece. (Arbitrary input at the end of the data is misread on 32-bit targets.)", "quantifier": "all targets, types, implementations, headers, values, readers, schedules and truncation points", "why_tests_cant": "All targets, values and schedules.", "anchors": ["dlhn/src/de.rs: Deserializer, deserialize_string, deserialize_byte_buf", "dlhn/src/body/mod.rs: Body::deserialize"]}
{"id": "C103", "title": "Size limits of encodings", "statement": "A least and a greatest encoded size can be read off a type or a header (none if it has strings, bytes, sequences or maps). Every encoding of a value lies between them and both are reached; decoding, of any input, never succeeds on fewer bytes than the least size, nor consumes fewer; fewer bytes of data are an error. A derived type stays within the limits of its header. Calendar dates take 2 to 5 bytes, timestamps within their range 2 to 11.", "quantifier": "all supported types, headers, values and inputs", "why_tests_cant": "All values of all types.", "anchors": ["dlhn/src/ser.rs: Serializer", "dlhn/src/de.rs: Deserializer", "dlhn/src/body/mod.rs: Body::serialize, Body::deserialize"]}
{"id": "C104", "title": "Buffers of fixed size", "statement": "Serializing a value, a body or a header into a `&mut [u8]` of n bytes succeeds exactly if the encoding has at most n bytes and then leaves the remaining buffer untouched; otherwise it is Err(Write) (for headers the error of the slice), and the buffer holds the first n bytes of the encoding. A buffer of the type's greatest size is always enough, and for any smaller one there is a value that does not fit.", "quantifier": "all values of supported types, bodies, headers, derived types, buffer sizes", "why_tests_cant": "All values and buffer sizes.", "anchors": ["dlhn/src/ser.rs: Serializer", "dlhn/src/body/mod.rs: Body::serialize", "dlhn/src/header/ser.rs: serialize_header"]}
{"id": "C105", "title": "Which errors decoding and serializing can return", "statement": "The errors decoding a type can report, on any reader, can be read off the type: Read if it takes bytes, CharSize if it has a char, a message if it has an enum or a 128-bit integer (in parts that can be reached), never UnsupportedKeyType; each of these does occur, and whether any input is accepted can be read off too. Dynamic values report Read only; derived types a message only if a part checks what it decodes (enums, dates and timestamps of the time crate). Serializing reports the first fault of the value in the order of its parts (a key that is no string, a 128-bit integer), or Write.", "quantifier": "all types, headers, values, inputs, readers and writers", "why_tests_cant": "All inputs; absence of an error cannot be tested.", "anchors": ["dlhn/src/de.rs: Error", "dlhn/src/ser.rs: Error", "dlhn/src/ser.rs: Serializer, MapKeySerializer", "dlhn/src/de.rs: Deserializer", "dlhn/src/body/mod.rs: Body::deserialize"]}
{"id": "C106", "title": "Fields left out depending on their value", "statement": "SerializeHeader accepts skip_serializing_if on the fields of enum variants (it rejects it on struct fields and variants). As long as no predicate holds the attribute makes no difference, and types without it are never affected. A field that is left out is written as nothing, as if it were not declared, but the header still lists it and the reader still expects it: it and all later fields are read from the bytes of the later ones and whatever follows the value. So a value nobody wrote can be read, typed or under the header, without an error.", "quantifier": "all types, predicates, values and continuations", "why_tests_cant": "All predicates, values and continuations.", "anchors": ["dlhn_derive/src/lib.rs: derive_serialize_header, has_skip_serializing_if", "dlhn/src/ser.rs: SerializeStructVariant, SerializeTupleVariant", "dlhn/src/de.rs: VariantDeserializer"]}
{"id": "C107", "title": "Byte slices as readers", "statement": "Decoding from a byte slice or a Cursor, which have their own read_exact, has the same result as decoding the same data from any other reader, with every version of the standard library, and after a success the slice is left right behind the value. After an error it is left behind the bytes that were enough to decide; if the data did not suffice, newer versions leave it empty and older ones in the middle of the value, so that decoding again from it can return a value nobody sent, without an error.", "quantifier": "every type, implementation, header and dynamic value, every slice, every version of std's read_exact for slices, every continuation of the data (for where a decode stops on 32-bit targets: what contains no text)", "why_tests_cant": "Tests decode from complete slices; what is left after a failure for every input and both behaviours of std is not observable by sampling.", "anchors": ["dlhn/src/de.rs: Deserializer, deserialize_string, deserialize_byte_buf", "README.md: Deserializer::new(&mut reader)", "dlhn/tests/stream.rs: deserialize"]}
{"id": "C108", "title": "Collecting data until a value is complete", "statement": "A caller that appends what arrives to a buffer, decodes from its start, removes what a success used and waits for more data after Err(Read) emits, for every division of the data into pieces, exactly the values of which all bytes have arrived, in order and once, on every target; it works for types, dynamic values and derived types whose values take at least one byte. On 64-bit targets, and on all targets where no text is read, what it emits does not depend on the pieces for any data. Bad data are not told from missing data: the caller then waits for ever. For values that take no bytes the loop does not end.", "quantifier": "every list of values, every division of their bytes into pieces (empty ones included), every moment; every input for independence of the pieces", "why_tests_cant": "There are exponentially many divisions of the data into pieces; every prefix of every encoding has to be rejected with Err(Read) and every complete one accepted whatever follows.", "anchors": ["dlhn/src/de.rs: Deserializer, Error::Read", "dlhn/src/body/mod.rs: Body::deserialize", "dlhn/tests/stream.rs: deserialize"]}
{"id": "C109", "title": "Defaults, aliases and denied unknown fields have no effect", "statement": "`#[serde(default)]`, `#[serde(alias)]`, `#[serde(deny_unknown_fields)]` and the leniency of serde towards missing Option fields make no difference: a struct or struct variant with them is read, on every input, like one without. A field added with a default does not make old data readable: it is read from whatever follows, and if nothing does and the field takes at least one byte, decoding fails. If the list of field names that serde_derive announces includes an alias, no input can be read at all.", "quantifier": "all structs and struct variants, field types, defaults, aliases, inputs, readers and continuations", "why_tests_cant": "All type definitions and all inputs.", "anchors": ["dlhn/src/de.rs: deserialize_struct, StructDeserializer, deserialize_identifier", "dlhn/src/de.rs: VariantDeserializer::struct_variant"]}
{"id": "C110", "title": "Catch-all variants do not skip what they catch", "statement": "An enum with a `#[serde(other)]` variant reads everything it can read without it, and reads every unknown variant as that one, but leaves the data of the unknown variant in the reader. Unknown variants without data are therefore replaced one by one in a list; of unknown variants with data the data are read as the next element, so that values nobody sent are returned without an error.", "quantifier": "all enums, positions of the catch-all variant, unknown variants, values, lists and continuations; variants with an index below 16384", "why_tests_cant": "All enums, values and continuations.", "anchors": ["dlhn/src/de.rs: EnumAccess::variant_seed, deserialize_identifier, VariantAccess::unit_variant", "dlhn/src/ser.rs: variant_index"]}
{"id": "C111", "title": "Untagged, internally tagged and flattened data are written but not read", "statement": "Values of untagged and internally tagged enums and of structs with flattened fields serialize without an error, but no input is ever read as one of the enums (the deserializer panics before it reads a byte), and structs with flattened fields panic on their own data; Ok is returned for the empty map only (on targets with fewer than 64 address bits, for every count that is 0 when cut down to an address). SerializeHeader accepts all of these types and announces the header of the type without the attribute, under which the data are read as other data.", "quantifier": "all enums, values, structs with flattened fields, inputs and continuations; particular types for the last sentence", "why_tests_cant": "That no input is accepted cannot be tested.", "anchors": ["dlhn/src/de.rs: deserialize_any, deserialize_map, deserialize_identifier", "dlhn/src/ser.rs: serialize_map, SerializeMap", "dlhn_derive/src/lib.rs: derive_serialize_header"]}
{"id": "C112", "title": "Buffered writers: Ok is not delivery, and nothing is torn or reordered", "statement": "Serializing to a std BufWriter of any capacity around any writer returns what it returns on a Vec, with every byte accepted by the writer or held back, or Err(Write) with a strict prefix so kept. Ok from the serializer followed by Ok from a flush means that the writer has exactly the encoding; whatever fails and however often flushing is retried, the writer has a prefix of it. The serializer never flushes: an encoding shorter than the buffer does not reach the writer, so that Ok says nothing about it, and if the BufWriter is then dropped and the writer fails, the value is lost without an error. No more than the capacity is ever held back.", "quantifier": "all values, headers, buffer capacities, writers (short writes, interruptions, failures at any point) and numbers of further flushes", "why_tests_cant": "Every interleaving of buffer boundaries, short writes and failures; in tests the writer is a Vec that never fails.", "anchors": ["dlhn/src/ser.rs: Serializer::new, all serialize_ functions", "dlhn/src/header/ser.rs: SerializeHeader"]}
{"id": "C113", "title": "Buffered readers change no result but read ahead", "statement": "Decoding through a std BufReader of any capacity around any reader (on 32-bit targets, for types with text: one that delivers non-empty chunks until its end) gives the same result as decoding from the reader directly, and what is left in the BufReader together with the reader is what follows the value; values are therefore read one after the other through the same BufReader. The reader behind it alone may have lost data: after a value was decoded through a BufReader that is then dropped, decoding the next value from the reader itself can fail although it was sent.", "quantifier": "all types, inputs, buffer capacities, states of the buffer, readers (chunks of any size, interruptions, failures); a u8 followed by any data for reading ahead", "why_tests_cant": "Every position of the buffer boundary relative to every boundary inside a value and every chunking.", "anchors": ["dlhn/src/de.rs: Deserializer::new, all deserialize_ functions", "dlhn/tests/stream.rs: deserialize"]}
{"id": "C114", "title": "Values of standard library types", "statement": "Through serde's implementations, Duration, SystemTime from the epoch on, Range, Bound, Result, IpAddr, OsString, NonZero, CString, PathBuf, usize, isize and the set types are written as the concatenation of their parts (enums with one leading byte) and come back, for every element type that does, also before other data. What is not a value is refused with an error: a zero for NonZero, a NUL inside a CString, an unknown variant, a Duration or SystemTime out of range, a usize or isize too large for the reader. A SystemTime before the epoch and a path that is not UTF-8 are errors on writing, with nothing written. Not refused are nanoseconds beyond a second, which are carried, so that a Duration has several encodings, and repeated elements of a set, of which one is kept. None of these types makes decoding panic on any input. If an element cannot be written the whole fails with its error after what came before, and a failing writer is reported as Err(Write) with a strict prefix written.", "quantifier": "all values of the types, all element types and implementations, all inputs of the given forms, continuations, targets, readers and writers", "why_tests_cant": "All values of all element types; in tests a few values of a few of these types.", "anchors": ["dlhn/src/ser.rs: serialize_struct, serialize_newtype_variant, serialize_unit_variant, serialize_seq, serialize_tuple", "dlhn/src/de.rs: deserialize_struct, deserialize_enum, deserialize_identifier, deserialize_tuple, deserialize_seq, deserialize_byte_buf, deserialize_string"]}
{"id": "C115", "title": "Which types can notice bad data", "statement": "For types made of integers, floats and byte buffers by sequences, maps, tuples, structs and units, no data are ever refused: every input is read as some value, or is Err(Read) and can be completed to an input that is read; one as long as the longest value of the type (if there is a longest one) is always read. Damaged data of such types cannot be noticed other than by running out of data. Every other type - one with a boolean, an option, an enum (of fewer than 65536 variants), a character or text - refuses some data whatever follows. For dynamic values the headers that never notice bad data are those of numbers, bytes, dates (without overflow checks), timestamps and tuples of them, and for derived types those of numbers, bytes, dlhn dates (without overflow checks) and timestamps and of vectors, tuples and structs of them; with anything else some data are an error or a panic whatever follows.", "quantifier": "all types, headers, derived types, inputs, builds and targets", "why_tests_cant": "All byte strings, and all ways to complete them.", "anchors": ["dlhn/src/de.rs: Deserializer, deserialize_bool, deserialize_option, deserialize_enum, deserialize_string, deserialize_byte_buf", "dlhn/src/body/mod.rs: Body::deserialize", "dlhn/src/date.rs: Deserialize for Date"]}
{"id": "C116", "title": "Serializing makes few calls on the writer", "statement": "Whatever is serialized (a typed value, any Serialize implementation, a body, a derived type, a header, the header of a type), the buffers passed to write_all are together exactly the bytes a Vec would hold, and they are at most two per byte, however many units or empty structs the value contains. On any writer the number of calls of write is at most one per byte that arrives plus one per interruption, and one more if the writer fails; an implementation that carries on after errors makes at most one more for each time the writer accepted nothing.", "quantifier": "all values, types, headers and implementations, all writers (short writes, interruptions, failures at any point)", "why_tests_cant": "A bound over all values and all behaviours of writers; a test sees the calls of one value on one writer.", "anchors": ["dlhn/src/ser.rs: Serializer, SerializeSeq, SerializeTuple, SerializeMap, SerializeStruct", "dlhn/src/header/ser.rs: SerializeHeader, Header::serialize", "dlhn/src/body/mod.rs: Serialize for Body", "dlhn_derive/src/lib.rs: derive_serialize_header"]}
{"id": "C117", "title": "Any reader, whatever it does", "statement": "Whatever a reader does - short reads, interruptions, failures, data without end, data that depend on what was asked for, answers that are not determined - the result of decoding follows from the bytes it has handed over: either the result is the one for these bytes, whatever follows, and not one byte more was taken, or the reader has ended or failed with its last answer, the result is Err(Read) (for headers the reader's error), and the bytes handed over were too few. What was written is read back from every reader that hands it over. Decoding ends on every reader that always answers and is not interrupted without end, even one with endless data; on one that is interrupted without end it does not end.", "quantifier": "all readers that keep the contract of read (no more bytes than fit in the buffer), with any state and any set of possible answers; all types, implementations, dynamic values, derived types, headers, inputs and targets (types without text on 32-bit targets; what was written on all)", "why_tests_cant": "The readers are arbitrary programs; no set of test readers covers them.", "anchors": ["dlhn/src/de.rs: Deserializer::new, all deserialize_ functions", "dlhn/src/header/de.rs: deserialize_header", "dlhn/src/body/mod.rs: Body::deserialize"]}
{"id": "C118", "title": "Readers put together with take, chain and BufReader", "statement": "Decoding from any combination of take, chain and BufReader around any readers has the result of decoding the bytes the combination delivers, and leaves what follows the value in it. A value that fits within the limit of a take is decoded as without it, the reader behind it is left right behind the value and the limit has gone down by its length; a longer one is Err(Read). A take keeps frames apart whatever decoder is run on a frame and whatever comes of it: when the rest of the frame has been read the reader is at the next one. A value may begin in one reader of a chain and end in the next; if the first fails, the data of the second are not used in its place.", "quantifier": "all nestings of the adapters, limits, capacities, states and readers behind them; all types, implementations, inputs and continuations (on 32-bit targets types without text, and what was written)", "why_tests_cant": "Every nesting of adapters with every position of limits and boundaries inside a value.", "anchors": ["dlhn/src/de.rs: Deserializer::new, deserialize_string, deserialize_byte_buf", "dlhn/tests/stream.rs: deserialize"]}
{"id": "C119", "title": "Any writer, whatever it does, and any writer to any reader", "statement": "Whatever a writer does - short writes, interruptions, failures, acceptance that depends on the bytes, answers that are not determined - every call of write offers it bytes that follow, in the encoding, those it has accepted before, and never an empty buffer. Either all of the encoding is accepted and the result is that on a Vec, or the last call was refused (Ok(0) or an error), no call is made after it, the result is Err(Write) (for headers the writer's error), and only a beginning of the encoding has been accepted. At every moment in between, what has been accepted is a beginning of the encoding that is read as Err(Read) (a header as UnexpectedEof) unless it is all of it. Between any writer and any reader that delivers what was accepted, decoding returns the value that was serialized or Err(Read) (for headers the reader's error), and the value only if serializing was Ok. Serializing ends on every writer that always answers and is not interrupted without end; on one that is interrupted without end it does not end.", "quantifier": "all writers that keep the contract of write (no more bytes than there are in the buffer), with any state and any set of possible answers; all values, implementations that pass errors on, dynamic values, derived types, headers and headers of types; all moments; all readers", "why_tests_cant": "The writers and readers are arbitrary programs; no set of test doubles covers them.", "anchors": ["dlhn/src/ser.rs: Serializer::new, all serialize_ functions", "dlhn/src/header/ser.rs: SerializeHeader, Header::serialize", "dlhn/src/body/mod.rs: Serialize for Body", "dlhn_derive/src/lib.rs: derive_serialize_header", "dlhn/src/de.rs: Deserializer::new"]}
{"id": "C120", "title": "Exactly which bytes are read, and as what", "statement": "On 64-bit targets T::deserialize yields a value and leaves a rest exactly if what it took stands for that value in a written grammar (arithmetic forms of numbers, length-prefixed bytes, concatenation), for every type of the data model. For every type that does not ask for borrowed, ignored or self-describing data everything else is an error. What is serialized is in the grammar, the grammar gives only values of the type, and no byte string has two beginnings that stand for values of one type.", "quantifier": "all types, all byte strings, all values; 64-bit targets", "why_tests_cant": "It is an equivalence over all byte strings, most of which no encoder produces.", "anchors": ["dlhn/src/de.rs: Deserializer", "dlhn/src/prefix_varint.rs: decode_u16, decode_u32, decode_u64", "dlhn/src/ser.rs: Serializer"]}
{"id": "C121", "title": "Changes of data that go unnoticed", "statement": "For types without 16-bit and 32-bit integers, data read as a value are its encoding exactly if they are as long as that, so data changed without changing their length are never read as the value they were written from, and serializing again and comparing lengths detects every non-canonical form. For other types, data of the length of the encoding that are read as the value differ from it at most where the encoding has bytes 192 or 240; there changes do go unnoticed: the low six bits of the first byte of every u16 from 16384 and every i16 outside -8192..8191, and the low four bits of the first byte of every u32 from 2^28 and every i32 outside -2^27..2^27-1 are ignored.", "quantifier": "all supported types, all values, all byte strings, all changed bytes; 64-bit targets", "why_tests_cant": "Every alteration of every encoding, and the absence of others.", "anchors": ["dlhn/src/de.rs: Deserializer", "dlhn/src/prefix_varint.rs: decode_u16, decode_u32, decode_u64", "dlhn/src/ser.rs: Serializer"]}
{"id": "C122", "title": "Exactly which bytes are read as which dynamic value", "statement": "On 64-bit targets Body::deserialize under a header yields a body and leaves a rest exactly if what it took stands for that body in a written grammar and there is memory for its vectors. Without arrays, with memory for the tuples, and without dates if overflow checks are on, everything else is an error. What is serialized is in the grammar, and no byte string has two beginnings that stand for bodies of one header. Under headers without maps, dates, times, 16-bit or 32-bit integers and enums of more than 2^28 variants, data changed without changing their length are never read as the body they were written from; with all of these but maps they differ from the encoding at most where it has bytes 192 or 240. With maps, entries may be in any order: reordered data of the same length are read as the same body.", "quantifier": "all headers, all byte strings, all bodies, with and without overflow checks; 64-bit targets", "why_tests_cant": "It is an equivalence over all headers and all byte strings, most of which no encoder produces.", "anchors": ["dlhn/src/body/mod.rs: Body::deserialize, Serialize for Body", "dlhn/src/big_decimal.rs: deserialize", "dlhn/src/date.rs: Date", "dlhn/src/date_time.rs: DateTime", "dlhn/src/prefix_varint.rs: decode_u16, decode_u32, decode_u64"]}
{"id": "C123", "title": "Exactly which bytes are read as which value of a derived type", "statement": "On 64-bit targets T::deserialize, for every type with a header and every struct and enum with #[derive(Deserialize)] built from them (skipped fields and variants, num, bigdecimal and time types, maps), yields a value and leaves a rest exactly if what it took stands for that value in a written grammar. Everything else is an error; for borrowed data, for dates whose year overflows with overflow checks and for OffsetDateTimes out of range it can be a panic, and without these types it never is. What is serialized is in the grammar of the value it comes back as, and no byte string has two beginnings that stand for values of one type.", "quantifier": "all types, all byte strings, all values, all defaults and iteration orders, with and without overflow checks; 64-bit targets", "why_tests_cant": "It is an equivalence over all type declarations and all byte strings, most of which no encoder produces.", "anchors": ["dlhn/src/de.rs: Deserializer", "dlhn/src/big_uint.rs: BigUint", "dlhn/src/big_int.rs: BigInt", "dlhn/src/big_decimal.rs: BigDecimal", "dlhn/src/date.rs: Date", "dlhn/src/date_time.rs: DateTime", "dlhn/src/format/: big_uint, big_int, big_decimal, date, date_time", "dlhn/src/prefix_varint.rs: decode_u16, decode_u32, decode_u64"]}
{"id": "C124", "title": "Changes of data of a derived type that go unnoticed", "statement": "For derived types treated alike by serialization and deserialization and without maps, bigdecimal::BigDecimal, dates, times and 16-bit or 32-bit integers: every value that was read can be serialized, to no more bytes than were read, and the data are what is serialized exactly if they are as long; so data changed without changing their length are never read as the value they were written from. With 16-bit and 32-bit integers, dates and times (but not OffsetDateTime) data of that length differ from what is serialized at most where it has bytes 192 or 240. With maps, BigDecimal or OffsetDateTime there are other forms of the same length: entries in another order, trailing zeros of the digits, nanoseconds beyond a second.", "quantifier": "all such types, all values, all byte strings, all changed bytes; 64-bit targets", "why_tests_cant": "Every alteration of every encoding of every type, and the absence of others.", "anchors": ["dlhn/src/de.rs: Deserializer", "dlhn/src/ser.rs: Serializer", "dlhn/src/big_uint.rs: BigUint", "dlhn/src/big_int.rs: BigInt", "dlhn/src/date.rs: Date", "dlhn/src/date_time.rs: DateTime", "dlhn/src/format/: big_decimal, date_time", "dlhn/src/prefix_varint.rs: decode_u16, decode_u32"]}
{"id": "C125", "title": "Exactly which bytes are read on every target", "statement": "On every target T::deserialize yields a value and leaves a rest exactly if what it took, followed by that rest, stands for the value in a written grammar; for types that do not ask for borrowed, ignored or self-describing data everything else is an error. With 64-bit addresses it is the grammar of C120. With fewer, counts and lengths are cut down modulo the address size; a string whose length was cut down is read only at the very end of the input, and a byte buffer whose length was cut down is read in whole pieces of 4096 bytes. Data without bytes from 240 on are read alike on all targets.", "quantifier": "all targets, all types, all byte strings, all values", "why_tests_cant": "An equivalence over all byte strings on each target, and the data that tell targets apart have announced lengths of four gigabytes and more.", "anchors": ["dlhn/src/de.rs: Deserializer, deserialize_seq, deserialize_map, deserialize_string, deserialize_byte_buf", "dlhn/src/prefix_varint.rs: decode_u64"]}
{"id": "C126", "title": "Exactly which bytes are read as a derived type on every target", "statement": "On every target reading a type that derives Deserialize yields a value and leaves a rest exactly if what it took, followed by that rest, stands for the value in a written grammar; everything else is an error, or one of three named panics: todo!() for borrowed data, an overflowing year of a date with overflow checks, an OffsetDateTime out of range. With 64-bit addresses it is the grammar of C123. With fewer, counts and lengths are cut down modulo the address size. Data without bytes from 240 on are read alike on all targets.", "quantifier": "all targets, all type declarations, all byte strings, all values, all defaults and iteration orders, with and without overflow checks", "why_tests_cant": "An equivalence over all type declarations and byte strings on each target; the data that tell targets apart announce four gigabytes and more.", "anchors": ["dlhn/src/de.rs: Deserializer", "dlhn/src/big_uint.rs: BigUint", "dlhn/src/big_int.rs: BigInt", "dlhn/src/big_decimal.rs: BigDecimal", "dlhn/src/date.rs: Date", "dlhn/src/date_time.rs: DateTime", "dlhn/src/format/: big_uint, big_int, big_decimal, date, date_time", "dlhn/src/prefix_varint.rs: decode_u64"]}
{"id": "C127", "title": "Exactly which bytes are read as a dynamic value on every target", "statement": "On every target Body::deserialize under a header yields a body and leaves a rest exactly if what it took, followed by that rest, stands for the body in a written grammar and there is memory for all vectors; without arrays, dates with overflow checks and tuples too large for memory everything else is an error. With 64-bit addresses it is the grammar of C122. Where addresses are smaller, lengths of strings, byte strings and big numbers are cut down modulo the address size, but arrays and maps are read with as many elements as announced; so the same data can be read as a Vec and not as an array.", "quantifier": "all targets, all headers, all byte strings, all bodies, with and without overflow checks", "why_tests_cant": "An equivalence over all headers and byte strings on each target; the data that tell targets apart announce four gigabytes and more.", "anchors": ["dlhn/src/body/mod.rs: Body", "dlhn/src/big_decimal.rs: BigDecimal", "dlhn/src/de.rs: Deserializer", "dlhn/src/prefix_varint.rs: decode_u64"]}
{"id": "C128", "title": "Only the header decides how deep dynamic values recurse", "statement": "Body::deserialize on a stack with room for as many nested calls as the header is deep never exhausts it, whatever the data. With less room the result is the same or the stack is exhausted; encodings are read on exactly the stacks as deep as the body, which is never deeper than the header. Serializing a body needs exactly as many nested calls as it is deep, serializing a header as many as it is deep, and validating no more than the lesser of the two. So a stack that sufficed to read a header suffices to write it again and to read, validate and write again all bodies under it.", "quantifier": "all headers, all bodies, all byte strings, all stack depths", "why_tests_cant": "Nesting is unbounded, and a stack overflow aborts the process; it must be excluded for every header and every input.", "anchors": ["dlhn/src/body/mod.rs: Body::deserialize, Body::validate, Serialize for Body", "dlhn/src/header/ser.rs: Header::serialize", "dlhn/src/header/de.rs: deserialize_header"]}
{"id": "C129", "title": "Values of recursive types can be written on the stack they can be read on", "statement": "Every value of a recursive type has a depth: serializing it succeeds on exactly the stacks with room for that many nested calls, and so does reading its encoding; on others the stack is exhausted, by the serializer after a prefix of the encoding. What was read on a stack can be written on it again. No stack is enough for all values: a linked list of as many nodes as there is room for calls is written, one of one node more is not.", "quantifier": "all families of recursive types, all values, all stack depths (on 32-bit targets encodings of less than 2^32 bytes)", "why_tests_cant": "Values are unbounded in depth and a stack overflow aborts the process.", "anchors": ["dlhn/src/ser.rs: Serializer", "dlhn/src/de.rs: Deserializer"]}
{"id": "C130", "title": "Reading a stream to its end", "statement": "A caller that deserializes values of one type from one reader until that fails gets exactly the values of which all bytes were delivered, in order, and Err(Read), for every reader and every way of delivering data that were written one after the other. This holds after a crash of the writer at any moment and on failing writers and readers: no value is lost, changed, repeated or invented; but a torn end is not told from a regular one. Values that are all there are returned first whatever follows them. Appending to a torn file is safe after cutting off what follows the last complete value: after any number of processes that do so and each died at any moment, the loop returns, process by process, the values of which all bytes reached the file. Without the cut a value nobody wrote can be returned. On any data that are finite the loop ends, with no more values than the data have room for, if values take at least one byte (64-bit targets, or types without text), and never if there is a value that takes none.", "quantifier": "all types, headers and derived types (the loop ends for those that decode without a panic), lists of values, readers, writers, crash points, trailing data", "why_tests_cant": "Crash points, deliveries and histories of appends cannot be enumerated.", "anchors": ["README.md: stream example", "dlhn/src/de.rs: Deserializer::new, impl Deserializer for &mut Deserializer", "dlhn/src/ser.rs: Serializer::new, impl Serializer for &mut Serializer", "dlhn/src/body/mod.rs: Body::deserialize"]}
{"id": "C131", "title": "Types serialized through another type", "statement": "A type with serde's try_from = \"U\" is decoded, on every reader, with exactly the read calls of U, and the result converted: no data give a value that did not pass the conversion, also inside options, vectors, maps, structs and enums; if the conversion fails the result is Err with its message, after exactly the bytes of the U. With into = \"U\" a value is written as the U and comes back if U does and the conversion undoes into; two values converted to the same U cannot both come back. transparent changes nothing for structs with one field. The derived header ignores into: under it a text is read as the numbers of the fields, without an error.", "quantifier": "all types U with any Serialize and Deserialize, all conversions, all values, all readers and data, all targets", "why_tests_cant": "Conversions are arbitrary code, and that an invariant cannot be circumvented is a claim about every input on every reader.", "anchors": ["dlhn/src/de.rs: Deserializer, Error::custom", "dlhn/src/ser.rs: Serializer", "dlhn_derive/src/lib.rs: derive_serialize_header", "dlhn/src/body/mod.rs: Body::deserialize"]}
{"id": "C132", "title": "Builds and machines decide whether there is a result, not which", "statement": "Two programs that differ only in overflow checks, in the memory or stack they may use, or in the size of Body and Header in memory, never return different results: on every reader the one with less (or with checks) makes the same calls of read and returns the same value or error, or it panics, for lack of just that, after the first of the same calls. So whatever is returned is returned on every better machine. The same holds for writing: up to an overflow or the end of the stack, the same writes. Debug and release builds can be mixed: what either writes of a body whose dates fit, the other reads back.", "quantifier": "all types with any Deserialize, derived, recursive and dynamic types, all headers, all readers and writers, all amounts of memory and stack, both build modes, all layouts", "why_tests_cant": "Tests run one build on one machine; that no other build returns something else is a claim about all inputs on all of them.", "anchors": ["dlhn/src/de.rs: Deserializer", "dlhn/src/ser.rs: Serializer", "dlhn/src/date.rs: Date", "dlhn/src/format/date.rs: serialize, deserialize", "dlhn/src/format/big_decimal.rs: serialize", "dlhn/src/body/mod.rs: Body::deserialize, Serialize for Body", "dlhn/src/header/de.rs: deserialize_header", "dlhn/src/header/ser.rs: Header::serialize"]}
{"id": "C133", "title": "Adjacently tagged enums", "statement": "Values of enums with #[serde(tag, content)] serialize without an error. Where serde passes the tag on as a variant (newer versions), they are written with the same calls as without the attribute, so that the header SerializeHeader announces describes them; newtype and tuple variants read back, and the data of every unit or struct variant make the deserializer panic. An enum of newtype and tuple variants only is read as without the attribute, on every input; any other is read as without the attribute or panics. Where serde passes the tag on as a string (older versions), the name of the variant is written, its length is read as the index of a variant and its letters as the beginning of the content: an error if there are no so many variants, otherwise another value or a panic.", "quantifier": "all enums, values, tag and content names, inputs, continuations and both generations of the generated code; names of variants of less than 16384 bytes", "why_tests_cant": "Which variants come back depends on every name, index and shape; that none of the others is ever read concerns all inputs.", "anchors": ["dlhn/src/de.rs: deserialize_struct, deserialize_enum, deserialize_identifier, deserialize_any", "dlhn/src/ser.rs: serialize_struct, serialize_unit_variant, serialize_str", "dlhn_derive/src/lib.rs: derive_serialize_header"]}
{"id": "C134", "title": "A log that describes itself survives crashes", "statement": "A file or connection begins with T::serialize_header and goes on with values of T. A reader that knows no types reads the header and then bodies until that fails. On every reader, and after a crash of the writer at any moment, on any writer: either the header is not all there and reading it fails; or it is read, and then exactly the values of which all bytes were delivered, each as a body that shows it, in order, and then Err(Read). After any number of processes that repair the log and append to it, with or without knowing T, each of which died at any moment, in the header or behind it, reading it ends: no header is found only if no byte of a value ever reached the file, and if not the bodies show, process by process, the values of which all bytes reached the file.", "quantifier": "all types whose derived header describes what is written (no conditional or one-sided skips), lists of values, readers, writers, crash points, histories, targets and builds", "why_tests_cant": "Crash points, deliveries and histories cannot be enumerated, and header and values are written and read by different code.", "anchors": ["README.md: header example, stream example", "dlhn/src/header/ser.rs: SerializeHeader", "dlhn/src/header/de.rs: deserialize_header", "dlhn/src/body/mod.rs: Body::deserialize", "dlhn/src/ser.rs: Serializer", "dlhn_derive/src/lib.rs: derive_serialize_header"]}
{"id": "C135", "title": "Several writers on one stream", "statement": "Threads or processes write values to one stream without agreeing on whose turn it is; a call of write takes its whole buffer and is not interrupted. How many calls a value takes at most depends on its type alone: one for numbers and enums of unit variants, two for text, one for each field, no limit for vectors and maps (nor for big numbers, whose digits are written one by one); the limit is reached. The same limits hold, and are reached, for derived types (two for dates) and, by their header, for dynamic values. Where it is one, values can be serialized straight to the stream: at every moment, for every schedule, and after a crash, a reader gets whole values, in an order that keeps every writer's own, and when all are done all values. Where it is more, values come out that nobody wrote, without an error. If each writer serializes each value into a Vec and passes that on in one call, the claim holds for every type, for derived types and for dynamic values.", "quantifier": "all types, numbers of writers, lists of values, schedules, crash points, readers", "why_tests_cant": "Schedules cannot be enumerated, and which types are safe depends on how many calls every value of the type takes.", "anchors": ["dlhn/src/ser.rs: Serializer::new, impl Serializer for &mut Serializer", "dlhn/src/de.rs: Deserializer", "dlhn/src/body/mod.rs: Body::deserialize, Serialize for Body"]}
{"id": "C136", "title": "The bytes are a fingerprint of the data", "statement": "Two values of a type have the same bytes exactly if they carry the same data: all that is serialized is equal, where a bigdecimal::BigDecimal counts as its number, a time::OffsetDateTime as its instant and a dlhn::BigDecimal without digits as zero, and where the fields that are skipped do not count. This holds across debug and release builds, and no value's bytes begin those of a value with other data. So bytes can be compared, hashed or signed in place of values. The exception is HashMap: the bytes follow the order of iteration, so equal maps may have different bytes; BTreeMaps have not.", "quantifier": "all types whose fields are skipped in both directions or none, pairs of values, builds, targets", "why_tests_cant": "Injectivity and canonicity concern all pairs of values of all types.", "anchors": ["dlhn/src/ser.rs: impl Serializer for &mut Serializer", "dlhn/src/big_decimal.rs: Serialize for BigDecimal", "dlhn/src/format/big_decimal.rs: serialize", "dlhn/src/format/date_time.rs: serialize", "dlhn/src/date.rs: Serialize for Date"]}
{"id": "C137", "title": "Random access to records of fixed size", "statement": "All values of a type take the same number of bytes n exactly if the limits of C103 coincide: so for bool, u8, i8, floats and structs and tuples of these, not for larger integers, text or optional values. In a file of such values behind anything of known length, such as a header, value k is at k*n: reading there gives it and ends where the next begins, from any reader; the number of values follows from the length of the file even if its end is torn; writing a value there replaces value k and nothing else. If that write is torn, all other values are still read as before, but what is read in its place may be neither the old nor the new value, without an error. With values of different lengths, overwriting one changes its neighbour without an error. The same holds for dynamic values, with the limits of their header, and for derived types.", "quantifier": "all types, lists of values, positions, prefixes, replaced bytes, crash points, readers", "why_tests_cant": "The offsets must be right for every value of the type and every position, and tearing can happen at every byte.", "anchors": ["dlhn/src/ser.rs: impl Serializer for &mut Serializer", "dlhn/src/de.rs: Deserializer", "dlhn/src/body/mod.rs: Body::deserialize, Serialize for Body", "dlhn/src/header/ser.rs: SerializeHeader"]}
{"id": "C138", "title": "Bytes as sorted keys", "statement": "The bytes of the values of a type compare as the values do, in Rust's order (Ord) and byte by byte, exactly if the type is made of units, bool, u8 and char, with options, newtypes, tuples, structs and enums of at most 192 variants. Signed numbers, unsigned ones from 16 bits on, text, byte buffers, vectors, maps and whatever contains them do not: 192 has smaller bytes than 191, 0 than -1, \"b\" than \"aa\". Text of less than 192 bytes is in order of length, then of content. Dates are not in order: in every year, day 193 has smaller bytes than day 192.", "quantifier": "all types without floats, pairs of values, years", "why_tests_cant": "An order must hold for all pairs of values, and the exceptions are at single boundaries.", "anchors": ["dlhn/src/ser.rs: impl Serializer for &mut Serializer", "dlhn/src/prefix_varint.rs: encode_u16, encode_u32, encode_u64", "dlhn/src/zigzag.rs: ZigZag", "dlhn/src/date.rs: Serialize for Date"]}
{"id": "C139", "title": "Several readers on one stream", "statement": "Threads read values from one stream without agreeing on whose turn it is; a call of read_exact is not interrupted. If all values of the type take the same number n > 0 of bytes (C137) and each reader takes n bytes by one call and decodes them from the buffer, then for every schedule, at every moment, each value read so far has gone to exactly one reader, whole; every reader has its values in the order in which they were written; the stream still holds the others; and when all readers have stopped at the end of the stream, all values are handed out. The same holds without a buffer for bool, u8, i8, f32, f64 and newtypes of these, which are read by one call. Through buffers it holds for every decoder whose values have codes of one length: dynamic values under a header, and types with derived implementations, whose values come back as in C71. For other types, values that nobody wrote come out, without an error: two readers of pairs can get the first halves and the second halves, and from the u16 300 and 400 they can make 4, 9260 and 6.", "quantifier": "all types of fixed size, numbers of readers, lists of values, schedules", "why_tests_cant": "Schedules cannot be enumerated, and a test with threads rarely meets the bad ones.", "anchors": ["dlhn/src/de.rs: Deserializer::new, impl Deserializer for &mut Deserializer", "dlhn/src/prefix_varint.rs: decode_u16", "dlhn/src/ser.rs: Serializer"]}
{"id": "C140", "title": "Values inside byte buffers", "statement": "Each value is serialized to a Vec<u8>, which is serialized as bytes; the reader reads the buffers and decodes each from its slice. Whatever is in the buffers, and however the reader delivers them, exactly those that were delivered completely are read. Damage within one buffer is contained: all others are read as they were. The values can be anything that a decoder reads back from its code: values of one type, derived or not, or dynamic values each behind its own header. A buffer with an unknown variant or bad data is an error, and the next can be read. A program that does not know the fields appended to a struct reads the others from every buffer; a program that expects them gets an error from an old buffer and takes nothing from the next - unlike in a plain stream (C91). A buffer costs one byte below 128 bytes, two below 16384, at most nine. Damage to a length is not contained.", "quantifier": "all lists of buffers, damage, readers, struct types and appended fields, values", "why_tests_cant": "Damage can be anything anywhere, and compatibility is a claim about all values of all pairs of types.", "anchors": ["dlhn/src/ser.rs: serialize_bytes", "dlhn/src/de.rs: deserialize_byte_buf, deserialize_struct, VariantAccess"]}
{"id": "C141", "title": "Headers tell whether data can still be read", "statement": "A program with the header of stored data and the header of its own type can decide from the two alone whether the data are still readable. If the new header differs from the old one only in variants appended to enums, bool turned to u8, text to bytes, bytes to or from arrays of u8, arrays of bool to text, and unit to or from the empty tuple - at any depth, any number of times - then every value written with the old header or by a type that announced it is read with the new header, or by a type that announces it, without an error and without anything left over, as the value that corresponds to it. A recursive comparison of the headers decides this; it rejects no change after which every value has such a counterpart (if every enum had a variant). It must not accept more: after a variant is inserted at the front of an enum, data are taken for another variant without an error.", "quantifier": "all pairs of headers, all types announcing them, all values, readers, what follows in the stream", "why_tests_cant": "Compatibility is a claim about all values of all pairs of types that announce the headers.", "anchors": ["dlhn/src/header/de.rs: deserialize_header", "dlhn/src/header/ser.rs: SerializeHeader", "dlhn/src/body/mod.rs: Body::deserialize, Body::validate, Serialize for Body", "dlhn/src/de.rs: Deserializer, VariantAccess", "dlhn_derive/src/lib.rs: derive_serialize_header"]}
{"id": "C142", "title": "Parts of an encoding can be read and replaced", "statement": "The bytes of a part of a value - a field, an element, a value of a map, what a variant holds, at any depth - are a piece of the bytes of the whole. They can be decoded from there with the type of the part; and if they are replaced by the bytes of another value of this type, shorter or longer, the result is exactly the bytes of the value with the new part and is read as such. So values that differ in one part have the same bytes before and behind it. The part begins behind the bytes that are read as the parts before it. The bytes of a vector are its length, as a u64, and its elements: to append elements, the length is changed and their bytes are appended, nothing else. The same holds for dynamic values, and for types that derive their implementations, where what is read back is the value up to what reading always changes (skipped fields, the offsets of timestamps, the form of decimals). Text and byte buffers are counted in bytes, so that this does not apply to pieces of them.", "quantifier": "all types of unbounded nesting, values, places, replacements, what follows", "why_tests_cant": "A claim about all places in all values of all types and all replacements of any length.", "anchors": ["dlhn/src/ser.rs: impl Serializer for &mut Serializer, SerializeSeq, SerializeTuple, SerializeMap, SerializeStruct", "dlhn/src/de.rs: impl Deserializer for &mut Deserializer, SeqAccess, MapAccess", "dlhn/src/body/mod.rs: Serialize for Body, Body::deserialize"]}
{"id": "C143", "title": "Fields and other parts with code of their own", "statement": "Fields may have functions of their own (serde's with, serialize_with, deserialize_with), and elements, keys and values may have hand-written implementations. If every part comes back through its own code, the whole does: options, newtypes, vectors, tuples, tuple structs, structs with any number of fields, maps and enums with any kinds of variants, nested to any depth; keys need only come back as the text they are written as. The bytes are those of the parts one after the other, behind the flag, length or variant number. On every reader, and for any data, the code of each part is called once, in the order of declaration, where the one before stopped, and the first that does not return Ok determines the result and no later one is called; on writing, the first that fails determines the result, with the bytes before it written. The header does not take notice of such functions: it lists the declared types, and the data can be read under it if each function writes data of the declared type; if not, other values may be read without an error.", "quantifier": "all implementations of the parts, lists of fields and variants, values, nesting, data, readers", "why_tests_cant": "The implementations are arbitrary programs, and their number and nesting is unbounded.", "anchors": ["dlhn/src/ser.rs: impl Serializer for &mut Serializer, SerializeSeq, SerializeTuple, SerializeTupleStruct, SerializeMap, SerializeStruct", "dlhn/src/de.rs: SeqDeserializer, MapDeserializer, StructDeserializer, VariantDeserializer", "dlhn_derive/src/lib.rs: derive_serialize_header"]}
{"id": "C144", "title": "Intermediaries that know only the header", "statement": "A stream is the header of a type T and values of T. Proxies, brokers or tools that know no types pass it on: they read the header and write it again, and then read value after value as a Body and serialize that. After any number of them, on readers of any kind, a receiver with a type that has the same header, such as T, gets all values in order, with the content they were sent with; if connections break or an intermediary dies, it gets a beginning of that sequence, each value whole, and then Err(Read), or no header. If T holds no HashMap no byte is changed, also if the sender and the intermediaries run on machines with different widths of usize, memory, stacks and overflow checks, as long as each has room for the values; if it does, the first intermediary may put its entries in key order and those behind it change nothing. On a file every intermediary comes to an end. On data that no serializer wrote an intermediary can change a value without an error: an enum index in an overlong form is read as another variant by Body than by the type.", "quantifier": "all types and receiving types with one header, lists of values, numbers of intermediaries, readers, points where connections break, machines", "why_tests_cant": "The number of intermediaries and the points where connections break are unbounded, and the claim is about all types and values.", "anchors": ["dlhn/src/header/de.rs: deserialize_header", "dlhn/src/header/ser.rs: SerializeHeader", "dlhn/src/body/mod.rs: Body::deserialize, Serialize for Body", "dlhn/src/de.rs: Deserializer, VariantAccess", "dlhn/src/ser.rs: Serializer"]}
{"id": "C145", "title": "A message with its header tells its data, whatever the types", "statement": "A message is the header of a type followed by the bytes of a value. If a message begins another one, written for whichever type, then both are equal, byte by byte, both types have the same header, and the two values are shown by one Body. For types without HashMap and bigdecimal::BigDecimal the converse holds: values of types with the same header that are shown by one Body give the same message. So hashes of messages, or messages as keys, tell all data apart that Body tells apart, also when types are mixed. The same holds for messages from a Header and a Body that is valid for it, and for streams with many values: if one begins another, then its values are, one by one, those the other begins with. Without the header this does not hold: true and the u8 1 have the same bytes.", "quantifier": "all pairs of types, of values, of headers and bodies, all lists of values", "why_tests_cant": "A claim about all pairs of types and values.", "anchors": ["dlhn/src/header/ser.rs: SerializeHeader", "dlhn/src/header/de.rs: deserialize_header", "dlhn/src/body/mod.rs: Body::deserialize, Serialize for Body", "dlhn/src/ser.rs: Serializer", "dlhn_derive/src/lib.rs: derive_serialize_header"]}
{"id": "C146", "title": "Programs connected by pipes: results and deadlocks do not depend on timing", "statement": "Programs, threads or machines serialize values into pipes and deserialize values from pipes; every pipe has one writer and one reader, calls block while there is no room or nothing there, and take or give any number of bytes. Whatever each program does with the results of its calls: two schedules of the same programs can always be continued to the same state. If one schedule comes to rest - with all programs ended, or in a deadlock - then every schedule comes to rest, in the same state, after a bounded number of steps. If one can go on for ever, none comes to rest. So a protocol that has completed once, with the given data, cannot deadlock or give other results with another timing, and a deadlock is not a matter of timing. If writing to a pipe fails once its reader has ended this still holds, provided that at the end nothing is on its way to a program that has ended; otherwise it need not hold, and serializing can return Ok or an error depending on timing.", "quantifier": "all numbers of programs and pipes, capacities, programs, values, schedules, sizes of reads and writes", "why_tests_cant": "Schedules, and the sizes in which bytes are delivered, are unbounded in number.", "anchors": ["dlhn/src/ser.rs: Serializer::new, impl Serializer for &mut Serializer", "dlhn/src/de.rs: Deserializer::new, impl Deserializer for &mut Deserializer", "dlhn/src/header/de.rs: deserialize_header", "dlhn/tests/stream.rs"]}
{"id": "C147", "title": "Conversations that work value by value work byte by byte", "statement": "No deserializer waits for a byte that does not belong to its value, and no serializer keeps bytes back. So programs can be understood as if they handed whole values to each other: if such a conversation can end, then so it does under every schedule of the bytes, even if the pipes hold a single byte, with the same results, also where pipes are closed when their reader ends; and if it can go on for ever, then no schedule gets stuck. This holds for values of supported types, for headers, bodies and derived types, in any mixture. A server that answers requests until its client ends always delivers all answers and then ends. In a pipeline of any number of programs, each of which receives values until that fails and sends to the next what it makes of them, every program gets all values, in their order, and all end. Values may also stay in pipes that have room for all their bytes: what holds for such conversations holds for bytes. So a client that sends all its requests before it receives the answers of a server always gets them if, for each request, the answers up to its own fit their pipe together or the requests behind it fit theirs together, and otherwise the two deadlock under every schedule. Two programs that both first send and then receive are not such a conversation: if one of the two values fits its pipe as a whole both get their values under every schedule, and otherwise they deadlock under every schedule.", "quantifier": "all programs, conversations of any length, values, types, capacities of at least one byte, schedules", "why_tests_cant": "Conversations and schedules are unbounded.", "anchors": ["dlhn/src/ser.rs: Serializer::new, impl Serializer for &mut Serializer", "dlhn/src/de.rs: Deserializer::new, impl Deserializer for &mut Deserializer", "dlhn/src/header/de.rs: deserialize_header", "dlhn/src/body/mod.rs: Body::deserialize, Serialize for Body", "dlhn/tests/stream.rs"]}
{"id": "C148", "title": "What errors say", "statement": "The text of an error is what a user sees and logs. Two errors with the same text are the same error, unless one is a message that was given the text of another; a message passed to Error::custom is shown unchanged, also as the thing that was expected, and also if it comes from a member of a tuple. Decoding a type fails with the text for read errors; or with the one for a char, only if the type has chars; or names an index that is really in the data, together with the number of variants of an enum of the type, none of which has that index; or refuses a 128-bit integer, only if the type has one. An index of no variant is always reported in this way. Derived types fail in the same ways, or with a fixed text if they have dates or timestamps of the time crate; this text is always shown for data that are a date or timestamp to the dynamic decoder but exist in no calendar or are out of range; dynamic values only with the text for read errors. Serializing fails with one of four texts. The text that speaks of a char of more than 32 bits is shown exactly for an empty string where a char is expected.", "quantifier": "all errors, messages, types, derived types, data, errors of the reader at their end, and writers", "why_tests_cant": "Types and data are unbounded, and a wrong number in a message only shows with the right type and data.", "anchors": ["dlhn/src/de.rs: Error, Display for Error, Expected for Error, Error::custom, VariantAccess, deserialize_char", "dlhn/src/ser.rs: Error, Display for Error, Error::custom", "dlhn/src/body/mod.rs: Body::deserialize", "dlhn/src/format/date.rs: deserialize", "dlhn/src/format/date_time.rs: deserialize"]}
{"id": "C149", "title": "Buffers decoded in place stay apart", "statement": "A sender puts values, or anything else, into byte buffers and serializes these one after the other (framing). A receiver that does not load the buffers deserializes the length as a u64, runs any decoder on reader.take(length), and reads away what the decoder left. Whatever is in the buffers, whatever adapters and interruptions the reader consists of, and whatever the decoder is and does, even if it panics and the panic is caught: afterwards the reader is right behind the last buffer. Every outcome is the one of decoding that buffer alone, so a damaged, short or long buffer does no harm to the others; this holds for every type, Deserialize implementation, dynamic value and derived type, except text on targets that are not 64 bits wide. On every target, if each buffer begins with a value, or with a header of its own and a dynamic value, these come out whatever is behind them; if the reader ends inside a buffer with a value, its length or the value is reported as a read error. The receiver does get to the end.", "quantifier": "all buffers and numbers of them, decoders, types, values, readers and their adapters, targets", "why_tests_cant": "Buffers, decoders and ways of reading are unbounded; the sequence has to stay in step after every kind of failure.", "anchors": ["dlhn/src/de.rs: Deserializer::new, deserialize_u64, impl Deserializer for &mut Deserializer", "dlhn/src/ser.rs: serialize_bytes", "dlhn/src/body/mod.rs: Body::deserialize", "dlhn/tests/stream.rs"]}
