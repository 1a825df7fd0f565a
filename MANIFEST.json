{
 "claims": [
  {
   "property": "C01",
   "status": "proved",
   "theorems": [
    "Dlhn.Props.C01_u8",
    "Dlhn.Props.C01_u16",
    "Dlhn.Props.C01_u32",
    "Dlhn.Props.C01_u64",
    "Dlhn.Props.C01_prefix_varint_u8"
   ],
   "note": ""
  },
  {
   "property": "C02",
   "status": "proved",
   "theorems": [
    "Dlhn.Props.C02_i8",
    "Dlhn.Props.C02_i16",
    "Dlhn.Props.C02_i32",
    "Dlhn.Props.C02_i64"
   ],
   "note": ""
  },
  {
   "property": "C03",
   "status": "proved",
   "theorems": [
    "Dlhn.Props.C03_groups",
    "Dlhn.Props.C03_u8",
    "Dlhn.Props.C03_u16",
    "Dlhn.Props.C03_u32",
    "Dlhn.Props.C03_u64",
    "Dlhn.Props.C03_first_byte"
   ],
   "note": ""
  },
  {
   "property": "C04",
   "status": "proved",
   "theorems": [
    "Dlhn.Props.C04_shortest"
   ],
   "note": "For every integer type and every accepted byte string."
  },
  {
   "property": "C05",
   "status": "proved",
   "theorems": [
    "Dlhn.Props.C05_i16",
    "Dlhn.Props.C05_i32",
    "Dlhn.Props.C05_i64",
    "Dlhn.Props.C05_i8",
    "Dlhn.Props.C05_bijection",
    "Dlhn.Props.C05_magnitude"
   ],
   "note": ""
  },
  {
   "property": "C06",
   "status": "proved",
   "theorems": [
    "Dlhn.Props.C06_nil",
    "Dlhn.Props.C06_u16",
    "Dlhn.Props.C06_u32",
    "Dlhn.Props.C06_u64",
    "Dlhn.Props.C06_i16",
    "Dlhn.Props.C06_i32",
    "Dlhn.Props.C06_i64",
    "Dlhn.Props.C06_value_u64",
    "Dlhn.Props.C06_value_u16",
    "Dlhn.Props.C06_value_u32",
    "Dlhn.Props.C06_value_i16",
    "Dlhn.Props.C06_value_i32",
    "Dlhn.Props.C06_value_i64"
   ],
   "note": ""
  },
  {
   "property": "C07",
   "status": "proved",
   "theorems": [
    "Dlhn.Props.C07_roundtrip"
   ],
   "note": ""
  },
  {
   "property": "C08",
   "status": "proved",
   "theorems": [
    "Dlhn.Props.C08_prefix_free",
    "Dlhn.Props.C08_injective"
   ],
   "note": ""
  },
  {
   "property": "C09",
   "status": "proved",
   "theorems": [
    "Dlhn.Props.C09_stream"
   ],
   "note": ""
  },
  {
   "property": "C10",
   "status": "proved",
   "theorems": [
    "Dlhn.Props.C10_truncation",
    "Dlhn.Props.C10_truncation_in_stream",
    "Dlhn.Props.C10_truncation_any",
    "Dlhn.Props.C10_truncation_in_stream_any"
   ],
   "note": "Holds on 64-bit targets; false on 32-bit ones, see C59."
  },
  {
   "property": "C11",
   "status": "proved",
   "theorems": [
    "Dlhn.Props.C11_locality",
    "Dlhn.Props.C11_locality_any"
   ],
   "note": "Holds on 64-bit targets; false on 32-bit ones, see C59."
  },
  {
   "property": "C12",
   "status": "proved",
   "theorems": [
    "Dlhn.Props.C12_reencode"
   ],
   "note": ""
  },
  {
   "property": "C13",
   "status": "proved",
   "theorems": [
    "Dlhn.Props.C13_no_panic",
    "Dlhn.Props.C13_no_panic_reader",
    "Dlhn.Props.C13_no_panic_supported",
    "Dlhn.Props.C13_ser_no_panic"
   ],
   "note": "Assumes the allocator can grant 4096 bytes."
  },
  {
   "property": "C14",
   "status": "proved",
   "theorems": [
    "Dlhn.Props.C14_todo",
    "Dlhn.Props.C14_todo_run",
    "Dlhn.Props.C14_128_de",
    "Dlhn.Props.C14_128_ser",
    "Dlhn.Props.C14_ser_ok_iff"
   ],
   "note": ""
  },
  {
   "property": "C15",
   "status": "proved",
   "theorems": [
    "Dlhn.Props.C15_bool",
    "Dlhn.Props.C15_option"
   ],
   "note": ""
  },
  {
   "property": "C16",
   "status": "proved",
   "theorems": [
    "Dlhn.Props.C16_string",
    "Dlhn.Props.C16_string_err",
    "Dlhn.Props.C16_string_any",
    "Dlhn.Props.C16_string_any_err"
   ],
   "note": ""
  },
  {
   "property": "C17",
   "status": "proved",
   "theorems": [
    "Dlhn.Props.C17_byteBuf",
    "Dlhn.Props.C17_byteBuf_err",
    "Dlhn.Props.C17_byteBuf_any",
    "Dlhn.Props.C17_byteBuf_any_err",
    "Dlhn.Props.C17_byteBuf_wrapped"
   ],
   "note": ""
  },
  {
   "property": "C18",
   "status": "proved",
   "theorems": [
    "Dlhn.Props.C18_char",
    "Dlhn.Props.C18_char_of_string"
   ],
   "note": ""
  },
  {
   "property": "C19",
   "status": "proved",
   "theorems": [
    "Dlhn.Props.C19_map_ok_iff",
    "Dlhn.Props.C19_first_bad_key",
    "Dlhn.Props.C19_key_128",
    "Dlhn.Props.C19_empty"
   ],
   "note": ""
  },
  {
   "property": "C20",
   "status": "proved",
   "theorems": [
    "Dlhn.Props.C20_seq_undeclared",
    "Dlhn.Props.C20_seq_declared",
    "Dlhn.Props.C20_map_undeclared",
    "Dlhn.Props.C20_not_self_delimiting"
   ],
   "note": ""
  },
  {
   "property": "C21",
   "status": "proved",
   "theorems": [
    "Dlhn.Props.C21_index",
    "Dlhn.Props.C21_large_index"
   ],
   "note": ""
  },
  {
   "property": "C22",
   "status": "proved",
   "theorems": [
    "Dlhn.Props.C22_names",
    "Dlhn.Props.C22_struct",
    "Dlhn.Props.C22_newtype"
   ],
   "note": ""
  },
  {
   "property": "C23",
   "status": "proved",
   "theorems": [
    "Dlhn.Props.C23_f32",
    "Dlhn.Props.C23_f64"
   ],
   "note": ""
  },
  {
   "property": "C24",
   "status": "proved",
   "theorems": [
    "Dlhn.Props.C24_any_target",
    "Dlhn.Props.C24_any_target_failing",
    "Dlhn.Props.C24_any_target_body",
    "Dlhn.Props.C24_body",
    "Dlhn.Props.C24_header",
    "Dlhn.Props.C24_reader",
    "Dlhn.Props.C24_chunking",
    "Dlhn.Props.C24_remaining"
   ],
   "note": "Typed and dynamic decoding on 64-bit targets, header decoding on all targets."
  },
  {
   "property": "C25",
   "status": "proved",
   "theorems": [
    "Dlhn.Props.C25_body",
    "Dlhn.Props.C25_header",
    "Dlhn.Props.C25_enough",
    "Dlhn.Props.C25_failure",
    "Dlhn.Props.C25_typed",
    "Dlhn.Props.C25_impl",
    "Dlhn.Props.C25_derived",
    "Dlhn.Props.C25_recursive",
    "Dlhn.Props.C25_dynamic"
   ],
   "note": ""
  },
  {
   "property": "C26",
   "status": "proved",
   "theorems": [
    "Dlhn.Props.C26_body",
    "Dlhn.Props.C26_header",
    "Dlhn.Props.C26_short_writes"
   ],
   "note": ""
  },
  {
   "property": "C27",
   "status": "proved",
   "theorems": [
    "Dlhn.Props.C27_body",
    "Dlhn.Props.C27_header",
    "Dlhn.Props.C27_failing_writer",
    "Dlhn.Props.C27_ok"
   ],
   "note": ""
  },
  {
   "property": "C28",
   "status": "proved",
   "theorems": [
    "Dlhn.Props.C28_body",
    "Dlhn.Props.C28_header",
    "Dlhn.Props.C28_torn",
    "Dlhn.Props.C28_torn_stream"
   ],
   "note": ""
  },
  {
   "property": "C29",
   "status": "proved",
   "theorems": [
    "Dlhn.Props.C29_alloc"
   ],
   "note": ""
  },
  {
   "property": "C30",
   "status": "proved",
   "theorems": [
    "Dlhn.Props.C30_encoding",
    "Dlhn.Props.C30_roundtrip",
    "Dlhn.Props.C30_prefix_free"
   ],
   "note": ""
  },
  {
   "property": "C31",
   "status": "proved",
   "theorems": [
    "Dlhn.Props.C31_accepts",
    "Dlhn.Props.C31_sound",
    "Dlhn.Props.C31_unambiguous",
    "Dlhn.Props.C31_returns",
    "Dlhn.Props.C31_invalid",
    "Dlhn.Props.C31_truncated",
    "Dlhn.Props.C31_unknown_code"
   ],
   "note": ""
  },
  {
   "property": "C32",
   "status": "proved",
   "theorems": [
    "Dlhn.Props.C32_wraps",
    "Dlhn.Props.C32_misread",
    "Dlhn.Props.C32_never"
   ],
   "note": ""
  },
  {
   "property": "C33",
   "status": "proved",
   "theorems": [
    "Dlhn.Props.C33_exact",
    "Dlhn.Props.C33_bound",
    "Dlhn.Props.C33_exhausted",
    "Dlhn.Props.C33_exhausting_input_is_valid"
   ],
   "note": ""
  },
  {
   "property": "C34",
   "status": "proved",
   "theorems": [
    "Dlhn.Props.C34_header",
    "Dlhn.Props.C34_total",
    "Dlhn.Props.C34_tuple_limit"
   ],
   "note": "All types built from those with a built-in impl; the same theorem covers derived types."
  },
  {
   "property": "C35",
   "status": "proved",
   "theorems": [
    "Dlhn.Props.C35_encoding",
    "Dlhn.Props.C35_roundtrip",
    "Dlhn.Props.C35_prefix_free"
   ],
   "note": "For bodies that exist in memory, without a decimal that has a scale but no digits (unreachable, C48), with dates that can be rebased (true of calendar dates, C49)."
  },
  {
   "property": "C36",
   "status": "proved",
   "theorems": [
    "Dlhn.Props.C36_decoded_validates"
   ],
   "note": ""
  },
  {
   "property": "C37",
   "status": "proved",
   "theorems": [
    "Dlhn.Props.C37_validate"
   ],
   "note": ""
  },
  {
   "property": "C38",
   "status": "proved",
   "theorems": [
    "Dlhn.Props.C38_agree",
    "Dlhn.Props.C38_builtin",
    "Dlhn.Props.C38_hashmap"
   ],
   "note": "For values that exist in memory, with memory granted for the body, dates that can be rebased in debug builds, and decimals as in C45. HashMap: same body, bytes may differ (C38_hashmap)."
  },
  {
   "property": "C39",
   "status": "proved",
   "theorems": [
    "Dlhn.Props.C39_last_wins",
    "Dlhn.Props.C39_sorted",
    "Dlhn.Props.C39_order_independent"
   ],
   "note": ""
  },
  {
   "property": "C40",
   "status": "proved",
   "theorems": [
    "Dlhn.Props.C40_unknown_index",
    "Dlhn.Props.C40_known_index",
    "Dlhn.Props.C40_known"
   ],
   "note": ""
  },
  {
   "property": "C41",
   "status": "proved",
   "theorems": [
    "Dlhn.Props.C41_truncation",
    "Dlhn.Props.C41_locality"
   ],
   "note": "64-bit targets, and all targets for headers without strings and maps (C102 covers what was written, on every target)."
  },
  {
   "property": "C42",
   "status": "proved",
   "theorems": [
    "Dlhn.Props.C42_outcome",
    "Dlhn.Props.C42_hazard",
    "Dlhn.Props.C42_abort",
    "Dlhn.Props.C42_no_array"
   ],
   "note": ""
  },
  {
   "property": "C43",
   "status": "proved",
   "theorems": [
    "Dlhn.Props.C43_convert",
    "Dlhn.Props.C43_shortest",
    "Dlhn.Props.C43_zero",
    "Dlhn.Props.C43_value",
    "Dlhn.Props.C43_roundtrip",
    "Dlhn.Props.C43_format"
   ],
   "note": ""
  },
  {
   "property": "C44",
   "status": "proved",
   "theorems": [
    "Dlhn.Props.C44_convert",
    "Dlhn.Props.C44_shortest",
    "Dlhn.Props.C44_zero",
    "Dlhn.Props.C44_value",
    "Dlhn.Props.C44_roundtrip",
    "Dlhn.Props.C44_format"
   ],
   "note": ""
  },
  {
   "property": "C45",
   "status": "proved",
   "theorems": [
    "Dlhn.Props.C45_value",
    "Dlhn.Props.C45_canonical",
    "Dlhn.Props.C45_normal_form",
    "Dlhn.Props.C45_idempotent",
    "Dlhn.Props.C45_roundtrip",
    "Dlhn.Props.C45_format",
    "Dlhn.Props.C45_overflow",
    "Dlhn.Props.C45_overflow_witness"
   ],
   "note": ""
  },
  {
   "property": "C46",
   "status": "proved",
   "theorems": [
    "Dlhn.Props.C46_big_uint",
    "Dlhn.Props.C46_big_uint_de",
    "Dlhn.Props.C46_big_int",
    "Dlhn.Props.C46_big_int_de",
    "Dlhn.Props.C46_big_decimal",
    "Dlhn.Props.C46_big_decimal_overflow",
    "Dlhn.Props.C46_big_decimal_de",
    "Dlhn.Props.C46_date",
    "Dlhn.Props.C46_date_de",
    "Dlhn.Props.C46_date_time",
    "Dlhn.Props.C46_any_reader_big_uint",
    "Dlhn.Props.C46_any_reader_big_int",
    "Dlhn.Props.C46_any_reader_date",
    "Dlhn.Props.C46_any_reader_date_time",
    "Dlhn.Props.C46_any_writer"
   ],
   "note": ""
  },
  {
   "property": "C47",
   "status": "proved",
   "theorems": [
    "Dlhn.Props.C47_small",
    "Dlhn.Props.C47_not_numeric",
    "Dlhn.Props.C47_inversions",
    "Dlhn.Props.C47_total",
    "Dlhn.Props.C47_total_int",
    "Dlhn.Props.C47_total_decimal"
   ],
   "note": ""
  },
  {
   "property": "C48",
   "status": "proved",
   "theorems": [
    "Dlhn.Props.C48_converted",
    "Dlhn.Props.C48_decoded",
    "Dlhn.Props.C48_reencode"
   ],
   "note": ""
  },
  {
   "property": "C49",
   "status": "proved",
   "theorems": [
    "Dlhn.Props.C49_roundtrip",
    "Dlhn.Props.C49_format",
    "Dlhn.Props.C49_bytes"
   ],
   "note": ""
  },
  {
   "property": "C50",
   "status": "proved",
   "theorems": [
    "Dlhn.Props.C50_try_into",
    "Dlhn.Props.C50_format",
    "Dlhn.Props.C50_sound",
    "Dlhn.Props.C50_release"
   ],
   "note": ""
  },
  {
   "property": "C51",
   "status": "proved",
   "theorems": [
    "Dlhn.Props.C51_decode",
    "Dlhn.Props.C51_release_reencode",
    "Dlhn.Props.C51_debug_reencode",
    "Dlhn.Props.C51_encode"
   ],
   "note": ""
  },
  {
   "property": "C52",
   "status": "proved",
   "theorems": [
    "Dlhn.Props.C52_roundtrip",
    "Dlhn.Props.C52_format",
    "Dlhn.Props.C52_bytes",
    "Dlhn.Props.C52_outside"
   ],
   "note": ""
  },
  {
   "property": "C53",
   "status": "proved",
   "theorems": [
    "Dlhn.Props.C53_try_into",
    "Dlhn.Props.C53_format",
    "Dlhn.Props.C53_witness"
   ],
   "note": ""
  },
  {
   "property": "C54",
   "status": "proved",
   "theorems": [
    "Dlhn.Props.C54_date",
    "Dlhn.Props.C54_date_eq",
    "Dlhn.Props.C54_date_time",
    "Dlhn.Props.C54_unnormalised"
   ],
   "note": ""
  },
  {
   "property": "C55",
   "status": "proved",
   "theorems": [
    "Dlhn.Props.C55_struct",
    "Dlhn.Props.C55_accepted",
    "Dlhn.Props.C55_conditional",
    "Dlhn.Props.C55_union",
    "Dlhn.Props.C55_overflow"
   ],
   "note": ""
  },
  {
   "property": "C56",
   "status": "proved",
   "theorems": [
    "Dlhn.Props.C56_enum",
    "Dlhn.Props.C56_conditional"
   ],
   "note": ""
  },
  {
   "property": "C57",
   "status": "proved",
   "theorems": [
    "Dlhn.Props.C57_pipeline"
   ],
   "note": "What #[derive(Serialize)] generates is transcribed from serde_derive's documentation (trusted base)."
  },
  {
   "property": "C58",
   "status": "proved",
   "theorems": [
    "Dlhn.Props.C58_index",
    "Dlhn.Props.C58_member",
    "Dlhn.Props.C58_shift",
    "Dlhn.Props.C58_last_fails",
    "Dlhn.Props.C58_witness"
   ],
   "note": ""
  },
  {
   "property": "C59",
   "status": "proved",
   "theorems": [
    "Dlhn.Props.C59_string_32bit"
   ],
   "note": ""
  },
  {
   "property": "C60",
   "status": "proved",
   "theorems": [
    "Dlhn.Props.C60_bound",
    "Dlhn.Props.C60_amplification"
   ],
   "note": ""
  },
  {
   "property": "C61",
   "status": "proved",
   "theorems": [
    "Dlhn.Props.C61_typed_units",
    "Dlhn.Props.C61_dynamic_units",
    "Dlhn.Props.C61_zero_width",
    "Dlhn.Props.C61_array_bounded",
    "Dlhn.Props.C61_map_bounded",
    "Dlhn.Props.C61_seq_bounded"
   ],
   "note": ""
  },
  {
   "property": "C62",
   "status": "proved",
   "theorems": [
    "Dlhn.Props.C62_no_panic",
    "Dlhn.Props.C62_no_panic_reader",
    "Dlhn.Props.C62_panics",
    "Dlhn.Props.C62_ser"
   ],
   "note": ""
  },
  {
   "property": "C63",
   "status": "proved",
   "theorems": [
    "Dlhn.Props.C63_reencode",
    "Dlhn.Props.C63_shorter",
    "Dlhn.Props.C63_any_target"
   ],
   "note": ""
  },
  {
   "property": "C64",
   "status": "proved",
   "theorems": [
    "Dlhn.Props.C64_length_32bit"
   ],
   "note": ""
  },
  {
   "property": "C65",
   "status": "proved",
   "theorems": [
    "Dlhn.Props.C65_zero_digits"
   ],
   "note": ""
  },
  {
   "property": "C66",
   "status": "proved",
   "theorems": [
    "Dlhn.Props.C66_big",
    "Dlhn.Props.C66_format_big",
    "Dlhn.Props.C66_date"
   ],
   "note": ""
  },
  {
   "property": "C67",
   "status": "proved",
   "theorems": [
    "Dlhn.Props.C67_big",
    "Dlhn.Props.C67_date",
    "Dlhn.Props.C67_panics"
   ],
   "note": ""
  },
  {
   "property": "C68",
   "status": "proved",
   "theorems": [
    "Dlhn.Props.C68_buffer",
    "Dlhn.Props.C68_size",
    "Dlhn.Props.C68_roundtrip",
    "Dlhn.Props.C68_zigzag"
   ],
   "note": ""
  },
  {
   "property": "C69",
   "status": "proved",
   "theorems": [
    "Dlhn.Props.C69_ignored",
    "Dlhn.Props.C69_unwritten",
    "Dlhn.Props.C69_witness",
    "Dlhn.Props.C69_newtype"
   ],
   "note": "What #[derive(Serialize)] generates is in the trusted base."
  },
  {
   "property": "C70",
   "status": "proved",
   "theorems": [
    "Dlhn.Props.C70_benign",
    "Dlhn.Props.C70_prefix"
   ],
   "note": ""
  },
  {
   "property": "C71",
   "status": "proved",
   "theorems": [
    "Dlhn.Props.C71_roundtrip",
    "Dlhn.Props.C71_exact",
    "Dlhn.Props.C71_borrowed"
   ],
   "note": "What #[derive(Serialize, Deserialize)] generate is in the trusted base."
  },
  {
   "property": "C72",
   "status": "proved",
   "theorems": [
    "Dlhn.Props.C72_swallows",
    "Dlhn.Props.C72_leaves",
    "Dlhn.Props.C72_witness"
   ],
   "note": "What #[derive(Serialize, Deserialize)] generate is in the trusted base."
  },
  {
   "property": "C73",
   "status": "proved",
   "theorems": [
    "Dlhn.Props.C73_position",
    "Dlhn.Props.C73_shift",
    "Dlhn.Props.C73_fails",
    "Dlhn.Props.C73_witness"
   ],
   "note": "What #[derive(Serialize, Deserialize)] generate is in the trusted base."
  },
  {
   "property": "C74",
   "status": "proved",
   "theorems": [
    "Dlhn.Props.C74_any_target",
    "Dlhn.Props.C74_streams",
    "Dlhn.Props.C74_sequence"
   ],
   "note": ""
  },
  {
   "property": "C75",
   "status": "proved",
   "theorems": [
    "Dlhn.Props.C75_panics",
    "Dlhn.Props.C75_returns",
    "Dlhn.Props.C75_alloc"
   ],
   "note": ""
  },
  {
   "property": "C76",
   "status": "proved",
   "theorems": [
    "Dlhn.Props.C76_benign",
    "Dlhn.Props.C76_prefix",
    "Dlhn.Props.C76_panics",
    "Dlhn.Props.C76_torn"
   ],
   "note": ""
  },
  {
   "property": "C77",
   "status": "proved",
   "theorems": [
    "Dlhn.Props.C77_without",
    "Dlhn.Props.C77_anything",
    "Dlhn.Props.C77_followed",
    "Dlhn.Props.C77_low",
    "Dlhn.Props.C77_text",
    "Dlhn.Props.C77_typed",
    "Dlhn.Props.C77_dynamic",
    "Dlhn.Props.C77_errors",
    "Dlhn.Props.C77_checked",
    "Dlhn.Props.C77_needed"
   ],
   "note": ""
  },
  {
   "property": "C78",
   "status": "proved",
   "theorems": [
    "Dlhn.Props.C78_index",
    "Dlhn.Props.C78_agree",
    "Dlhn.Props.C78_differ"
   ],
   "note": ""
  },
  {
   "property": "C79",
   "status": "proved",
   "theorems": [
    "Dlhn.Props.C79_again",
    "Dlhn.Props.C79_same",
    "Dlhn.Props.C79_shorter",
    "Dlhn.Props.C79_decimal_grows",
    "Dlhn.Props.C79_timestamp_grows",
    "Dlhn.Props.C79_decimal_panics"
   ],
   "note": ""
  },
  {
   "property": "C80",
   "status": "proved",
   "theorems": [
    "Dlhn.Props.C80_read"
   ],
   "note": ""
  },
  {
   "property": "C81",
   "status": "proved",
   "theorems": [
    "Dlhn.Props.C81_interchange"
   ],
   "note": ""
  },
  {
   "property": "C82",
   "status": "proved",
   "theorems": [
    "Dlhn.Props.C82_stream",
    "Dlhn.Props.C82_torn"
   ],
   "note": ""
  },
  {
   "property": "C83",
   "status": "proved",
   "theorems": [
    "Dlhn.Props.C83_prefix",
    "Dlhn.Props.C83_prefix_free",
    "Dlhn.Props.C83_stream"
   ],
   "note": ""
  },
  {
   "property": "C84",
   "status": "proved",
   "theorems": [
    "Dlhn.Props.C84_any_target",
    "Dlhn.Props.C84_roundtrip",
    "Dlhn.Props.C84_every_value",
    "Dlhn.Props.C84_decoded",
    "Dlhn.Props.C84_prefix_free",
    "Dlhn.Props.C84_truncation",
    "Dlhn.Props.C84_reader",
    "Dlhn.Props.C84_alloc"
   ],
   "note": ""
  },
  {
   "property": "C85",
   "status": "proved",
   "theorems": [
    "Dlhn.Props.C85_returns",
    "Dlhn.Props.C85_more_stack",
    "Dlhn.Props.C85_too_deep",
    "Dlhn.Props.C85_enough",
    "Dlhn.Props.C85_exact"
   ],
   "note": ""
  },
  {
   "property": "C86",
   "status": "proved",
   "theorems": [
    "Dlhn.Props.C86_dichotomy",
    "Dlhn.Props.C86_writes",
    "Dlhn.Props.C86_overflows",
    "Dlhn.Props.C86_never_ok",
    "Dlhn.Props.C86_no_header",
    "Dlhn.Props.C86_witness"
   ],
   "note": ""
  },
  {
   "property": "C87",
   "status": "proved",
   "theorems": [
    "Dlhn.Props.C87_any_target",
    "Dlhn.Props.C87_standard",
    "Dlhn.Props.C87_reader",
    "Dlhn.Props.C87_local",
    "Dlhn.Props.C87_returns",
    "Dlhn.Props.C87_panics",
    "Dlhn.Props.C87_todo",
    "Dlhn.Props.C87_alloc"
   ],
   "note": ""
  },
  {
   "property": "C88",
   "status": "proved",
   "theorems": [
    "Dlhn.Props.C88_seq",
    "Dlhn.Props.C88_map",
    "Dlhn.Props.C88_array",
    "Dlhn.Props.C88_keys",
    "Dlhn.Props.C88_early"
   ],
   "note": ""
  },
  {
   "property": "C89",
   "status": "proved",
   "theorems": [
    "Dlhn.Props.C89_u16_u32",
    "Dlhn.Props.C89_i16_i32",
    "Dlhn.Props.C89_u16_u64",
    "Dlhn.Props.C89_i16_i64",
    "Dlhn.Props.C89_u32_u64",
    "Dlhn.Props.C89_i32_i64",
    "Dlhn.Props.C89_u32_u16",
    "Dlhn.Props.C89_i32_i16",
    "Dlhn.Props.C89_u64_u16",
    "Dlhn.Props.C89_i64_i16",
    "Dlhn.Props.C89_u64_u32",
    "Dlhn.Props.C89_i64_i32",
    "Dlhn.Props.C89_sign16",
    "Dlhn.Props.C89_sign32",
    "Dlhn.Props.C89_sign64",
    "Dlhn.Props.C89_u8",
    "Dlhn.Props.C89_from_u8",
    "Dlhn.Props.C89_to_u8",
    "Dlhn.Props.C89_i8"
   ],
   "note": ""
  },
  {
   "property": "C90",
   "status": "proved",
   "theorems": [
    "Dlhn.Props.C90_bytes",
    "Dlhn.Props.C90_read",
    "Dlhn.Props.C90_becomes",
    "Dlhn.Props.C90_rename",
    "Dlhn.Props.C90_append"
   ],
   "note": ""
  },
  {
   "property": "C91",
   "status": "proved",
   "theorems": [
    "Dlhn.Props.C91_ignored",
    "Dlhn.Props.C91_missing",
    "Dlhn.Props.C91_unknown",
    "Dlhn.Props.C91_position",
    "Dlhn.Props.C91_reordered"
   ],
   "note": ""
  },
  {
   "property": "C92",
   "status": "proved",
   "theorems": [
    "Dlhn.Props.C92_typed",
    "Dlhn.Props.C92_impl",
    "Dlhn.Props.C92_derived",
    "Dlhn.Props.C92_recursive",
    "Dlhn.Props.C92_body",
    "Dlhn.Props.C92_header"
   ],
   "note": ""
  },
  {
   "property": "C93",
   "status": "proved",
   "theorems": [
    "Dlhn.Props.C93_typed",
    "Dlhn.Props.C93_impl",
    "Dlhn.Props.C93_derived",
    "Dlhn.Props.C93_recursive"
   ],
   "note": ""
  },
  {
   "property": "C94",
   "status": "proved",
   "theorems": [
    "Dlhn.Props.C94_typed",
    "Dlhn.Props.C94_value",
    "Dlhn.Props.C94_body",
    "Dlhn.Props.C94_not_dense",
    "Dlhn.Props.C94_derived",
    "Dlhn.Props.C94_derived_needed"
   ],
   "note": ""
  },
  {
   "property": "C95",
   "status": "proved",
   "theorems": [
    "Dlhn.Props.C95_floats",
    "Dlhn.Props.C95_meaning",
    "Dlhn.Props.C95_equivalence",
    "Dlhn.Props.C95_roundtrip",
    "Dlhn.Props.C95_validate",
    "Dlhn.Props.C95_identical",
    "Dlhn.Props.C95_length",
    "Dlhn.Props.C95_bytes",
    "Dlhn.Props.C95_exceptions",
    "Dlhn.Props.C95_header"
   ],
   "note": ""
  },
  {
   "property": "C96",
   "status": "proved",
   "theorems": [
    "Dlhn.Props.C96_converted",
    "Dlhn.Props.C96_decoded",
    "Dlhn.Props.C96_order"
   ],
   "note": ""
  },
  {
   "property": "C97",
   "status": "proved",
   "theorems": [
    "Dlhn.Props.C97_written",
    "Dlhn.Props.C97_short_writes",
    "Dlhn.Props.C97_returns",
    "Dlhn.Props.C97_failing_writer",
    "Dlhn.Props.C97_ok",
    "Dlhn.Props.C97_until_failure",
    "Dlhn.Props.C97_swallowed",
    "Dlhn.Props.C97_standard"
   ],
   "note": ""
  },
  {
   "property": "C98",
   "status": "proved",
   "theorems": [
    "Dlhn.Props.C98_keys",
    "Dlhn.Props.C98_bad_key",
    "Dlhn.Props.C98_ipv4_value",
    "Dlhn.Props.C98_ipv4_key",
    "Dlhn.Props.C98_ipv4_lost"
   ],
   "note": ""
  },
  {
   "property": "C99",
   "status": "proved",
   "theorems": [
    "Dlhn.Props.C99_more_elements",
    "Dlhn.Props.C99_fewer_elements",
    "Dlhn.Props.C99_missing_elements",
    "Dlhn.Props.C99_more_entries",
    "Dlhn.Props.C99_fewer_entries"
   ],
   "note": ""
  },
  {
   "property": "C100",
   "status": "proved",
   "theorems": [
    "Dlhn.Props.C100_same_outcome",
    "Dlhn.Props.C100_where",
    "Dlhn.Props.C100_where_impl",
    "Dlhn.Props.C100_where_derived",
    "Dlhn.Props.C100_where_body",
    "Dlhn.Props.C100_where_header",
    "Dlhn.Props.C100_bad_bool",
    "Dlhn.Props.C100_bad_option",
    "Dlhn.Props.C100_bad_string",
    "Dlhn.Props.C100_bad_char",
    "Dlhn.Props.C100_bad_index",
    "Dlhn.Props.C100_bad_member",
    "Dlhn.Props.C100_bad_element",
    "Dlhn.Props.C100_lost",
    "Dlhn.Props.C100_retry_corrupts",
    "Dlhn.Props.C100_retry"
   ],
   "note": ""
  },
  {
   "property": "C101",
   "status": "proved",
   "theorems": [
    "Dlhn.Props.C101_passing",
    "Dlhn.Props.C101_returns",
    "Dlhn.Props.C101_reader",
    "Dlhn.Props.C101_default",
    "Dlhn.Props.C101_isolated_bool",
    "Dlhn.Props.C101_isolated_string",
    "Dlhn.Props.C101_skip_elements",
    "Dlhn.Props.C101_skip_entries",
    "Dlhn.Props.C101_skip_fields",
    "Dlhn.Props.C101_payload",
    "Dlhn.Props.C101_index",
    "Dlhn.Props.C101_not_isolated",
    "Dlhn.Props.C101_amplified"
   ],
   "note": ""
  },
  {
   "property": "C102",
   "status": "proved",
   "theorems": [
    "Dlhn.Props.C102_typed",
    "Dlhn.Props.C102_recursive",
    "Dlhn.Props.C102_body",
    "Dlhn.Props.C102_derived",
    "Dlhn.Props.C102_followed",
    "Dlhn.Props.C102_followed_impl",
    "Dlhn.Props.C102_followed_body",
    "Dlhn.Props.C102_followed_derived",
    "Dlhn.Props.C102_not_at_end",
    "Dlhn.Props.C102_chunks"
   ],
   "note": ""
  },
  {
   "property": "C103",
   "status": "proved",
   "theorems": [
    "Dlhn.Props.C103_typed",
    "Dlhn.Props.C103_reached",
    "Dlhn.Props.C103_consumes",
    "Dlhn.Props.C103_short",
    "Dlhn.Props.C103_body",
    "Dlhn.Props.C103_body_reached",
    "Dlhn.Props.C103_body_consumes",
    "Dlhn.Props.C103_derived",
    "Dlhn.Props.C103_calendar",
    "Dlhn.Props.C103_timestamp",
    "Dlhn.Props.C103_calendar_reached"
   ],
   "note": ""
  },
  {
   "property": "C104",
   "status": "proved",
   "theorems": [
    "Dlhn.Props.C104_typed",
    "Dlhn.Props.C104_enough",
    "Dlhn.Props.C104_too_small",
    "Dlhn.Props.C104_body",
    "Dlhn.Props.C104_derived",
    "Dlhn.Props.C104_header",
    "Dlhn.Props.C104_type_header"
   ],
   "note": ""
  },
  {
   "property": "C105",
   "status": "proved",
   "theorems": [
    "Dlhn.Props.C105_typed",
    "Dlhn.Props.C105_reader",
    "Dlhn.Props.C105_no_key_error",
    "Dlhn.Props.C105_accepts",
    "Dlhn.Props.C105_body",
    "Dlhn.Props.C105_derived",
    "Dlhn.Props.C105_derived_plain",
    "Dlhn.Props.C105_ser",
    "Dlhn.Props.C105_writer"
   ],
   "note": ""
  },
  {
   "property": "C106",
   "status": "proved",
   "theorems": [
    "Dlhn.Props.C106_kept",
    "Dlhn.Props.C106_plain",
    "Dlhn.Props.C106_bytes",
    "Dlhn.Props.C106_undeclared",
    "Dlhn.Props.C106_undeclared_tuple",
    "Dlhn.Props.C106_read",
    "Dlhn.Props.C106_last",
    "Dlhn.Props.C106_witness"
   ],
   "note": ""
  },
  {
   "property": "C107",
   "status": "proved",
   "theorems": [
    "Dlhn.Props.C107_outcome",
    "Dlhn.Props.C107_as_readers",
    "Dlhn.Props.C107_versions",
    "Dlhn.Props.C107_where",
    "Dlhn.Props.C107_where_impl",
    "Dlhn.Props.C107_where_derived",
    "Dlhn.Props.C107_where_body",
    "Dlhn.Props.C107_where_header",
    "Dlhn.Props.C107_retry_corrupts",
    "Dlhn.Props.C107_retry"
   ],
   "note": ""
  },
  {
   "property": "C108",
   "status": "proved",
   "theorems": [
    "Dlhn.Props.C108_typed",
    "Dlhn.Props.C108_all",
    "Dlhn.Props.C108_body",
    "Dlhn.Props.C108_derived",
    "Dlhn.Props.C108_pieces",
    "Dlhn.Props.C108_stuck",
    "Dlhn.Props.C108_endless"
   ],
   "note": ""
  },
  {
   "property": "C109",
   "status": "proved",
   "theorems": [
    "Dlhn.Props.C109_struct",
    "Dlhn.Props.C109_variant",
    "Dlhn.Props.C109_added",
    "Dlhn.Props.C109_added_end",
    "Dlhn.Props.C109_alias"
   ],
   "note": ""
  },
  {
   "property": "C110",
   "status": "proved",
   "theorems": [
    "Dlhn.Props.C110_known",
    "Dlhn.Props.C110_unknown",
    "Dlhn.Props.C110_list",
    "Dlhn.Props.C110_not_isolated"
   ],
   "note": ""
  },
  {
   "property": "C111",
   "status": "proved",
   "theorems": [
    "Dlhn.Props.C111_untagged_written",
    "Dlhn.Props.C111_internal_written",
    "Dlhn.Props.C111_buffered",
    "Dlhn.Props.C111_flatten",
    "Dlhn.Props.C111_flatten_panics",
    "Dlhn.Props.C111_header"
   ],
   "note": ""
  },
  {
   "property": "C112",
   "status": "proved",
   "theorems": [
    "Dlhn.Props.C112_kept",
    "Dlhn.Props.C112_header",
    "Dlhn.Props.C112_flush",
    "Dlhn.Props.C112_delivered",
    "Dlhn.Props.C112_prefix",
    "Dlhn.Props.C112_silent",
    "Dlhn.Props.C112_lost",
    "Dlhn.Props.C112_bounded",
    "Dlhn.Props.C112_benign"
   ],
   "note": ""
  },
  {
   "property": "C113",
   "status": "proved",
   "theorems": [
    "Dlhn.Props.C113_any_target",
    "Dlhn.Props.C113_reader",
    "Dlhn.Props.C113_same",
    "Dlhn.Props.C113_next",
    "Dlhn.Props.C113_ahead",
    "Dlhn.Props.C113_lost"
   ],
   "note": ""
  },
  {
   "property": "C114",
   "status": "proved",
   "theorems": [
    "Dlhn.Props.C114_duration",
    "Dlhn.Props.C114_duration_input",
    "Dlhn.Props.C114_duration_forms",
    "Dlhn.Props.C114_time",
    "Dlhn.Props.C114_time_before",
    "Dlhn.Props.C114_time_after",
    "Dlhn.Props.C114_range",
    "Dlhn.Props.C114_bound",
    "Dlhn.Props.C114_bound_other",
    "Dlhn.Props.C114_result",
    "Dlhn.Props.C114_ip",
    "Dlhn.Props.C114_os_string",
    "Dlhn.Props.C114_nonzero",
    "Dlhn.Props.C114_cstring",
    "Dlhn.Props.C114_path",
    "Dlhn.Props.C114_usize",
    "Dlhn.Props.C114_isize",
    "Dlhn.Props.C114_set",
    "Dlhn.Props.C114_set_input",
    "Dlhn.Props.C114_returns",
    "Dlhn.Props.C114_any_writer",
    "Dlhn.Props.C114_errors"
   ],
   "note": ""
  },
  {
   "property": "C115",
   "status": "proved",
   "theorems": [
    "Dlhn.Props.C115_lenient",
    "Dlhn.Props.C115_notices",
    "Dlhn.Props.C115_iff",
    "Dlhn.Props.C115_long_enough",
    "Dlhn.Props.C115_body_lenient",
    "Dlhn.Props.C115_body_iff",
    "Dlhn.Props.C115_derived_lenient",
    "Dlhn.Props.C115_derived_iff"
   ],
   "note": ""
  },
  {
   "property": "C116",
   "status": "proved",
   "theorems": [
    "Dlhn.Props.C116_typed",
    "Dlhn.Props.C116_impl",
    "Dlhn.Props.C116_body",
    "Dlhn.Props.C116_derived",
    "Dlhn.Props.C116_header",
    "Dlhn.Props.C116_type_header",
    "Dlhn.Props.C116_writes",
    "Dlhn.Props.C116_writes_impl"
   ],
   "note": ""
  },
  {
   "property": "C117",
   "status": "proved",
   "theorems": [
    "Dlhn.Props.C117_typed",
    "Dlhn.Props.C117_typed_any",
    "Dlhn.Props.C117_impl",
    "Dlhn.Props.C117_body",
    "Dlhn.Props.C117_derived",
    "Dlhn.Props.C117_header",
    "Dlhn.Props.C117_written",
    "Dlhn.Props.C117_ends",
    "Dlhn.Props.C117_hangs",
    "Dlhn.Props.C117_replayed"
   ],
   "note": ""
  },
  {
   "property": "C118",
   "status": "proved",
   "theorems": [
    "Dlhn.Props.C118_stack",
    "Dlhn.Props.C118_stack_any",
    "Dlhn.Props.C118_stack_impl",
    "Dlhn.Props.C118_ends",
    "Dlhn.Props.C118_written",
    "Dlhn.Props.C118_cut",
    "Dlhn.Props.C118_take_fits",
    "Dlhn.Props.C118_take_short",
    "Dlhn.Props.C118_frame",
    "Dlhn.Props.C118_chain",
    "Dlhn.Props.C118_chain_fails"
   ],
   "note": ""
  },
  {
   "property": "C119",
   "status": "proved",
   "theorems": [
    "Dlhn.Props.C119_typed",
    "Dlhn.Props.C119_impl",
    "Dlhn.Props.C119_body",
    "Dlhn.Props.C119_derived",
    "Dlhn.Props.C119_header",
    "Dlhn.Props.C119_type_header",
    "Dlhn.Props.C119_ends",
    "Dlhn.Props.C119_hangs",
    "Dlhn.Props.C119_replayed",
    "Dlhn.Props.C119_crash",
    "Dlhn.Props.C119_end_to_end",
    "Dlhn.Props.C119_crash_body",
    "Dlhn.Props.C119_crash_derived",
    "Dlhn.Props.C119_crash_recursive",
    "Dlhn.Props.C119_crash_header",
    "Dlhn.Props.C119_end_to_end_body",
    "Dlhn.Props.C119_end_to_end_derived",
    "Dlhn.Props.C119_end_to_end_recursive",
    "Dlhn.Props.C119_end_to_end_header"
   ],
   "note": ""
  },
  {
   "property": "C120",
   "status": "proved",
   "theorems": [
    "Dlhn.Props.C120_accepts",
    "Dlhn.Props.C120_rejects",
    "Dlhn.Props.C120_written",
    "Dlhn.Props.C120_unambiguous",
    "Dlhn.Props.C120_typed"
   ],
   "note": ""
  },
  {
   "property": "C121",
   "status": "proved",
   "theorems": [
    "Dlhn.Props.C121_canonical",
    "Dlhn.Props.C121_damage",
    "Dlhn.Props.C121_where",
    "Dlhn.Props.C121_u16",
    "Dlhn.Props.C121_u32",
    "Dlhn.Props.C121_i16",
    "Dlhn.Props.C121_i32"
   ],
   "note": ""
  },
  {
   "property": "C122",
   "status": "proved",
   "theorems": [
    "Dlhn.Props.C122_accepts",
    "Dlhn.Props.C122_rejects",
    "Dlhn.Props.C122_written",
    "Dlhn.Props.C122_unambiguous",
    "Dlhn.Props.C122_canonical",
    "Dlhn.Props.C122_damage",
    "Dlhn.Props.C122_where",
    "Dlhn.Props.C122_maps"
   ],
   "note": ""
  },
  {
   "property": "C123",
   "status": "proved",
   "theorems": [
    "Dlhn.Props.C123_accepts",
    "Dlhn.Props.C123_rejects",
    "Dlhn.Props.C123_else",
    "Dlhn.Props.C123_written",
    "Dlhn.Props.C123_unambiguous"
   ],
   "note": ""
  },
  {
   "property": "C124",
   "status": "proved",
   "theorems": [
    "Dlhn.Props.C124_canonical",
    "Dlhn.Props.C124_damage",
    "Dlhn.Props.C124_where",
    "Dlhn.Props.C124_maps",
    "Dlhn.Props.C124_decimal",
    "Dlhn.Props.C124_instant"
   ],
   "note": ""
  },
  {
   "property": "C125",
   "status": "proved",
   "theorems": [
    "Dlhn.Props.C125_accepts",
    "Dlhn.Props.C125_rejects",
    "Dlhn.Props.C125_wide",
    "Dlhn.Props.C125_alike",
    "Dlhn.Props.C125_count",
    "Dlhn.Props.C125_text"
   ],
   "note": ""
  },
  {
   "property": "C126",
   "status": "proved",
   "theorems": [
    "Dlhn.Props.C126_accepts",
    "Dlhn.Props.C126_else",
    "Dlhn.Props.C126_rejects",
    "Dlhn.Props.C126_wide",
    "Dlhn.Props.C126_alike",
    "Dlhn.Props.C126_count"
   ],
   "note": ""
  },
  {
   "property": "C127",
   "status": "proved",
   "theorems": [
    "Dlhn.Props.C127_accepts",
    "Dlhn.Props.C127_rejects",
    "Dlhn.Props.C127_wide",
    "Dlhn.Props.C127_alike",
    "Dlhn.Props.C127_count",
    "Dlhn.Props.C127_disagree"
   ],
   "note": ""
  },
  {
   "property": "C128",
   "status": "proved",
   "theorems": [
    "Dlhn.Props.C128_enough",
    "Dlhn.Props.C128_any",
    "Dlhn.Props.C128_exact",
    "Dlhn.Props.C128_serialize",
    "Dlhn.Props.C128_validate",
    "Dlhn.Props.C128_header",
    "Dlhn.Props.C128_header_first"
   ],
   "note": ""
  },
  {
   "property": "C129",
   "status": "proved",
   "theorems": [
    "Dlhn.Props.C129_enough",
    "Dlhn.Props.C129_too_deep",
    "Dlhn.Props.C129_threshold",
    "Dlhn.Props.C129_write_back",
    "Dlhn.Props.C129_lists"
   ],
   "note": ""
  },
  {
   "property": "C130",
   "status": "proved",
   "theorems": [
    "Dlhn.Props.C130_history_body",
    "Dlhn.Props.C130_history_derived",
    "Dlhn.Props.C130_history_ends",
    "Dlhn.Props.C130_crash_body",
    "Dlhn.Props.C130_crash_derived",
    "Dlhn.Props.C130_kept_body",
    "Dlhn.Props.C130_kept_derived",
    "Dlhn.Props.C130_durable_body",
    "Dlhn.Props.C130_durable_derived",
    "Dlhn.Props.C130_ends_body",
    "Dlhn.Props.C130_bounded_body",
    "Dlhn.Props.C130_endless_body",
    "Dlhn.Props.C130_least",
    "Dlhn.Props.C130_ends_derived",
    "Dlhn.Props.C130_bounded_derived",
    "Dlhn.Props.C130_endless_derived",
    "Dlhn.Props.C130_reader",
    "Dlhn.Props.C130_file",
    "Dlhn.Props.C130_all",
    "Dlhn.Props.C130_ends",
    "Dlhn.Props.C130_bounded",
    "Dlhn.Props.C130_crash",
    "Dlhn.Props.C130_kept",
    "Dlhn.Props.C130_repaired",
    "Dlhn.Props.C130_not_repaired",
    "Dlhn.Props.C130_history",
    "Dlhn.Props.C130_durable",
    "Dlhn.Props.C130_endless",
    "Dlhn.Props.C130_body",
    "Dlhn.Props.C130_derived"
   ],
   "note": ""
  },
  {
   "property": "C131",
   "status": "proved",
   "theorems": [
    "Dlhn.Props.C131_exact",
    "Dlhn.Props.C131_checked",
    "Dlhn.Props.C131_from",
    "Dlhn.Props.C131_within",
    "Dlhn.Props.C131_roundtrip",
    "Dlhn.Props.C131_lossy",
    "Dlhn.Props.C131_refused",
    "Dlhn.Props.C131_again",
    "Dlhn.Props.C131_returns",
    "Dlhn.Props.C131_transparent",
    "Dlhn.Props.C131_header"
   ],
   "note": ""
  },
  {
   "property": "C132",
   "status": "proved",
   "theorems": [
    "Dlhn.Props.C132_impl",
    "Dlhn.Props.C132_typed",
    "Dlhn.Props.C132_recursive",
    "Dlhn.Props.C132_header",
    "Dlhn.Props.C132_body",
    "Dlhn.Props.C132_body_checks",
    "Dlhn.Props.C132_body_memory",
    "Dlhn.Props.C132_body_layout",
    "Dlhn.Props.C132_derived_checks",
    "Dlhn.Props.C132_derived_memory",
    "Dlhn.Props.C132_kept",
    "Dlhn.Props.C132_agree",
    "Dlhn.Props.C132_slice",
    "Dlhn.Props.C132_slice_derived",
    "Dlhn.Props.C132_writes_checks",
    "Dlhn.Props.C132_writes_body",
    "Dlhn.Props.C132_writes_header",
    "Dlhn.Props.C132_writes_derived",
    "Dlhn.Props.C132_writes_vec",
    "Dlhn.Props.C132_decimal",
    "Dlhn.Props.C132_interchange"
   ],
   "note": ""
  },
  {
   "property": "C133",
   "status": "proved",
   "theorems": [
    "Dlhn.Props.C133_written_by_variant",
    "Dlhn.Props.C133_written_by_name",
    "Dlhn.Props.C133_read_alike",
    "Dlhn.Props.C133_read",
    "Dlhn.Props.C133_round_trip",
    "Dlhn.Props.C133_confused"
   ],
   "note": ""
  },
  {
   "property": "C134",
   "status": "proved",
   "theorems": [
    "Dlhn.Props.C134_reader",
    "Dlhn.Props.C134_crash",
    "Dlhn.Props.C134_history",
    "Dlhn.Props.C134_history_untyped"
   ],
   "note": ""
  },
  {
   "property": "C135",
   "status": "proved",
   "theorems": [
    "Dlhn.Props.C135_calls_derived",
    "Dlhn.Props.C135_reached_derived",
    "Dlhn.Props.C135_digits",
    "Dlhn.Props.C135_whole_derived",
    "Dlhn.Props.C135_mixed_derived",
    "Dlhn.Props.C135_calls_body",
    "Dlhn.Props.C135_reached_body",
    "Dlhn.Props.C135_whole_body",
    "Dlhn.Props.C135_calls",
    "Dlhn.Props.C135_reached",
    "Dlhn.Props.C135_unlimited",
    "Dlhn.Props.C135_bytes",
    "Dlhn.Props.C135_order",
    "Dlhn.Props.C135_whole",
    "Dlhn.Props.C135_all",
    "Dlhn.Props.C135_mixed",
    "Dlhn.Props.C135_mixed_text",
    "Dlhn.Props.C135_buffered",
    "Dlhn.Props.C135_buffered_body",
    "Dlhn.Props.C135_buffered_derived"
   ],
   "note": ""
  },
  {
   "property": "C136",
   "status": "proved",
   "theorems": [
    "Dlhn.Props.C136_same",
    "Dlhn.Props.C136_told",
    "Dlhn.Props.C136_iff",
    "Dlhn.Props.C136_hash",
    "Dlhn.Props.C136_exact"
   ],
   "note": ""
  },
  {
   "property": "C137",
   "status": "proved",
   "theorems": [
    "Dlhn.Props.C137_iff",
    "Dlhn.Props.C137_count",
    "Dlhn.Props.C137_seek",
    "Dlhn.Props.C137_update",
    "Dlhn.Props.C137_torn",
    "Dlhn.Props.C137_mixed",
    "Dlhn.Props.C137_shift",
    "Dlhn.Props.C137_body",
    "Dlhn.Props.C137_derived"
   ],
   "note": ""
  },
  {
   "property": "C138",
   "status": "proved",
   "theorems": [
    "Dlhn.Props.C138_iff",
    "Dlhn.Props.C138_text",
    "Dlhn.Props.C138_dates"
   ],
   "note": ""
  },
  {
   "property": "C139",
   "status": "proved",
   "theorems": [
    "Dlhn.Props.C139_buffer",
    "Dlhn.Props.C139_direct",
    "Dlhn.Props.C139_any",
    "Dlhn.Props.C139_bodies",
    "Dlhn.Props.C139_derived",
    "Dlhn.Props.C139_all",
    "Dlhn.Props.C139_mixed",
    "Dlhn.Props.C139_numbers"
   ],
   "note": ""
  },
  {
   "property": "C140",
   "status": "proved",
   "theorems": [
    "Dlhn.Props.C140_buffers",
    "Dlhn.Props.C140_damage",
    "Dlhn.Props.C140_value",
    "Dlhn.Props.C140_any",
    "Dlhn.Props.C140_messages",
    "Dlhn.Props.C140_derived",
    "Dlhn.Props.C140_old_program",
    "Dlhn.Props.C140_new_program",
    "Dlhn.Props.C140_unknown",
    "Dlhn.Props.C140_cost",
    "Dlhn.Props.C140_length"
   ],
   "note": ""
  },
  {
   "property": "C141",
   "status": "proved",
   "theorems": [
    "Dlhn.Props.C141_check",
    "Dlhn.Props.C141_complete",
    "Dlhn.Props.C141_dynamic",
    "Dlhn.Props.C141_typed",
    "Dlhn.Props.C141_inserted"
   ],
   "note": ""
  },
  {
   "property": "C142",
   "status": "proved",
   "theorems": [
    "Dlhn.Props.C142_replace",
    "Dlhn.Props.C142_find",
    "Dlhn.Props.C142_vector",
    "Dlhn.Props.C142_append",
    "Dlhn.Props.C142_dynamic",
    "Dlhn.Props.C142_text",
    "Dlhn.Props.C142_derived"
   ],
   "note": ""
  },
  {
   "property": "C143",
   "status": "proved",
   "theorems": [
    "Dlhn.Props.C143_roundtrip",
    "Dlhn.Props.C143_reading",
    "Dlhn.Props.C143_writing",
    "Dlhn.Props.C143_writing_containers",
    "Dlhn.Props.C143_header"
   ],
   "note": ""
  },
  {
   "property": "C144",
   "status": "proved",
   "theorems": [
    "Dlhn.Props.C144_relay",
    "Dlhn.Props.C144_unchanged",
    "Dlhn.Props.C144_settled",
    "Dlhn.Props.C144_lossless",
    "Dlhn.Props.C144_broken",
    "Dlhn.Props.C144_ends",
    "Dlhn.Props.C144_reordered",
    "Dlhn.Props.C144_foreign",
    "Dlhn.Props.C144_mixed"
   ],
   "note": ""
  },
  {
   "property": "C145",
   "status": "proved",
   "theorems": [
    "Dlhn.Props.C145_told",
    "Dlhn.Props.C145_stream",
    "Dlhn.Props.C145_same",
    "Dlhn.Props.C145_body",
    "Dlhn.Props.C145_without"
   ],
   "note": ""
  },
  {
   "property": "C146",
   "status": "proved",
   "theorems": [
    "Dlhn.Props.C146_confluent",
    "Dlhn.Props.C146_settled",
    "Dlhn.Props.C146_endless",
    "Dlhn.Props.C146_closed",
    "Dlhn.Props.C146_timing"
   ],
   "note": ""
  },
  {
   "property": "C147",
   "status": "proved",
   "theorems": [
    "Dlhn.Props.C147_held",
    "Dlhn.Props.C147_held_ends",
    "Dlhn.Props.C147_batch",
    "Dlhn.Props.C147_batch_deadlock",
    "Dlhn.Props.C147_refines",
    "Dlhn.Props.C147_ends",
    "Dlhn.Props.C147_forever",
    "Dlhn.Props.C147_typed",
    "Dlhn.Props.C147_headers",
    "Dlhn.Props.C147_bodies",
    "Dlhn.Props.C147_derived",
    "Dlhn.Props.C147_service",
    "Dlhn.Props.C147_crossed",
    "Dlhn.Props.C147_deadlock",
    "Dlhn.Props.C147_pipeline",
    "Dlhn.Props.C147_pipeline_typed",
    "Dlhn.Props.C147_pipeline_bodies"
   ],
   "note": ""
  },
  {
   "property": "C148",
   "status": "proved",
   "theorems": [
    "Dlhn.Props.C148_told",
    "Dlhn.Props.C148_told_ser",
    "Dlhn.Props.C148_custom",
    "Dlhn.Props.C148_expected",
    "Dlhn.Props.C148_custom_member",
    "Dlhn.Props.C148_typed",
    "Dlhn.Props.C148_unknown",
    "Dlhn.Props.C148_derived",
    "Dlhn.Props.C148_date",
    "Dlhn.Props.C148_timestamp",
    "Dlhn.Props.C148_body",
    "Dlhn.Props.C148_char",
    "Dlhn.Props.C148_ser"
   ],
   "note": ""
  },
  {
   "property": "C149",
   "status": "proved",
   "theorems": [
    "Dlhn.Props.C149_in_step",
    "Dlhn.Props.C149_contents",
    "Dlhn.Props.C149_contents_impl",
    "Dlhn.Props.C149_contents_body",
    "Dlhn.Props.C149_contents_derived",
    "Dlhn.Props.C149_values",
    "Dlhn.Props.C149_values_derived",
    "Dlhn.Props.C149_messages",
    "Dlhn.Props.C149_ends",
    "Dlhn.Props.C149_cut"
   ],
   "note": ""
  }
 ]
}