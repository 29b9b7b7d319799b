{
 "claims": [
  {
   "property": "C01",
   "status": "proved",
   "theorems": [
    "GoThrift.C01_binary_round_trip",
    "GoThrift.C01_needs_distinct_ids"
   ],
   "note": "Every program of Go types, every value. Hypotheses: distinct field ids in every struct type (a proved witness shows that this is needed), lengths below 2^31, map keys that stay different. float32 values come back as narrow(widen x)."
  },
  {
   "property": "C02",
   "status": "proved",
   "theorems": [
    "GoThrift.C02_compact_round_trip"
   ],
   "note": "As C01. The bytes after the value must end with an error or number at least nine, because of the violation recorded under C23."
  },
  {
   "property": "C03",
   "status": "proved",
   "theorems": [
    "GoThrift.C03_skip_any",
    "GoThrift.C03_skip_binary",
    "GoThrift.C03_skip_compact"
   ],
   "note": "For any Reader implementation, and for both protocols on every well-formed value, any bytes following, any buffer size."
  },
  {
   "property": "C04",
   "status": "proved",
   "theorems": [
    "GoThrift.C04_extent",
    "GoThrift.C04_binary",
    "GoThrift.C04_compact"
   ],
   "note": "A successful Unmarshal consumes exactly the bytes of the value, whatever the target type and its old value; any Reader, and both protocols."
  },
  {
   "property": "C05",
   "status": "proved",
   "theorems": [
    "GoThrift.C05_skip_binary",
    "GoThrift.C05_skip_compact",
    "GoThrift.C05_unmarshal_binary",
    "GoThrift.C05_unmarshal_compact"
   ],
   "note": "Skip, and Unmarshal into every valid target of every type whose lookup terminates."
  },
  {
   "property": "C06",
   "status": "proved",
   "theorems": [
    "GoThrift.C06_binary",
    "GoThrift.C06_compact"
   ],
   "note": "At most 6n+2 (binary) resp. 6n+5 (compact) Reader calls for n bytes of input, for every byte list. Recursion depth is bounded by the same measure, not by a constant."
  },
  {
   "property": "C07",
   "status": "proved",
   "theorems": [
    "GoThrift.C07_unknown_fields"
   ],
   "note": "Wire structs that differ only in fields the target does not know, at any depth: same outcome."
  },
  {
   "property": "C08",
   "status": "proved",
   "theorems": [
    "GoThrift.C08_rejected",
    "GoThrift.C08_semantic_error",
    "GoThrift.C52_unmarshal"
   ],
   "note": "A mismatch anywhere gives an error; a mismatch at the top gives the SemanticError before any call to the Reader; no Reader call is ever made with a type other than the one announced (C52)."
  },
  {
   "property": "C09",
   "status": "proved",
   "theorems": [
    "GoThrift.C09_absent_fields",
    "GoThrift.C09_nested",
    "GoThrift.C09_required_not_enforced"
   ],
   "note": "Absent fields keep their values, at any depth. That required fields must be present is documented nowhere and not enforced (proved witness)."
  },
  {
   "property": "C10",
   "status": "proved",
   "theorems": [
    "GoThrift.C10_replaced"
   ],
   "note": ""
  },
  {
   "property": "C11",
   "status": "proved",
   "theorems": [
    "GoThrift.C11_merge",
    "GoThrift.C11_nested",
    "GoThrift.C11_equal",
    "GoThrift.C11_map"
   ],
   "note": ""
  },
  {
   "property": "C12",
   "status": "proved",
   "theorems": [
    "GoThrift.C12_fields_written",
    "GoThrift.C12_zero"
   ],
   "note": "For any Writer; strictly ascending if the ids are distinct."
  },
  {
   "property": "C13",
   "status": "proved",
   "theorems": [
    "GoThrift.C13_marshal_fail_fast"
   ],
   "note": "Every Writer, every program of Go types, every value."
  },
  {
   "property": "C14",
   "status": "proved",
   "theorems": [
    "GoThrift.C14_unmarshal_fail_fast",
    "GoThrift.C14_success"
   ],
   "note": "Every Reader, every program of Go types, every target."
  },
  {
   "property": "C15",
   "status": "proved",
   "theorems": [
    "GoThrift.C15_marshal_bad",
    "GoThrift.C15_unmarshal_bad",
    "GoThrift.C15_value_or_pointer"
   ],
   "note": ""
  },
  {
   "property": "C16",
   "status": "proved",
   "theorems": [
    "GoThrift.C16_never_accepted",
    "GoThrift.C16_error",
    "GoThrift.C16_unmarshal",
    "GoThrift.C16_unmarshal_field",
    "GoThrift.C16_zero_slice_left_out"
   ],
   "note": "C16_zero_slice_left_out is the boundary: a zero optional field of type []chan is left out. Unmarshal at depth: C08_rejected."
  },
  {
   "property": "C17",
   "status": "proved",
   "theorems": [
    "GoThrift.C17_accepted",
    "GoThrift.C17_rejected",
    "GoThrift.C17_dash",
    "GoThrift.C17_unexported",
    "GoThrift.C17_terminates"
   ],
   "note": "Every tag string; package unicode and strings.ToLower are parameters."
  },
  {
   "property": "C18",
   "status": "proved",
   "theorems": [
    "GoThrift.C18_ReadUvarint",
    "GoThrift.C18_ReadVarint"
   ],
   "note": "Every byte list, every ending error, every buffer size >= 16 (the minimum of bufio)."
  },
  {
   "property": "C19",
   "status": "proved",
   "theorems": [
    "GoThrift.C19_uvarint_roundtrip",
    "GoThrift.C19_varint_roundtrip",
    "GoThrift.C19_wire_uvarint_roundtrip",
    "GoThrift.C19_wire_varint_roundtrip",
    "GoThrift.C19_uvarint_bytes",
    "GoThrift.C19_varint_bytes",
    "GoThrift.C19_uvarint_length",
    "GoThrift.C19_varint_length",
    "GoThrift.C19_accepts_exactly",
    "GoThrift.C19_rejects",
    "GoThrift.C19_truncated"
   ],
   "note": "All 2^64 values; acceptance characterised exactly against an independent ULEB128/zigzag spec."
  },
  {
   "property": "C20",
   "status": "proved",
   "theorems": [
    "GoThrift.C20_next_ok",
    "GoThrift.C20_next_short",
    "GoThrift.C20_next_negative"
   ],
   "note": "All counts up to the buffer size, all streams."
  },
  {
   "property": "C21",
   "status": "proved",
   "theorems": [
    "GoThrift.C21_readString_ok",
    "GoThrift.C21_readString_short",
    "GoThrift.C21_readString_negative",
    "GoThrift.C21_readBytes_ok",
    "GoThrift.C21_readBytes_short",
    "GoThrift.C21_readBytes_negative"
   ],
   "note": "All lengths, all positive buffer sizes."
  },
  {
   "property": "C22",
   "status": "proved",
   "theorems": [
    "GoThrift.C22_binary",
    "GoThrift.C22_compact",
    "GoThrift.C22_method_binary",
    "GoThrift.C22_method_compact",
    "GoThrift.C22_flat_binary",
    "GoThrift.C22_flat_compact"
   ],
   "note": "For any program of Reader calls (Skip and Unmarshal are such programs), any two schedules of Read results on the bufio.Reader algorithms of Go 1.21."
  },
  {
   "property": "C23",
   "status": "partial",
   "theorems": [
    "GoThrift.C23_binary_value",
    "GoThrift.C23_binary_holds",
    "GoThrift.C23_binary_message",
    "GoThrift.C23_binary_unmarshal",
    "GoThrift.C23_compact_partial",
    "GoThrift.C23_compact_exact_partial",
    "GoThrift.C23_compact_message_exact_partial",
    "GoThrift.C23_compact_unmarshal_exact_partial",
    "GoThrift.C23_compact_message_blocks",
    "GoThrift.C23_compact_string_blocks"
   ],
   "note": "Holds for the binary protocol, for Skip and for Unmarshal. Violated by the compact reader (proved witnesses: a complete message and a complete string block). For compact the exact condition is proved: a value is read without waiting iff at least ten bytes have arrived from the beginning of each string in it, otherwise Skip and any Unmarshal that would succeed wait; a message header iff ten bytes have arrived from the beginning of the name."
  },
  {
   "property": "C24",
   "status": "proved",
   "theorems": [
    "GoThrift.C24_message_round_trip",
    "GoThrift.C24_strict_rejects",
    "GoThrift.C24_nonstrict_rejects"
   ],
   "note": ""
  },
  {
   "property": "C25",
   "status": "proved",
   "theorems": [
    "GoThrift.C25_message_round_trip",
    "GoThrift.C25_rejects_protocol",
    "GoThrift.C25_rejects_version"
   ],
   "note": ""
  },
  {
   "property": "C26",
   "status": "proved",
   "theorems": [
    "GoThrift.C26_field_header",
    "GoThrift.C26_field_header_invalid"
   ],
   "note": "All 2^16 x 2^16 id pairs, all 256 types, both bools."
  },
  {
   "property": "C27",
   "status": "proved",
   "theorems": [
    "GoThrift.C27_set_header",
    "GoThrift.C27_map_header",
    "GoThrift.C27_invalid"
   ],
   "note": ""
  },
  {
   "property": "C28",
   "status": "proved",
   "theorems": [
    "GoThrift.C28_write",
    "GoThrift.C28_read",
    "GoThrift.C28_read_unbalanced",
    "GoThrift.C28_write_unbalanced"
   ],
   "note": "All call sequences, whether or not the calls succeed."
  },
  {
   "property": "C29",
   "status": "proved",
   "theorems": [
    "GoThrift.C29_type_codes",
    "GoThrift.C29_unknown_codes"
   ],
   "note": "Whole tables."
  },
  {
   "property": "C30",
   "status": "partial",
   "theorems": [
    "GoThrift.C30_binary_value",
    "GoThrift.C30_binary_message",
    "GoThrift.C30_compact_value_partial",
    "GoThrift.C30_compact_message_partial",
    "GoThrift.C30_compact_value_exact_partial",
    "GoThrift.C30_compact_message_exact_partial",
    "GoThrift.C30_compact_message_violated",
    "GoThrift.C30_compact_wrap_violated",
    "GoThrift.C30_binary_types",
    "GoThrift.C30_compact_types_partial"
   ],
   "note": "Holds for the binary protocol. Compact, exactly: the bytes are those of the specification iff no field id is lower than its predecessor by 65521 or more, and for message headers iff the sequence id is not negative; both exceptions are proved violations of the specification. The numbers of the types are those of the protocol documents (Spec/Numbers.lean)."
  },
  {
   "property": "C31",
   "status": "proved",
   "theorems": [
    "GoThrift.C31_binary",
    "GoThrift.C31_compact"
   ],
   "note": "Every honest transport (any behaviour of Write, WriteString and Flush that respects the io.Writer contract), every buffer size, every sequence of calls."
  },
  {
   "property": "C32",
   "status": "partial",
   "theorems": [
    "GoThrift.C32_binary",
    "GoThrift.C32_compact_partial",
    "GoThrift.C32_compact_noReset_partial",
    "GoThrift.C32_compact_exact_partial",
    "GoThrift.C32_compact_violated",
    "GoThrift.Share.C32_reset_to_bufio_violated"
   ],
   "note": "Holds for the binary writer. The compact writer drops the underlying Flusher on Reset (proved violation; also with a small bufio.Writer of the caller as the transport, whose buffer then keeps the bytes). Exactly: delivery holds after any history, and the Flush method of the transport is called iff there was no Reset."
  },
  {
   "property": "C33",
   "status": "partial",
   "theorems": [
    "GoThrift.C33_binary_writer",
    "GoThrift.C33_binary_reader",
    "GoThrift.C33_compact_reader",
    "GoThrift.C33_compact_writer_partial",
    "GoThrift.C33_compact_writer_exact_partial",
    "GoThrift.C33_compact_writer_violated",
    "GoThrift.Share.C33_reset_to_bufio_violated"
   ],
   "note": "Holds for both readers and the binary writer on plain transports. The compact writer after Reset(w) is, exactly, as good as a new one on w without its Flush method (proved violation if it has one). Reset of a binary reader to a bufio.Reader of the caller wraps it, while NewReader uses it as it is, so that the caller misses bytes (proved violation; the compact reader is right)."
  },
  {
   "property": "C34",
   "status": "proved",
   "theorems": [
    "GoThrift.C34_replay",
    "GoThrift.C34_unmarshal",
    "GoThrift.C34_skip_bytes_panics",
    "GoThrift.C34_reads_past_end"
   ],
   "note": "C34_skip_bytes_panics and C34_reads_past_end are witnesses of what is not guaranteed: skipping a value written with WriteBytes panics, and reads past the end may succeed."
  },
  {
   "property": "C35",
   "status": "proved",
   "theorems": [
    "GoThrift.C35_writer",
    "GoThrift.C35_writer_stays",
    "GoThrift.C35_writer_free",
    "GoThrift.C35_reader",
    "GoThrift.C35_marshal",
    "GoThrift.C35_unmarshal"
   ],
   "note": "WriteStructEnd makes two steps, so a break can fall between them."
  },
  {
   "property": "C36",
   "status": "proved",
   "theorems": [
    "GoThrift.C36_terminates",
    "GoThrift.C36_diverges",
    "GoThrift.C36_exactly"
   ],
   "note": "Lookup terminates exactly for the types that do not contain themselves through slices, maps and pointers; for the others the code recurses for ever."
  },
  {
   "property": "C37",
   "status": "proved",
   "theorems": [
    "GoThrift.C37_same_arshaler",
    "GoThrift.C37_table_once",
    "GoThrift.C37_alone",
    "GoThrift.C37_no_race",
    "GoThrift.C37_no_deadlock",
    "GoThrift.C37_ends"
   ],
   "note": "Any number of goroutines, each making any sequence of calls of Marshal and Unmarshal with any answers of their Readers and Writers, interleaved in any order. Operations on the shared state (the cache, the once variables, the field tables) are atomic steps and sequentially consistent; sync.Map and sync.Once are modelled by their documented behaviour. The field table is read once per call of once.Do. No deadlock assumes that every lookup ends (C36 gives a type for which it does not)."
  },
  {
   "property": "C38",
   "status": "proved",
   "theorems": [
    "GoThrift.C38_terminates",
    "GoThrift.C38_finite",
    "GoThrift.C38_zero_needs",
    "GoThrift.C38_infinite",
    "GoThrift.C38_diverges",
    "GoThrift.C38_does_not_return"
   ],
   "note": "Go values are finite trees (no cyclic pointers); types whose arshaler lookup recurses for ever (C36) are excluded."
  },
  {
   "property": "C39",
   "status": "proved",
   "theorems": [
    "GoThrift.C39_total"
   ],
   "note": "Every loop of scanner and parser ends within the number of bytes of the source; the panic badDef never leaves def. The depth of the Go stack is not modelled."
  },
  {
   "property": "C40",
   "status": "proved",
   "theorems": [
    "GoThrift.C40_tiles",
    "GoThrift.C40_gaps"
   ],
   "note": "C40_gaps assumes that the tables of package unicode agree with ASCII below 0x80; everything else is for every table."
  },
  {
   "property": "C41",
   "status": "proved",
   "theorems": [
    "GoThrift.C41_grammar",
    "GoThrift.C41_unique"
   ],
   "note": "Both directions, against the lexical grammar Spec/Lex.lean and the grammar Spec/Grammar.lean; the tables of package unicode are assumed to agree with ASCII on ASCII."
  },
  {
   "property": "C42",
   "status": "proved",
   "theorems": [
    "GoThrift.C42_errors"
   ],
   "note": "sort.Sort is assumed to return a sorted permutation for an order that is asymmetric and negatively transitive, which errors_.Less is shown to be."
  },
  {
   "property": "C43",
   "status": "proved",
   "theorems": [
    "GoThrift.C43_lex",
    "GoThrift.C43_layout",
    "GoThrift.C43_errors",
    "GoThrift.C43_broken"
   ],
   "note": "texts are the characters of the source without a byte order mark; AsciiTables: the tables of package unicode agree with ASCII; C43_broken is the witness of the stated limit"
  },
  {
   "property": "C44",
   "status": "proved",
   "theorems": [
    "GoThrift.C44_resume",
    "GoThrift.C44_before",
    "GoThrift.C44_swallows"
   ],
   "note": "tokens are those that the scanner returns on the whole source; C44_swallows is the witness of the stated limit"
  },
  {
   "property": "C45",
   "status": "proved",
   "theorems": [
    "GoThrift.C45_binary",
    "GoThrift.C45_compact"
   ],
   "note": "load counts bytes of strings, elements of slices and entries of maps; the spare capacity that reflect adds when a slice grows is not counted. That reading a string takes no more memory than the bytes that are there is C21."
  },
  {
   "property": "C46",
   "status": "proved",
   "theorems": [
    "GoThrift.C46_type",
    "GoThrift.C46_messageType",
    "GoThrift.C46_compactType",
    "GoThrift.C46_token",
    "GoThrift.C46_constants"
   ],
   "note": ""
  },
  {
   "property": "C47",
   "status": "proved",
   "theorems": [
    "GoThrift.C47_binary",
    "GoThrift.C47_compact"
   ],
   "note": ""
  },
  {
   "property": "C48",
   "status": "proved",
   "theorems": [
    "GoThrift.C48_binary",
    "GoThrift.C48_compact"
   ],
   "note": ""
  },
  {
   "property": "C49",
   "status": "proved",
   "theorems": [
    "GoThrift.C49_binary",
    "GoThrift.C49_compact",
    "GoThrift.C49_skip",
    "GoThrift.C49_unmarshal",
    "GoThrift.C49_unmarshal_idle",
    "GoThrift.C49_unmarshal_no_panic",
    "GoThrift.C49_unmarshal_valid"
   ],
   "note": "Every sequence of Reader calls, Skip, and Unmarshal into every valid target: any bytes, any reader state, ended and open streams. Types for which the arshaler lookup recurses for ever (C36) are excluded. For any other Reader: Unmarshal panics only if the Reader does. Running out of stack or memory is not modelled."
  },
  {
   "property": "C50",
   "status": "proved",
   "theorems": [
    "GoThrift.C50_join",
    "GoThrift.C50_join_nonstrict_strict"
   ],
   "note": ""
  },
  {
   "property": "C51",
   "status": "proved",
   "theorems": [
    "GoThrift.C51_outcome",
    "GoThrift.C51_success"
   ],
   "note": ""
  },
  {
   "property": "C52",
   "status": "proved",
   "theorems": [
    "GoThrift.C52_skip",
    "GoThrift.C52_unmarshal"
   ],
   "note": "For every Reader, whatever it answers."
  },
  {
   "property": "C53",
   "status": "proved",
   "theorems": [
    "GoThrift.C53_binary",
    "GoThrift.C53_compact"
   ],
   "note": "At most 6n+2 (binary) resp. 6n+5 (compact) Reader calls for n bytes of input."
  },
  {
   "property": "C54",
   "status": "proved",
   "theorems": [
    "GoThrift.C54_accepts",
    "GoThrift.C54_any_writer"
   ],
   "note": ""
  },
  {
   "property": "C55",
   "status": "proved",
   "theorems": [
    "GoThrift.C55_prefix",
    "GoThrift.C55_cause",
    "GoThrift.C55_two_renderings",
    "GoThrift.C55_informative",
    "GoThrift.C55_text",
    "GoThrift.C55_text_untyped"
   ],
   "note": ""
  },
  {
   "property": "C56",
   "status": "proved",
   "theorems": [
    "GoThrift.C56_lexical",
    "GoThrift.C56_unique",
    "GoThrift.C56_keywords",
    "GoThrift.C56_utf8"
   ],
   "note": "Under the hypothesis that the tables of package unicode agree with ASCII below 0x80 (AsciiTables)."
  },
  {
   "property": "C57",
   "status": "proved",
   "theorems": [
    "GoThrift.C57_scan",
    "GoThrift.C57_parse"
   ],
   "note": "Line table included: AddLine, Position."
  },
  {
   "property": "C58",
   "status": "proved",
   "theorems": [
    "GoThrift.C58_binary",
    "GoThrift.C58_compact"
   ],
   "note": "Hypotheses on the values as for C01 and C02. The compact reader needs the stream to end at some time or to go on for nine bytes (C23), and message types below 8 (C25). The reader's transport does not return 100 empty reads in a row."
  },
  {
   "property": "C59",
   "status": "proved",
   "theorems": [
    "GoThrift.C59_binary_settles",
    "GoThrift.C59_compact_settles",
    "GoThrift.C59_first_time_differs",
    "GoThrift.C59_needs_zero_law"
   ],
   "note": "Hypotheses: those of C01/C02, ZeroLaw (proved for types without IsZero methods where reflect does not take negative zero for zero: zeroLaw_plain), FloatLaw (float32 to float64 and back twice is once). C59_first_time_differs and C59_needs_zero_law are concrete runs showing that the first bytes may differ and that the zero law is needed."
  },
  {
   "property": "C60",
   "status": "proved",
   "theorems": [
    "GoThrift.C60_binary_evolves",
    "GoThrift.C60_compact_evolves"
   ],
   "note": "Compatible is coinductive (a relation closed under CompatStep), so recursive types are covered; the example uses two versions of a linked list. Hypotheses: those of C01/C02 for the type written; distinct ids and well-tagged structs (AllGood) for the type read. Unmarshalling into values that are not zero is C09/C51. The carried value is described by Carries, which does not refer to the code."
  },
  {
   "property": "C61",
   "status": "proved",
   "theorems": [
    "GoThrift.C61_nil",
    "GoThrift.C61_text",
    "GoThrift.C61_located",
    "GoThrift.C61_kind"
   ],
   "note": "Position.String (go/token) and Itoa (strconv) are modelled as read; that Itoa prints decimals is proved. What %#U prints for a character is left open (IdlEnv.fmtU), as in C42."
  },
  {
   "property": "C62",
   "status": "proved",
   "theorems": [
    "GoThrift.C62_message_binary",
    "GoThrift.C62_message_compact",
    "GoThrift.C62_value_binary",
    "GoThrift.C62_value_compact",
    "GoThrift.C62_skip_binary",
    "GoThrift.C62_skip_compact",
    "GoThrift.C62_skip_rejects",
    "GoThrift.C62_prefix_free",
    "GoThrift.C62_unmarshal_binary",
    "GoThrift.C62_unmarshal_compact",
    "GoThrift.C62_unmarshal_meaning",
    "GoThrift.C62_canonical",
    "GoThrift.C62_canonical_message"
   ],
   "note": "Binary: also on transports that stay idle after the input. Compact: on transports that end, since the compact reader may wait for bytes beyond a string length (C23). The theorems about Unmarshal have the hypotheses of C51 on the Go type."
  },
  {
   "property": "C63",
   "status": "proved",
   "theorems": [
    "GoThrift.C63_found",
    "GoThrift.C63_first"
   ],
   "note": "C63_first is about sources without errors of the scanner. Errors after the first one may be consequences of it."
  },
  {
   "property": "C64",
   "status": "proved",
   "theorems": [
    "GoThrift.C64_unmarshal_frame"
   ],
   "note": "In the model of memory (Model/Heap.lean) a location is a variable, an array element or a map; pointers to a field of a struct are not modelled."
  },
  {
   "property": "C65",
   "status": "proved",
   "theorems": [
    "GoThrift.C65_tree_to_memory",
    "GoThrift.C65_memory_to_tree",
    "GoThrift.C65_bad_arguments",
    "GoThrift.C65_sharing_matters"
   ],
   "note": "The two directions together say that the two models return in the same cases. C65_sharing_matters is the witness that the hypothesis is needed."
  },
  {
   "property": "C66",
   "status": "proved",
   "theorems": [
    "GoThrift.C66_marshal_memory",
    "GoThrift.C66_nil",
    "GoThrift.C66_sharing_invisible",
    "GoThrift.C66_ends",
    "GoThrift.C66_no_cycle",
    "GoThrift.C66_cycle_diverges",
    "GoThrift.C66_cycle_does_not_return"
   ],
   "note": "Marshal writes to no memory but its own new variables; in the model it is a function of memory that returns none. Iteration over a map is in the order of the table, also if the map is reached twice."
  },
  {
   "property": "C67",
   "status": "proved",
   "theorems": [
    "GoThrift.C67_binary_copy",
    "GoThrift.C67_compact_copy"
   ],
   "note": "That the readers return new byte slices and strings, or append to the slice given to them, is part of the model of ReadBytes and ReadString."
  },
  {
   "property": "C68",
   "status": "proved",
   "theorems": [
    "GoThrift.C68_unmarshal",
    "GoThrift.C68_marshal",
    "GoThrift.C68_found"
   ],
   "note": "The cause in an error about the fields of a struct type is not described (see C07 for which types have one). That an error that is not a SemanticError comes from a field that is not declared is part of C69_stopped."
  },
  {
   "property": "C69",
   "status": "proved",
   "theorems": [
    "GoThrift.C69_stopped",
    "GoThrift.C69_read",
    "GoThrift.C69_untouched"
   ],
   "note": "The spare capacity of a slice (elements between length and capacity) is not described. Sharing is not modelled here (see C64 to C67)."
  },
  {
   "property": "C70",
   "status": "proved",
   "theorems": [
    "GoThrift.C70_binary",
    "GoThrift.C70_compact",
    "GoThrift.C70_needs_quiet"
   ],
   "note": "Sources that panic are not modelled."
  },
  {
   "property": "C71",
   "status": "proved",
   "theorems": [
    "GoThrift.C71_binary",
    "GoThrift.C71_compact",
    "GoThrift.C71_table",
    "GoThrift.C71_test_is_lenient"
   ],
   "note": "C71_test_is_lenient is a remark on the strength of the test: it passes for a protocol that loses all values. bytes.Buffer is modelled (without its size limit). The texts of failures are not. TestProgram lists what is assumed of float32 conversion (two values come back) and of unicode.IsLetter (the letters of 'required')."
  },
  {
   "property": "C72",
   "status": "proved",
   "theorems": [
    "GoThrift.C72_range"
   ],
   "note": "The conditions are stated on the tree alone, independently of the grammar of token sequences in C41; texts of tokens are those of the lexical grammar of C56."
  },
  {
   "property": "C73",
   "status": "proved",
   "theorems": [
    "GoThrift.C73_exact",
    "GoThrift.C73_binary",
    "GoThrift.C73_compact",
    "GoThrift.C73_binary_unlimited",
    "GoThrift.C73_compact_unlimited"
   ],
   "note": "The model is that of C03/C06 with the number of frames of Skip bounded; the size of a frame and what else is on the stack are not modelled. A finding rather than a contract: there is no limit on the depth of recursion, so with the compact protocol each byte of hostile input can cost one stack frame, and Unmarshal skips unknown fields with Skip."
  },
  {
   "property": "C74",
   "status": "proved",
   "theorems": [
    "GoThrift.C74_binary",
    "GoThrift.C74_compact",
    "GoThrift.C74_session",
    "GoThrift.C74_owned",
    "GoThrift.C74_next_overwritten"
   ],
   "note": "C20 and C22 have the buffered bytes as a value, and a slice as the bytes in it; here they are a part of an array, and a slice is two indices whose contents are looked up when the program looks."
  },
  {
   "property": "C75",
   "status": "proved",
   "theorems": [
    "GoThrift.C75_binary",
    "GoThrift.C75_compact",
    "GoThrift.C75_binary_bytes",
    "GoThrift.C75_compact_bytes"
   ],
   "note": "Discharges what Model/Compact.lean assumes of appendWrite. A slice passed by the caller has memory of its own, which nobody changes during the call."
  },
  {
   "property": "C76",
   "status": "proved",
   "theorems": [
    "GoThrift.C76_binary",
    "GoThrift.C76_compact",
    "GoThrift.C76_bufio",
    "GoThrift.C76_wrapped_binary",
    "GoThrift.C76_wrapped_compact",
    "GoThrift.C76_source"
   ],
   "note": "C22 has sources that decide in advance in which pieces they deliver their bytes; here the Read is any function on any state."
  },
  {
   "property": "C77",
   "status": "proved",
   "theorems": [
    "GoThrift.Share.C77_readers",
    "GoThrift.Share.C77_mixed_stream",
    "GoThrift.Share.C77_needs_4096",
    "GoThrift.Share.C77_reset_takes_along"
   ],
   "note": "bufio.NewReader is modelled as it is: it returns its argument if that is a bufio.Reader of at least 4096 bytes. The programs of C77_readers reset protocol readers to plain transports only, and only such as were made from plain transports; what happens else is C77_reset_takes_along and C33_reset_to_bufio_violated."
  },
  {
   "property": "C78",
   "status": "proved",
   "theorems": [
    "GoThrift.Share.C78_shared",
    "GoThrift.Share.C78_mixed_stream",
    "GoThrift.Share.C78_wrapped_binary",
    "GoThrift.Share.C78_wrapped_compact",
    "GoThrift.Share.C78_stack_honest",
    "GoThrift.Share.C78_needs_4096"
   ],
   "note": "The Flush of a bufio.Writer does not call that of the transport below it, so on a bufio.Writer of the caller the transport's own Flush is never called; C32 is about transports that are given to the protocol writer itself."
  },
  {
   "property": "C79",
   "status": "proved",
   "theorems": [
    "GoThrift.C79_marshal",
    "GoThrift.C79_unmarshal",
    "GoThrift.C79_whole",
    "GoThrift.C79_test",
    "GoThrift.C79_table",
    "GoThrift.C79_passed"
   ],
   "note": "Rows of pointer types are not covered by C79_test (C79_marshal to C79_whole allow a pointer to be passed to Marshal)."
  },
  {
   "property": "C80",
   "status": "proved",
   "theorems": [
    "GoThrift.C80_skip",
    "GoThrift.C80_fresh",
    "GoThrift.C80_bytes",
    "GoThrift.C80_break",
    "GoThrift.C80_break_fresh"
   ],
   "note": "The panic on bytes is also in C34_skip_bytes_panics. The table of TestSkip is an example: its steps are the right ones."
  },
  {
   "property": "C81",
   "status": "proved",
   "theorems": [
    "GoThrift.C81_cuts",
    "GoThrift.C81_value",
    "GoThrift.C81_exact",
    "GoThrift.C81_binary",
    "GoThrift.C81_compact",
    "GoThrift.C81_binary_unlimited",
    "GoThrift.C81_compact_unlimited"
   ],
   "note": "The code has no limit on the depth of input. The frames on which arshalers are looked up and fields are collected do not count: they depend on the Go types only. Between the two bounds of C81_value the number of frames depends on where the pointers are."
  },
  {
   "property": "C82",
   "status": "proved",
   "theorems": [
    "GoThrift.C82_cuts",
    "GoThrift.C82_marshal",
    "GoThrift.C82_unmarshal",
    "GoThrift.C82_binary",
    "GoThrift.C82_compact"
   ],
   "note": "Frames count as in C81. With two fields of the same id what is read back may not be what was written (C01_needs_distinct_ids), so the ids must be distinct."
  },
  {
   "property": "C83",
   "status": "proved",
   "theorems": [
    "GoThrift.C83_cuts",
    "GoThrift.C83_exact",
    "GoThrift.C83_valid",
    "GoThrift.C83_enough",
    "GoThrift.C83_unlimited"
   ],
   "note": "For a file with a definition that was given up, the tree does not have the types and values seen before the error: C83_cuts and C83_enough hold for it."
  },
  {
   "property": "C84",
   "status": "proved",
   "theorems": [
    "GoThrift.C84_same",
    "GoThrift.C84_semicolons"
   ],
   "note": "Tokens are those of the lexical grammar (C56); a comma between the types of a map is needed, and is the only one that is (C41). Identifiers and literals are kept with their texts, reserved words and operators have one text each."
  },
  {
   "property": "C85",
   "status": "proved",
   "theorems": [
    "GoThrift.C85_ratio",
    "GoThrift.C85_reaches_longest",
    "GoThrift.C85_reaches_shortest",
    "GoThrift.C85_message"
   ],
   "note": "Lengths of strings, slices and maps are at most 2^31-1, as in C01."
  },
  {
   "property": "C86",
   "status": "proved",
   "theorems": [
    "GoThrift.C86_join",
    "GoThrift.C86_append",
    "GoThrift.C86_needs_newline"
   ],
   "note": "Over the lexical grammar (C56) and the grammar (C41)."
  },
  {
   "property": "C87",
   "status": "proved",
   "theorems": [
    "GoThrift.C87_places",
    "GoThrift.C87_order"
   ],
   "note": "Strengthens C43_errors, which says nothing of the positions. The tokens are those that the scanner returns (scanAll), the places those of the same run."
  },
  {
   "property": "C88",
   "status": "proved",
   "theorems": [
    "GoThrift.C88_accepts",
    "GoThrift.C88_binary",
    "GoThrift.C88_compact",
    "GoThrift.C88_unmarshal",
    "GoThrift.C88_binary_back",
    "GoThrift.C88_compact_back",
    "GoThrift.C88_duplicate_keys"
   ],
   "note": "C88_duplicate_keys shows that the condition on the keys is needed: of two entries with one key the last stays. Marshal writes no such, by KeysSurvive."
  },
  {
   "property": "C89",
   "status": "proved",
   "theorems": [
    "GoThrift.C89_work",
    "GoThrift.C89_next",
    "GoThrift.C89_errors"
   ],
   "note": "Counted are the operations that the parser does on its scanner (Spec/ParseWork.lean); the characters that the scanner passes are bounded by C39 and C40. The examples show that three errors for a token and two for a byte do occur."
  },
  {
   "property": "C90",
   "status": "proved",
   "theorems": [
    "GoThrift.C90_counting",
    "GoThrift.C90_binary",
    "GoThrift.C90_compact",
    "GoThrift.C90_reaches"
   ],
   "note": "The counterpart of C53. Strings, slices and maps have at most 2^63-1 bytes, elements and entries. Only calls are counted, and only when Marshal succeeds: fields that are not written and pointers that are followed cost nothing here (that Marshal ends is C38, its frames are bounded in C82)."
  },
  {
   "property": "C91",
   "status": "proved",
   "theorems": [
    "GoThrift.C91_passed",
    "GoThrift.C91_header",
    "GoThrift.C91_type",
    "GoThrift.C91_leaves"
   ],
   "note": "The counterpart of C71, which says that it passes with the protocols of the repository; C71_test_is_lenient shows what it does not notice. Between two uses of the bytes.Buffer that is shared by the test, the writer and the reader, what was left in it stays."
  },
  {
   "property": "C92",
   "status": "proved",
   "theorems": [
    "GoThrift.C92_texts",
    "GoThrift.C92_size"
   ],
   "note": "Spec/TreeSize.lean says what the nodes of a tree are and which texts are in it, in order. The tokens are those of the scanner (C40)."
  },
  {
   "property": "C93",
   "status": "proved",
   "theorems": [
    "GoThrift.C93_text",
    "GoThrift.C93_reader",
    "GoThrift.C93_writer",
    "GoThrift.C93_panics",
    "GoThrift.C93_any"
   ],
   "note": "Model/MemoGen.lean: the generator and what its statements do; Spec/ZMemo.lean: the lines of zmemo.go. gofmt is not modelled: texts are compared without white space. A type implements error if it is error. In C93_any the names UUID and StructEnd, which the generator treats specially, are left to C93_reader and C93_writer."
  },
  {
   "property": "C94",
   "status": "proved",
   "theorems": [
    "GoThrift.C94_again",
    "GoThrift.C94_binary",
    "GoThrift.C94_compact",
    "GoThrift.C94_nan"
   ],
   "note": "Spec/Again.lean has the conditions on the keys and fields; those on the wire value follow from conditions on the Go value that was marshalled (C94_binary, C94_compact)."
  },
  {
   "property": "C95",
   "status": "proved",
   "theorems": [
    "GoThrift.C95_order",
    "GoThrift.C95_binary",
    "GoThrift.C95_compact",
    "GoThrift.C95_repeated_field"
   ],
   "note": "Spec/AnyOrder.lean says what it is to differ in order. C88 is about the order of map entries only, but says more on what is written."
  },
  {
   "property": "C96",
   "status": "proved",
   "theorems": [
    "GoThrift.C96_merge",
    "GoThrift.C96_first_error",
    "GoThrift.C96_split",
    "GoThrift.C96_binary",
    "GoThrift.C96_commute"
   ],
   "note": "No condition on keys or ids except in C96_commute, which has those of C95. For the compact protocol the theorems on all Readers apply, but the bytes cannot simply be joined, as ids are written as differences."
  },
  {
   "property": "C97",
   "status": "proved",
   "theorems": [
    "GoThrift.C97_binary",
    "GoThrift.C97_compact",
    "GoThrift.C97_binary_stream",
    "GoThrift.C97_compact_stream",
    "GoThrift.C97_binary_alike",
    "GoThrift.C97_compact_alike",
    "GoThrift.C97_wire_types"
   ],
   "note": "C97_wire_types shows that the wire types have to be the same: the binary protocol writes an empty string and an int32 that is zero alike. The two values need not have the same type, nor come from the same program."
  },
  {
   "property": "C98",
   "status": "proved",
   "theorems": [
    "GoThrift.C98_merge",
    "GoThrift.C98_first_error",
    "GoThrift.C98_split",
    "GoThrift.C98_field"
   ],
   "note": "No condition on keys. The types in the headers of the three maps need not be the same, as the header of an empty map has no types in the compact protocol."
  }
 ]
}