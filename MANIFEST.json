{
 "claims": [
  {
   "property": "C01",
   "status": "proved",
   "theorems": [
    "Zeropb.C01_set_get",
    "Zeropb.C01_set_get_ok"
   ],
   "note": "C01_set_get: any successful set; C01_set_get_ok: setters do succeed."
  },
  {
   "property": "C02",
   "status": "proved",
   "theorems": [
    "Zeropb.C02_set_frame"
   ],
   "note": "For every state with the representation invariant, which every reachable state has (C03)."
  },
  {
   "property": "C03",
   "status": "proved",
   "theorems": [
    "Zeropb.C03_history",
    "Zeropb.C03_history_ok"
   ],
   "note": "C03_history for every history, C03_history_ok that histories below 2^63 bytes never fail."
  },
  {
   "property": "C04",
   "status": "proved",
   "theorems": [
    "Zeropb.C04_unset"
   ],
   "note": ""
  },
  {
   "property": "C05",
   "status": "proved",
   "theorems": [
    "Zeropb.C05_encode_decode"
   ],
   "note": ""
  },
  {
   "property": "C06",
   "status": "proved",
   "theorems": [
    "Zeropb.C06_encode_valid"
   ],
   "note": ""
  },
  {
   "property": "C07",
   "status": "proved",
   "theorems": [
    "Zeropb.C07_decode_any"
   ],
   "note": ""
  },
  {
   "property": "C08",
   "status": "proved",
   "theorems": [
    "Zeropb.C08_last_wins",
    "Zeropb.C08_overwrite",
    "Zeropb.C08_split",
    "Zeropb.C08_false_merge"
   ],
   "note": "C08_last_wins after Decode, C08_overwrite for setters on such messages, C08_split for embedded messages in pieces; C08_false_merge: witness."
  },
  {
   "property": "C09",
   "status": "proved",
   "theorems": [
    "Zeropb.C09_iterate"
   ],
   "note": ""
  },
  {
   "property": "C10",
   "status": "proved",
   "theorems": [
    "Zeropb.C10_append"
   ],
   "note": ""
  },
  {
   "property": "C11",
   "status": "proved",
   "theorems": [
    "Zeropb.C11_presence",
    "Zeropb.C11_setMessage"
   ],
   "note": ""
  },
  {
   "property": "C12",
   "status": "proved",
   "theorems": [
    "Zeropb.C12_tree"
   ],
   "note": "Induction over trees of any depth and fan-out of TestMessage."
  },
  {
   "property": "C13",
   "status": "proved",
   "theorems": [
    "Zeropb.C13_truncated"
   ],
   "note": ""
  },
  {
   "property": "C14",
   "status": "proved",
   "theorems": [
    "Zeropb.C14_decode_returns",
    "Zeropb.C14_decode_panics",
    "Zeropb.C14_false_diverges",
    "Zeropb.C14_false_panics",
    "Zeropb.C14_false_accepts"
   ],
   "note": "C14_decode_returns: the classification; C14_decode_panics: always-panicking defects; the three _false theorems are witnesses refuting the unrestricted claim."
  },
  {
   "property": "C15",
   "status": "proved",
   "theorems": [
    "Zeropb.C15_nil_safe",
    "Zeropb.C15_false"
   ],
   "note": "C15_nil_safe is the guarantee, C15_false refutes it without the wire type condition."
  },
  {
   "property": "C16",
   "status": "proved",
   "theorems": [
    "Zeropb.C16_decode_forgets",
    "Zeropb.C16_reset_forgets"
   ],
   "note": ""
  },
  {
   "property": "C17",
   "status": "proved",
   "theorems": [
    "Zeropb.C17_map"
   ],
   "note": ""
  },
  {
   "property": "C18",
   "status": "proved",
   "theorems": [
    "Zeropb.C18_consistent",
    "Zeropb.C18_memory"
   ],
   "note": ""
  },
  {
   "property": "C19",
   "status": "proved",
   "theorems": [
    "Zeropb.C19_no_map",
    "Zeropb.C19_sharp",
    "Zeropb.C19_long"
   ],
   "note": "C19_sharp: the bound 65535 cannot be raised; C19_long: longer messages work."
  },
  {
   "property": "C20",
   "status": "proved",
   "theorems": [
    "Zeropb.C20_map_order"
   ],
   "note": ""
  },
  {
   "property": "C21",
   "status": "proved",
   "theorems": [
    "Zeropb.C21_idempotent",
    "Zeropb.C21_same_length"
   ],
   "note": ""
  },
  {
   "property": "C22",
   "status": "proved",
   "theorems": [
    "Zeropb.C22_commute"
   ],
   "note": ""
  },
  {
   "property": "C23",
   "status": "proved",
   "theorems": [
    "Zeropb.C23_no_leak"
   ],
   "note": ""
  },
  {
   "property": "C24",
   "status": "proved",
   "theorems": [
    "Zeropb.C24_uvarint",
    "Zeropb.C24_reads",
    "Zeropb.C24_uvarint32",
    "Zeropb.C24_varint",
    "Zeropb.C24_varint32",
    "Zeropb.C24_tight",
    "Zeropb.C24_setters"
   ],
   "note": ""
  },
  {
   "property": "C25",
   "status": "proved",
   "theorems": [
    "Zeropb.C25_zigzag",
    "Zeropb.C25_fields",
    "Zeropb.C25_one_byte",
    "Zeropb.C25_bijective"
   ],
   "note": ""
  },
  {
   "property": "C26",
   "status": "proved",
   "theorems": [
    "Zeropb.C26_negative_int32",
    "Zeropb.C26_widths"
   ],
   "note": ""
  },
  {
   "property": "C27",
   "status": "proved",
   "theorems": [
    "Zeropb.C27_lazy",
    "Zeropb.C27_embedded_error",
    "Zeropb.C27_next"
   ],
   "note": ""
  },
  {
   "property": "C28",
   "status": "proved",
   "theorems": [
    "Zeropb.C28_set_bytes",
    "Zeropb.C28_append_bytes",
    "Zeropb.C28_unknown_kept"
   ],
   "note": ""
  },
  {
   "property": "C29",
   "status": "proved",
   "theorems": [
    "Zeropb.C29_false_unknown_panics"
   ],
   "note": "A proved defect: the theorem says Decode panics on all such inputs."
  },
  {
   "property": "C30",
   "status": "proved",
   "theorems": [
    "Zeropb.C30_safe",
    "Zeropb.C30_false"
   ],
   "note": "C30_safe is the guarantee, C30_false the witness that the minimal-tag condition is needed."
  },
  {
   "property": "C31",
   "status": "proved",
   "theorems": [
    "Zeropb.C31_no_interference",
    "Zeropb.C31_values",
    "Zeropb.C31_writes",
    "Zeropb.C31_footprint",
    "Zeropb.C31_reach"
   ],
   "note": ""
  },
  {
   "property": "C32",
   "status": "proved",
   "theorems": [
    "Zeropb.C32_set_copies",
    "Zeropb.C32_append_copies",
    "Zeropb.C32_false_self"
   ],
   "note": "C32_set_copies, C32_append_copies: guarantee; C32_false_self: witness that disjointness is needed."
  },
  {
   "property": "C33",
   "status": "proved",
   "theorems": [
    "Zeropb.C33_before",
    "Zeropb.C33_sub_before",
    "Zeropb.C33_exact_capacity",
    "Zeropb.C33_false",
    "Zeropb.C33_false_in_place"
   ],
   "note": "C33_before, C33_sub_before, C33_exact_capacity: guarantees; C33_false, C33_false_in_place: witnesses."
  },
  {
   "property": "C34",
   "status": "proved",
   "theorems": [
    "Zeropb.C34_decode_reads",
    "Zeropb.C34_view",
    "Zeropb.C34_iterate_views",
    "Zeropb.C34_extract",
    "Zeropb.C34_views"
   ],
   "note": ""
  },
  {
   "property": "C35",
   "status": "proved",
   "theorems": [
    "Zeropb.C35_storage",
    "Zeropb.C35_reset"
   ],
   "note": ""
  },
  {
   "property": "C36",
   "status": "proved",
   "theorems": [
    "Zeropb.C36_false",
    "Zeropb.C36_others"
   ],
   "note": "C36_others: guarantee; C36_false: witness."
  },
  {
   "property": "C37",
   "status": "proved",
   "theorems": [
    "Zeropb.C37_same_fields",
    "Zeropb.C37_no_overread",
    "Zeropb.C37_false"
   ],
   "note": "C37_no_overread, C37_same_fields: guarantee; C37_false: witness."
  },
  {
   "property": "C38",
   "status": "proved",
   "theorems": [
    "Zeropb.C38_concat"
   ],
   "note": ""
  },
  {
   "property": "C39",
   "status": "proved",
   "theorems": [
    "Zeropb.C39_linear"
   ],
   "note": ""
  },
  {
   "property": "C40",
   "status": "proved",
   "theorems": [
    "Zeropb.C40_versions"
   ],
   "note": ""
  },
  {
   "property": "C41",
   "status": "proved",
   "theorems": [
    "Zeropb.C41_table",
    "Zeropb.C41_accessors",
    "Zeropb.C41_false_max"
   ],
   "note": "C41_false_max: for field number 2^31-1, which protobuf forbids, the table is wrong; shows the precondition of C41_table is needed."
  },
  {
   "property": "C42",
   "status": "proved",
   "theorems": [
    "Zeropb.C42_in_text",
    "Zeropb.C42_repeated_table"
   ],
   "note": ""
  },
  {
   "property": "C43",
   "status": "proved",
   "theorems": [
    "Zeropb.C43_name",
    "Zeropb.C43_name_pieces",
    "Zeropb.C43_simple_name",
    "Zeropb.C43_files"
   ],
   "note": ""
  },
  {
   "property": "C44",
   "status": "proved",
   "theorems": [
    "Zeropb.C44_iff",
    "Zeropb.C44_no_duplicates",
    "Zeropb.C44_false_repeated",
    "Zeropb.C44_false_clashes"
   ],
   "note": "C44_iff exact condition, C44_no_duplicates sufficient condition, the _false theorems refute that different proto names suffice."
  },
  {
   "property": "C45",
   "status": "proved",
   "theorems": [
    "Zeropb.C45_panics"
   ],
   "note": ""
  },
  {
   "property": "C46",
   "status": "proved",
   "theorems": [
    "Zeropb.C46_sticky",
    "Zeropb.C46_concat",
    "Zeropb.C46_panics",
    "Zeropb.C46_numbers"
   ],
   "note": ""
  },
  {
   "property": "C47",
   "status": "proved",
   "theorems": [
    "Zeropb.C47_toGoCase",
    "Zeropb.C47_splits",
    "Zeropb.C47_only_word",
    "Zeropb.C47_typeName"
   ],
   "note": ""
  },
  {
   "property": "C48",
   "status": "proved",
   "theorems": [
    "Zeropb.C48_false_in_place",
    "Zeropb.C48_false_resize",
    "Zeropb.C48_reset_shared",
    "Zeropb.C48_false_reset",
    "Zeropb.C48_reset_independent",
    "Zeropb.C48_decode_independent",
    "Zeropb.C48_set_absent",
    "Zeropb.C48_append",
    "Zeropb.C48_exact_capacity",
    "Zeropb.C48_false_append"
   ],
   "note": "The _false theorems are witnesses against the unrestricted claim."
  },
  {
   "property": "C49",
   "status": "proved",
   "theorems": [
    "Zeropb.C49_value",
    "Zeropb.C49_sint32",
    "Zeropb.C49_narrowed",
    "Zeropb.C49_false"
   ],
   "note": "C49_value what the getter returns for every varint; C49_sint32 exact condition; C49_narrowed sint64 values read as sint32; C49_false witness."
  },
  {
   "property": "C50",
   "status": "proved",
   "theorems": [
    "Zeropb.C50_false",
    "Zeropb.C50_false_other",
    "Zeropb.C50_set_absent",
    "Zeropb.C50_setBytes_absent",
    "Zeropb.C50_append",
    "Zeropb.C50_others",
    "Zeropb.C50_same_length"
   ],
   "note": "The _false theorems are witnesses against the unrestricted claim."
  },
  {
   "property": "C51",
   "status": "proved",
   "theorems": [
    "Zeropb.C51_implements",
    "Zeropb.C51_golden"
   ],
   "note": "C51_golden: the schema the runtime model uses for TestMessage is the one of the golden descriptor."
  },
  {
   "property": "C52",
   "status": "proved",
   "theorems": [
    "Zeropb.C52_iff",
    "Zeropb.C52_closed",
    "Zeropb.C52_false_nested",
    "Zeropb.C52_false_confused",
    "Zeropb.C52_package"
   ],
   "note": "C52_iff exact condition, C52_closed sufficient condition, _false witnesses."
  },
  {
   "property": "C53",
   "status": "proved",
   "theorems": [
    "Zeropb.C53_array",
    "Zeropb.C53_map",
    "Zeropb.C53_zero_allocation",
    "Zeropb.C53_sub_message",
    "Zeropb.C53_next",
    "Zeropb.C53_sharp"
   ],
   "note": "C53_array, C53_map: per call, exact for arrays; C53_zero_allocation: histories; C53_sharp: the bound 65535 is exact. Growth inside an existing Go map is not counted."
  },
  {
   "property": "C54",
   "status": "proved",
   "theorems": [
    "Zeropb.C54_exact",
    "Zeropb.C54_deterministic",
    "Zeropb.C54_once",
    "Zeropb.C54_false_canonical"
   ],
   "note": "C54_false_canonical is the witness that equal contents may have different encodings."
  },
  {
   "property": "C55",
   "status": "proved",
   "theorems": [
    "Zeropb.C55_exact",
    "Zeropb.C55_twice"
   ],
   "note": "C55_exact: exact count; C55_twice: together with Decode."
  },
  {
   "property": "C56",
   "status": "proved",
   "theorems": [
    "Zeropb.C56_text",
    "Zeropb.C56_panic",
    "Zeropb.C56_error",
    "Zeropb.C56_tree",
    "Zeropb.C56_false_injective"
   ],
   "note": "Number formatting (fmt %v) and quoting are parameters of the model. C56_false_injective is a witness."
  },
  {
   "property": "C57",
   "status": "proved",
   "theorems": [
    "Zeropb.C57_success",
    "Zeropb.C57_stdout",
    "Zeropb.C57_silent",
    "Zeropb.C57_status",
    "Zeropb.C57_false_failure",
    "Zeropb.C57_text",
    "Zeropb.C57_stderr",
    "Zeropb.C57_pluginErr"
   ],
   "note": "Standard input, protobuf (un)marshalling, write, and error printing are parameters of the model. C57_false_failure: failures exit with status 0."
  },
  {
   "property": "C58",
   "status": "proved",
   "theorems": [
    "Zeropb.C58_history",
    "Zeropb.C58_adding",
    "Zeropb.C58_elsewhere",
    "Zeropb.C58_false_set",
    "Zeropb.C58_false_reset"
   ],
   "note": "C58_history general form; C58_adding and C58_elsewhere the two cases a user relies on; _false witnesses against the unrestricted claim."
  },
  {
   "property": "C59",
   "status": "proved",
   "theorems": [
    "Zeropb.C59_get",
    "Zeropb.C59_absent",
    "Zeropb.C59_through",
    "Zeropb.C59_iterator"
   ],
   "note": ""
  },
  {
   "property": "C60",
   "status": "proved",
   "theorems": [
    "Zeropb.C60_decode",
    "Zeropb.C60_lockstep",
    "Zeropb.C60_marshal",
    "Zeropb.C60_encode",
    "Zeropb.C60_false_split",
    "Zeropb.C60_false_set"
   ],
   "note": "C60_decode, C60_marshal: reading what others wrote; C60_encode, C60_lockstep: others reading what zeropb wrote, after any mirrored history. UTF-8 checks of the ordinary implementation are not in its specification. C60_false_split, C60_false_set: message fields in several pieces."
  },
  {
   "property": "C61",
   "status": "proved",
   "theorems": [
    "Zeropb.C61_schedule",
    "Zeropb.C61_torn",
    "Zeropb.C61_readers"
   ],
   "note": "C61_schedule, C61_torn: separate buffers; C61_readers: overlapping ones. The calls that write are atomic in a schedule; a write made and undone within one call would not be seen by the model (the code contains none: setSingle and appendSingle write only the target buffer). C67 removes this: there every single memory access is a step."
  },
  {
   "property": "C62",
   "status": "proved",
   "theorems": [
    "Zeropb.C62_text",
    "Zeropb.C62_getters",
    "Zeropb.C62_setters",
    "Zeropb.C62_append",
    "Zeropb.C62_set_get",
    "Zeropb.C62_decode",
    "Zeropb.C62_messages",
    "Zeropb.C62_next",
    "Zeropb.C62_offsets"
   ],
   "note": "The lexer, the syntax printer and the interpreter (GoSrc/Syntax, GoSrc/Sem; simplifications in the header of Sem) are the trusted reading of Go here. Setter arguments in memory must be apart from the buffer (C32 says what happens otherwise), and shorter than 2^63 - 10."
  },
  {
   "property": "C63",
   "status": "proved",
   "theorems": [
    "Zeropb.C63_text",
    "Zeropb.C63_package",
    "Zeropb.C63_encode",
    "Zeropb.C63_decode",
    "Zeropb.C63_reset",
    "Zeropb.C63_reset_nil",
    "Zeropb.C63_get",
    "Zeropb.C63_set",
    "Zeropb.C63_getMessage",
    "Zeropb.C63_setMessage",
    "Zeropb.C63_appendTo",
    "Zeropb.C63_getRepeated",
    "Zeropb.C63_next",
    "Zeropb.C63_call",
    "Zeropb.C63_history_at",
    "Zeropb.C63_history",
    "Zeropb.C63_presence_at",
    "Zeropb.C63_presence",
    "Zeropb.C63_iterate_at",
    "Zeropb.C63_iterate"
   ],
   "note": "The interpreter for generated code (GoSrc/GenSem) is trusted to say what Go does for this subset; a struct parameter is a fresh heap cell. Unicode identifiers other than letters, digits and _ are excluded by GoNames. Histories: bytes given to a setter are apart from the memory the message may write, Decode is given valid input with minimal tags (as in C03)."
  },
  {
   "property": "C64",
   "status": "proved",
   "theorems": [
    "Zeropb.C64_text",
    "Zeropb.C64_new",
    "Zeropb.C64_write",
    "Zeropb.C64_error",
    "Zeropb.C64_writes",
    "Zeropb.C64_generate",
    "Zeropb.C64_files",
    "Zeropb.C64_nil",
    "Zeropb.C64_output",
    "Zeropb.C64_plugin",
    "Zeropb.C64_textPlugin",
    "Zeropb.C64_success"
   ],
   "note": "The lexer, the printer of syntax trees and the interpreter in GoSrc/ToolSem (simplifications in its header: text as characters, int unbounded, pointers into the request as values) are the trusted reading of Go here. scripts/check_sources.py compares the committed text with /repo. What a process wrote before a panic is not kept (the plugin writes nothing before it can panic)."
  },
  {
   "property": "C65",
   "status": "proved",
   "theorems": [
    "Zeropb.C65_program",
    "Zeropb.C65_end_to_end"
   ],
   "note": "Composition of C63 and C64; the trusted readings are those of C62-C64. The Go compiler is represented by the interpreter: that the program type-checks is C44/C52. Calls as in C63: bytes given to a setter are apart from the memory the message may write; Decode is given valid input with minimal tags."
  },
  {
   "property": "C66",
   "status": "proved",
   "theorems": [
    "Zeropb.C66_programs",
    "Zeropb.C66_message",
    "Zeropb.C66_next",
    "Zeropb.C66_compose",
    "Zeropb.C66_append",
    "Zeropb.C66_roundtrip",
    "Zeropb.C66_append_iterate",
    "Zeropb.C66_shared"
   ],
   "note": "The rules are those a Go programmer has to follow; struct assignment (x := *y, two structs with one offset map, C32) and concurrent use (C61) are not part of this run relation. A view that is given a buffer of its own (Reset, Decode) is an owner again. Bytes given to scalar setters are apart from the memory the message may write."
  },
  {
   "property": "C67",
   "status": "proved",
   "theorems": [
    "Zeropb.C67_races",
    "Zeropb.C67_call",
    "Zeropb.C67_fork",
    "Zeropb.C67_readers",
    "Zeropb.C67_rules_needed"
   ],
   "note": "C67_races for any ownership of locations, C67_readers for readers in any memory, C67_fork after a program of C66, C67_call to chain calls, C67_rules_needed: without the rules there is a race. Memory is sequentially consistent, which is what the Go memory model promises to programs without data races. Goroutines do not communicate after the start (no channels or locks): memory that one allocates is not seen by others. Calls return (no panic of its own in a goroutine run alone). Loops of the source are cut off after m t rounds; the theorem holds for every m that is large enough, so the cut is never met."
  },
  {
   "property": "C68",
   "status": "proved",
   "theorems": [
    "Zeropb.C68_source",
    "Zeropb.C68_declares",
    "Zeropb.C68_model",
    "Zeropb.C68_writeText",
    "Zeropb.C68_text",
    "Zeropb.C68_error",
    "Zeropb.C68_history",
    "Zeropb.C68_offsets"
   ],
   "note": "C68_source, C68_declares; C68_model on any struct; C68_writeText, C68_text, C68_error, C68_history; C68_offsets. An io.Writer is the list of what was written to it; %v of floats and strconv.Quote are parameters; nested calls are bounded by a parameter, as the Go stack is."
  },
  {
   "property": "C69",
   "status": "proved",
   "theorems": [
    "Zeropb.C69_compiles",
    "Zeropb.C69_iff",
    "Zeropb.C69_plugin",
    "Zeropb.C69_compilable",
    "Zeropb.C69_false_unclean",
    "Zeropb.C69_false_names"
   ],
   "note": "C69_iff, C69_compiles; C69_plugin from the run of the plugin; C69_compilable for the packages of C65; C69_false_unclean: each condition is needed; C69_false_names: message names that shadow. GoSrc/Check is a specification of what a Go compiler checks, for the syntax generated files use; where it differs from Go it is stricter. Titles: unicode.ToTitle gives no lower-case ASCII letter."
  },
  {
   "property": "C70",
   "status": "proved",
   "theorems": [
    "Zeropb.C70_round",
    "Zeropb.C70_rounds",
    "Zeropb.C70_steady",
    "Zeropb.C70_possible",
    "Zeropb.C70_forever",
    "Zeropb.C70_one_map"
   ],
   "note": "C70_round: one round, exact; C70_rounds: any rounds; C70_steady: equal rounds allocate nothing from the second on; C70_one_map: at most one map per struct variable; C70_possible, C70_forever: the rounds exist. An allocation is a new byte array or a new map; growth inside a Go map is not counted."
  },
  {
   "property": "C71",
   "status": "proved",
   "theorems": [
    "Zeropb.C71_get",
    "Zeropb.C71_get_absent",
    "Zeropb.C71_decode",
    "Zeropb.C71_message",
    "Zeropb.C71_message_absent",
    "Zeropb.C71_iterate",
    "Zeropb.C71_iterate_absent",
    "Zeropb.C71_encode",
    "Zeropb.C71_next",
    "Zeropb.C71_next_end",
    "Zeropb.C71_reset",
    "Zeropb.C71_get_bound"
   ],
   "note": "C71_get, C71_get_absent: the exact list of accesses; C71_get_bound: at most 14, for every message; C71_decode, C71_message, C71_next: the exact bytes read, in order, and a bound on all accesses; C71_message_absent, C71_iterate, C71_iterate_absent, C71_next_end, C71_encode: exact; C71_reset: no byte. A varint is read up to its last byte, as encoding/binary does; len of a slice is not a memory access."
  },
  {
   "property": "C72",
   "status": "proved",
   "theorems": [
    "Zeropb.C72_succeeds",
    "Zeropb.C72_overwrite",
    "Zeropb.C72_first",
    "Zeropb.C72_append",
    "Zeropb.C72_move"
   ],
   "note": "C72_overwrite: the exact bytes written and read; C72_first, C72_append, C72_move: exact if the capacity suffices, and in every case which old bytes may be written; C72_succeeds: the calls return. A message is passed to its setter by value; in the model that copy is a new struct."
  },
  {
   "property": "C73",
   "status": "proved",
   "theorems": [
    "Zeropb.C73_overwrite",
    "Zeropb.C73_shared",
    "Zeropb.C73_serial",
    "Zeropb.C73_fields_needed",
    "Zeropb.C73_lengths_needed"
   ],
   "note": "C73_shared: no data race and results as alone, in every interleaving; C73_serial: the memory at the end is that of any sequential order; C73_overwrite: such a call never fails; C73_fields_needed, C73_lengths_needed: without the conditions there is a race. Getters of message and repeated fields are not among the calls (they fill a struct of the caller: C67)."
  },
  {
   "property": "C74",
   "status": "proved",
   "theorems": [
    "Zeropb.C74_overwrite",
    "Zeropb.C74_first",
    "Zeropb.C74_append",
    "Zeropb.C74_move",
    "Zeropb.C74_linear",
    "Zeropb.C74_append_linear"
   ],
   "note": "C74_overwrite, C74_first, C74_append, C74_move: when the capacity suffices; C74_linear, C74_append_linear: in every case. len of a slice and arithmetic are not counted; a lookup in a Go map counts as one access, what the map does inside is not modelled."
  },
  {
   "property": "C75",
   "status": "proved",
   "theorems": [
    "Zeropb.C75_programs",
    "Zeropb.C75_decode",
    "Zeropb.C75_getter",
    "Zeropb.C75_next",
    "Zeropb.C75_again",
    "Zeropb.C75_reset",
    "Zeropb.C75_truncated",
    "Zeropb.C75_outcome",
    "Zeropb.C75_example"
   ],
   "note": "Extends the programs of C66. A call that decodes unknown bytes is followed only if it returns; recovered panics: C76 (the getters and Decode can panic on some inputs: C14, C15). A struct decoded from unknown bytes is used only to decode into it again or to reset it. Copies of structs by assignment are not covered. C75_outcome says nothing about inputs with a Defect (overlong varints, field numbers outside the table, groups, lengths beyond 2^63)."
  },
  {
   "property": "C76",
   "status": "proved",
   "theorems": [
    "Zeropb.C76_programs",
    "Zeropb.C76_decode",
    "Zeropb.C76_getter",
    "Zeropb.C76_next",
    "Zeropb.C76_again",
    "Zeropb.C76_reset",
    "Zeropb.C76_panics",
    "Zeropb.C76_decode_outcome",
    "Zeropb.C76_getter_outcome",
    "Zeropb.C76_next_outcome",
    "Zeropb.C76_unknown",
    "Zeropb.C76_unknown_field",
    "Zeropb.C76_unknown_element",
    "Zeropb.C76_example"
   ],
   "note": "A panic is a state of the access-by-access interpreter (Conc/Gen): the memory is what the accesses before the panic made of it. C76_decode, C76_getter, C76_next: what has changed; C76_again, C76_reset: the struct is as good as new; C76_*_outcome: returns, panics or never ends (the last: C14_false_diverges); C76_panics: a call that panics does not return. Not modelled: recovering from panics of other calls, and what Go itself does when it unwinds (no deferred functions in this package)."
  },
  {
   "property": "C77",
   "status": "proved",
   "theorems": [
    "Zeropb.C77_programs",
    "Zeropb.C77_get",
    "Zeropb.C77_iterate",
    "Zeropb.C77_message",
    "Zeropb.C77_message_outcome",
    "Zeropb.C77_next",
    "Zeropb.C77_progress",
    "Zeropb.C77_next_outcome",
    "Zeropb.C77_again",
    "Zeropb.C77_reset",
    "Zeropb.C77_example",
    "Zeropb.C77_example_next"
   ],
   "note": "C77_get, C77_iterate: scalar and repeated getters on any contents (always end); C77_message, C77_next: what has changed when they end; C77_*_outcome: return, panic or never end (C14); C77_progress: Next makes progress, if the bytes are fewer than 2^63; C77_again, C77_reset. Not covered: setters on a struct of unknown contents (they write into memory that may be anyone's), String()."
  },
  {
   "property": "C78",
   "status": "proved",
   "theorems": [
    "Zeropb.C78_programs",
    "Zeropb.C78_write",
    "Zeropb.C78_write_panics",
    "Zeropb.C78_outcome",
    "Zeropb.C78_append",
    "Zeropb.C78_reset",
    "Zeropb.C78_example"
   ],
   "note": "C78_write, C78_write_panics: what a setter on any contents may have changed; C78_outcome: it returns or panics; C78_append: AppendToX returns; C78_reset: Reset(nil) after the panic. What such a setter leaves in the struct itself is not described (read-your-writes does not hold there); the struct may not be read again after a panicking setter before Reset(nil)."
  },
  {
   "property": "C79",
   "status": "proved",
   "theorems": [
    "Zeropb.C79_programs",
    "Zeropb.C79_fork",
    "Zeropb.C79_join",
    "Zeropb.C79_back",
    "Zeropb.C79_back_view",
    "Zeropb.C79_ends"
   ],
   "note": "C79_programs: everything known is seen as its record at every moment between waits; C79_fork: no race, results as alone; C79_join: what comes back; C79_back, C79_back_view: which structs come back, by the rights of C67; C79_ends: all goroutines can come to an end. Iterators of goroutines do not come back; goroutines do not start goroutines of their own."
  },
  {
   "property": "C80",
   "status": "proved",
   "theorems": [
    "Zeropb.C80_alone",
    "Zeropb.C80_races",
    "Zeropb.C80_call",
    "Zeropb.C80_fork",
    "Zeropb.C80_server",
    "Zeropb.C80_verdict"
   ],
   "note": "C80_races, C80_fork: no race, results as alone, for goroutines whose calls return or panic; C80_alone: what a goroutine does alone is determined; C80_call: what it may use after a panic; C80_server, C80_verdict: decoding requests. Calls that never end (C14) are excluded.  C81 has programs that wait for such goroutines."
  },
  {
   "property": "C81",
   "status": "proved",
   "theorems": [
    "Zeropb.C81_programs",
    "Zeropb.C81_fork",
    "Zeropb.C81_join",
    "Zeropb.C81_back",
    "Zeropb.C81_reset",
    "Zeropb.C81_ends"
   ],
   "note": "C81_programs: the contents of all structs, at every moment of such a program; C81_fork: no race, results as alone; C81_join: what comes back; C81_back: which structs; C81_reset: a struct of unknown contents can be recycled; C81_ends: all goroutines end. Iterators that goroutines had come back as iterators of which only the type is known; goroutines do not start goroutines."
  },
  {
   "property": "C82",
   "status": "proved",
   "theorems": [
    "Zeropb.C82_values",
    "Zeropb.C82_decode",
    "Zeropb.C82_message",
    "Zeropb.C82_next",
    "Zeropb.C82_read",
    "Zeropb.C82_return",
    "Zeropb.C82_panics"
   ],
   "note": "C82_values: compatible types; C82_decode, C82_message, C82_next: what the receiver has (Carried, stated from the two message types alone); C82_read: what its getters return; C82_return: there and back; C82_panics: numbers that are too high. Messages in fields are compared as bytes: the theorem applies to them again, level by level. sint64 to sint32 is not covered (protobuf allows it for values that fit)."
  },
  {
   "property": "C83",
   "status": "proved",
   "theorems": [
    "Zeropb.C83_values",
    "Zeropb.C83_elements",
    "Zeropb.C83_new",
    "Zeropb.C83_set",
    "Zeropb.C83_decode",
    "Zeropb.C83_read"
   ],
   "note": "C83_new, C83_set, C83_decode: every program written with new, setters, appends and Decode makes a Journey, and Decode returns nil; C83_values, C83_elements: the contents at any point of it; C83_read: what getters return. The steps are tied to runs of the programs by C83_decode (the state of the sender is any reachable state with the contents of the journey). Messages in fields count as bytes."
  },
  {
   "property": "C84",
   "status": "proved",
   "theorems": [
    "Zeropb.C84_runtime",
    "Zeropb.C84_tools",
    "Zeropb.C84_text",
    "Zeropb.C84_generated",
    "Zeropb.C84_complete"
   ],
   "note": "ReadsOnlyAs: grouped by the rules of Spec/GoExpr, same tokens, no other grouping; C84_runtime, C84_tools, C84_text: the files; C84_generated: all generated declarations; C84_complete: no operator is outside of these expressions. Expressions within a statement: how keywords, braces and semicolons split statements is not read again here"
  },
  {
   "property": "C85",
   "status": "proved",
   "theorems": [
    "Zeropb.C85_api",
    "Zeropb.C85_kept",
    "Zeropb.C85_iff",
    "Zeropb.C85_adds",
    "Zeropb.C85_verbatim",
    "Zeropb.C85_output"
   ],
   "note": "C85_api: what the trees provide is MessageApi of the messages; C85_kept, C85_iff: kept API iff Keeps (the converse under Once, no name declared twice, as is needed to compile); C85_adds, C85_verbatim: only additions; C85_output: for the tokens of what generate returns. Unexported functions and struct fields are not API and are not listed"
  },
  {
   "property": "C86",
   "status": "proved",
   "theorems": [
    "Zeropb.C86_request",
    "Zeropb.C86_response",
    "Zeropb.C86_encode",
    "Zeropb.C86_encodeResponse",
    "Zeropb.C86_mergeField",
    "Zeropb.C86_mergeMessage",
    "Zeropb.C86_mergeFile",
    "Zeropb.C86_mergeRequest",
    "Zeropb.C86_unused",
    "Zeropb.C86_plugin",
    "Zeropb.C86_same",
    "Zeropb.C86_end_to_end"
   ],
   "note": "Spec/Plugin: the messages on the wire. C86_request, C86_response: at most one reading; C86_encode, C86_encodeResponse: encodings exist; C86_merge*: concatenated encodings, the last value counts; C86_unused: SameInput inputs are the same request; C86_plugin, C86_same, C86_end_to_end: the plugin run from its source, with a library that satisfies Library. golang/protobuf itself is not in the repository: that it satisfies Library is assumed. Strings that are not UTF-8, and groups, are not read; protoc-gen-text prints unused fields too and is not covered"
  }
 ]
}