{
 "claims": [
  {
   "property": "C01",
   "status": "proved",
   "theorems": [
    "Verif.C01_unpack_expression",
    "Verif.C01_unpack_field",
    "Verif.C01_unpack_defined"
   ],
   "note": "expression level and whole Unpack function"
  },
  {
   "property": "C02",
   "status": "partial",
   "theorems": [
    "Verif.C02_refuted",
    "Verif.C02_exact_partial"
   ],
   "note": "the property is false of the code: counterexample, and the exact set of layouts on which Unpack is right for all payloads"
  },
  {
   "property": "C03",
   "status": "proved",
   "theorems": [
    "Verif.C03_sign_extension",
    "Verif.C03_ext_sig"
   ],
   "note": ""
  },
  {
   "property": "C04",
   "status": "partial",
   "theorems": [
    "Verif.C04_refuted",
    "Verif.C04_unpack_never_defined",
    "Verif.C04_partial"
   ],
   "note": "the property is false of the code for every width 33..64 (undefined shift); exact set of widths for which it holds"
  },
  {
   "property": "C05",
   "status": "proved",
   "theorems": [
    "Verif.C05_pack_bits",
    "Verif.C05_fields_kept",
    "Verif.C05_pack_defined"
   ],
   "note": "definedness is proved when physical conversions are off (USE_SIGFLOAT) or trivial; the bit theorem holds for every run that ends"
  },
  {
   "property": "C06",
   "status": "proved",
   "theorems": [
    "Verif.C06_pack_unpack",
    "Verif.C06_user_values"
   ],
   "note": ""
  },
  {
   "property": "C07",
   "status": "proved",
   "theorems": [
    "Verif.C07_unpack_pack"
   ],
   "note": ""
  },
  {
   "property": "C08",
   "status": "proved",
   "theorems": [
    "Verif.C08_no_interference"
   ],
   "note": ""
  },
  {
   "property": "C09",
   "status": "partial",
   "theorems": [
    "Verif.C09_refuted",
    "Verif.C09_exact_partial"
   ],
   "note": "the property is false of the code for fills with bits on signals; exact set of fills for which it holds"
  },
  {
   "property": "C10",
   "status": "proved",
   "theorems": [
    "Verif.C10_unpack_reads",
    "Verif.C10_unpack_local",
    "Verif.C10_pack_writes"
   ],
   "note": ""
  },
  {
   "property": "C11",
   "status": "partial",
   "theorems": [
    "Verif.C11_refuted_overrun",
    "Verif.C11_refuted_wrap",
    "Verif.C11_refuted_clamp",
    "Verif.C11_exact_partial",
    "Verif.C11_fitting_partial"
   ],
   "note": "the property is false of the code; exact outcome of the generator for all positions up to 511"
  },
  {
   "property": "C17",
   "status": "proved",
   "theorems": [
    "Verif.C17_monitor",
    "Verif.C17_monitor_off"
   ],
   "note": "every history of calls"
  },
  {
   "property": "C18",
   "status": "proved",
   "theorems": [
    "Verif.C18_rolling_counter",
    "Verif.C18_wide_counter"
   ],
   "note": "every history of calls; widths from 31 bits are shown to be undefined in the generator"
  },
  {
   "property": "C19",
   "status": "partial",
   "theorems": [
    "Verif.C19_refuted",
    "Verif.C19_refuted_signed",
    "Verif.C19_consecutive_partial",
    "Verif.C19_lost_frames_partial"
   ],
   "note": "false for signed counters in wider members (counterexample and general theorem); proved exactly for all other counters"
  },
  {
   "property": "C20",
   "status": "partial",
   "theorems": [
    "Verif.C20_refuted",
    "Verif.C20_csm_error",
    "Verif.C20_checksum_partial"
   ],
   "note": "false for hashes that depend on the checksum bits (counterexample); proved for all others"
  },
  {
   "property": "C21",
   "status": "proved",
   "theorems": [
    "Verif.C21_same_frame"
   ],
   "note": ""
  },
  {
   "property": "C22",
   "status": "proved",
   "theorems": [
    "Verif.C22_dispatch",
    "Verif.C22_receive"
   ],
   "note": "for every permutation std::sort may return, duplicates included"
  },
  {
   "property": "C23",
   "status": "proved",
   "theorems": [
    "Verif.C23_nodes",
    "Verif.C23_node_messages",
    "Verif.C23_node_receive",
    "Verif.C23_same_id"
   ],
   "note": "distinct ids as in the statement; C23_same_id shows the assumption is needed"
  },
  {
   "property": "C43",
   "status": "partial",
   "theorems": [
    "Verif.C43_refuted",
    "Verif.C43_unreachable",
    "Verif.C43_partial"
   ],
   "note": "false for shared numbers: for every such pair one message is never dispatched"
  },
  {
   "property": "C44",
   "status": "partial",
   "theorems": [
    "Verif.C44_refuted",
    "Verif.C44_partial"
   ],
   "note": "false for id 0"
  },
  {
   "property": "C45",
   "status": "partial",
   "theorems": [
    "Verif.C45_refuted",
    "Verif.C45_partial"
   ],
   "note": "exact condition for a collision"
  },
  {
   "property": "C12",
   "status": "proved",
   "theorems": [
    "Verif.C12_raw_type",
    "Verif.C12_typeOk",
    "Verif.C12_undefined_widths",
    "Verif.C12_unsigned_char"
   ],
   "note": "for the hosts in the statement; the other theorems show where the generator itself relies on undefined or implementation-defined conversions"
  },
  {
   "property": "C13",
   "status": "partial",
   "theorems": [
    "Verif.C13_refuted",
    "Verif.C13_zero_factor",
    "Verif.C13_positive_partial",
    "Verif.C13_exact_partial"
   ],
   "note": "false for negative factors; proved for positive factors and exactly characterised"
  },
  {
   "property": "C14",
   "status": "partial",
   "theorems": [
    "Verif.C14_refuted",
    "Verif.C14_refuted_overflow",
    "Verif.C14_exact_partial",
    "Verif.C14_unpack_partial",
    "Verif.C14_defined_partial",
    "Verif.C14_parser_partial"
   ],
   "note": "false where the macro computes in unsigned int or overflows int; exact condition, macro and function level"
  },
  {
   "property": "C15",
   "status": "partial",
   "theorems": [
    "Verif.C15_refuted",
    "Verif.C15_inverse_partial",
    "Verif.C15_parser_partial",
    "Verif.C15_roundtrip_partial"
   ],
   "note": "false for unsigned physical types with negative factor; proved when the computation type holds the values, macro and message level"
  },
  {
   "property": "C16",
   "status": "partial",
   "theorems": [
    "Verif.C16_refuted",
    "Verif.C16_first_partial",
    "Verif.C16_own_partial"
   ],
   "note": "false for same-named signals with different scaling; the first signal's macros are used"
  },
  {
   "property": "C46",
   "status": "partial",
   "theorems": [
    "Verif.C15_refuted",
    "Verif.C46_pack_phys_partial"
   ],
   "note": "proved for the values the computation type holds"
  },
  {
   "property": "C33",
   "status": "proved",
   "theorems": [
    "Verif.C33_characterisation",
    "Verif.C33_identifier",
    "Verif.C33_unchanged",
    "Verif.C33_idempotent"
   ],
   "note": ""
  },
  {
   "property": "C34",
   "status": "proved",
   "theorems": [
    "Verif.C34_printed"
   ],
   "note": "for the ten-digit text of the value that the stream produces"
  },
  {
   "property": "C35",
   "status": "proved",
   "theorems": [
    "Verif.C35_trim",
    "Verif.C35_empty",
    "Verif.C35_non_ascii"
   ],
   "note": "parameterised by the range of char"
  },
  {
   "property": "C36",
   "status": "partial",
   "theorems": [
    "Verif.C36_refuted",
    "Verif.C36_files_partial",
    "Verif.C36_failed_open",
    "Verif.C36_long_line"
   ],
   "note": "exact when all files open; the failing case is characterised"
  },
  {
   "property": "C37",
   "status": "proved",
   "theorems": [
    "Verif.C37_pairs",
    "Verif.C37_options",
    "Verif.C37_order",
    "Verif.C37_valid"
   ],
   "note": ""
  },
  {
   "property": "C38",
   "status": "partial",
   "theorems": [
    "Verif.C38_refuted",
    "Verif.C38_outside",
    "Verif.C38_overwrites",
    "Verif.C38_fresh_partial",
    "Verif.C38_no_write"
   ],
   "note": "false: the numbered directory is created but no file is ever written into it"
  },
  {
   "property": "C39",
   "status": "proved",
   "theorems": [
    "Verif.C39_file_name",
    "Verif.C39_combine"
   ],
   "note": ""
  },
  {
   "property": "C47",
   "status": "partial",
   "theorems": [
    "Verif.C47_refuted",
    "Verif.C47_exact_partial",
    "Verif.C47_nonzero_partial"
   ],
   "note": "false beyond nine decimal places"
  },
  {
   "property": "C48",
   "status": "partial",
   "theorems": [
    "Verif.C48_refuted",
    "Verif.C48_defined_partial",
    "Verif.C48_driverdir"
   ],
   "note": "false when -out has no value"
  },
  {
   "property": "C24",
   "status": "partial",
   "theorems": [
    "Verif.C24_limits",
    "Verif.C24_list",
    "Verif.C24_accept_partial",
    "Verif.C24_refuted"
   ],
   "note": "limits of every accepted line are proved; acceptance is exact for DLCs below 256 and refuted above"
  },
  {
   "property": "C25",
   "status": "partial",
   "theorems": [
    "Verif.C25_header_partial",
    "Verif.C25_refuted"
   ],
   "note": "false for one-letter transmitters"
  },
  {
   "property": "C26",
   "status": "partial",
   "theorems": [
    "Verif.C26_signal_partial",
    "Verif.C26_any_partial",
    "Verif.C26_refuted",
    "Verif.C26_refuted_tiny"
   ],
   "note": "false for lines without receivers, units with blank-colon-blank and tiny factors"
  },
  {
   "property": "C27",
   "status": "proved",
   "theorems": [
    "Verif.C27_sections",
    "Verif.C27_lines",
    "Verif.C27_lines_all",
    "Verif.C27_signal_line"
   ],
   "note": "for every file whose parsing ends and every std::sort"
  },
  {
   "property": "C28",
   "status": "partial",
   "theorems": [
    "Verif.C28_refuted",
    "Verif.C28_exact_partial",
    "Verif.C28_no_larger",
    "Verif.C28_single",
    "Verif.C28_stale"
   ],
   "note": "false: the last message is not considered; exact value for every file"
  },
  {
   "property": "C31",
   "status": "proved",
   "theorems": [
    "Verif.C31_receivers",
    "Verif.C31_transmitters_once",
    "Verif.C31_transmitters_added",
    "Verif.C31_transmitters_kept",
    "Verif.C31_transmitters_only"
   ],
   "note": "for every file whose parsing ends"
  },
  {
   "property": "C29",
   "status": "partial",
   "theorems": [
    "Verif.C29_cycle_partial",
    "Verif.C29_comment_partial",
    "Verif.C29_sigComment_partial",
    "Verif.C29_values_partial",
    "Verif.C29_other",
    "Verif.C29_unknown_changes_last",
    "Verif.C29_refuted",
    "Verif.C29_refuted_suffix"
   ],
   "note": "proved for known ids; an unknown id changes the last message, which is proved for every list"
  },
  {
   "property": "C30",
   "status": "partial",
   "theorems": [
    "Verif.C30_stored_partial",
    "Verif.C30_scaled",
    "Verif.C30_refuted"
   ],
   "note": "false for every scaled signal, which is proved"
  },
  {
   "property": "C32",
   "status": "partial",
   "theorems": [
    "Verif.C32_one_piece_partial",
    "Verif.C32_file_partial",
    "Verif.C32_pending",
    "Verif.C32_comment_partial",
    "Verif.C32_refuted"
   ],
   "note": "proved when only first lines begin with a keyword and only last lines end with a semicolon; false otherwise"
  },
  {
   "property": "C50",
   "status": "proved",
   "theorems": [
    "Verif.C50_types",
    "Verif.C50_tags",
    "Verif.C50_generator_conditions"
   ],
   "note": "for every file whose parsing ends; types on the hosts of C12"
  },
  {
   "property": "C51",
   "status": "proved",
   "theorems": [
    "Verif.C51_uninitialised"
   ],
   "note": ""
  },
  {
   "property": "C52",
   "status": "partial",
   "theorems": [
    "Verif.C52_roll",
    "Verif.C52_checksum_partial",
    "Verif.C52_no_checksum",
    "Verif.C52_refuted",
    "Verif.C52_exact"
   ],
   "note": "rolling counter exact; checksum tag exact up to what stands around it"
  },
  {
   "property": "C42",
   "status": "partial",
   "theorems": [
    "Verif.C42_version_partial",
    "Verif.C42_last_line",
    "Verif.C42_no_version",
    "Verif.C42_line",
    "Verif.C42_refuted"
   ],
   "note": "parsed version numbers; the generated version check is C56; false for numbers above 2^32-1"
  },
  {
   "property": "C49",
   "status": "partial",
   "theorems": [
    "Verif.C49_only_partial",
    "Verif.C49_always",
    "Verif.C49_refuted"
   ],
   "note": "exactly the files with an oversized number in a line of version shape end with an exception"
  },
  {
   "property": "C53",
   "status": "proved",
   "theorems": [
    "Verif.C53_unpack_text",
    "Verif.C53_pack_text",
    "Verif.C53_always"
   ],
   "note": "value claims for layouts that fit (C01 for 33..64 bit signals that start inside a byte); every text is an expression, empty or the error text"
  },
  {
   "property": "C41",
   "status": "partial",
   "theorems": [
    "Verif.C41_exact",
    "Verif.C41_signals_partial",
    "Verif.C41_short_partial",
    "Verif.C41_refuted",
    "Verif.C41_refuted_scale"
   ],
   "note": "exact condition for completion; false for long rolling counter names and for integer factors or offsets outside int32"
  },
  {
   "property": "C54",
   "status": "partial",
   "theorems": [
    "Verif.C54_model_partial",
    "Verif.C54_compiles_partial",
    "Verif.C54_refuted"
   ],
   "note": "proved for every driver whose names are identifiers, are no macros and are not too long, and whose macros are defined once (structure DriverOk, with a check that can be run); the user's headers and FrameMonitor_t are not part of the text; false when a type and a function get the same name"
  },
  {
   "property": "C55",
   "status": "partial",
   "theorems": [
    "Verif.C55_compiled_partial",
    "Verif.C55_round_trip_partial"
   ],
   "note": "under the conditions of C54, for messages that fit the payload, without physical conversions (those are C14/C15) and with signed signals of at most 32 bits (C04)"
  },
  {
   "property": "C56",
   "status": "partial",
   "theorems": [
    "Verif.C56_mismatch_partial",
    "Verif.C56_check_partial"
   ],
   "note": "under the conditions of C54 on names and macros"
  },
  {
   "property": "C57",
   "status": "partial",
   "theorems": [
    "Verif.C57_receive_partial",
    "Verif.C57_id_partial",
    "Verif.C57_compiles_partial",
    "Verif.C57_mismatch_partial",
    "Verif.C57_refuted"
   ],
   "note": "under the conditions of C54 and that no name the util files use is a macro; that the files compile is false in general (a message can be named like a type of the util files), exactly when two names clash"
  },
  {
   "property": "C40",
   "status": "partial",
   "theorems": [
    "Verif.C40_first_partial",
    "Verif.C40_table_partial",
    "Verif.C40_defined_partial",
    "Verif.C40_refuted"
   ],
   "note": "under the conditions of C54; false in general: two signals can give one macro name (A_B in C, A in B_C), and values from 2^31 on are printed as negative numbers"
  },
  {
   "property": "C58",
   "status": "partial",
   "theorems": [
    "Verif.C58_constants_partial"
   ],
   "note": "under the conditions of C54 and for values below 2^32"
  },
  {
   "property": "C59",
   "status": "partial",
   "theorems": [
    "Verif.C59_pipeline_partial"
   ],
   "note": "raw values only, under the conditions of C54; signed signals up to 32 bits; frames with a checksum up to 8 bytes"
  },
  {
   "property": "C60",
   "status": "partial",
   "theorems": [
    "Verif.C60_compiled_partial",
    "Verif.C60_pipeline_partial"
   ],
   "note": "under the conditions of C54 on names and macros; positive whole factors with conversion values of type int (or unsigned for wide signals); signals of one name have one conversion (C16); the conversion is wrong in general outside of that (C13, C14, C15)"
  },
  {
   "property": "C61",
   "status": "partial",
   "theorems": [
    "Verif.C61_model_partial",
    "Verif.C61_dir_partial",
    "Verif.C61_frame_refuted",
    "Verif.C61_float_refuted"
   ],
   "note": "under the conditions of C54; false for the files as they are with two of the switches: USE_CANSTRUCT needs a type no generated file declares, USE_SIGFLOAT needs the declaration of sigfloat_t that dbccodeconf.h has as a comment (with these declarations in dbccodeconf.h the claim holds)"
  },
  {
   "property": "C62",
   "status": "partial",
   "theorems": [
    "Verif.C62_link_partial",
    "Verif.C62_dir_partial"
   ],
   "note": "under the conditions of C61 and if the user does not define the version macros of the monitor functions; a static function counts as visible to other units; the utility files are not in the directory"
  },
  {
   "property": "C63",
   "status": "partial",
   "theorems": [
    "Verif.C63_program_partial",
    "Verif.C63_dir_partial"
   ],
   "note": "under the conditions of C62 and C57; all files in one directory (the generator writes the util files to another one, and the user sets the include paths); the util unit calls Unpack_M by its answer, there is no common memory of the units: the struct of each message has its own state"
  },
  {
   "property": "C64",
   "status": "partial",
   "theorems": [
    "Verif.C64_driver_partial",
    "Verif.C64_receive_partial"
   ],
   "note": "conditions of C59, C60 and C63: distinct message ids, names the generated code can use, signed signals of at most 32 bits, with USE_CANSTRUCT the struct of the frame declared by the user; all files in one directory, the util unit calls Unpack_M by its answer, the struct of each message has its own state"
  },
  {
   "property": "C65",
   "status": "partial",
   "theorems": [
    "Verif.C65_driver_partial",
    "Verif.C65_node_partial",
    "Verif.C65_config"
   ],
   "note": "the conditions of C64 (names the generated code can use, distinct ids, signed signals of at most 32 bits, with USE_CANSTRUCT the struct of the frame declared in dbccodeconf.h); the text of the date is one comment line; the util files without -nofmon, and those of a node with -nodeutils, those of all messages without (C71); the file system does not change during the run, and printing to the console is left out"
  },
  {
   "property": "C66",
   "status": "partial",
   "theorems": [
    "Verif.C66_trace_partial",
    "Verif.C66_run_partial"
   ],
   "note": "the conditions of C64 and C65; frames with the id of a message outside these conditions (signed signals over 32 bits, a checksum over more than 8 bytes, a scaled signal whose factor the generated code does not round to) are left out; roll_error for unsigned counters only; the received bytes are at least as many as the message has"
  },
  {
   "property": "C67",
   "status": "partial",
   "theorems": [
    "Verif.C67_exchange_partial",
    "Verif.C67_run_partial"
   ],
   "note": "the conditions of C64 to C66 for sender and receiver (among them: with USE_CANSTRUCT the struct of the frame declared by the user, signed signals of at most 32 bits, a checksum only over at most 8 bytes); no value for a signal over 32 bits that does not begin at a byte border (C19); physical values of the sender are those of some raw value"
  },
  {
   "property": "C68",
   "status": "partial",
   "theorems": [
    "Verif.C68_alarms_partial",
    "Verif.C68_run_partial"
   ],
   "note": "the conditions of C67; unsigned counters (a signed one raises false alarms, C19_refuted_signed) that are not the checksum too; checksum functions that do not look at the checksum bits (C20_refuted shows why)"
  },
  {
   "property": "C69",
   "status": "partial",
   "theorems": [
    "Verif.C69_file_partial"
   ],
   "note": "statements about ids that do not occur change the last message (C29_refuted); a name that concerns two signals (X and X_ro, C29_refuted_suffix) and checksum tags behind a < or before a colon (C52_refuted) are left out"
  },
  {
   "property": "C70",
   "status": "partial",
   "theorems": [
    "Verif.C70_refused",
    "Verif.C70_throws",
    "Verif.C70_done",
    "Verif.C70_texts_partial",
    "Verif.C70_refuted"
   ],
   "note": "false for the texts: the text of a file that cannot be opened is put before the text of the next file of the same generator (C70_refuted, C36_refuted); proved: everything else, exactly which text each file gets, and that all texts are right when all files can be opened"
  },
  {
   "property": "C71",
   "status": "partial",
   "theorems": [
    "Verif.C71_run_partial",
    "Verif.C71_exchange_partial",
    "Verif.C71_refuted"
   ],
   "note": "the conditions of C66 and C67; false in general, since a message <drv>_rx has the name of a type of the util files (C71_refuted)"
  },
  {
   "property": "C72",
   "status": "partial",
   "theorems": [
    "Verif.C72_lost_partial",
    "Verif.C72_run_partial"
   ],
   "note": "the conditions of C68 and C69: an unsigned counter that is not the checksum too, comments in the usual spelling about ids of the file, checksum functions that do not look at the checksum bits"
  },
  {
   "property": "C73",
   "status": "partial",
   "theorems": [
    "Verif.C73_frame_partial",
    "Verif.C73_data8_refuted"
   ],
   "note": "the conditions of C61 and, for the defined calls, of C55; false for the documented Data[8] and messages of more than 8 bytes; between the validated length and the DLC (user lowers the macro of the maximal length) nothing is said"
  },
  {
   "property": "C74",
   "status": "proved",
   "theorems": [
    "Verif.C74_dirs",
    "Verif.C74_names"
   ],
   "note": "std::sort by its specification (a sorted rearrangement), for messages and signals; the file system as asked before the run"
  },
  {
   "property": "C75",
   "status": "partial",
   "theorems": [
    "Verif.C75_once_partial",
    "Verif.C75_refuted"
   ],
   "note": "false for node names that differ in the case of letters only; proved for all other runs, and the condition is exact; letter case of the file system counts, links are not modelled"
  },
  {
   "property": "C76",
   "status": "partial",
   "theorems": [
    "Verif.C76_order_partial",
    "Verif.C76_generate",
    "Verif.C76_refuted"
   ],
   "note": "false when the last message changes; proved when it stays, for distinct ids, sections without BO_TX_BU_ and version lines, no attribute or value table before the last message, and every file can be opened; with a CM_ line before the messages (list NS_) a comment has to begin before any statement ends; std::sort by its specification"
  },
  {
   "property": "C77",
   "status": "partial",
   "theorems": [
    "Verif.C77_scanner_partial",
    "Verif.C77_run_partial",
    "Verif.C77_refuted"
   ],
   "note": "false for equal start bits; proved for different ones; sections without BO_TX_BU_ and version lines, no attribute or value table before the last of the rearranged sections; with a CM_ line before them (list NS_) a comment has to begin before any statement ends; std::sort by its specification"
  },
  {
   "property": "C78",
   "status": "partial",
   "theorems": [
    "Verif.C78_rewrite_partial",
    "Verif.C78_numbered_partial",
    "Verif.C78_refuted"
   ],
   "note": "false when the DBC file has the name of a generated file; proved otherwise; clock and permissions stay the same; without -rw for an output directory without numbered directories at first"
  },
  {
   "property": "C79",
   "status": "partial",
   "theorems": [
    "Verif.C79_scanner_partial",
    "Verif.C79_run_partial",
    "Verif.C79_refuted"
   ],
   "note": "false for statements about the same thing, and for two rolling counters or checksums of one message; proved for statements about different things, in files that consist of statements of the grammar (C69; a list NS_ with a line CM_ is allowed when a comment begins before any statement ends, or with the lines up to the next end as one statement), with distinct message ids, statements about known messages, and statement lines that are not headers, signals, transmitters or versions"
  },
  {
   "property": "C80",
   "status": "partial",
   "theorems": [
    "Verif.C80_scanner_partial",
    "Verif.C80_run_partial",
    "Verif.C80_crlf_partial",
    "Verif.C80_refuted"
   ],
   "note": "false for blank lines inside a statement (an empty line of a comment is kept with line ends of Unix and lost with those of Windows, C80_refuted); proved for all files without them, whatever else is in the lines, also for files that cannot be parsed"
  },
  {
   "property": "C81",
   "status": "partial",
   "theorems": [
    "Verif.C81_field_partial",
    "Verif.C81_message_partial",
    "Verif.C81_lost",
    "Verif.C81_refuted"
   ],
   "note": "false for a text that ends in a backslash: the line below is lost whatever it is (C81_lost), and with it a member of the struct (C81_refuted, two whole runs); proved for all other texts, with backslashes and line ends anywhere else. That the members are there in the whole header is C54 to C72, under the same condition."
  },
  {
   "property": "C82",
   "status": "partial",
   "theorems": [
    "Verif.C82_scanner_partial",
    "Verif.C82_run_partial",
    "Verif.C82_strip_partial",
    "Verif.C82_refuted"
   ],
   "note": "false for a line with such a keyword that contains a word beginning with SG_ and reads like a signal from the colon on (C82_refuted); proved for all lines that have no such word or no colon, for all files, also those that cannot be parsed. Lines inside a statement are part of it and are excluded."
  },
  {
   "property": "C83",
   "status": "partial",
   "theorems": [
    "Verif.C83_ignored",
    "Verif.C83_refuted"
   ],
   "note": "false: the declaration has no effect (C83_ignored, for all files with it at the end; C82_run_partial for other places), and a signal declared as float is an integer member of the header (C83_refuted)"
  },
  {
   "property": "C84",
   "status": "partial",
   "theorems": [
    "Verif.C84_generator",
    "Verif.C84_scanner_partial",
    "Verif.C84_files_partial",
    "Verif.C84_run_partial",
    "Verif.C84_lines_partial"
   ],
   "note": "C84_generator: for all lists of messages that differ in descriptions only. C84_files_partial: for all pairs of files that differ after the messages, with distinct ids and without the character < in any line (a tag needs it; a tag selects counter or checksum, so there the functions do change). C84_run_partial: on the disk after two runs that come to the end, every path but the header of the driver and the util files. C84_lines_partial: the same with the condition on the lines read off their text. Not covered: units and ranges changed in the signal lines on the level of the file, the util files, and that the second run comes to the end if the first does."
  }
 ]
}