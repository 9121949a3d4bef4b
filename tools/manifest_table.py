c("C01","proved","C01_unpack_expression C01_unpack_field C01_unpack_defined","expression level and whole Unpack function")
c("C02","partial","C02_refuted C02_exact_partial","the property is false of the code: counterexample, and the exact set of layouts on which Unpack is right for all payloads")
c("C03","proved","C03_sign_extension C03_ext_sig","")
c("C04","partial","C04_refuted C04_unpack_never_defined C04_partial","the property is false of the code for every width 33..64 (undefined shift); exact set of widths for which it holds")
c("C05","proved","C05_pack_bits C05_fields_kept C05_pack_defined","definedness is proved when physical conversions are off (USE_SIGFLOAT) or trivial; the bit theorem holds for every run that ends")
c("C06","proved","C06_pack_unpack C06_user_values","")
c("C07","proved","C07_unpack_pack","")
c("C08","proved","C08_no_interference","")
c("C09","partial","C09_refuted C09_exact_partial","the property is false of the code for fills with bits on signals; exact set of fills for which it holds")
c("C10","proved","C10_unpack_reads C10_unpack_local C10_pack_writes","")
c("C11","partial","C11_refuted_overrun C11_refuted_wrap C11_refuted_clamp C11_exact_partial C11_fitting_partial","the property is false of the code; exact outcome of the generator for all positions up to 511")
c("C17","proved","C17_monitor C17_monitor_off","every history of calls")
c("C18","proved","C18_rolling_counter C18_wide_counter","every history of calls; widths from 31 bits are shown to be undefined in the generator")
c("C19","partial","C19_refuted C19_refuted_signed C19_consecutive_partial C19_lost_frames_partial","false for signed counters in wider members (counterexample and general theorem); proved exactly for all other counters")
c("C20","partial","C20_refuted C20_csm_error C20_checksum_partial","false for hashes that depend on the checksum bits (counterexample); proved for all others")
c("C21","proved","C21_same_frame","")
c("C22","proved","C22_dispatch C22_receive","for every permutation std::sort may return, duplicates included")
c("C23","proved","C23_nodes C23_node_messages C23_node_receive C23_same_id","distinct ids as in the statement; C23_same_id shows the assumption is needed")
c("C43","partial","C43_refuted C43_unreachable C43_partial","false for shared numbers: for every such pair one message is never dispatched")
c("C44","partial","C44_refuted C44_partial","false for id 0")
c("C45","partial","C45_refuted C45_partial","exact condition for a collision")
c("C12","proved","C12_raw_type C12_typeOk C12_undefined_widths C12_unsigned_char","for the hosts in the statement; the other theorems show where the generator itself relies on undefined or implementation-defined conversions")
c("C13","partial","C13_refuted C13_zero_factor C13_positive_partial C13_exact_partial","false for negative factors; proved for positive factors and exactly characterised")
c("C14","partial","C14_refuted C14_refuted_overflow C14_exact_partial C14_unpack_partial C14_defined_partial C14_parser_partial","false where the macro computes in unsigned int or overflows int; exact condition, macro and function level")
c("C15","partial","C15_refuted C15_inverse_partial C15_parser_partial C15_roundtrip_partial","false for unsigned physical types with negative factor; proved when the computation type holds the values, macro and message level")
c("C16","partial","C16_refuted C16_first_partial C16_own_partial","false for same-named signals with different scaling; the first signal's macros are used")
c("C46","partial","C15_refuted C46_pack_phys_partial","proved for the values the computation type holds")
c("C33","proved","C33_characterisation C33_identifier C33_unchanged C33_idempotent","")
c("C34","proved","C34_printed","for the ten-digit text of the value that the stream produces")
c("C35","proved","C35_trim C35_empty C35_non_ascii","parameterised by the range of char")
c("C36","partial","C36_refuted C36_files_partial C36_failed_open C36_long_line","exact when all files open; the failing case is characterised")
c("C37","proved","C37_pairs C37_options C37_order C37_valid","")
c("C38","partial","C38_refuted C38_outside C38_overwrites C38_fresh_partial C38_no_write","false: the numbered directory is created but no file is ever written into it")
c("C39","proved","C39_file_name C39_combine","")
c("C47","partial","C47_refuted C47_exact_partial C47_nonzero_partial","false beyond nine decimal places")
c("C48","partial","C48_refuted C48_defined_partial C48_driverdir","false when -out has no value")
c("C24","partial","C24_limits C24_list C24_accept_partial C24_refuted","limits of every accepted line are proved; acceptance is exact for DLCs below 256 and refuted above")
c("C25","partial","C25_header_partial C25_refuted","false for one-letter transmitters")
c("C26","partial","C26_signal_partial C26_any_partial C26_refuted C26_refuted_tiny","false for lines without receivers, units with blank-colon-blank and tiny factors")
c("C27","proved","C27_sections C27_lines C27_lines_all C27_signal_line","for every file whose parsing ends and every std::sort")
c("C28","partial","C28_refuted C28_exact_partial C28_no_larger C28_single C28_stale","false: the last message is not considered; exact value for every file")
c("C31","proved","C31_receivers C31_transmitters_once C31_transmitters_added C31_transmitters_kept C31_transmitters_only","for every file whose parsing ends")
c("C29","partial","C29_cycle_partial C29_comment_partial C29_sigComment_partial C29_values_partial C29_other C29_unknown_changes_last C29_refuted C29_refuted_suffix","proved for known ids; an unknown id changes the last message, which is proved for every list")
c("C30","partial","C30_stored_partial C30_scaled C30_refuted","false for every scaled signal, which is proved")
c("C32","partial","C32_one_piece_partial C32_file_partial C32_pending C32_comment_partial C32_refuted","proved when only first lines begin with a keyword and only last lines end with a semicolon; false otherwise")
c("C50","proved","C50_types C50_tags C50_generator_conditions","for every file whose parsing ends; types on the hosts of C12")
c("C51","proved","C51_uninitialised","")
c("C52","partial","C52_roll C52_checksum_partial C52_no_checksum C52_refuted C52_exact","rolling counter exact; checksum tag exact up to what stands around it")
c("C42","partial","C42_version_partial C42_last_line C42_no_version C42_line C42_refuted","parsed version numbers; the generated version check is C56; false for numbers above 2^32-1")
c("C49","partial","C49_only_partial C49_always C49_refuted","exactly the files with an oversized number in a line of version shape end with an exception")
c("C53","proved","C53_unpack_text C53_pack_text C53_always","value claims for layouts that fit (C01 for 33..64 bit signals that start inside a byte); every text is an expression, empty or the error text")
c("C41","partial","C41_exact C41_signals_partial C41_short_partial C41_refuted C41_refuted_scale","exact condition for completion; false for long rolling counter names and for integer factors or offsets outside int32")
c("C54","partial","C54_model_partial C54_compiles_partial C54_refuted","proved for every driver whose names are identifiers, are no macros and are not too long, and whose macros are defined once (structure DriverOk, with a check that can be run); the user's headers and FrameMonitor_t are not part of the text; false when a type and a function get the same name")
c("C55","partial","C55_compiled_partial C55_round_trip_partial","under the conditions of C54, for messages that fit the payload, without physical conversions (those are C14/C15) and with signed signals of at most 32 bits (C04)")
c("C56","partial","C56_mismatch_partial C56_check_partial","under the conditions of C54 on names and macros")
c("C57","partial","C57_receive_partial C57_id_partial C57_compiles_partial C57_mismatch_partial C57_refuted","under the conditions of C54 and that no name the util files use is a macro; that the files compile is false in general (a message can be named like a type of the util files), exactly when two names clash")
c("C40","partial","C40_first_partial C40_table_partial C40_defined_partial C40_refuted","under the conditions of C54; false in general: two signals can give one macro name (A_B in C, A in B_C), and values from 2^31 on are printed as negative numbers")
c("C58","partial","C58_constants_partial","under the conditions of C54 and for values below 2^32")
c("C59","partial","C59_pipeline_partial","raw values only, under the conditions of C54; signed signals up to 32 bits; frames with a checksum up to 8 bytes")
c("C60","partial","C60_compiled_partial C60_pipeline_partial","under the conditions of C54 on names and macros; positive whole factors with conversion values of type int (or unsigned for wide signals); signals of one name have one conversion (C16); the conversion is wrong in general outside of that (C13, C14, C15)")
c("C61","partial","C61_model_partial C61_dir_partial C61_frame_refuted C61_float_refuted","under the conditions of C54; false for the files as they are with two of the switches: USE_CANSTRUCT needs a type no generated file declares, USE_SIGFLOAT needs the declaration of sigfloat_t that dbccodeconf.h has as a comment (with these declarations in dbccodeconf.h the claim holds)")
c("C62","partial","C62_link_partial C62_dir_partial","under the conditions of C61 and if the user does not define the version macros of the monitor functions; a static function counts as visible to other units; the utility files are not in the directory")
c("C63","partial","C63_program_partial C63_dir_partial","under the conditions of C62 and C57; all files in one directory (the generator writes the util files to another one, and the user sets the include paths); the util unit calls Unpack_M by its answer, there is no common memory of the units: the struct of each message has its own state")
c("C64","partial","C64_driver_partial C64_receive_partial","conditions of C59, C60 and C63: distinct message ids, names the generated code can use, signed signals of at most 32 bits, with USE_CANSTRUCT the struct of the frame declared by the user; all files in one directory, the util unit calls Unpack_M by its answer, the struct of each message has its own state")
c("C65","partial","C65_driver_partial C65_node_partial C65_config","the conditions of C64 (names the generated code can use, distinct ids, signed signals of at most 32 bits, with USE_CANSTRUCT the struct of the frame declared in dbccodeconf.h); the text of the date is one comment line; the util files without -nofmon, and those of a node with -nodeutils, those of all messages without (C71); the file system does not change during the run, and printing to the console is left out")
c("C66","partial","C66_trace_partial C66_run_partial","the conditions of C64 and C65; frames with the id of a message outside these conditions (signed signals over 32 bits, a checksum over more than 8 bytes, a scaled signal whose factor the generated code does not round to) are left out; roll_error for unsigned counters only; the received bytes are at least as many as the message has")
c("C67","partial","C67_exchange_partial C67_run_partial","the conditions of C64 to C66 for sender and receiver (among them: with USE_CANSTRUCT the struct of the frame declared by the user, signed signals of at most 32 bits, a checksum only over at most 8 bytes); no value for a signal over 32 bits that does not begin at a byte border (C19); physical values of the sender are those of some raw value")
c("C68","partial","C68_alarms_partial C68_run_partial","the conditions of C67; unsigned counters (a signed one raises false alarms, C19_refuted_signed) that are not the checksum too; checksum functions that do not look at the checksum bits (C20_refuted shows why)")
c("C69","partial","C69_file_partial","statements about ids that do not occur change the last message (C29_refuted); a name that concerns two signals (X and X_ro, C29_refuted_suffix) and checksum tags behind a < or before a colon (C52_refuted) are left out")
c("C70","partial","C70_refused C70_throws C70_done C70_texts_partial C70_refuted","false for the texts: the text of a file that cannot be opened is put before the text of the next file of the same generator (C70_refuted, C36_refuted); proved: everything else, exactly which text each file gets, and that all texts are right when all files can be opened")
c("C71","partial","C71_run_partial C71_exchange_partial C71_refuted","the conditions of C66 and C67; false in general, since a message <drv>_rx has the name of a type of the util files (C71_refuted)")
c("C72","partial","C72_lost_partial C72_run_partial","the conditions of C68 and C69: an unsigned counter that is not the checksum too, comments in the usual spelling about ids of the file, checksum functions that do not look at the checksum bits")
c("C73","partial","C73_frame_partial C73_data8_refuted","the conditions of C61 and, for the defined calls, of C55; false for the documented Data[8] and messages of more than 8 bytes; between the validated length and the DLC (user lowers the macro of the maximal length) nothing is said")
c("C74","proved","C74_dirs C74_names","std::sort by its specification (a sorted rearrangement), for messages and signals; the file system as asked before the run")
c("C75","partial","C75_once_partial C75_refuted","false for node names that differ in the case of letters only; proved for all other runs, and the condition is exact; letter case of the file system counts, links are not modelled")
c("C76","partial","C76_order_partial C76_generate C76_refuted","false when the last message changes; proved when it stays, for distinct ids, sections without BO_TX_BU_ and version lines, no attribute or value table before the last message, and every file can be opened; with a CM_ line before the messages (list NS_) a comment has to begin before any statement ends; std::sort by its specification")
c("C77","partial","C77_scanner_partial C77_run_partial C77_refuted","false for equal start bits; proved for different ones; sections without BO_TX_BU_ and version lines, no attribute or value table before the last of the rearranged sections; with a CM_ line before them (list NS_) a comment has to begin before any statement ends; std::sort by its specification")
c("C78","partial","C78_rewrite_partial C78_numbered_partial C78_refuted","false when the DBC file has the name of a generated file; proved otherwise; clock and permissions stay the same; without -rw for an output directory without numbered directories at first")
c("C79","partial","C79_scanner_partial C79_run_partial C79_refuted","false for statements about the same thing, and for two rolling counters or checksums of one message; proved for statements about different things, in files that consist of statements of the grammar (C69; a list NS_ with a line CM_ is allowed when a comment begins before any statement ends, or with the lines up to the next end as one statement), with distinct message ids, statements about known messages, and statement lines that are not headers, signals, transmitters or versions")
c("C80","partial","C80_scanner_partial C80_run_partial C80_crlf_partial C80_refuted","false for blank lines inside a statement (an empty line of a comment is kept with line ends of Unix and lost with those of Windows, C80_refuted); proved for all files without them, whatever else is in the lines, also for files that cannot be parsed")
c("C81","partial","C81_field_partial C81_message_partial C81_lost C81_refuted","false for a text that ends in a backslash: the line below is lost whatever it is (C81_lost), and with it a member of the struct (C81_refuted, two whole runs); proved for all other texts, with backslashes and line ends anywhere else. That the members are there in the whole header is C54 to C72, under the same condition.")
c("C82","partial","C82_scanner_partial C82_run_partial C82_strip_partial C82_refuted","false for a line with such a keyword that contains a word beginning with SG_ and reads like a signal from the colon on (C82_refuted); proved for all lines that have no such word or no colon, for all files, also those that cannot be parsed. Lines inside a statement are part of it and are excluded.")
c("C83","partial","C83_ignored C83_refuted","false: the declaration has no effect (C83_ignored, for all files with it at the end; C82_run_partial for other places), and a signal declared as float is an integer member of the header (C83_refuted)")
c("C84","partial","C84_generator C84_scanner_partial C84_files_partial C84_run_partial C84_lines_partial","C84_generator: for all lists of messages that differ in descriptions only. C84_files_partial: for all pairs of files that differ after the messages, with distinct ids and without the character < in any line (a tag needs it; a tag selects counter or checksum, so there the functions do change). C84_run_partial: on the disk after two runs that come to the end, every path but the header of the driver and the util files. C84_lines_partial: the same with the condition on the lines read off their text. Not covered: units and ranges changed in the signal lines on the level of the file, the util files, and that the second run comes to the end if the first does.")
