# Formal model of astand/c-coderdbc in Lean 4

## 1. What is modelled

`coderdbc` reads a DBC (CAN matrix) text, builds a list of messages and signals and prints C code:
`Pack_*`/`Unpack_*` functions, conversion macros, frame monitors and a binary-search `Receive`
dispatcher.  There are two programs, and both are modelled:

* the **generator** (C++): pure functions over `List Char` (one `Char` is one byte), lists of lines
  and message descriptors; undefined behaviour, out-of-range table accesses and exceptions are
  explicit outcomes;
* the **generated C**: expression trees, statements and preprocessor conditionals, evaluated with C
  integer semantics (promotion, usual conversions, wrap-around of unsigned types); undefined
  behaviour is the distinct result `none`.  The literal text of every
  generated file is modelled too; from C54 on the theorems put this text through a C preprocessor, lexer,
  parser and interpreter (`Spec/CPre`, `CSyntax`, `CProg`, `CTree`) and speak about the compiled unit.

| directory | contents |
|---|---|
| `lean/Verif/Base` | strings, number printing, C integer types and arithmetic |
| `lean/Verif/Model` | the code, function by function; every definition cites file and lines |
| `lean/Verif/Spec` | independent specifications: DBC bit layout, DBC syntax, C grammar, identifiers, histories of calls |
| `lean/Verif/Proofs` | lemmas |
| `lean/Verif/Props` | property theorems `Cnn_...`, counterexamples, and examples that meet the hypotheses |

## 2. Trusted base

* The Lean 4.33.0 kernel.  Every theorem depends at most on `propext`, `Classical.choice` and
  `Quot.sound` (checked with `#print axioms` by `vcheck`).  No own axioms, no `sorry`, no
  `native_decide`, no `bv_decide`.
* The reading of the C++ source that the model definitions express.  The code was read as text; it
  was not run.
* The independent specifications in `Verif/Spec` and the hypotheses in the theorem statements.
* C data model of generated code: 8-bit `char`, 16-bit `short`, 32-bit `int`, 64-bit `long long`, two's
  complement; conversion to signed types is modular and right shift of negative values is
  arithmetic (implementation-defined, as all supported compilers do it).

## 3. Which code is modelled

| source | model | not modelled or simplified |
|---|---|---|
| `src/types/*.h` | `Model/Types.lean` | `double` factor/offset/min/max are exact decimals; `RecV`, message hash, text buffers omitted |
| `src/helpers/formatter.cpp` | `Model/Formatter.lean` (`str_trim`, `make_c_name`, `prt_double`), `UtilGen` (`str_tolower`/`toupper`), cut-off of `StrPrint` in `App` | `IndentLine`, `PrintF` |
| `src/parser/dbclineparser.cpp` | `Model/Split.lean`, `LineParser.lean`, `SigType.lean` | `std::regex` replaced by the leftmost greedy matcher of each fixed pattern; number texts with `strtod`-only forms (hex, inf, nan) excluded; `pow` and casts of doubles explicit, out-of-range casts a parameter of the host |
| `src/parser/dbcscanner.cpp` | `Model/Scanner.lean` | `std::sort` is any permutation sorted by the key; stream errors |
| `src/codegen/c-sigprinter.cpp` | `Model/SigPrinter.lean` (trees), `SigPrinterText.lean` (literal text, 2048-byte buffer), macros in `GenBody.lean` | a NUL inside a name |
| `src/codegen/c-main-generator.cpp` | `Model/GenBody.lean`: Unpack/Pack bodies, struct members, conversion macros, preprocessor (as trees); `Model/MainText.lean`: the literal text of header, source, `-fmon.h`, `-fmon.c` | |
| `src/codegen/c-util-generator.cpp`, `conditional-tree.cpp` | `Model/UtilGen.lean`: sorting, tree, printed `Receive` lines and their execution, node groups; `Model/MainText.lean`: literal text of both util files | |
| `src/app.cpp`, `options-parser.cpp`, `fs-creator.cpp`, `filewriter.cpp` | `Model/App.lean`, `Model/Run.lean` (the whole run, C65) | help text, contents of stdout; a file system is a map from paths to nodes with a permission predicate |
| `mon-generator.cpp`, `config-generator.cpp` | `Model/ConfText.lean`: literal text | |

Conformance: `Verif/Conform.lean` runs the model (scanner, parser, types, printers, writers) at build time
on the repository's `test/testdb.dbc` and compares the 15 resulting files byte for byte with the sample
output in `/repo/test/gencode` (copies in `lean/testdata/`). A difference fails the build.

`sigfloat_t` arithmetic is an uninterpreted parameter (`FloatOps`); no theorem depends on its results
except that it may be undefined.

Facts about the code that the model makes explicit: `%d` is used for `size_t` and `uint32_t` arguments
(modelled as printing the value where it fits `int`); `Comment_t::MsgId` is read before it is
initialised (C51 shows the value has no effect); `1 << LengthBit` in the generator is undefined from
31 bits on (`rollMask`); the byte loop of `PrintSignalExpr` can index one past its table (C11).

## 4. Properties

Status as in `MANIFEST.json`.  *proved*: the statement as written.  *partial*: the statement as
written is false of the code or only partly provable; then there is a theorem `Cnn_refuted...` with a
concrete witness and `_partial` theorems for what does hold, where possible as an equivalence.

<!-- generated by tools/mkdesign.py -->

**C01 Unpack reads exactly the DBC bits of an unsigned signal** (proved).  `PrintSignalExpr` is a loop that emits fragments (byte, offset, width, shift). A fragment invariant shows that the printed tree is the OR of the fragments, its C evaluation is defined, and the fragments cover exactly the DBC bit positions; the function-level theorem runs the whole Unpack body through the preprocessor.
Scope: expression level and whole Unpack function.
Theorems: `Verif.C01_unpack_expression`, `Verif.C01_unpack_field`, `Verif.C01_unpack_defined`.

**C02 Unpack is right for every signal width up to 64 bits** (partial).  Same invariant; the 32-bit shift of the first fragment loses bits exactly when an unaligned signal is wider than 32 bits and the shift reaches 25 or more. Witness plus an equivalence over all layouts.
Scope: the property is false of the code: counterexample, and the exact set of layouts on which Unpack is right for all payloads.
Theorems: `Verif.C02_refuted`, `Verif.C02_exact_partial`.

**C03 Sign extension of signed signals** (proved).  `__ext_sig__` evaluated in `ubitext_t` arithmetic, then the whole Unpack statement.
Theorems: `Verif.C03_sign_extension`, `Verif.C03_ext_sig`.

**C04 Sign extension of signed signals wider than 32 bits** (partial).  `1u << (bits-1)` is undefined from 33 bits; equivalence over widths.
Scope: the property is false of the code for every width 33..64 (undefined shift); exact set of widths for which it holds.
Theorems: `Verif.C04_refuted`, `Verif.C04_unpack_never_defined`, `Verif.C04_partial`.

**C05 Pack writes exactly the DBC bits of every signal** (proved).  Pack is a fold of `|=` statements; bit-level characterisation by the fragments of all signals.
Scope: definedness is proved when physical conversions are off (USE_SIGFLOAT) or trivial; the bit theorem holds for every run that ends.
Theorems: `Verif.C05_pack_bits`, `Verif.C05_fields_kept`, `Verif.C05_pack_defined`.

**C06 Pack then Unpack returns every signal value** (proved).  From the bit theorems of Pack and Unpack and disjointness of the positions.
Theorems: `Verif.C06_pack_unpack`, `Verif.C06_user_values`.

**C07 Unpack then Pack reproduces the frame** (proved).  Same, in the other order.
Theorems: `Verif.C07_unpack_pack`.

**C08 Signals do not interfere in Pack** (proved).  Corollary of the bit theorem.
Theorems: `Verif.C08_no_interference`.

**C09 A custom initial byte value does not corrupt signals** (partial).  Witness fill value and equivalence: right exactly for fills that are zero on signal bits.
Scope: the property is false of the code for fills with bits on signals; exact set of fills for which it holds.
Theorems: `Verif.C09_refuted`, `Verif.C09_exact_partial`.

**C10 Generated code stays inside the payload** (proved).  Index bounds by induction over the byte loop; locality theorem for reads, frame theorem for writes.
Theorems: `Verif.C10_unpack_reads`, `Verif.C10_unpack_local`, `Verif.C10_pack_writes`.

**C11 Layouts that do not fit the DLC are refused** (partial).  Table accesses are checked in the model; all outcomes of the generator for all start positions up to 511 are characterised, three kinds of defects have witnesses.
Scope: the property is false of the code; exact outcome of the generator for all positions up to 511.
Theorems: `Verif.C11_refuted_overrun`, `Verif.C11_refuted_wrap`, `Verif.C11_refuted_clamp`, `Verif.C11_exact_partial`, `Verif.C11_fitting_partial`.

**C12 The raw field type can hold every raw value** (proved).  `GetSigType` in exact arithmetic with the casts as host parameter.
Scope: for the hosts in the statement; the other theorems show where the generator itself relies on undefined or implementation-defined conversions.
Theorems: `Verif.C12_raw_type`, `Verif.C12_typeOk`, `Verif.C12_undefined_widths`, `Verif.C12_unsigned_char`.

**C13 The integer physical field type can hold every physical value** (partial).  Type selection against the range of `raw*factor+offset`; exact condition.
Scope: false for negative factors; proved for positive factors and exactly characterised.
Theorems: `Verif.C13_refuted`, `Verif.C13_zero_factor`, `Verif.C13_positive_partial`, `Verif.C13_exact_partial`.

**C14 Generated fromS macros compute raw*factor+offset** (partial).  The macro text as tree; evaluation in the C type that the usual conversions give; exact condition for equality.
Scope: false where the macro computes in unsigned int or overflows int; exact condition, macro and function level.
Theorems: `Verif.C14_refuted`, `Verif.C14_refuted_overflow`, `Verif.C14_exact_partial`, `Verif.C14_unpack_partial`, `Verif.C14_defined_partial`, `Verif.C14_parser_partial`.

**C15 toS inverts fromS** (partial).  Division is exact when the computation type holds the intermediate values.
Scope: false for unsigned physical types with negative factor; proved when the computation type holds the values, macro and message level.
Theorems: `Verif.C15_refuted`, `Verif.C15_inverse_partial`, `Verif.C15_parser_partial`, `Verif.C15_roundtrip_partial`.

**C16 Each signal is converted with its own factor and offset** (partial).  Emission with `#ifndef`-like suppression is a fold; the first definition wins.
Scope: false for same-named signals with different scaling; the first signal's macros are used.
Theorems: `Verif.C16_refuted`, `Verif.C16_first_partial`, `Verif.C16_own_partial`.

**C17 Frame monitor bookkeeping** (proved).  Induction over histories of Unpack calls.
Scope: every history of calls.
Theorems: `Verif.C17_monitor`, `Verif.C17_monitor_off`.

**C18 Automatic rolling counter counts modulo its width** (proved).  Induction over histories of Pack calls.
Scope: every history of calls; widths from 31 bits are shown to be undefined in the generator.
Theorems: `Verif.C18_rolling_counter`, `Verif.C18_wide_counter`.

**C19 Rolling counter monitor raises no false alarms and detects loss** (partial).  Induction over histories; lost frames as counter jumps; signed counters in wider members refute the claim.
Scope: false for signed counters in wider members (counterexample and general theorem); proved exactly for all other counters.
Theorems: `Verif.C19_refuted`, `Verif.C19_refuted_signed`, `Verif.C19_consecutive_partial`, `Verif.C19_lost_frames_partial`.

**C20 Checksum written by Pack verifies in Unpack** (partial).  Hash as arbitrary function of payload, length and id.
Scope: false for hashes that depend on the checksum bits (counterexample); proved for all others.
Theorems: `Verif.C20_refuted`, `Verif.C20_csm_error`, `Verif.C20_checksum_partial`.

**C21 Both Pack signatures produce the same frame** (proved).  Both bodies run from the same state.
Theorems: `Verif.C21_same_frame`.

**C22 Receive dispatches to the right message** (proved).  Tree built by halving; printed `if` lines executed; induction on the span of ids.
Scope: for every permutation std::sort may return, duplicates included.
Theorems: `Verif.C22_dispatch`, `Verif.C22_receive`.

**C23 Node specific Receive covers exactly the node's messages** (proved).  Node groups collected from receivers and transmitters of the parsed list.
Scope: distinct ids as in the statement; C23_same_id shows the assumption is needed.
Theorems: `Verif.C23_nodes`, `Verif.C23_node_messages`, `Verif.C23_node_receive`, `Verif.C23_same_id`.

**C24 Only valid message headers are accepted** (partial).  All accepted headers; witness 257.
Scope: limits of every accepted line are proved; acceptance is exact for DLCs below 256 and refuted above.
Theorems: `Verif.C24_limits`, `Verif.C24_list`, `Verif.C24_accept_partial`, `Verif.C24_refuted`.

**C25 Well-formed message lines parse to what they say** (partial).  Rendering and parsing a header.
Scope: false for one-letter transmitters.
Theorems: `Verif.C25_header_partial`, `Verif.C25_refuted`.

**C26 Well-formed signal lines parse to what they say** (partial).  Rendering and parsing a signal line, for all decimals; three witnesses for lines that are read differently.
Scope: false for lines without receivers, units with blank-colon-blank and tiny factors.
Theorems: `Verif.C26_signal_partial`, `Verif.C26_any_partial`, `Verif.C26_refuted`, `Verif.C26_refuted_tiny`.

**C27 Signals belong to the message they follow** (proved).  The scanner state machine equals a line-wise specification (`Spec/DbcFile.lean`). Props/FileLines says what the lines of a text and the signal lines are (added after a wrong `getLines` and a wrong `isSignalLine` had gone unnoticed).
Scope: for every file whose parsing ends and every std::sort.
Theorems: `Verif.C27_sections`, `Verif.C27_lines`, `Verif.C27_lines_all`, `Verif.C27_signal_line`.

**C28 MAX_DLC_VALUE is the maximum DLC** (partial).  Value of the running maximum for every file.
Scope: false: the last message is not considered; exact value for every file.
Theorems: `Verif.C28_refuted`, `Verif.C28_exact_partial`, `Verif.C28_no_larger`, `Verif.C28_single`, `Verif.C28_stale`.

**C29 Attributes, comments and value tables reach the message they name** (partial).  Each statement line changes at most the named message; unknown ids change the last message.
Scope: proved for known ids; an unknown id changes the last message, which is proved for every list.
Theorems: `Verif.C29_cycle_partial`, `Verif.C29_comment_partial`, `Verif.C29_sigComment_partial`, `Verif.C29_values_partial`, `Verif.C29_other`, `Verif.C29_unknown_changes_last`, `Verif.C29_refuted`, `Verif.C29_refuted_suffix`.

**C30 Value tables reach every signal** (partial).  A scaled signal has the suffix `_ro` before value tables arrive.
Scope: false for every scaled signal, which is proved.
Theorems: `Verif.C30_stored_partial`, `Verif.C30_scaled`, `Verif.C30_refuted`.

**C31 Receiver and transmitter lists are sets** (proved).  Set-like accumulation of names over the file.
Scope: for every file whose parsing ends.
Theorems: `Verif.C31_receivers`, `Verif.C31_transmitters_once`, `Verif.C31_transmitters_added`, `Verif.C31_transmitters_kept`, `Verif.C31_transmitters_only`.

**C32 Multi-line statements are stitched independent of line breaks** (partial).  Joining of lines by the pending buffer; equivalence with one-line statements under the stated shape.
Scope: proved when only first lines begin with a keyword and only last lines end with a semicolon; false otherwise.
Theorems: `Verif.C32_one_piece_partial`, `Verif.C32_file_partial`, `Verif.C32_pending`, `Verif.C32_comment_partial`, `Verif.C32_refuted`.

**C33 Generated names from free text are C identifiers** (proved).  Character-wise loop; characterisation of the result.
Theorems: `Verif.C33_characterisation`, `Verif.C33_identifier`, `Verif.C33_unchanged`, `Verif.C33_idempotent`.

**C34 Printed factors and offsets** (proved).  Printed digits related to the value as rational number.
Scope: for the ten-digit text of the value that the stream produces.
Theorems: `Verif.C34_printed`.

**C35 Line trimming** (proved).  Signedness of `char` as parameter.
Scope: parameterised by the range of char.
Theorems: `Verif.C35_trim`, `Verif.C35_empty`, `Verif.C35_non_ascii`.

**C36 Each output file gets exactly its own text** (partial).  Writer as state machine over append and flush operations with an open flag.
Scope: exact when all files open; the failing case is characterised.
Theorems: `Verif.C36_refuted`, `Verif.C36_files_partial`, `Verif.C36_failed_open`, `Verif.C36_long_line`.

**C37 Command line options** (proved).  Pairs collected from the argument vector, then folded.
Theorems: `Verif.C37_pairs`, `Verif.C37_options`, `Verif.C37_order`, `Verif.C37_valid`.

**C38 Without -rw earlier output is preserved** (partial).  Abstract file system; the set of written paths of a run.
Scope: false: the numbered directory is created but no file is ever written into it.
Theorems: `Verif.C38_refuted`, `Verif.C38_outside`, `Verif.C38_overwrites`, `Verif.C38_fresh_partial`, `Verif.C38_no_write`.

**C39 Path helpers** (proved).  String functions.
Theorems: `Verif.C39_file_name`, `Verif.C39_combine`.

**C40 Value table macros: first definition wins** (partial).  Spec/CMacro says what a macro stands for behind a text: the text is preprocessed, the name replaced, the tokens parsed, and the expression is the same integer in every state. The macro table behind the header is known exactly (HeaderRead); the macro of a value is the first entry of its name in the order of the header.
Scope: under the conditions of C54; false in general: two signals can give one macro name (A_B in C, A in B_C), and values from 2^31 on are printed as negative numbers.
Theorems: `Verif.C40_first_partial`, `Verif.C40_table_partial`, `Verif.C40_defined_partial`, `Verif.C40_refuted`.

**C41 Generation of struct declarations always completes** (partial).  The whole header printing is modelled as text with an explicit failure (`std::string(size_t, char)` with an underflowed width, cast of an out-of-range double); the printing fails exactly if one of two conditions on a message holds.
Scope: exact condition for completion; false for long rolling counter names and for integer factors or offsets outside int32.
Theorems: `Verif.C41_exact`, `Verif.C41_signals_partial`, `Verif.C41_short_partial`, `Verif.C41_refuted`, `Verif.C41_refuted_scale`.

**C42 Version numbers** (partial).  Matcher of the version line, fold over the file.
Scope: parsed version numbers; the generated version check is C56; false for numbers above 2^32-1.
Theorems: `Verif.C42_version_partial`, `Verif.C42_last_line`, `Verif.C42_no_version`, `Verif.C42_line`, `Verif.C42_refuted`.

**C43 Standard and extended messages with the same number are both received** (partial).  Search by number only.
Scope: false for shared numbers: for every such pair one message is never dispatched.
Theorems: `Verif.C43_refuted`, `Verif.C43_unreachable`, `Verif.C43_partial`.

**C44 The return value of Receive tells whether a frame was handled** (partial).  Return value 0 as "nothing".
Scope: false for id 0.
Theorems: `Verif.C44_refuted`, `Verif.C44_partial`.

**C45 Every node gets its own util files** (partial).  File names are lower-cased.
Scope: exact condition for a collision.
Theorems: `Verif.C45_refuted`, `Verif.C45_partial`.

**C46 Physical values are sent as (phys - offset) / factor** (partial).  Pack with physical members, macro `toS`.
Scope: proved for the values the computation type holds.
Theorems: `Verif.C15_refuted`, `Verif.C46_pack_phys_partial`.

**C47 Printed conversion constants equal those of the DBC** (partial).  Printed literal as rational number.
Scope: false beyond nine decimal places.
Theorems: `Verif.C47_refuted`, `Verif.C47_exact_partial`, `Verif.C47_nonzero_partial`.

**C48 No undefined behaviour while preparing the output directory** (partial).  `back()` of an empty string as undefined behaviour.
Scope: false when -out has no value.
Theorems: `Verif.C48_refuted`, `Verif.C48_defined_partial`, `Verif.C48_driverdir`.

**C49 Reading a DBC file never ends with an uncaught exception** (partial).  `std::stoul` out of range as exception outcome; nothing else in the parser throws.
Scope: exactly the files with an oversized number in a line of version shape end with an exception.
Theorems: `Verif.C49_only_partial`, `Verif.C49_always`, `Verif.C49_refuted`.

**C50 What the generator may rely on after parsing** (proved).  Invariant over both passes.
Scope: for every file whose parsing ends; types on the hosts of C12.
Theorems: `Verif.C50_types`, `Verif.C50_tags`, `Verif.C50_generator_conditions`.

**C51 Uninitialised comment record has no effect** (proved).  Two runs from different initial contents.
Theorems: `Verif.C51_uninitialised`.

**C52 Tags in signal comments select rolling counter and checksum** (partial).  Tag search in comments, exact condition.
Scope: rolling counter exact; checksum tag exact up to what stands around it.
Theorems: `Verif.C52_roll`, `Verif.C52_checksum_partial`, `Verif.C52_no_checksum`, `Verif.C52_refuted`, `Verif.C52_exact`.

**C53 Printed conversion expressions are C expressions with the intended meaning** (proved).  The printing functions are modelled as text with their fixed buffers; the text is shown to be the rendering of the tree, tokenised and parsed by an independent C lexer and precedence parser, and evaluated on the parse tree.
Scope: value claims for layouts that fit (C01 for 33..64 bit signals that start inside a byte); every text is an expression, empty or the error text.
Theorems: `Verif.C53_unpack_text`, `Verif.C53_pack_text`, `Verif.C53_always`.

**C54 The generated files compile, and the compiled functions are the modelled ones** (partial).  Text of the files (MainText), C preprocessor (Spec/CPre), C grammar and interpreter (Spec/CProg).  Every line is read once (LineText, HeadText, ConvText, MsgDefs, MemRead, HeaderRead, FmonRead, SourceRead, FuncRead), the macro table is followed through the files (DefTable), the units are put together (UnitRead, UnitRun) and calls are simulated statement by statement (BodyRun, CallRun, ExtRun, UnitCall).  DriverCheck is an executable sufficient condition used for the examples.
Scope: proved for every driver whose names are identifiers, are no macros and are not too long, and whose macros are defined once (structure DriverOk, with a check that can be run); the user's headers and FrameMonitor_t are not part of the text; false when a type and a function get the same name.
Theorems: `Verif.C54_model_partial`, `Verif.C54_compiles_partial`, `Verif.C54_refuted`.

**C55 The compiled text decodes and encodes frames as the DBC says** (partial).  C54 composed with C01, C03 and C05; the statement only mentions the text, the compiler of Spec/CProg, and the bit positions of the DBC layout.
Scope: under the conditions of C54, for messages that fit the payload, without physical conversions (those are C14/C15) and with signed signals of at most 32 bits (C04).
Theorems: `Verif.C55_compiled_partial`, `Verif.C55_round_trip_partial`.

**C56 Source and header of different versions do not compile together** (partial).  The preprocessor of Spec/CPre reads the text up to the version check (as in C54), the condition of the check is true, the `#error` line sets the failure flag, and the flag is never reset.
Scope: under the conditions of C54 on names and macros.
Theorems: `Verif.C56_mismatch_partial`, `Verif.C56_check_partial`.

**C57 The util files of a node compile and their receive function dispatches on the id** (partial).  The files are read as in C54 (every line of the util header and source, `#include` of the header of the driver from within the util header, the version check, the `#ifdef __DEF_..__` blocks). The statement the printed condition tree parses to is run under the interpreter of Spec/CProg and equals the calls of the tree (C22). The names that can clash are listed exactly (`utilNames`).
Scope: under the conditions of C54 and that no name the util files use is a macro; that the files compile is false in general (a message can be named like a type of the util files), exactly when two names clash.
Theorems: `Verif.C57_receive_partial`, `Verif.C57_id_partial`, `Verif.C57_compiles_partial`, `Verif.C57_mismatch_partial`, `Verif.C57_refuted`.

**C58 The message macros of the generated header are the constants of the database** (partial).  As C40, for the macros of messages, of the version and of the DLC limit.
Scope: under the conditions of C54 and for values below 2^32.
Theorems: `Verif.C58_constants_partial`.

**C59 From the text of the DBC file to the bits in the frame** (partial).  Stated/MsgDesc (Spec/DbcMessage) say which message a text states; C37 (what is parsed from a stated message) is composed with C50 (conditions met by every parsed message) and C55 (compiled text). No parsed message occurs in the conclusion. The generator prints the messages sorted by id (c-main-generator.cpp:46-50); C59, C60 and C64 speak of any such order `srt`.
Scope: raw values only, under the conditions of C54; signed signals up to 32 bits; frames with a checksum up to 8 bytes.
Theorems: `Verif.C59_pipeline_partial`.

**C60 From the text of the DBC file to physical values** (partial).  C54 holds with physical values (the printed conversion macros are read and run with the operations `Flt` of the target, any type and any functions), so the composition is: compiled call = model call (C54), model call defined and exact (C14, C46 and their floating counterparts in Proofs/PhysTotal), types chosen by GetSigType suffice on every raw value (`scale_ok`, Proofs/PhysDesc, from C12 and C13), stated message = parsed message (C59). The result of Pack does not depend on the raw members the caller left.
Scope: under the conditions of C54 on names and macros; positive whole factors with conversion values of type int (or unsigned for wide signals); signals of one name have one conversion (C16); the conversion is wrong in general outside of that (C13, C14, C15).
Theorems: `Verif.C60_compiled_partial`, `Verif.C60_pipeline_partial`.

**C61 The generated directory is complete and compiles** (partial).  Spec/CTree compiles a file of a directory: `#include` by name, `#pragma once`, conditionals, and a check that types are declared before use and that declarations of a function agree (`stdint.h` is an empty file whose types are known; the sub-directories lib, conf and inc are one include path). Proofs/DirRun and DirRead read a file with its nested includes; Proofs/ConfRead, MonUtilRead read the literal text of `<drv>-config.h` (a switch is turned on by removing the slashes in front of its `#define`), `dbccodeconf.h` and `canmonitorutil.h`; Proofs/DirUnit composes them into an exact answer of the compiler (`dir_compile_iff`), and C54 gives the calls. The two refuted theorems show that the conditions on the switches are needed.
Scope: under the conditions of C54; false for the files as they are with two of the switches: USE_CANSTRUCT needs a type no generated file declares, USE_SIGFLOAT needs the declaration of sigfloat_t that dbccodeconf.h has as a comment (with these declarations in dbccodeconf.h the claim holds).
Theorems: `Verif.C61_model_partial`, `Verif.C61_dir_partial`, `Verif.C61_frame_refuted`, `Verif.C61_float_refuted`.

**C62 The source files of the directory link** (partial).  Spec/CLink says when units link (`links`) and runs a function without a value (`runVoid`). Proofs/FmonSrc reads the functions in the literal text of `<drv>-fmon.c`, Proofs/DirFmon the whole file in the directory with its chain of includes (`-fmon.h`, `-config.h`, `dbccodeconf.h`, `canmonitorutil.h`) and compares the names. Names of monitor functions are distinct because the macros `FMon_M_<drv>` are.
Scope: under the conditions of C61 and if the user does not define the version macros of the monitor functions; a static function counts as visible to other units; the utility files are not in the directory.
Theorems: `Verif.C62_link_partial`, `Verif.C62_dir_partial`.

**C63 The files of a node are a complete program** (partial).  Proofs/DirUtil reads `<node>_<drv>-binutil.h` and `.c` in the directory; `dbccodeconf.h` is included twice, so it is read in both situations (`dirHeader_seen`). Proofs/UtilLink shows that types are known, that declarations agree and that the third unit links with the two of C62, Proofs/NodeLink carries the receive function of C57 over to this unit, and the call of `Unpack_M` is the one of C61.
Scope: under the conditions of C62 and C57; all files in one directory (the generator writes the util files to another one, and the user sets the include paths); the util unit calls Unpack_M by its answer, there is no common memory of the units: the struct of each message has its own state.
Theorems: `Verif.C63_program_partial`, `Verif.C63_dir_partial`.

**C64 From the DBC text to a received frame in the linked program** (partial).  the proofs of C55, C59 and C60 are made independent of how the unit was compiled (`RunsModel`: the functions of the unit do what the model does), `dir_unit` shows this for the unit of the directory, and `stated_receives` leads from the receiver list of a signal line to the mapping of the node (C23, C31). The example runs the whole way for node `Dash`: the frame with id 1024 arrives and `Torque` is -16.
Scope: conditions of C59, C60 and C63: distinct message ids, names the generated code can use, signed signals of at most 32 bits, with USE_CANSTRUCT the struct of the frame declared by the user; all files in one directory, the util unit calls Unpack_M by its answer, the struct of each message has its own state.
Theorems: `Verif.C64_driver_partial`, `Verif.C64_receive_partial`.

**C65 From the command line to the compiled program** (partial).  Model/Run.lean is the whole run: `runApp` reads the options, scans, prepares the directories and replays the calls of the two file writers, with a buffer that outlives each file. Proofs/NoFlush shows that the printing functions only append text, Proofs/RunFiles that every file gets exactly its own text and that no path is written twice (for nodes: by C45, if the lower case names differ). The rest is C64. The example runs `coderdbc -dbc in/my.dbc -out gen -drvname drv -nodeutils -rw` on the file of C59, copies the 11 files into one directory with edited configuration headers, and gets the program of node `Dash`. A second example has `-gendate -noinc -nofmon`; the comment block with the date is part of the read text (Proofs/SourceInfo).
Scope: the conditions of C64 (names the generated code can use, distinct ids, signed signals of at most 32 bits, with USE_CANSTRUCT the struct of the frame declared in dbccodeconf.h); the text of the date is one comment line; the util files without -nofmon, and those of a node with -nodeutils, those of all messages without (C71); the file system does not change during the run, and printing to the console is left out.
Theorems: `Verif.C65_driver_partial`, `Verif.C65_node_partial`, `Verif.C65_config`.

**C66 A node that receives any sequence of frames** (partial).  Spec/CLink runs the linked program: `runProg` looks a name up in the units, runs the function, and for the call it records runs the called function in the unit that defines it, on the struct its argument points to; calls without a value (the monitor functions) are run too. Simplifications, stated there: a function that gets all structs makes at most one call with a value, and the called function only sees the struct it gets a pointer to. Proofs/LinkedRun shows that every member keeps a value of its type, so that the state after a frame is again one C59 applies to. Props/Trace proves one frame (`node_step`, `node_skip`; counter and checksum by `stated_checked`) and then the sequence by induction; the structs of two messages are kept apart by the names of the members of `<node>_rx_t`. The example receives four frames (one too short, one unknown, one of another message, the last with wrong counter and checksum).
Scope: the conditions of C64 and C65; frames with the id of a message outside these conditions (signed signals over 32 bits, a checksum over more than 8 bytes, a scaled signal whose factor the generated code does not round to) are left out; roll_error for unsigned counters only; the received bytes are at least as many as the message has.
Theorems: `Verif.C66_trace_partial`, `Verif.C66_run_partial`.

**C67 What one program packs, another receives** (partial).  the frame is built from what the call of Pack returns and passes out (id, length, that many bytes of the buffer), not from the message. Each bit of the payload is given by C64 (`Packed`); since signals do not overlap, the value the DBC file defines for these bits is the member (`packed_value`), and by C66 the receiver holds this value. Members Pack does not set itself are unchanged (`AutoMember`). With C65 and C66 the statement holds for two runs of the generator.
Scope: the conditions of C64 to C66 for sender and receiver (among them: with USE_CANSTRUCT the struct of the frame declared by the user, signed signals of at most 32 bits, a checksum only over at most 8 bytes); no value for a signal over 32 bits that does not begin at a byte border (C19); physical values of the sender are those of some raw value.
Theorems: `Verif.C67_exchange_partial`, `Verif.C67_run_partial`.

**C68 Automatic counter and checksum of one program are accepted by another** (partial).  Props/Auto: what Pack leaves in the automatic members of a compiled unit (`stated_auto`, from `pack_roll` and `pack_csm` of the model; now part of `DriverProgram`, C64). Props/Alarms combines it with the monitor of the receiver (C66) through `exchange_core` (C67): the counter of a frame is the successor of the member, the expected one the successor of the last counter received (`expected_last`), and successors modulo 2^n are injective. For the checksum the hash of the sender has seen a buffer that differs from the frame in the checksum bits only. The example sends three frames, once with the counter Pack has left and once with another one.
Scope: the conditions of C67; unsigned counters (a signed one raises false alarms, C19_refuted_signed) that are not the checksum too; checksum functions that do not look at the checksum bits (C20_refuted shows why).
Theorems: `Verif.C68_alarms_partial`, `Verif.C68_run_partial`.

**C69 The statements of a file say of each message what the last of their kind says** (partial).  Spec/DbcMeaning describes a file as a list of statements, each spelled by a block of lines (C32). Props/Meaning: with distinct ids a statement about a known id is a map over the messages (`spells_effect`), so the parsed list is the list of the first pass with the fold of all statements applied to each message (`file_effect`); the last statement of a kind decides (`fold_last`, `fold_keep`), and messages of the first pass are empty (`first_fresh`). It removes the reference to the parsed list from `IsCounter` and `IsChecksum` of C66 and C68. The example has statements of all kinds, a comment over two lines and a rolling counter that a later comment replaces. Files with a list of keywords after NS_ (a line CM_ begins a comment there) are covered in two ways: the lines before the statements are not in blocks (`EndsIn`, Proofs/NsHead) when a comment begins before any statement ends, and otherwise the lines from that CM_ to the next end are one silent statement; Props/NsList has an example of each.
Scope: statements about ids that do not occur change the last message (C29_refuted); a name that concerns two signals (X and X_ro, C29_refuted_suffix) and checksum tags behind a < or before a colon (C52_refuted) are left out.
Theorems: `Verif.C69_file_partial`.

**C70 How a run ends, and what it has written then** (partial).  Props/RunEnd: `mainOps` and `utilsOps` on any host are the calls on the host where all files can be opened, with other results of opening (`main_open`, `utils_open`); a writer run with them gives `carryOver` of the files (`writer_carry`), which is stated on the list of files alone. `Asks` states the request in terms of the argument list (C37). The example is the run of C65 with a write protected `drv.h`.
Scope: false for the texts: the text of a file that cannot be opened is put before the text of the next file of the same generator (C70_refuted, C36_refuted); proved: everything else, exactly which text each file gets, and that all texts are right when all files can be opened.
Theorems: `Verif.C70_refused`, `Verif.C70_throws`, `Verif.C70_done`, `Verif.C70_texts_partial`, `Verif.C70_refuted`.

**C71 Without -nodeutils every message of the file is received** (partial).  The proofs of C57 and C63 to C68 are about `who : Option Str`: `some node` for the util files of a node, `none` for those of all messages (`utilFor`, `whoGroups` in Model/NodeUtil.lean). `run_all` finds the text of the one pair of util files among the written ones; `all_rx` shows that every message with signals is mapped. The example runs `coderdbc -dbc in/my.dbc -out gen -drvname drv -rw`, sends three frames with the driver of that directory and receives them with `drv_Receive`. The refutation is a message `d_rx` with a driver `d`.
Scope: the conditions of C66 and C67; false in general, since a message <drv>_rx has the name of a type of the util files (C71_refuted).
Theorems: `Verif.C71_run_partial`, `Verif.C71_exchange_partial`, `Verif.C71_refuted`.

**C72 Lost frames raise the alarm, unless their number is a multiple of the counter's range** (partial).  Props/LostFrames. The tags of the text (`CounterTag`, `ChecksumTag`: statements about the last comment of their kind, without the parsed list) give counter and checksum of the parsed message by C69. A sequence of frames is a list of sends with a mark for those that arrive; C68 is used for the marked ones, and the counter is followed through the unmarked ones by what Pack leaves in it (C64), `walk`. The example sends three `Motor` and a `Gear`; if the second `Motor` is lost there is an alarm, and none if it arrives.
Scope: the conditions of C68 and C69: an unsigned counter that is not the checksum too, comments in the usual spelling about ids of the file, checksum functions that do not look at the checksum bits.
Theorems: `Verif.C72_lost_partial`, `Verif.C72_run_partial`.

**C73 Packing into the user's frame struct stays inside its data array** (partial).  Props/FrameStruct. The line the user adds to dbccodeconf.h is part of the read directory (`ConfEdit`: `Data[8]` or `Data[64]`, with or without sigfloat_t); the parser of Spec/CProg reads the array member, and `FrameData` finds the struct in the compiled unit. The frame the caller passes has an array of exactly the declared length, so a write behind it is undefined in the interpreter. The defined calls come from `runs_done` (C55), the undefined ones from the initialisation loop, which needs the validated length. Examples: a message of 2 bytes packed into the documented struct; the refutation uses one of 12 bytes.
Scope: the conditions of C61 and, for the defined calls, of C55; false for the documented Data[8] and messages of more than 8 bytes; between the validated length and the DLC (user lowers the macro of the maximal length) nothing is said.
Theorems: `Verif.C73_frame_partial`, `Verif.C73_data8_refuted`.

**C74 Every file of a run is in a directory the run has made** (proved).  Props/NodeNames, Props/OutDirs. A pattern that matches at every separator leaves pieces without separators, so every node name (header, BO_TX_BU_ line, receivers) has only the characters of the class; the driver name passes make_c_name (C33). With both, each path of C38 is a prepared directory, '/', and a name without '/'; prepareDirectory has made the five directories. `DirMade` and `InDir` are stated on the file system and the path alone.
Scope: std::sort by its specification (a sorted rearrangement), for messages and signals; the file system as asked before the run.
Theorems: `Verif.C74_dirs`, `Verif.C74_names`.

**C75 No file of a run replaces another file of the same run** (partial).  Props/OneFile. The paths of a run (C70, C38) are the output directory, one of five directories and a name; two of them are equal only for two nodes with the same name in small letters (C45), and every node of the file has its pair of files exactly once (C23). `onDisk` is the text written last to a path. Refuted by a whole run on a file with the nodes ECU and Ecu.
Scope: false for node names that differ in the case of letters only; proved for all other runs, and the condition is exact; letter case of the file system counts, links are not modelled.
Theorems: `Verif.C75_once_partial`, `Verif.C75_refuted`.

**C76 The order of the messages in the DBC file does not matter** (partial).  Proofs/MsgOrder, Props/MsgOrder. First pass: a section changes the state only through the message it closes, so the list after all sections is a rearrangement and the maximum of the DLCs is the same; from the last header on, the two runs of the scanner are related line by line (same open message, rearranged lists, same last message when none is open, which is the one an unknown id changes). Second pass: the same relation; the comment collected since the line CM_ of NS_ may differ until the next comment begins. Generators: sorted rearrangements of messages with distinct ids are equal, the nodes are rearranged (C23). Refuted by two whole runs on a file with two messages.
Scope: false when the last message changes; proved when it stays, for distinct ids, sections without BO_TX_BU_ and version lines, no attribute or value table before the last message, and every file can be opened; with a CM_ line before the messages (list NS_) a comment has to begin before any statement ends; std::sort by its specification.
Theorems: `Verif.C76_order_partial`, `Verif.C76_generate`, `Verif.C76_refuted`.

**C77 The order of the signal lines of a message does not matter** (partial).  Proofs/SigOrder, Props/SigOrder. Reading a line adds at most one signal, and two lines can be exchanged up to the order of the signals; by induction on the rearrangement the open messages differ in that order only. Closing a message sorts the signals, and two sorted rearrangements of signals with different start bits are equal, so from the next header, list of transmitters or end of file on the two scanners are in the same state. The second pass sees the same messages; the comment collected since a line CM_ may differ until the next comment begins. Refuted by two whole runs on a message with two signals at bit 0.
Scope: false for equal start bits; proved for different ones; sections without BO_TX_BU_ and version lines, no attribute or value table before the last of the rearranged sections; with a CM_ line before them (list NS_) a comment has to begin before any statement ends; std::sort by its specification.
Theorems: `Verif.C77_scanner_partial`, `Verif.C77_run_partial`, `Verif.C77_refuted`.

**C78 Running the tool again gives the same files again** (partial).  Spec/History, Props/Rerun. The machine after a run has its files and directories (afterRun). A run depends on the directories only through PrepareDirectory; no written path is one of the directories, so by induction on the number of runs the five directories stay, the base directory is there (-rw), or exactly the first n numbered directories are there. Refuted by two runs on a DBC file called gen/lib/drv.h.
Scope: false when the DBC file has the name of a generated file; proved otherwise; clock and permissions stay the same; without -rw for an output directory without numbered directories at first.
Theorems: `Verif.C78_rewrite_partial`, `Verif.C78_numbered_partial`, `Verif.C78_refuted`.

**C79 The order of comments, attributes and value tables does not matter** (partial).  Proofs/StmtOrder, Props/StmtOrder. The effect of the statements on a message is a fold (C69); two statements about different things commute part by part: signals (each statement maps every signal), comment, cycle time, and the tags, which depend only on what no statement changes. A rearrangement of pairwise commuting steps gives the same fold. The lines of the statements do not change the state of the first pass. Refuted by two whole runs on a message with two signals tagged as rolling counter.
Scope: false for statements about the same thing, and for two rolling counters or checksums of one message; proved for statements about different things, in files that consist of statements of the grammar (C69; a list NS_ with a line CM_ is allowed when a comment begins before any statement ends, or with the lines up to the next end as one statement), with distinct message ids, statements about known messages, and statement lines that are not headers, signals, transmitters or versions.
Theorems: `Verif.C79_scanner_partial`, `Verif.C79_run_partial`, `Verif.C79_refuted`.

**C80 Line ends, trailing white space and blank lines of the DBC file do not matter** (partial).  Props/LineEnds. Both passes see trimmed lines only, so white space at the end does not matter. A trimmed blank line is empty or a line feed; it does nothing in the first pass (`blank_inert`), and nothing in the second when no statement is collected; what is collected belongs to a statement that has begun and not ended (`collected_open`). The text with line ends of Windows has the same lines up to this (`sameLines_cr`), for every text. Refuted by two whole runs on a comment with an empty line.
Scope: false for blank lines inside a statement (an empty line of a comment is kept with line ends of Unix and lost with those of Windows, C80_refuted); proved for all files without them, whatever else is in the lines, also for files that cannot be parsed.
Theorems: `Verif.C80_scanner_partial`, `Verif.C80_run_partial`, `Verif.C80_crlf_partial`, `Verif.C80_refuted`.

**C81 Comments of the DBC file stay comments in the generated header** (partial).  Props/CommentText. A line that ends in a backslash is joined with the next (`PPL.splice`), by induction over the lines of the text: a joined line of the comment is still in the comment, so only the end of the text matters (`ppl_cmt_go`). For a text that ends in a backslash the next line is in the comment (`ppl_lost_go`). Refuted by two whole runs, with and without a comment that is a path.
Scope: false for a text that ends in a backslash: the line below is lost whatever it is (C81_lost), and with it a member of the struct (C81_refuted, two whole runs); proved for all other texts, with backslashes and line ends anywhere else. That the members are there in the whole header is C54 to C72, under the same condition..
Theorems: `Verif.C81_field_partial`, `Verif.C81_message_partial`, `Verif.C81_lost`, `Verif.C81_refuted`.

**C82 Lines of kinds the tool does not use do not matter** (partial).  Props/OtherLines. A line that begins with letters and an underscore is no version line (`under_version`), one that does not begin with BO is no header and no line of transmitters (`front_tx`, from the first piece of the split), one without a colon is no signal (`noColon_sig`); so it does nothing in the first pass. In the second pass it does nothing unless a statement is open, as in C80. `C82_strip_partial` leaves out all such lines. Refuted by two whole runs with a line of nodes that reads like a signal.
Scope: false for a line with such a keyword that contains a word beginning with SG_ and reads like a signal from the colon on (C82_refuted); proved for all lines that have no such word or no colon, for all files, also those that cannot be parsed. Lines inside a statement are part of it and are excluded..
Theorems: `Verif.C82_scanner_partial`, `Verif.C82_run_partial`, `Verif.C82_strip_partial`, `Verif.C82_refuted`.

**C83 Signals declared as floating point are generated as floating point** (partial).  Props/OtherLines. SIG_VALTYPE_ is one of the keywords of C82, so the declaration has no effect (`C83_ignored`). Refuted by a whole run whose header, as the compiler sees it, declares the member as `uint32_t`.
Scope: false: the declaration has no effect (C83_ignored, for all files with it at the end; C82_run_partial for other places), and a signal declared as float is an integer member of the header (C83_refuted).
Theorems: `Verif.C83_ignored`, `Verif.C83_refuted`.

**C84 Descriptive statements do not change the functions** (partial).  Props/Descriptive. `bareMsg` erases what only describes; every function of the source generator gives the same on the erased message (`bare_source`). In the second pass the erased messages do not change (`bare_line`): a comment that is about something has its text from its statement (`finish_text`), and without < it has no tag. Sorting by distinct ids gives the same order for both. Props/DescRun: the files of two runs to the end (`generate_files`) differ in the header and below butl only.
Scope: C84_generator: for all lists of messages that differ in descriptions only. C84_files_partial: for all pairs of files that differ after the messages, with distinct ids and without the character < in any line (a tag needs it; a tag selects counter or checksum, so there the functions do change). C84_run_partial: on the disk after two runs that come to the end, every path but the header of the driver and the util files. C84_lines_partial: the same with the condition on the lines read off their text. Not covered: units and ranges changed in the signal lines on the level of the file, the util files, and that the second run comes to the end if the first does..
Theorems: `Verif.C84_generator`, `Verif.C84_scanner_partial`, `Verif.C84_files_partial`, `Verif.C84_run_partial`, `Verif.C84_lines_partial`.
