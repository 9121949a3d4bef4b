C01: `PrintSignalExpr` is a loop that emits fragments (byte, offset, width, shift). A fragment invariant shows that the printed tree is the OR of the fragments, its C evaluation is defined, and the fragments cover exactly the DBC bit positions; the function-level theorem runs the whole Unpack body through the preprocessor.
C02: Same invariant; the 32-bit shift of the first fragment loses bits exactly when an unaligned signal is wider than 32 bits and the shift reaches 25 or more. Witness plus an equivalence over all layouts.
C03: `__ext_sig__` evaluated in `ubitext_t` arithmetic, then the whole Unpack statement.
C04: `1u << (bits-1)` is undefined from 33 bits; equivalence over widths.
C05: Pack is a fold of `|=` statements; bit-level characterisation by the fragments of all signals.
C06: From the bit theorems of Pack and Unpack and disjointness of the positions.
C07: Same, in the other order.
C08: Corollary of the bit theorem.
C09: Witness fill value and equivalence: right exactly for fills that are zero on signal bits.
C10: Index bounds by induction over the byte loop; locality theorem for reads, frame theorem for writes.
C11: Table accesses are checked in the model; all outcomes of the generator for all start positions up to 511 are characterised, three kinds of defects have witnesses.
C12: `GetSigType` in exact arithmetic with the casts as host parameter.
C13: Type selection against the range of `raw*factor+offset`; exact condition.
C14: The macro text as tree; evaluation in the C type that the usual conversions give; exact condition for equality.
C15: Division is exact when the computation type holds the intermediate values.
C16: Emission with `#ifndef`-like suppression is a fold; the first definition wins.
C17: Induction over histories of Unpack calls.
C18: Induction over histories of Pack calls.
C19: Induction over histories; lost frames as counter jumps; signed counters in wider members refute the claim.
C20: Hash as arbitrary function of payload, length and id.
C21: Both bodies run from the same state.
C22: Tree built by halving; printed `if` lines executed; induction on the span of ids.
C23: Node groups collected from receivers and transmitters of the parsed list.
C24: All accepted headers; witness 257.
C25: Rendering and parsing a header.
C26: Rendering and parsing a signal line, for all decimals; three witnesses for lines that are read differently.
C27: The scanner state machine equals a line-wise specification (`Spec/DbcFile.lean`). Props/FileLines says what the lines of a text and the signal lines are (added after a wrong `getLines` and a wrong `isSignalLine` had gone unnoticed).
C28: Value of the running maximum for every file.
C29: Each statement line changes at most the named message; unknown ids change the last message.
C30: A scaled signal has the suffix `_ro` before value tables arrive.
C31: Set-like accumulation of names over the file.
C32: Joining of lines by the pending buffer; equivalence with one-line statements under the stated shape.
C33: Character-wise loop; characterisation of the result.
C34: Printed digits related to the value as rational number.
C35: Signedness of `char` as parameter.
C36: Writer as state machine over append and flush operations with an open flag.
C37: Pairs collected from the argument vector, then folded.
C38: Abstract file system; the set of written paths of a run.
C39: String functions.
C42: Matcher of the version line, fold over the file.
C43: Search by number only.
C44: Return value 0 as "nothing".
C45: File names are lower-cased.
C46: Pack with physical members, macro `toS`.
C47: Printed literal as rational number.
C48: `back()` of an empty string as undefined behaviour.
C49: `std::stoul` out of range as exception outcome; nothing else in the parser throws.
C50: Invariant over both passes.
C51: Two runs from different initial contents.
C52: Tag search in comments, exact condition.
C53: The printing functions are modelled as text with their fixed buffers; the text is shown to be the rendering of the tree, tokenised and parsed by an independent C lexer and precedence parser, and evaluated on the parse tree.
C41: The whole header printing is modelled as text with an explicit failure (`std::string(size_t, char)` with an underflowed width, cast of an out-of-range double); the printing fails exactly if one of two conditions on a message holds.
C54: Text of the files (MainText), C preprocessor (Spec/CPre), C grammar and interpreter (Spec/CProg).  Every line is read once (LineText, HeadText, ConvText, MsgDefs, MemRead, HeaderRead, FmonRead, SourceRead, FuncRead), the macro table is followed through the files (DefTable), the units are put together (UnitRead, UnitRun) and calls are simulated statement by statement (BodyRun, CallRun, ExtRun, UnitCall).  DriverCheck is an executable sufficient condition used for the examples.
C55: C54 composed with C01, C03 and C05; the statement only mentions the text, the compiler of Spec/CProg, and the bit positions of the DBC layout.
C56: The preprocessor of Spec/CPre reads the text up to the version check (as in C54), the condition of the check is true, the `#error` line sets the failure flag, and the flag is never reset.
C57: The files are read as in C54 (every line of the util header and source, `#include` of the header of the driver from within the util header, the version check, the `#ifdef __DEF_..__` blocks). The statement the printed condition tree parses to is run under the interpreter of Spec/CProg and equals the calls of the tree (C22). The names that can clash are listed exactly (`utilNames`).
C40: Spec/CMacro says what a macro stands for behind a text: the text is preprocessed, the name replaced, the tokens parsed, and the expression is the same integer in every state. The macro table behind the header is known exactly (HeaderRead); the macro of a value is the first entry of its name in the order of the header.
C58: As C40, for the macros of messages, of the version and of the DLC limit.
C59: Stated/MsgDesc (Spec/DbcMessage) say which message a text states; C37 (what is parsed from a stated message) is composed with C50 (conditions met by every parsed message) and C55 (compiled text). No parsed message occurs in the conclusion. The generator prints the messages sorted by id (c-main-generator.cpp:46-50); C59, C60 and C64 speak of any such order `srt`.
C60: C54 holds with physical values (the printed conversion macros are read and run with the operations `Flt` of the target, any type and any functions), so the composition is: compiled call = model call (C54), model call defined and exact (C14, C46 and their floating counterparts in Proofs/PhysTotal), types chosen by GetSigType suffice on every raw value (`scale_ok`, Proofs/PhysDesc, from C12 and C13), stated message = parsed message (C59). The result of Pack does not depend on the raw members the caller left.
C61: Spec/CTree compiles a file of a directory: `#include` by name, `#pragma once`, conditionals, and a check that types are declared before use and that declarations of a function agree (`stdint.h` is an empty file whose types are known; the sub-directories lib, conf and inc are one include path). Proofs/DirRun and DirRead read a file with its nested includes; Proofs/ConfRead, MonUtilRead read the literal text of `<drv>-config.h` (a switch is turned on by removing the slashes in front of its `#define`), `dbccodeconf.h` and `canmonitorutil.h`; Proofs/DirUnit composes them into an exact answer of the compiler (`dir_compile_iff`), and C54 gives the calls. The two refuted theorems show that the conditions on the switches are needed.
C62: Spec/CLink says when units link (`links`) and runs a function without a value (`runVoid`). Proofs/FmonSrc reads the functions in the literal text of `<drv>-fmon.c`, Proofs/DirFmon the whole file in the directory with its chain of includes (`-fmon.h`, `-config.h`, `dbccodeconf.h`, `canmonitorutil.h`) and compares the names. Names of monitor functions are distinct because the macros `FMon_M_<drv>` are.
C63: Proofs/DirUtil reads `<node>_<drv>-binutil.h` and `.c` in the directory; `dbccodeconf.h` is included twice, so it is read in both situations (`dirHeader_seen`). Proofs/UtilLink shows that types are known, that declarations agree and that the third unit links with the two of C62, Proofs/NodeLink carries the receive function of C57 over to this unit, and the call of `Unpack_M` is the one of C61.
C64: the proofs of C55, C59 and C60 are made independent of how the unit was compiled (`RunsModel`: the functions of the unit do what the model does), `dir_unit` shows this for the unit of the directory, and `stated_receives` leads from the receiver list of a signal line to the mapping of the node (C23, C31). The example runs the whole way for node `Dash`: the frame with id 1024 arrives and `Torque` is -16.
C65: Model/Run.lean is the whole run: `runApp` reads the options, scans, prepares the directories and replays the calls of the two file writers, with a buffer that outlives each file. Proofs/NoFlush shows that the printing functions only append text, Proofs/RunFiles that every file gets exactly its own text and that no path is written twice (for nodes: by C45, if the lower case names differ). The rest is C64. The example runs `coderdbc -dbc in/my.dbc -out gen -drvname drv -nodeutils -rw` on the file of C59, copies the 11 files into one directory with edited configuration headers, and gets the program of node `Dash`. A second example has `-gendate -noinc -nofmon`; the comment block with the date is part of the read text (Proofs/SourceInfo).
C66: Spec/CLink runs the linked program: `runProg` looks a name up in the units, runs the function, and for the call it records runs the called function in the unit that defines it, on the struct its argument points to; calls without a value (the monitor functions) are run too. Simplifications, stated there: a function that gets all structs makes at most one call with a value, and the called function only sees the struct it gets a pointer to. Proofs/LinkedRun shows that every member keeps a value of its type, so that the state after a frame is again one C59 applies to. Props/Trace proves one frame (`node_step`, `node_skip`; counter and checksum by `stated_checked`) and then the sequence by induction; the structs of two messages are kept apart by the names of the members of `<node>_rx_t`. The example receives four frames (one too short, one unknown, one of another message, the last with wrong counter and checksum).
C67: the frame is built from what the call of Pack returns and passes out (id, length, that many bytes of the buffer), not from the message. Each bit of the payload is given by C64 (`Packed`); since signals do not overlap, the value the DBC file defines for these bits is the member (`packed_value`), and by C66 the receiver holds this value. Members Pack does not set itself are unchanged (`AutoMember`). With C65 and C66 the statement holds for two runs of the generator.
C68: Props/Auto: what Pack leaves in the automatic members of a compiled unit (`stated_auto`, from `pack_roll` and `pack_csm` of the model; now part of `DriverProgram`, C64). Props/Alarms combines it with the monitor of the receiver (C66) through `exchange_core` (C67): the counter of a frame is the successor of the member, the expected one the successor of the last counter received (`expected_last`), and successors modulo 2^n are injective. For the checksum the hash of the sender has seen a buffer that differs from the frame in the checksum bits only. The example sends three frames, once with the counter Pack has left and once with another one.
C69: Spec/DbcMeaning describes a file as a list of statements, each spelled by a block of lines (C32). Props/Meaning: with distinct ids a statement about a known id is a map over the messages (`spells_effect`), so the parsed list is the list of the first pass with the fold of all statements applied to each message (`file_effect`); the last statement of a kind decides (`fold_last`, `fold_keep`), and messages of the first pass are empty (`first_fresh`). It removes the reference to the parsed list from `IsCounter` and `IsChecksum` of C66 and C68. The example has statements of all kinds, a comment over two lines and a rolling counter that a later comment replaces. Files with a list of keywords after NS_ (a line CM_ begins a comment there) are covered in two ways: the lines before the statements are not in blocks (`EndsIn`, Proofs/NsHead) when a comment begins before any statement ends, and otherwise the lines from that CM_ to the next end are one silent statement; Props/NsList has an example of each.
C70: Props/RunEnd: `mainOps` and `utilsOps` on any host are the calls on the host where all files can be opened, with other results of opening (`main_open`, `utils_open`); a writer run with them gives `carryOver` of the files (`writer_carry`), which is stated on the list of files alone. `Asks` states the request in terms of the argument list (C37). The example is the run of C65 with a write protected `drv.h`.
C71: The proofs of C57 and C63 to C68 are about `who : Option Str`: `some node` for the util files of a node, `none` for those of all messages (`utilFor`, `whoGroups` in Model/NodeUtil.lean). `run_all` finds the text of the one pair of util files among the written ones; `all_rx` shows that every message with signals is mapped. The example runs `coderdbc -dbc in/my.dbc -out gen -drvname drv -rw`, sends three frames with the driver of that directory and receives them with `drv_Receive`. The refutation is a message `d_rx` with a driver `d`.
C72: Props/LostFrames. The tags of the text (`CounterTag`, `ChecksumTag`: statements about the last comment of their kind, without the parsed list) give counter and checksum of the parsed message by C69. A sequence of frames is a list of sends with a mark for those that arrive; C68 is used for the marked ones, and the counter is followed through the unmarked ones by what Pack leaves in it (C64), `walk`. The example sends three `Motor` and a `Gear`; if the second `Motor` is lost there is an alarm, and none if it arrives.
C73: Props/FrameStruct. The line the user adds to dbccodeconf.h is part of the read directory (`ConfEdit`: `Data[8]` or `Data[64]`, with or without sigfloat_t); the parser of Spec/CProg reads the array member, and `FrameData` finds the struct in the compiled unit. The frame the caller passes has an array of exactly the declared length, so a write behind it is undefined in the interpreter. The defined calls come from `runs_done` (C55), the undefined ones from the initialisation loop, which needs the validated length. Examples: a message of 2 bytes packed into the documented struct; the refutation uses one of 12 bytes.
C74: Props/NodeNames, Props/OutDirs. A pattern that matches at every separator leaves pieces without separators, so every node name (header, BO_TX_BU_ line, receivers) has only the characters of the class; the driver name passes make_c_name (C33). With both, each path of C38 is a prepared directory, '/', and a name without '/'; prepareDirectory has made the five directories. `DirMade` and `InDir` are stated on the file system and the path alone.
C75: Props/OneFile. The paths of a run (C70, C38) are the output directory, one of five directories and a name; two of them are equal only for two nodes with the same name in small letters (C45), and every node of the file has its pair of files exactly once (C23). `onDisk` is the text written last to a path. Refuted by a whole run on a file with the nodes ECU and Ecu.
C76: Proofs/MsgOrder, Props/MsgOrder. First pass: a section changes the state only through the message it closes, so the list after all sections is a rearrangement and the maximum of the DLCs is the same; from the last header on, the two runs of the scanner are related line by line (same open message, rearranged lists, same last message when none is open, which is the one an unknown id changes). Second pass: the same relation; the comment collected since the line CM_ of NS_ may differ until the next comment begins. Generators: sorted rearrangements of messages with distinct ids are equal, the nodes are rearranged (C23). Refuted by two whole runs on a file with two messages.
C77: Proofs/SigOrder, Props/SigOrder. Reading a line adds at most one signal, and two lines can be exchanged up to the order of the signals; by induction on the rearrangement the open messages differ in that order only. Closing a message sorts the signals, and two sorted rearrangements of signals with different start bits are equal, so from the next header, list of transmitters or end of file on the two scanners are in the same state. The second pass sees the same messages; the comment collected since a line CM_ may differ until the next comment begins. Refuted by two whole runs on a message with two signals at bit 0.
C78: Spec/History, Props/Rerun. The machine after a run has its files and directories (afterRun). A run depends on the directories only through PrepareDirectory; no written path is one of the directories, so by induction on the number of runs the five directories stay, the base directory is there (-rw), or exactly the first n numbered directories are there. Refuted by two runs on a DBC file called gen/lib/drv.h.
C79: Proofs/StmtOrder, Props/StmtOrder. The effect of the statements on a message is a fold (C69); two statements about different things commute part by part: signals (each statement maps every signal), comment, cycle time, and the tags, which depend only on what no statement changes. A rearrangement of pairwise commuting steps gives the same fold. The lines of the statements do not change the state of the first pass. Refuted by two whole runs on a message with two signals tagged as rolling counter.
C80: Props/LineEnds. Both passes see trimmed lines only, so white space at the end does not matter. A trimmed blank line is empty or a line feed; it does nothing in the first pass (`blank_inert`), and nothing in the second when no statement is collected; what is collected belongs to a statement that has begun and not ended (`collected_open`). The text with line ends of Windows has the same lines up to this (`sameLines_cr`), for every text. Refuted by two whole runs on a comment with an empty line.
C81: Props/CommentText. A line that ends in a backslash is joined with the next (`PPL.splice`), by induction over the lines of the text: a joined line of the comment is still in the comment, so only the end of the text matters (`ppl_cmt_go`). For a text that ends in a backslash the next line is in the comment (`ppl_lost_go`). Refuted by two whole runs, with and without a comment that is a path.
C82: Props/OtherLines. A line that begins with letters and an underscore is no version line (`under_version`), one that does not begin with BO is no header and no line of transmitters (`front_tx`, from the first piece of the split), one without a colon is no signal (`noColon_sig`); so it does nothing in the first pass. In the second pass it does nothing unless a statement is open, as in C80. `C82_strip_partial` leaves out all such lines. Refuted by two whole runs with a line of nodes that reads like a signal.
C83: Props/OtherLines. SIG_VALTYPE_ is one of the keywords of C82, so the declaration has no effect (`C83_ignored`). Refuted by a whole run whose header, as the compiler sees it, declares the member as `uint32_t`.
C84: Props/Descriptive. `bareMsg` erases what only describes; every function of the source generator gives the same on the erased message (`bare_source`). In the second pass the erased messages do not change (`bare_line`): a comment that is about something has its text from its statement (`finish_text`), and without < it has no tag. Sorting by distinct ids gives the same order for both. Props/DescRun: the files of two runs to the end (`generate_files`) differ in the header and below butl only.
