{"id": "C01", "title": "Unpack reads exactly the DBC bits of an unsigned signal", "statement": "For every signal of at most 32 bits, and for every signal of at most 64 bits whose low end is byte aligned, in either byte order, that lies inside the payload, the generated Unpack expression evaluates, without undefined behaviour, to the number whose bit k is the payload bit at the position the DBC format assigns to bit k of that signal.", "quantifier": "all start bits, lengths, byte orders, payload lengths and payload contents", "why_tests_cant": "the space is (start x length x order x 2^512 payloads); tests sample a few layouts of one DBC file", "anchors": ["src/codegen/c-sigprinter.cpp:CSigPrinter::PrintSignalExpr", "src/codegen/c-main-generator.cpp:CiMainGenerator::WriteUnpackBody"]}
{"id": "C02", "title": "Unpack is right for every signal width up to 64 bits", "statement": "The generated Unpack expression yields the DBC value for every signal of 1..64 bits that fits the payload. (The code violates this for unaligned signals wider than 32 bits: a byte is shifted by 25..31 in 32-bit arithmetic. The exact set of layouts for which Unpack is right on all payloads is characterised.)", "quantifier": "all layouts of width 1..64 and all payloads", "why_tests_cant": "needs an argument over all layouts; the shipped test DBC has no signal wider than 32 bits", "anchors": ["src/codegen/c-sigprinter.cpp:CSigPrinter::PrintSignalExpr"]}
{"id": "C03", "title": "Sign extension of signed signals", "statement": "For every signed signal of 1..32 bits, the value Unpack stores equals the two's complement reading of its payload bits, for 32-bit and 64-bit bitext_t configurations.", "quantifier": "all widths 1..32, all payload values, both bitext_t widths", "why_tests_cant": "2^32 values per width; the unit test checks widths 3 and 8 on 15 values", "anchors": ["src/codegen/c-main-generator.cpp:extend_func_body", "src/codegen/c-main-generator.cpp:CiMainGenerator::WriteUnpackBody"]}
{"id": "C04", "title": "Sign extension of signed signals wider than 32 bits", "statement": "Signed signals of 33..64 bits are sign extended correctly when bitext_t is 64 bits wide. (The code violates this for every such width: the mask is computed as 1u << (bits-1), which is undefined.)", "quantifier": "all widths 33..64 and all raw values", "why_tests_cant": "absence of a defined result for every width is not observable by running", "anchors": ["src/codegen/c-main-generator.cpp:extend_func_body"]}
{"id": "C05", "title": "Pack writes exactly the DBC bits of every signal", "statement": "After Pack, the payload bit at each position equals the initial byte's bit OR-ed with the bits of the signals the DBC assigns to that position, for every message whose signals fit the payload, for signed and unsigned fields of up to 64 bits; no undefined behaviour occurs.", "quantifier": "all messages (any number of signals, any layouts), all field values", "why_tests_cant": "unbounded number of signals and 2^64 values each", "anchors": ["src/codegen/c-sigprinter.cpp:CSigPrinter::PrintSignalExpr", "src/codegen/c-sigprinter.cpp:CSigPrinter::AppendToByteLine", "src/codegen/c-main-generator.cpp:CiMainGenerator::PrintPackCommonText"]}
{"id": "C06", "title": "Pack then Unpack returns every signal value", "statement": "For every message whose signals fit the payload and do not overlap, unpacking a packed frame yields, for every signal, the field value that was packed (for values in the signal's range), signed and unsigned.", "quantifier": "all messages, all in-range signal values", "why_tests_cant": "round trip over unbounded layouts and values", "anchors": ["src/codegen/c-sigprinter.cpp:CSigPrinter::BuildCConvertExprs", "src/codegen/c-main-generator.cpp:CiMainGenerator::WriteUnpackBody", "src/codegen/c-main-generator.cpp:CiMainGenerator::PrintPackCommonText"]}
{"id": "C07", "title": "Unpack then Pack reproduces the frame", "statement": "For every payload, unpacking it and packing the result reproduces every payload bit that belongs to a signal, and sets every other bit to the configured initial byte value.", "quantifier": "all messages with fitting, non-overlapping signals; all payloads", "why_tests_cant": "2^(8*DLC) payloads", "anchors": ["src/codegen/c-sigprinter.cpp:CSigPrinter::BuildCConvertExprs", "src/codegen/c-main-generator.cpp:CiMainGenerator::PrintPackCommonText"]}
{"id": "C08", "title": "Signals do not interfere in Pack", "statement": "Changing the value of one field can change only payload bits that the DBC assigns to that signal.", "quantifier": "all messages (even overlapping layouts), all pairs of structures differing in one field", "why_tests_cant": "relational property over pairs of executions", "anchors": ["src/codegen/c-sigprinter.cpp:CSigPrinter::PrintSignalExpr", "src/codegen/c-main-generator.cpp:CiMainGenerator::PrintPackCommonText"]}
{"id": "C09", "title": "A custom initial byte value does not corrupt signals", "statement": "The *_INITIAL_BYTE_VALUE macro only determines bits that belong to no signal; signal bits are what was packed for every fill value. (The code violates this: Pack ORs into the fill. Holds exactly when the fill has zeros on all signal bits.)", "quantifier": "all fill values and all messages", "why_tests_cant": "256 fills x all layouts x all values", "anchors": ["src/codegen/c-main-generator.cpp:CiMainGenerator::PrintPackCommonText", "src/codegen/c-main-generator.cpp:CiMainGenerator::Gen_MainHeader"]}
{"id": "C10", "title": "Generated code stays inside the payload", "statement": "Every payload index that generated Unpack reads and Pack writes is below the message's DLC, for every message for which generation succeeds with compilable code.", "quantifier": "all messages and signals", "why_tests_cant": "quantifies over all layouts; a test only sees the indices of its own DBC", "anchors": ["src/codegen/c-sigprinter.cpp:CSigPrinter::PrintSignalExpr"]}
{"id": "C11", "title": "Layouts that do not fit the DLC are refused", "statement": "If a signal does not fit the message's payload, the generator emits the documented compile-stopping error text instead of code, and never accesses memory outside its own tables. (Violated: the bounds check inside the byte loop is off by one and missing for the last fragment, so Motorola signals running past the end index past the vector; start bits above 65535 wrap; positions above 511 are clamped.)", "quantifier": "all signal layouts and DLCs", "why_tests_cant": "undefined behaviour in the generator need not show up when run", "anchors": ["src/codegen/c-sigprinter.cpp:CSigPrinter::PrintSignalExpr"]}
{"id": "C12", "title": "The raw field type can hold every raw value", "statement": "The integer type chosen for a signal's struct field can represent every raw value of the signal, and it is the narrowest standard type of its signedness that can, for widths 1..64, on hosts with signed char and where converting an out-of-range double to int64_t gives a value whose unsigned image is at least 2^32 (as on x86 and ARM). (Widths for which the generator relies on such a conversion, and the wrong type on hosts with unsigned char, are shown separately.)", "quantifier": "all widths, signed and unsigned", "why_tests_cant": "requires agreement of floating-point pow, mixed-sign comparisons and all widths", "anchors": ["src/parser/dbclineparser.cpp:DbcLineParser::GetSigType"]}
{"id": "C13", "title": "The integer physical field type can hold every physical value", "statement": "For integer factor/offset, the type chosen for the *_phys field can represent raw*factor+offset for every raw value. (Violated for signed signals with factor -1 and offset 0; proved for positive factors.)", "quantifier": "all widths, factors, offsets", "why_tests_cant": "three unbounded parameters", "anchors": ["src/parser/dbclineparser.cpp:DbcLineParser::GetSigType"]}
{"id": "C14", "title": "Generated fromS macros compute raw*factor+offset", "statement": "With integer factor and offset, the generated *_fromS macro followed by the cast to the *_phys type stores raw*factor+offset for every raw value. (Violated for 32-bit unsigned fields because the macro computes in unsigned int; proved for fields of at most 16 bits when the product fits int, and for 64-bit fields without overflow.)", "quantifier": "all raw values, factors, offsets", "why_tests_cant": "depends on C's usual arithmetic conversions over the full value range", "anchors": ["src/codegen/c-sigprinter.cpp:CSigPrinter::PrintPhysicalToRaw", "src/codegen/c-main-generator.cpp:CiMainGenerator::WriteUnpackBody"]}
{"id": "C15", "title": "toS inverts fromS", "statement": "For integer factor and offset, converting a raw value to physical and back with the generated macros returns the raw value. (Violated for unsigned physical types and negative factors, where the division is unsigned; proved when the macro's computation type holds the values.)", "quantifier": "all raw values, non-zero factors, offsets without overflow", "why_tests_cant": "2^16+ values x all factors", "anchors": ["src/codegen/c-sigprinter.cpp:CSigPrinter::PrintPhysicalToRaw"]}
{"id": "C16", "title": "Each signal is converted with its own factor and offset", "statement": "The conversion macros used for a signal in Pack/Unpack are the ones generated from that signal's own factor and offset. (Violated when two messages have same-named signals with different scaling: only the first signal's macros are emitted.)", "quantifier": "all message lists", "why_tests_cant": "depends on global history of already emitted names", "anchors": ["src/codegen/c-main-generator.cpp:CiMainGenerator::Gen_MainHeader"]}
{"id": "C17", "title": "Frame monitor bookkeeping", "statement": "In every history of Unpack calls with monitors enabled, dlc_error is set iff the last frame was shorter than the message's DLC, frame_cnt equals the number of calls modulo 2^32, and last_cycle is the tick sampled at the last call.", "quantifier": "all histories of frames", "why_tests_cant": "invariant over unbounded histories incl. counter wrap", "anchors": ["src/codegen/c-main-generator.cpp:CiMainGenerator::WriteUnpackBody"]}
{"id": "C18", "title": "Automatic rolling counter counts modulo its width", "statement": "With AUTO_ROLL, the n-th Pack call transmits (initial+n) mod 2^width in the rolling counter signal for every width below 31.", "quantifier": "all histories of Pack calls, all widths, all initial values", "why_tests_cant": "unbounded histories and wrap-around", "anchors": ["src/codegen/c-main-generator.cpp:CiMainGenerator::PrintPackCommonText"]}
{"id": "C19", "title": "Rolling counter monitor raises no false alarms and detects loss", "statement": "After the first received frame, roll_error is 0 for every frame of an in-order loss-free sequence, and is 1 exactly when the number of frames lost since the previous reception is not a multiple of 2^width.", "quantifier": "all frame sequences, all loss patterns", "why_tests_cant": "history property over all loss patterns", "anchors": ["src/codegen/c-main-generator.cpp:CiMainGenerator::WriteUnpackBody"]}
{"id": "C20", "title": "Checksum written by Pack verifies in Unpack", "statement": "With AUTO_CSM, a frame produced by Pack is unpacked with csm_error=0 whenever the user's hash ignores the checksum bits and fits the checksum width. (Without these assumptions on the hash it fails: e.g. XOR over the whole frame; a witness is given.)", "quantifier": "all messages with a checksum signal, all field values, all hash functions satisfying the assumption", "why_tests_cant": "quantifies over user supplied functions", "anchors": ["src/codegen/c-main-generator.cpp:CiMainGenerator::PrintPackCommonText", "src/codegen/c-main-generator.cpp:CiMainGenerator::WriteUnpackBody", "src/codegen/c-sigprinter.cpp:CSigPrinter::BuildCConvertExprs"]}
{"id": "C21", "title": "Both Pack signatures produce the same frame", "statement": "The USE_CANSTRUCT and the array variant of Pack write the same payload, DLC, IDE and return the same id and leave the same structure.", "quantifier": "all messages, all structures, all configurations", "why_tests_cant": "equivalence of two generated programs on all inputs", "anchors": ["src/codegen/c-main-generator.cpp:CiMainGenerator::WritePackStructBody", "src/codegen/c-main-generator.cpp:CiMainGenerator::WritePackArrayBody"]}
{"id": "C22", "title": "Receive dispatches to the right message", "statement": "The generated Receive function, given an id, calls Unpack of a message having that id iff one is mapped, touches no other message, and returns 0 with nothing modified otherwise.", "quantifier": "every list of mapped messages (any length, duplicates allowed) and every id", "why_tests_cant": "decision tree shape depends on list length; ids are 2^32", "anchors": ["src/codegen/c-util-generator.cpp:CiUtilGenerator::FillTreeLevel", "src/codegen/conditional-tree.cpp:ConditionalTree::WriteCode"]}
{"id": "C23", "title": "Node specific Receive covers exactly the node's messages", "statement": "With -nodeutils, the Receive function of a node handles a frame iff the DBC lists that node as a receiver of a (non-empty) message with this id, and the node's tx structure contains exactly the non-empty messages it transmits.", "quantifier": "all message lists with distinct ids, all nodes", "why_tests_cant": "composition of classification, sorting and tree for unbounded lists", "anchors": ["src/codegen/c-util-generator.cpp:CiUtilGenerator::Generate", "src/app.cpp:CoderApp::GenerateCode"]}
{"id": "C24", "title": "Only valid message headers are accepted", "statement": "A message in the parsed list has DLC 1..64, a 29-bit id, and is marked extended iff bit 31 of the DBC id is set; headers violating the limits are dropped together with their signals. (The DLC limit is violated for DLC >= 257 because of 8-bit truncation; a witness is given.)", "quantifier": "all header lines", "why_tests_cant": "unbounded input text", "anchors": ["src/parser/dbclineparser.cpp:DbcLineParser::ParseMessageLine", "src/parser/dbcscanner.cpp:DbcScanner::ParseMessageInfo"]}
{"id": "C25", "title": "Well-formed message lines parse to what they say", "statement": "Rendering a message header in DBC syntax and parsing it returns the id, name, DLC and transmitter it was rendered from.", "quantifier": "all ids, names, DLCs and transmitters", "why_tests_cant": "round trip over unbounded names and numbers", "anchors": ["src/parser/dbclineparser.cpp:DbcLineParser::ParseMessageLine", "src/parser/dbclineparser.cpp:resplit"]}
{"id": "C26", "title": "Well-formed signal lines parse to what they say", "statement": "Rendering a signal line with decimal scaling in DBC syntax and parsing it returns the name, multiplex mark, start bit, length, order, sign, factor, offset, unit and receivers it was rendered from.", "quantifier": "all signal descriptions", "why_tests_cant": "round trip over unbounded strings", "anchors": ["src/parser/dbclineparser.cpp:DbcLineParser::ParseSignalLine", "src/parser/dbclineparser.cpp:resplit"]}
{"id": "C27", "title": "Signals belong to the message they follow", "statement": "Every parsed message contains exactly the well-formed signal lines between its header and the next header (or multi-transmitter line), ordered by start bit; signals after a rejected header are attached to no message.", "quantifier": "all line sequences", "why_tests_cant": "state machine over unbounded inputs", "anchors": ["src/parser/dbcscanner.cpp:DbcScanner::ParseMessageInfo", "src/parser/dbcscanner.cpp:DbcScanner::AddMessage"]}
{"id": "C28", "title": "MAX_DLC_VALUE is the maximum DLC", "statement": "The generated *_MAX_DLC_VALUE is the largest DLC of all messages, hence Pack initialises every byte before OR-ing signals into it. (Violated: the last message of the file is never considered.)", "quantifier": "all DBC files", "why_tests_cant": "depends on the order of an unbounded list", "anchors": ["src/parser/dbcscanner.cpp:DbcScanner::ParseMessageInfo", "src/codegen/c-main-generator.cpp:CiMainGenerator::Gen_MainHeader"]}
{"id": "C29", "title": "Attributes, comments and value tables reach the message they name", "statement": "A cycle time, comment or value table line changes only the message (signal) it names; if the id is unknown nothing changes. (Violated: an unknown id changes the last message of the list.)", "quantifier": "all message lists and all lines", "why_tests_cant": "unbounded lists", "anchors": ["src/parser/dbcscanner.cpp:find_message", "src/parser/dbcscanner.cpp:DbcScanner::ParseOtherInfo"]}
{"id": "C30", "title": "Value tables reach every signal", "statement": "A well-formed value table line for a signal of an existing message is stored with that signal. (Violated for every scaled signal, because its stored name carries the suffix _ro.)", "quantifier": "all signals and tables", "why_tests_cant": "unbounded", "anchors": ["src/parser/dbcscanner.cpp:DbcScanner::ParseOtherInfo", "src/parser/dbclineparser.cpp:DbcLineParser::ParseValTableLine"]}
{"id": "C31", "title": "Receiver and transmitter lists are sets", "statement": "After parsing, the receiver list of a message contains every receiver of every of its signals exactly once and nothing else; multi-transmitter lines add each named node at most once and remove none.", "quantifier": "all messages", "why_tests_cant": "unbounded lists", "anchors": ["src/parser/dbcscanner.cpp:DbcScanner::AddMessage", "src/parser/dbcscanner.cpp:DbcScanner::ParseMessageInfo"]}
{"id": "C32", "title": "Multi-line statements are stitched independent of line breaks", "statement": "A comment, attribute or value table statement split over several lines is processed exactly once, when its terminating line arrives, with the pieces joined in order, and leaves no residue that affects later statements.", "quantifier": "all line sequences", "why_tests_cant": "state carried between lines over unbounded histories", "anchors": ["src/parser/dbclineparser.cpp:DbcLineParser::ParseCommentLine", "src/parser/dbclineparser.cpp:DbcLineParser::ParseAttributeLine", "src/parser/dbclineparser.cpp:DbcLineParser::ParseValTableLine"]}
{"id": "C33", "title": "Generated names from free text are C identifiers", "statement": "For every string, the sanitised name is empty or a valid C identifier; valid identifiers are unchanged and sanitising twice is the same as once.", "quantifier": "all strings", "why_tests_cant": "unbounded strings", "anchors": ["src/helpers/formatter.cpp:make_c_name"]}
{"id": "C34", "title": "Printed factors and offsets", "statement": "For every fixed-format decimal and every precision, the printed literal keeps the integer part, keeps at most `precision` fraction digits without trailing zeros, contains a dot when a floating literal is required, and differs from the input by less than one unit of the last allowed digit, never exceeding it in magnitude.", "quantifier": "all decimals, all precisions", "why_tests_cant": "unbounded digits", "anchors": ["src/helpers/formatter.cpp:prt_double"]}
{"id": "C35", "title": "Line trimming", "statement": "Trimming removes exactly the maximal tail of characters that do not compare greater than a blank and nothing else, for non-empty lines.", "quantifier": "all strings", "why_tests_cant": "unbounded strings", "anchors": ["src/helpers/formatter.cpp:str_trim"]}
{"id": "C36", "title": "Each output file gets exactly its own text", "statement": "For every sequence of append and flush operations in which the files can be opened, each file contains exactly the text appended since the previous flush. (When a file cannot be opened its text leaks into the next file; witness given.)", "quantifier": "all operation sequences", "why_tests_cant": "history property", "anchors": ["src/codegen/filewriter.cpp:FileWriter::Flush", "src/codegen/filewriter.cpp:FileWriter::Append"]}
{"id": "C37", "title": "Command line options", "statement": "For every argument vector the recognised options are those present as keys, values are taken from the following non-dash argument, the last occurrence wins, unknown options are ignored, and the order of distinct options is irrelevant.", "quantifier": "all argument vectors", "why_tests_cant": "unbounded vectors and permutations", "anchors": ["src/options-parser.cpp:OptionsParser::GetOptions", "src/app.cpp:CoderApp::AreParamsValid"]}
{"id": "C38", "title": "Without -rw earlier output is preserved", "statement": "A run without -rw writes into a fresh numbered subdirectory and never overwrites files of an earlier run. (Violated: the numbered directory is created but files are written below the base path.)", "quantifier": "all file system states and options", "why_tests_cant": "quantifies over file system states", "anchors": ["src/codegen/fs-creator.cpp:FsCreator::Configure", "src/codegen/fs-creator.cpp:FsCreator::PrepareDirectory"]}
{"id": "C39", "title": "Path helpers", "statement": "Joining an output path and a driver name puts exactly one separator between them when each side has at most one; extracting the file name of a path returns the longest separator-free suffix.", "quantifier": "all strings", "why_tests_cant": "unbounded strings", "anchors": ["src/app.cpp:CombinePath", "src/app.cpp:ExtractFileName"]}
{"id": "C40", "title": "Value table macros: first definition wins", "statement": "After preprocessing, the macro of a value table entry has the value of the first entry with the same sanitised name, and every entry name is defined.", "quantifier": "all value tables", "why_tests_cant": "unbounded tables", "anchors": ["src/codegen/c-main-generator.cpp:CiMainGenerator::Gen_MainHeader"]}
{"id": "C41", "title": "Generation of struct declarations always completes", "statement": "Printing the struct field of any signal completes without an exception. (Violated for rolling counter signals with names of 24 or more characters that are the longest of the message: the padding width underflows; and for integer factors or offsets outside the range of int32_t, whose cast is undefined.)", "quantifier": "all signals and messages", "why_tests_cant": "unbounded name lengths", "anchors": ["src/codegen/c-main-generator.cpp:CiMainGenerator::WriteSigStructField", "src/codegen/c-main-generator.cpp:CiMainGenerator::Gen_MainHeader"]}
{"id": "C42", "title": "Version numbers", "statement": "A version line VERSION \"a.b\" (case-insensitive keyword) sets the version pair to (a,b), lines of other shape leave it unchanged, and the core and util sources carry the same version check.", "quantifier": "all lines and numbers", "why_tests_cant": "unbounded text", "anchors": ["src/parser/dbcscanner.cpp:ParseVersionLine", "src/parser/dbcscanner.cpp:DbcScanner::FindVersion"]}
{"id": "C43", "title": "Standard and extended messages with the same number are both received", "statement": "Every mapped message is dispatched for some frame: a standard and an extended message that share the 29-bit number both reach their own Unpack. (Violated: the search looks at the number only, so of two messages with the same number one is never dispatched; proved for numbers that occur once.)", "quantifier": "all message lists, all results of the unstable sort, all ids", "why_tests_cant": "unbounded lists; statement about all ids", "anchors": ["src/codegen/c-util-generator.cpp:CiUtilGenerator::FillTreeLevel", "src/codegen/c-util-generator.cpp:CiUtilGenerator::Generate"]}
{"id": "C44", "title": "The return value of Receive tells whether a frame was handled", "statement": "Receive returns a non-zero value exactly when the frame was unpacked into a message. (Violated for messages with id 0; proved for lists without id 0.)", "quantifier": "all message lists, frames and ids", "why_tests_cant": "unbounded lists; all frames", "anchors": ["src/codegen/c-util-generator.cpp:CiUtilGenerator::PrintSource"]}
{"id": "C45", "title": "Every node gets its own util files", "statement": "With -nodeutils, the util files of two different nodes have different paths, so no node's driver is overwritten. (Violated for nodes that differ in letter case only; exactly then.)", "quantifier": "all node and driver names", "why_tests_cant": "unbounded strings", "anchors": ["src/app.cpp:CoderApp::GenerateCode"]}
{"id": "C46", "title": "Physical values are sent as (phys - offset) / factor", "statement": "With USE_SIGFLOAT, Pack transmits for every scaled integer signal the raw value (phys - offset) / factor rounded towards zero, when that is a raw value of the signal. (Violated where the macro computes in an unsigned type with a negative factor or a negative difference; proved otherwise.)", "quantifier": "all messages, layouts, member values and configurations", "why_tests_cant": "combines C conversions, preprocessor macros and bit packing for all values", "anchors": ["src/codegen/c-sigprinter.cpp:CSigPrinter::PrintPhysicalToRaw", "src/codegen/c-main-generator.cpp:CiMainGenerator::WritePackBody"]}
{"id": "C47", "title": "Printed conversion constants equal those of the DBC", "statement": "The factor and offset literals of the generated conversion macros (nine fraction digits) have the value written in the DBC and no non-zero factor is printed as zero. (Violated for constants with more than nine decimal places: 0.0000000019 becomes 0.000000001; exact for up to nine places, and factors of at least 1e-9 stay non-zero.)", "quantifier": "all decimals", "why_tests_cant": "unbounded decimals", "anchors": ["src/codegen/c-sigprinter.cpp:CSigPrinter::PrintPhysicalToRaw", "src/helpers/formatter.cpp:prt_double"]}
{"id": "C48", "title": "No undefined behaviour while preparing the output directory", "statement": "For every accepted command line and every file system state the output directory is prepared without undefined behaviour. (Violated when -out has no value: the options are accepted and the last character of an empty string is read; proved for non-empty output paths and for -driverdir.)", "quantifier": "all argument vectors and file system states", "why_tests_cant": "unbounded vectors, all file systems", "anchors": ["src/codegen/fs-creator.cpp:FsCreator::PrepareDirectory", "src/app.cpp:CoderApp::AreParamsValid"]}
{"id": "C50", "title": "What the generator may rely on after parsing", "statement": "In the message list of every file whose parsing ends, the struct member type of every signal of 1 to 64 bits can hold its raw values, the rolling counter and the checksum of a message are signals of that message, and the checksum signal is simple, unsigned and lies in one byte.", "quantifier": "all files and all conforming std::sort implementations", "why_tests_cant": "invariant over two passes and unbounded files", "anchors": ["src/parser/dbcscanner.cpp:DbcScanner::TrimDbcText", "src/parser/dbcscanner.cpp:DbcScanner::ParseOtherInfo", "src/parser/dbclineparser.cpp:DbcLineParser::ParseSignalLine"]}
{"id": "C51", "title": "Uninitialised comment record has no effect", "statement": "The result of the second pass over a file does not depend on the contents of the comment variable before the loop, whose message id the code does not initialise.", "quantifier": "all files and initial contents", "why_tests_cant": "two-run property over all initial memory contents", "anchors": ["src/parser/dbcscanner.cpp:DbcScanner::ParseOtherInfo", "src/types/comment.h:Comment_t"]}
{"id": "C52", "title": "Tags in signal comments select rolling counter and checksum", "statement": "A signal comment with <RollingCounter> makes the signal the rolling counter of its message; one with <Checksum:method:option> makes it the checksum with this method and option if the signal is simple, unsigned and lies in one byte; other comments change neither. (Violated: a tag is ignored when a '<' stands before it or a colon follows close behind it.)", "quantifier": "all comment texts, messages and signals", "why_tests_cant": "unbounded text", "anchors": ["src/parser/dbcscanner.cpp:DbcScanner::ParseOtherInfo"]}
{"id": "C49", "title": "Reading a DBC file never ends with an uncaught exception", "statement": "Parsing any text ends normally; no exception leaves the parser. (Violated: a line made of a word and two numbers, one of which exceeds the range of unsigned long, makes std::stoul throw; nothing else does.)", "quantifier": "all texts", "why_tests_cant": "needs all lines of all files; the exception depends on unbounded digit strings", "anchors": ["src/parser/dbcscanner.cpp:DbcScanner::ParseVersionLine", "src/parser/dbcscanner.cpp:DbcScanner::FindVersion"]}
{"id": "C53", "title": "Printed conversion expressions are C expressions with the intended meaning", "statement": "The text printed for a signal in Unpack, tokenised and parsed by the C grammar with C operator precedences, is one expression whose value is the raw value of the signal for every payload; the text printed for a payload byte in Pack is empty exactly if no signal has a bit there and otherwise is one expression whose value has exactly the signal bits of this byte. For messages that do not fit, each text is a C expression or the error text, which is not a C expression.", "quantifier": "all messages with C identifiers of at most 2000 characters as signal names, all payloads and member values", "why_tests_cant": "the claim is about the literal text for unbounded layouts and names, under the C grammar (parentheses, precedences, number literals)", "anchors": ["src/codegen/c-sigprinter.cpp:CSigPrinter::PrintSignalExpr", "src/codegen/c-sigprinter.cpp:CSigPrinter::BuildCConvertExprs", "src/codegen/c-sigprinter.cpp:CSigPrinter::AppendToByteLine"]}
{"id": "C54", "title": "The generated files compile, and the compiled functions are the modelled ones", "statement": "For every driver name, message list and set of macros the user defines, the text of <drv>.c together with <drv>.h and <drv>-fmon.h is accepted by the C preprocessor and the C grammar, and every call of Unpack_M and Pack_M of the resulting translation unit has the effects of the statement-level model of these functions, including undefined behaviour. (Violated: with a driver t and messages A and Unpack_A a struct type and a function have the same name.)", "quantifier": "all driver names, message lists, sets of user macros (all configurations), targets, states and arguments", "why_tests_cant": "the claim is about literal program text under every combination of conditional compilation, for unbounded message lists and names", "anchors": ["src/codegen/c-main-generator.cpp:CiMainGenerator::Gen_MainHeader", "src/codegen/c-main-generator.cpp:CiMainGenerator::Gen_MainSource", "src/codegen/c-main-generator.cpp:CiMainGenerator::WriteUnpackBody", "src/codegen/c-main-generator.cpp:CiMainGenerator::WritePackStructBody", "src/codegen/fs-creator.cpp:FsCreator::Configure"]}
{"id": "C55", "title": "The compiled text decodes and encodes frames as the DBC says", "statement": "In the translation unit the generated text compiles to, every call of Unpack_M is defined and leaves in every member the value that the DBC layout assigns to the payload (two's complement for signed signals); every call of Pack_M is defined, leaves exactly the bits of the members at the positions of the DBC layout, leaves the rest of the buffer alone, and what one build packs another build unpacks.", "quantifier": "all message lists, configurations, targets, states and payloads", "why_tests_cant": "end-to-end claim from text to bits over all states, layouts and configurations", "anchors": ["src/codegen/c-main-generator.cpp:CiMainGenerator::Gen_MainSource", "src/codegen/c-sigprinter.cpp:CSigPrinter::PrintSignalExpr", "src/codegen/c-sigprinter.cpp:CSigPrinter::BuildCConvertExprs"]}
{"id": "C56", "title": "Source and header of different versions do not compile together", "statement": "A generated source file whose database version differs from the version of the generated header it includes stops at its #error, whichever macros the user defines; with equal versions the #error is skipped and the files compile.", "quantifier": "all drivers, message lists, versions and user macros", "why_tests_cant": "the check happens in the C preprocessor; no run of the generator executes it", "anchors": ["src/codegen/c-main-generator.cpp:CiMainGenerator::Gen_MainSource", "src/codegen/c-main-generator.cpp:CiMainGenerator::Gen_MainHeader"]}
{"id": "C57", "title": "The util files of a node compile and their receive function dispatches on the id", "statement": "The literal text of <node>_<drv>-binutil.c with its header and the headers of the driver is a C translation unit under every set of user macros. A call of its receive function with any id and in any state makes exactly one call, of the unpack function of a mapped message with this id and with a pointer to the member of that message, and returns its result; or makes no call and returns 0 if no mapped message has this id. Util files of another database version than the header of the driver stop at their #error.", "quantifier": "all drivers, nodes, message lists, mappings, results of the sort, user macros, ids, lengths and states", "why_tests_cant": "every database gives other nested if statements; a test compiles and calls a few of them", "anchors": ["src/codegen/c-util-generator.cpp:CiUtilGenerator::PrintHeader", "src/codegen/c-util-generator.cpp:CiUtilGenerator::PrintSource", "src/codegen/c-util-generator.cpp:CiUtilGenerator::FillTreeLevel", "src/app.cpp:CoderApp::GenerateCode"]}
{"id": "C58", "title": "The message macros of the generated header are the constants of the database", "statement": "Behind the literal text of <drv>.h, preprocessed with any set of user macros, the macros M_CANID, M_DLC, M_IDE and M_CYC expand to constant expressions whose values are the id, the length, the kind and the cycle time of message M, VER_<DRV>_MAJ and _MIN to the version, and <DRV>_MAX_DLC_VALUE to the limit of the list unless the user defines it.", "quantifier": "all drivers, message lists, versions and user macros", "why_tests_cant": "the values are fixed by the preprocessor and by the C rules for constants; a test reads the text of a few databases", "anchors": ["src/codegen/c-main-generator.cpp:CiMainGenerator::Gen_MainHeader"]}
{"id": "C59", "title": "From the text of the DBC file to the bits in the frame", "statement": "For every DBC text the scanner gets through, the literal text of the generated driver compiles as C, and for every message the file states (its header line followed by its signal lines), in that compiled unit Unpack_M_drv and Pack_M_drv are defined on all states and payloads, return the id of the message, and read and write exactly the bits the signal lines define, in the struct members named after the signals.", "quantifier": "all file texts, driver names, user macros, stated messages, states and payloads", "why_tests_cant": "connects two programs through a text; a test would have to generate, compile and run for every database", "anchors": ["src/parser/dbcscanner.cpp:DbcScanner::TrimDbcText", "src/codegen/c-main-generator.cpp:CiMainGenerator::Gen_MainSource"]}
{"id": "C60", "title": "From the text of the DBC file to physical values", "statement": "With DRV_USE_SIGFLOAT defined, in the compiled text of the generated driver Unpack_M_drv leaves in the member <signal>_phys of every scaled signal the value raw * factor + offset with the factor and offset of the signal line, and Pack_M_drv called with physical values in these members is defined, puts the raw values they stand for into the raw members and sends their bits. Integer scaled signals are computed exactly, the others with the operations of the target on the printed constants.", "quantifier": "all file texts, driver names, user macros, stated messages, states, payloads, target floating point operations and raw values", "why_tests_cant": "the chain of type selection, printed macros, C conversions and bit fields has a case for every width, sign, factor and offset; a test compiles a few databases", "anchors": ["src/parser/dbclineparser.cpp:DbcLineParser::GetSigType", "src/codegen/c-main-generator.cpp:CiMainGenerator::Gen_MainSource", "src/parser/dbcscanner.cpp:DbcScanner::TrimDbcText"]}
{"id": "C61", "title": "The generated directory is complete and compiles", "statement": "In a directory with the literal texts of <drv>.c, <drv>.h, <drv>-config.h, <drv>-fmon.h, dbccodeconf.h and canmonitorutil.h the source file compiles: every #include finds a file, every type is declared before it is used, nothing is defined twice, declarations of a function agree. This holds for every choice of switches the user enables in <drv>-config.h, and a call of Unpack_M or Pack_M of the compiled unit does what the model of the functions does under these switches.", "quantifier": "all drivers, message lists, choices of switches, further user macros, directories containing the files, targets and states", "why_tests_cant": "every choice of switches includes other files and uses other types; a test compiles one choice for one database", "anchors": ["src/codegen/c-main-generator.cpp:CiMainGenerator::Gen_DbcCodeConf", "src/codegen/c-main-generator.cpp:CiMainGenerator::Gen_CanMonUtil", "src/codegen/c-main-generator.cpp:CiMainGenerator::Gen_ConfigHeader", "src/codegen/c-main-generator.cpp:CiMainGenerator::Gen_MainSource"]}
{"id": "C62", "title": "The source files of the directory link", "statement": "In the directory of generated files <drv>-fmon.c compiles like <drv>.c, and the two units link: no name is defined in both or twice, and everything one of them declares is defined with the declared type. With monitors switched on the function that Unpack_M calls through FMon_M_<drv> is defined (one per message, or one for all with <DRV>_USE_MONO_FMON). A call of any generated monitor function comes to an end and changes neither the monitor nor the message.", "quantifier": "all drivers, message lists, choices of switches, further user macros, directories containing the files, targets, arguments and states", "why_tests_cant": "names of functions are built from names of messages and of the driver; which are declared and which are defined depends on two switches; a test links one database", "anchors": ["src/codegen/c-main-generator.cpp:CiMainGenerator::Gen_FMonSource", "src/codegen/c-main-generator.cpp:CiMainGenerator::Gen_FMonHeader"]}
{"id": "C63", "title": "The files of a node are a complete program", "statement": "In the directory of generated files the three source files <drv>.c, <drv>-fmon.c and <node>_<drv>-binutil.c compile and link: nothing is defined twice and everything declared is defined with the declared type. If Unpack_M answers the util unit what the function Unpack_M of the main unit returns, a call of <node>_<drv>_Receive with any id makes exactly one call, of Unpack_M of a mapped message with this id, returns the id, and the struct of the message holds what the model of the generated functions says; with an id of no mapped message it makes no call and returns 0.", "quantifier": "all drivers, nodes, message lists, mappings of messages to the node, choices of switches, further user macros, directories containing the files, targets, ids, lengths and states", "why_tests_cant": "the util source file includes dbccodeconf.h directly and again through the header of the driver, its declarations have to agree with functions of two other files, and names of the node and of messages meet only in the linked program; a test builds one node of one database", "anchors": ["src/codegen/c-util-generator.cpp:CiUtilGenerator::Generate", "src/codegen/c-main-generator.cpp:CiMainGenerator::Gen_MainHeader", "src/codegen/c-main-generator.cpp:CiMainGenerator::Gen_MainSource", "src/codegen/c-main-generator.cpp:CiMainGenerator::Gen_FMonSource"]}
{"id": "C64", "title": "From the DBC text to a received frame in the linked program", "statement": "For every DBC text the scanner gets through, the generated directory compiles and the functions of every message the text states read and write the bits, and with physical values the numbers, its signal lines define, for every choice of the switches in the configuration header (with the declarations the configuration headers ask the user for). For a node, the three source files link, and a call of <node>_<drv>_Receive with the id of a message one of whose signal lines names the node as receiver makes exactly one call, of Unpack for this message, returns the id, and every member then holds the value the text defines for the payload; an id of no message received by the node makes no call and returns 0.", "quantifier": "all DBC texts, drivers, nodes, switches, user macros, directories containing the files, targets, ids, lengths, payloads and states", "why_tests_cant": "the statement spans the scanner, grouping of messages per node, three generated files, two configuration headers and the linked program; a test sees single frames of one database in one configuration", "anchors": ["src/parser/dbcscanner.cpp:DbcScanner::TrimDbcText", "src/codegen/c-util-generator.cpp:CiUtilGenerator::Generate", "src/codegen/c-main-generator.cpp:CiMainGenerator::Gen_MainHeader", "src/codegen/c-main-generator.cpp:CiMainGenerator::Gen_MainSource"]}
{"id": "C65", "title": "From the command line to the compiled program", "statement": "For every command line with valid parameters, every DBC file the scanner gets through and every file system in which the output directory can be prepared and the files opened, a run of the tool ends normally and writes exactly the paths of C38; the last text written to each path is the one the generator prints for it. In every directory with these files (with -noinc, canmonitorutil.h from any other run) and configuration headers in which the user has switched on any switches and added the declarations they need, the driver compiles and its functions do for every message of the DBC file what the file defines (C64). With -nodeutils the three source files of each node, whose name no other node has in another spelling, compile, link and receive frames as the file defines (C64). The configuration headers as written have every switch off.", "quantifier": "all command lines, hosts (file system, sort order of equal ids, clock), DBC texts, nodes, switches, user macros, directories containing the files, and everything C64 quantifies over", "why_tests_cant": "a statement about the whole tool: option parsing, paths, order of writes, buffers shared between files, every generated text and its meaning as C; a test fixes the command line, the file and the frame", "anchors": ["src/app.cpp:CoderApp::Run", "src/app.cpp:CoderApp::GenerateCode", "src/codegen/c-main-generator.cpp:CiMainGenerator::Generate", "src/codegen/c-util-generator.cpp:CiUtilGenerator::Generate"]}
{"id": "C66", "title": "A node that receives any sequence of frames", "statement": "For every DBC text the scanner gets through and every node to which C64 applies: in the linked program of the three source files of the node, any sequence of calls of <node>_<drv>_Receive, with any ids, lengths and payloads and functions of the user (such as the clock) that answer differently each time, is defined. Each call returns the id of the frame, or 0 if no message the node receives has this id. After the sequence the struct of every message is what the last frame with its id makes it: each member holds the value the DBC file defines for that payload (and the physical value, if switched on), last_cycle is the time of that frame and dlc_error tells whether its length was too small; frame_cnt has grown by the number of frames with this id, modulo 2^32; roll_error tells whether the rolling counter of that frame is the successor of the counter of the frame with this id before it (or of the value the program began with), csm_error whether its checksum is what the user's hash function gives for it; timeout_cycle and cycle_error are unchanged; the struct of a message for which no frame arrived is unchanged. The same holds from the command line, in a directory with the files a run has written.", "quantifier": "all DBC texts, drivers, nodes, switches, user macros, directories, sequences of frames of any length, ids, lengths, payloads, initial memory and answers of the user's functions", "why_tests_cant": "the states are reached by unboundedly many calls, and whether the frames of one message disturb the struct of another depends on dispatch tree, struct layout and monitor code of three files together; a test sees a few frames", "anchors": ["src/codegen/c-util-generator.cpp:CiUtilGenerator::Generate", "src/codegen/c-main-generator.cpp:CiMainGenerator::WriteUnpackBody", "src/codegen/c-main-generator.cpp:CiMainGenerator::Gen_FMonSource", "src/app.cpp:CoderApp::Run"]}
{"id": "C67", "title": "What one program packs, another receives", "statement": "Two programs generated from the same DBC file, under any driver names, with any switches, options and directories: a driver that sends and a node that receives. For every sequence of calls of the Pack functions of the driver, with struct members in the ranges of their signals and signals that do not overlap, on any buffers: the calls are defined, and so are the calls of <node>_<drv>_Receive with the id, the length and the bytes Pack has returned; each returns the id of the message, or 0 if the node does not receive it. Afterwards the struct of every received message holds in every member exactly what the struct of the sender held after the last Pack of this message, which for all members but an automatic rolling counter or checksum is what the user had put there (with physical values: the raw value of the physical member; and the receiver computes its physical members from it). No dlc_error is reported.", "quantifier": "all DBC texts, pairs of drivers, switches, user macros, directories, sequences of messages of any length, member values, old buffer contents and initial memory", "why_tests_cant": "sender and receiver are different programs with different switches, and the claim is over all values, layouts and sequences; a test compiles one pair", "anchors": ["src/codegen/c-main-generator.cpp:CiMainGenerator::WriteUnpackBody", "src/codegen/c-main-generator.cpp:CiMainGenerator::PrintPackCommonText", "src/codegen/c-util-generator.cpp:CiUtilGenerator::Generate", "src/app.cpp:CoderApp::Run"]}
{"id": "C68", "title": "Automatic counter and checksum of one program are accepted by another", "statement": "Two programs are generated from the same DBC file as in C67; the sender is compiled with automatic rolling counter and checksum, the receiver with monitors that check them. For every sequence of frames that the driver packs and the node receives: Pack counts the counter member up modulo 2^width; for the last frame of a message roll_error is 0 exactly if, when it was packed, the counter member held what Pack had left in it for the previous frame of this message that arrived (so lost frames are noticed unless their number is a multiple of 2^width); for the first frame of a message it is 0 exactly if the counter is what the receiver began with. If both users supply the same checksum function, one that ignores the checksum bits and fits into the signal, csm_error is 0. The same holds from two command lines.", "quantifier": "all DBC texts, driver names, switches, user macros, checksum functions, sequences of frames, struct contents and initial memory", "why_tests_cant": "an alarm depends on two programs and on all frames before; a test that packs and unpacks with the same code sees neither a wrong mask nor a hash over different bytes", "anchors": ["src/codegen/c-main-generator.cpp:CiMainGenerator::WriteUnpackBody", "src/codegen/c-main-generator.cpp:CiMainGenerator::PrintPackCommonText", "src/codegen/c-main-generator.cpp:CiMainGenerator::Gen_FMonSource"]}
{"id": "C69", "title": "The statements of a file say of each message what the last of their kind says", "statement": "For every DBC text whose comments, attributes and value tables are spelled in the usual way (each over any number of lines, in any order, mixed with lines of other kinds, with comments for the network, for nodes and with other attributes) and are about ids of the file, and for each message the file states: the rolling counter is the signal of the last comment with the tag <RollingCounter> for a signal of the message, and there is none without such a comment; the checksum with its method and option is that of the last comment with a checksum tag for an unscaled, unsigned signal within one byte, and there is none without; cycle time and comment of the message, comment and value table of each signal are those of the last statement about it, and empty without one.", "quantifier": "all DBC texts with distinct ids, all lists of statements and ways to split them into lines, all stated messages", "why_tests_cant": "the effect of a statement depends on all statements before and after it and on state that the scanner keeps between lines", "anchors": ["src/parser/dbcscanner.cpp:DbcScanner::ParseOtherInfo"]}
{"id": "C70", "title": "How a run ends, and what it has written then", "statement": "For every command line and every host: the help text is shown exactly when the command line does not ask for a run; a run stops with a message exactly when the DBC file it names does not exist, and with exit(1) exactly when it cannot be opened; an exception leaves main only for a version number that unsigned long cannot hold or when the output directories cannot be made; and a run that ends regularly has read that DBC file, and has written exactly those of its files that can be opened, in their order, each with its own text.", "quantifier": "all command lines, all DBC texts, all file systems and all choices of files that cannot be opened", "why_tests_cant": "the result depends on the state of the host; tests run on a host where all goes well", "anchors": ["src/app.cpp:CoderApp::Run", "src/app.cpp:CoderApp::GenerateCode", "src/codegen/filewriter.cpp:FileWriter::Flush"]}
{"id": "C71", "title": "Without -nodeutils every message of the file is received", "statement": "For every command line with valid parameters without -nodeutils, every DBC file the scanner gets through and every file system in which the files can be written, the run ends and the one pair of util files <drv>-binutil.h and .c it writes is about all messages with signals, whoever receives them: in every directory with the files of the run the driver, the monitor and the util source file compile and link, and every sequence of calls of <drv>_Receive is defined, returns for each frame the id or 0 as in C66, and leaves in every struct what the last frame of its message says. If the frames come from the Pack functions of a driver generated from the same file, by any other run, no frame is lost: each call returns the id of the message that was packed, and every member arrives as in C67.", "quantifier": "all command lines without -nodeutils, hosts, DBC texts, switches, user macros, directories containing the files, sequences of frames, member values and initial memory", "why_tests_cant": "the default mode takes another path through the generator (other names, another mapping of messages, no loop over nodes) and the claim is over all files, messages and frames; a test sees one file", "anchors": ["src/app.cpp:CoderApp::GenerateCode", "src/codegen/c-util-generator.cpp:CiUtilGenerator::Generate", "src/codegen/fs-creator.cpp:FsCreator::Configure"]}
{"id": "C72", "title": "Lost frames raise the alarm, unless their number is a multiple of the counter's range", "statement": "A DBC file marks by comments which signal of a message is the rolling counter and which one the checksum (C69). Sender and receiver are compiled from the files of two runs with this DBC file, as in C68, and some of the packed frames do not arrive. If the user of the sender always gives Pack the counter the Pack before has left, then after any sequence of frames, for the last frame of a message that has arrived, roll_error is 0 exactly if the number of its frames lost since the previous one that arrived is a multiple of 2^width of the counter; in particular it is 0 if none is lost. The checksum of every frame is accepted if both users supply the same checksum function. For a message whose comments have no such tag the alarm stays as it was.", "quantifier": "all DBC texts in the usual spelling, command lines, switches, user macros, checksum functions, sequences of frames, subsets of lost frames, struct contents and initial memory", "why_tests_cant": "the statement leads from a comment in the DBC file through scanner, two runs of the generator and two compiled programs to the alarm after arbitrarily many frames; a test sees one file and a few frames", "anchors": ["src/parser/dbcscanner.cpp:DbcScanner::TrimDbcText", "src/parser/dbclineparser.cpp:DbcLineParser::ParseCommentLine", "src/codegen/c-main-generator.cpp:CiMainGenerator::WriteUnpackBody", "src/codegen/c-main-generator.cpp:CiMainGenerator::PrintPackCommonText", "src/codegen/c-main-generator.cpp:CiMainGenerator::Gen_FMonSource"]}
{"id": "C73", "title": "Packing into the user's frame struct stays inside its data array", "statement": "With <DRV>_USE_CANSTRUCT the user declares __CoderDbcCanFrame_t__ in dbccodeconf.h as <drv>-config.h describes it, with an array Data. The generated directory then compiles, and every call of Pack_M for a message of at most as many bytes as Data has is defined, fills in MsgId, DLC and IDE and exactly the bits of the members in Data. (With the array the comment documents, u8 Data[8], this is false for the messages of more than 8 bytes the generator accepts: every call of Pack_M whose validated length exceeds the array writes behind it, while the directory compiles.)", "quantifier": "all drivers, message lists, switches, user macros, payload lengths, struct contents and frames", "why_tests_cant": "whether a write goes behind the array depends on the DLC in the DBC file, a macro of the user and a declaration of the user; a test with 8 byte messages never shows it", "anchors": ["src/codegen/config-generator.cpp:ConfigGenerator::FillHeader", "src/codegen/c-main-generator.cpp:CiMainGenerator::WritePackStructBody", "src/codegen/c-main-generator.cpp:CiMainGenerator::PrintPackCommonText"]}
{"id": "C74", "title": "Every file of a run is in a directory the run has made", "statement": "If the program ends regularly, the directory part of every file it wrote (everything before the last '/') exists or was created by the run before any file is opened, whatever the names of the driver and of the nodes in the DBC file. On a host that opens every file of an existing directory no file of the run is lost: exactly the files of C38 are written. In particular the names of nodes taken from the DBC text consist of letters, digits, '_', '.', '+' and '-' only, so no node name leads to a file outside the prepared directories.", "quantifier": "every command line, every DBC text, every file system and every std::sort", "why_tests_cant": "The names come from the input file and each name becomes part of a path; only an argument over all texts the splitter can return shows that no separator gets through.", "anchors": ["src/codegen/fs-creator.cpp", "src/parser/dbclineparser.cpp:12-34", "src/codegen/c-main-generator.cpp", "src/app.cpp"]}
{"id": "C75", "title": "No file of a run replaces another file of the same run", "statement": "A run that ends regularly writes no path twice: after the run every file has the text that was generated for it, and not the text of another node or of another kind of file.", "quantifier": "every command line, every DBC text with any number of nodes and any node names, every host", "why_tests_cant": "The paths are made from free names of the command line and of the DBC file; whether two of them meet depends on pairs of names, of which a test sees only a few.", "anchors": ["src/app.cpp:CoderApp::GenerateCode", "src/codegen/fs-creator.cpp:FsCreator::Configure", "src/helpers/formatter.cpp:str_tolower"]}
{"id": "C76", "title": "The order of the messages in the DBC file does not matter", "statement": "Two DBC files with the same messages (each a header with its signal lines) in a different order, and the same other lines, lead to the same generated files with the same texts. (Violated when another message becomes the last of the file: MAX_DLC_VALUE leaves out the last message.)", "quantifier": "every command line, every host, all DBC files with any number of messages with distinct ids, every rearrangement of them", "why_tests_cant": "The scanner keeps state across lines in two passes, and the generators sort; only an argument about all rearrangements shows that no trace of the order remains.", "anchors": ["src/parser/dbcscanner.cpp:DbcScanner::ParseMessageInfo", "src/parser/dbcscanner.cpp:DbcScanner::ParseOtherInfo", "src/parser/dbcscanner.cpp:find_message", "src/codegen/c-main-generator.cpp", "src/codegen/c-util-generator.cpp", "src/app.cpp:CoderApp::GenerateCode"]}
{"id": "C77", "title": "The order of the signal lines of a message does not matter", "statement": "Two DBC files that differ only in the order of the lines after the headers of messages (signals) are scanned to the same list, so that a run ends the same way and writes the same files in the same order. (Violated for signals with the same start bit: std::sort leaves their order open.)", "quantifier": "every command line, every host, all DBC files with any number of messages and signals, every rearrangement of the lines of every section", "why_tests_cant": "All rearrangements of unboundedly many lines; the order of signals decides the struct fields, the indexes of rolling counter and checksum, and the order of the receivers.", "anchors": ["src/parser/dbcscanner.cpp:DbcScanner::AddMessage", "src/parser/dbcscanner.cpp:DbcScanner::ParseMessageInfo", "src/parser/dbcscanner.cpp:DbcScanner::ParseOtherInfo"]}
{"id": "C78", "title": "Running the tool again gives the same files again", "statement": "After a run that ended regularly, any number of further runs with the same command line write the same files with the same texts; with -rw the disk stays as the first run has left it; without -rw run n + 1 makes the numbered directory n, and from the thousand and first run on nothing is written. (Violated when the DBC file has the name of a generated file: the first run replaces it.)", "quantifier": "every command line, every host, every DBC text, every number of runs", "why_tests_cant": "A run changes the files and directories the next run starts from; the number of runs is unbounded, and the limit of a thousand directories is reached only after a thousand of them.", "anchors": ["src/codegen/fs-creator.cpp:FsCreator::PrepareDirectory", "src/app.cpp:CoderApp::GenerateCode", "src/main.cpp:main"]}
{"id": "C79", "title": "The order of comments, attributes and value tables does not matter", "statement": "Two DBC files that differ only in the order of the statements (comments, attributes, value tables, each over one or several lines) after the messages are scanned to the same list, so that a run ends the same way and writes the same files in the same order. (Violated for statements about the same thing: the later one counts, also when two signals of a message are tagged as rolling counter or as checksum.)", "quantifier": "every command line, every host, all DBC files with any number of messages and statements, every rearrangement of the statements", "why_tests_cant": "All rearrangements of unboundedly many statements, which are collected over several lines and change the messages one after the other.", "anchors": ["src/parser/dbcscanner.cpp:DbcScanner::ParseOtherInfo", "src/parser/dbcscanner.cpp:find_message", "src/parser/dbclineparser.cpp:DbcLineParser::ParseCommentLine", "src/parser/dbclineparser.cpp:DbcLineParser::ParseValTableLine", "src/parser/dbclineparser.cpp:DbcLineParser::ParseAttributeLine"]}
{"id": "C80", "title": "Line ends, trailing white space and blank lines of the DBC file do not matter", "statement": "Two DBC files that differ only in white space at the ends of lines (in particular line ends of Windows instead of those of Unix) and in blank lines give runs that end the same way and write the same files. (Violated for blank lines inside a statement: an empty line of a comment is kept with line ends of Unix and lost with those of Windows.)", "quantifier": "all texts, hosts and command lines", "why_tests_cant": "any lines, any white space and any number of blank lines; tests compare a few files, usually with one kind of line ends", "anchors": ["src/helpers/formatter.cpp:str_trim", "src/parser/dbcscanner.cpp:DbcScanner::ParseMessageInfo", "src/parser/dbcscanner.cpp:DbcScanner::ParseOtherInfo", "src/parser/dbclineparser.cpp:DbcLineParser::ParseCommentLine"]}
{"id": "C81", "title": "Comments of the DBC file stay comments in the generated header", "statement": "Whatever the comments and value descriptions in the DBC file say, their text in the generated header is for the compiler white space only and nothing of the code around it is lost: the struct of the message keeps all its members.", "quantifier": "for all comment texts of signals and messages, of any number of lines and with any characters, and for all code below them", "why_tests_cant": "The text is chosen by whoever writes the DBC file; tests use ordinary sentences. What matters is phase 2 of translation, in which a backslash at the end of a line joins it with the next, so that the outcome depends on the characters at the ends of lines.", "anchors": ["src/codegen/c-main-generator.cpp:WriteSigStructField", "src/codegen/c-main-generator.cpp:Gen_MainHeader", "src/parser/dbclineparser.cpp:ParseCommentLine"]}
{"id": "C82", "title": "Lines of kinds the tool does not use do not matter", "statement": "Lines that declare nodes, bit timing, free value tables, definitions of attributes, groups and types of signals, extended multiplexing, environment variables and categories can be put into the DBC file between statements, or left out, without any change of the generated files.", "quantifier": "for all DBC files, all sets of such lines at any places between statements, and all command lines", "why_tests_cant": "Both passes look at every line with loose patterns (a signal line is one that contains ' SG_'; a version line is any line with letters and two numbers; statements are collected over lines), so that every line of every kind is a possible false match; tests show a few files.", "anchors": ["src/parser/dbcscanner.cpp:ParseMessageInfo", "src/parser/dbcscanner.cpp:ParseOtherInfo", "src/parser/dbclineparser.cpp:IsSignalLine", "src/parser/dbclineparser.cpp:ParseMultiTrans"]}
{"id": "C83", "title": "Signals declared as floating point are generated as floating point", "statement": "A signal that SIG_VALTYPE_ declares as float or double is decoded from and encoded into the frame as an IEEE number, and its member is of a floating type.", "quantifier": "for all DBC files with such a declaration", "why_tests_cant": "The claim is about a kind of statement in every file; that the tool never looks at it is a statement about all files and all places of the declaration.", "anchors": ["src/parser/dbcscanner.cpp:ParseOtherInfo", "src/parser/dbclineparser.cpp:ParseSignalLine", "src/codegen/c-main-generator.cpp:WriteSigStructField"]}
{"id": "C84", "title": "Descriptive statements do not change the functions", "statement": "Comments without tags, cycle times, value tables, units, ranges and the nodes of a message have no influence on the functions: the source file of the driver and the monitor files are the same in every character whatever these statements say.", "quantifier": "for all DBC files with the same messages and signals and any comments without tags, attributes and value tables, and for all generators", "why_tests_cant": "Every statement writes into the same message records the functions are printed from; that no function reads a described field, for any record, is a statement about all records.", "anchors": ["src/parser/dbcscanner.cpp:ParseOtherInfo", "src/codegen/c-main-generator.cpp:Gen_MainSource", "src/codegen/c-main-generator.cpp:WriteUnpackBody", "src/codegen/c-main-generator.cpp:PrintPackCommonText", "src/codegen/mon-generator.cpp:FillHeader"]}
