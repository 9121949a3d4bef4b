import Verif.Model.MainText
/-
The texts of the configuration header, canmonitorutil.h and dbccodeconf.h
(src/codegen/config-generator.cpp and src/codegen/c-main-generator.cpp:435-556).
-/
namespace Verif

/-- A switch of the configuration, as it is printed: commented out. -/
def switchOff (n : Str) : WOp := .appendF ("/* #define ".toList ++ n ++ " */".toList)

/-- `ConfigGenerator::FillHeader`, src/codegen/config-generator.cpp:3-134; `sw` prints the line of a switch. -/
def fillConfigWith (sw : Str → WOp) (g : GenDesc) : List WOp :=
  [opLine "#pragma once",
   .appendF [],
   opLine "/* include common dbccode configurations */",
   opLine "#include \"dbccodeconf.h\"",
   .appendF [],
   .appendF [],
   opLine "/* ------------------------------------------------------------------------- *",
   opLine "  This define enables using CAN message structs with bit-fielded signals",
   opLine "  layout.",
   .appendF [],
   opLine "  Note(!): bit-feild was not tested properly. */",
   .appendF [],
   sw g.usebits,
   .lines 2,
   opLine "/* ------------------------------------------------------------------------- *",
   opLine "  This macro enables using CAN message descriptive struct packing functions",
   opLine "  (by default signature of pack function intakes a few simple typed params",
   opLine "  for loading data, len, etc). To compile you need to define the struct",
   opLine "  __CoderDbcCanFrame_t__ which must have fields:",
   .appendF [],
   opLine "    u32 MsgId (CAN Frame message ID)",
   opLine "    u8 DLC (CAN Frame payload length field)",
   opLine "    u8 Data[8] (CAN Frame payload data)",
   opLine "    u8 IDE (CAN Frame Extended (1) / Standard (0) ID type)",
   .appendF [],
   opLine "  This struct definition have to be placed (or be included) in dbccodeconf.h */",
   .appendF [],
   sw g.usestruct,
   .lines 2,
   opLine "/* ------------------------------------------------------------------------- *",
   opLine "  All the signals which have values of factor != 1 or offset != 0",
   opLine "  will be named in message struct with posfix '_ro'. Pack to payload",
   opLine "  operations will be made on this signal value as well as unpack from payload.",
   .appendF [],
   opLine "  USE_SIGFLOAT macro makes some difference:",
   .appendF [],
   opLine "  1. All the '_ro' fields will have a pair field with '_phys' postfix.",
   opLine "  If only offset != 0 is true then the type of '_phys' signal is the same",
   opLine "  as '_ro' signal. In other case the type will be @sigfloat_t which",
   opLine "  have to be defined in user dbccodeconf.h",
   .appendF [],
   opLine "  2. In pack function '_ro' signal will be rewritten by '_phys' signal, which",
   opLine "  requires from user to use ONLY '_phys' signal for packing frame",
   .appendF [],
   opLine "  3. In unpack function '_phys' signal will be written by '_ro' signal.",
   opLine "  User have to use '_phys' signal to read physical value. */",
   .appendF [],
   sw g.usesigfloat,
   .lines 2,
   opLine "/* ------------------------------------------------------------------------- *",
   opLine "  Note(!) that the \"canmonitorutil.h\" must be accessed in include path:",
   .appendF [],
   opLine "  This macro adds:",
   .appendF [],
   opLine "  - monitor field @mon1 to message struct",
   .appendF [],
   opLine "  - capture system tick in unpack function and save value to mon1 field",
   opLine "  to provide to user better missing frame detection code. For this case",
   opLine "  user must provide function declared in canmonitorutil.h - GetSysTick()",
   opLine "  which may return 1ms uptime.",
   .appendF [],
   opLine "  - calling function FMon_***  (from 'fmon' driver) inside unpack function",
   opLine "  which is empty by default and have to be filled by user if",
   opLine "  tests for DLC, rolling, checksum are necessary */",
   .appendF [],
   sw g.usemon,
   .lines 2,
   opLine "/* ------------------------------------------------------------------------- *",
   .appendF ("  When monitor using is enabled (".toList ++ g.usemon ++ ") and define below".toList),
   opLine "  uncommented, additional signal will be added to message struct. ***_expt:",
   opLine "  expected rolling counter, to perform monitoring rolling counter sequence",
   opLine "  automatically (result may be tested in dedicated Fmon_*** function) */",
   .appendF [],
   sw g.useroll,
   .lines 2,
   opLine "/* ------------------------------------------------------------------------- *",
   .appendF ("  When monitor using is enabled (".toList ++ g.usemon ++ ") and define below".toList),
   opLine "  uncommented, frame checksum signal may be handled automatically.",
   .appendF [],
   opLine "  The signal which may be marked as checksum signal must have substring",
   opLine "  with next format:",
   opLine "    <Checksum:XOR8:3>",
   .appendF [],
   opLine "  where:",
   .appendF [],
   opLine "  - \"Checksum\": constant marker word",
   .appendF [],
   opLine "  - \"XOR8\": type of method, this text will be passed to GetFrameHash",
   opLine "  (canmonitorutil.h) function as is, the best use case is to define 'enum",
   opLine "  DbcCanCrcMethods' in canmonitorutil.h file with all possible",
   opLine "  checksum algorithms (e.g. XOR8, XOR4 etc)",
   .appendF [],
   opLine "  - \"3\": optional value that will be passed to GetFrameHash as integer value",
   .appendF [],
   opLine "  Function GetFrameHash have to be implemented by user",
   .appendF [],
   opLine "  In pack function checksum signal will be calculated automatically",
   opLine "  and loaded to payload",
   .appendF [],
   opLine "  In unpack function checksum signal is checked with calculated.",
   opLine "  (result may be tested in dedicated Fmon_*** function). */",
   .appendF [],
   sw g.usecsm,
   .lines 2,
   opLine "/* ------------------------------------------------------------------------- *",
   opLine "  FMon handling model can be build in two ways: ",
   .appendF [],
   opLine "  1 - Default. In this case when specific frame unpack is called the ",
   opLine "  specific FMon_{Frame name}_{driver name} functoin will be called.",
   opLine "  User's code scope has to define each of these functions. Each function is",
   opLine "  responsible for the error handling of one frame",
   .appendF [],
   opLine "  2 - MONO. In this case there is only one function to perform any frame ",
   opLine "  monitoring. This function has to be implemented in the user's code scope.",
   opLine "  This function is named as FMon_MONO_{driver name}. It takes frame id",
   opLine "  which can be used for selection of the logic for a frame monitoring.",
   opLine "  This mode costs a bit more in runtime but when you often edit you DBC and you ",
   opLine "  have more than one project it could be more maintanable (there is",
   opLine "  no necessity to replace source code)",
   .appendF [],
   opLine "  For using MONO way uncomment line below */",
   sw g.usemono]

/-- `ConfigGenerator::FillHeader`: every switch is commented out. -/
def fillConfig (g : GenDesc) : List WOp := fillConfigWith switchOff g

/-- `CiMainGenerator::Gen_ConfigHeader`, src/codegen/c-main-generator.cpp:435-444, without the final `Flush`. -/
def configHeaderOps (g : GenDesc) : List WOp := [.appendText g.commonInfo, .appendText g.driverInfo] ++ fillConfig g

/-- `CiMainGenerator::Gen_CanMonUtil`, src/codegen/c-main-generator.cpp:460-518, without the final `Flush`. -/
def canMonUtilOps (g : GenDesc) : List WOp :=
  [.appendText g.commonInfo,
   opLine "#pragma once",
   .appendF [],
   opLine "#include <stdint.h>",
   .appendF [],
   opLine "#ifdef __cplusplus",
   opLine "extern \"C\" {",
   opLine "#endif",
   .appendF [],
   opLine "// declare here all availible checksum algorithms",
   opLine "typedef enum",
   opLine "{",
   opLine "  // XOR8 = 0,",
   opLine "  // XOR4 = 1,",
   opLine "  // etc",
   .appendF [],
   opLine "  // it is up to user to have or to skip final enum value - @CRC_ALG_COUNT",
   opLine "  CRC_ALG_COUNT",
   opLine "} DbcCanCrcMethods;",
   .appendF [],
   opLine "typedef struct",
   opLine "{",
   opLine "  // @last_cycle keeps tick-value when last frame was received",
   opLine "  uint32_t last_cycle;",
   .appendF [],
   opLine "  // @timeout_cycle keeps maximum timeout for frame, user responsibility",
   opLine "  // to init this field and use it in missing frame monitoring function",
   opLine "  uint32_t timeout_cycle;",
   .appendF [],
   opLine "  // @frame_cnt keeps count of all the received frames",
   opLine "  uint32_t frame_cnt;",
   .appendF [],
   opLine "  // setting up @roll_error bit indicates roll counting fail.",
   opLine "  // Bit is not clearing automatically!",
   opLine "  uint32_t roll_error : 1;",
   .appendF [],
   opLine "  // setting up @checksum_error bit indicates checksum checking failure.",
   opLine "  // Bit is not clearing automatically!",
   opLine "  uint32_t csm_error : 1;",
   .appendF [],
   opLine "  // setting up @cycle_error bit indicates that time was overrunned.",
   opLine "  // Bit is not clearing automatically!",
   opLine "  uint32_t cycle_error : 1;",
   .appendF [],
   opLine "  // setting up @dlc_error bit indicates that the actual length of",
   opLine "  // CAN frame is less then defined by CAN matrix!",
   opLine "  uint32_t dlc_error : 1;",
   .appendF [],
   opLine "} FrameMonitor_t;",
   .appendF [],
   opLine "#ifdef __cplusplus",
   opLine "}",
   opLine "#endif",
   .appendF []]

/-- `CiMainGenerator::Gen_DbcCodeConf`, src/codegen/c-main-generator.cpp:520-556, without the final `Flush`;
`fl` is the line with the type `sigfloat_t`, `fr` the line with the struct of the frame. -/
def dbcCodeConfWith (fl fr : WOp) (g : GenDesc) : List WOp :=
  [.appendText g.commonInfo,
   opLine "#pragma once",
   .appendF [],
   opLine "#include <stdint.h>",
   .appendF [],
   opLine "// when USE_SIGFLOAT enabed the sigfloat_t must be defined",
   fl,
   .appendF [],
   opLine "// when USE_CANSTRUCT enabled __CoderDbcCanFrame_t__ must be defined",
   opLine "// #include \"{header_with_can_struct}\"",
   fr,
   .appendF [],
   opLine "// if you need to allocate rx and tx messages structs put the allocation macro here",
   opLine "// #define __DEF_{your_driver_name}__",
   .appendF [],
   opLine "// defualt @__ext_sig__ help types definition",
   .appendF [],
   opLine "typedef uint32_t ubitext_t;",
   opLine "typedef int32_t bitext_t;",
   .appendF [],
   opLine "// To provide a way to make missing control correctly you",
   opLine "// have to define macro @GetSystemTick() which has to",
   opLine "// return kind of tick counter (e.g. 1 ms ticker)",
   .appendF [],
   opLine "// #define GetSystemTick() __get__tick__()",
   .appendF [],
   opLine "// To provide a way to calculate hash (crc) for CAN",
   opLine "// frame's data field you have to define macro @GetFrameHash",
   .appendF [],
   opLine "// #define GetFrameHash(a,b,c,d,e) __get_hash__(a,b,c,d,e)",
   .appendF []]

/-- `CiMainGenerator::Gen_DbcCodeConf`: the types are commented out. -/
def dbcCodeConfOps (g : GenDesc) : List WOp :=
  dbcCodeConfWith (opLine "// typedef double sigfloat_t;") (opLine "// typedef {can_struct} __CoderDbcCanFrame_t__;") g

end Verif
