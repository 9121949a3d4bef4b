import Verif.Model.App
import Verif.Model.SigPrinterText
/-
The text of the generated driver files, src/codegen/c-main-generator.cpp, as calls of the file writer.

Simplifications: `%s` prints the whole string (a NUL character inside a string would end it).
Factors and offsets are exact decimals (see `Dec`); `prt_double` prints the value rounded to ten
digits, half up.
-/
namespace Verif

/-- `GenDescriptor_t`, src/codegen/fs-creator.h:26-58, without the `no_*` options. -/
structure GenDesc where
  drvOrig : Str
  drvLow : Str
  drvUp : Str
  usebits : Str
  usestruct : Str
  usemon : Str
  usemono : Str
  usesigfloat : Str
  useroll : Str
  usecsm : Str
  verhigh : Str
  verlow : Str
  commonInfo : Str
  driverInfo : Str
  hiver : Nat
  lowver : Nat
  deriving DecidableEq, Repr

/-- `snprintf(_tmpb, kTmpLen, ...)`, src/codegen/fs-creator.cpp:6-8: at most 1023 characters. -/
def tmpb (t : Str) : Str := t.take 1023

/-- The generator part of `FsCreator::Configure`, src/codegen/fs-creator.cpp:34-37, 62-93. -/
def configureGen (drv common driver : Str) (hi lo : Nat) : GenDesc :=
  let up := strUpper drv
  { drvOrig := drv, drvLow := strLower drv, drvUp := up
    usebits := tmpb (up ++ "_USE_BITS_SIGNAL".toList)
    usestruct := tmpb (up ++ "_USE_CANSTRUCT".toList)
    usemon := tmpb (up ++ "_USE_DIAG_MONITORS".toList)
    usemono := tmpb (up ++ "_USE_MONO_FMON".toList)
    usesigfloat := tmpb (up ++ "_USE_SIGFLOAT".toList)
    useroll := tmpb (up ++ "_AUTO_ROLL".toList)
    usecsm := tmpb (up ++ "_AUTO_CSM".toList)
    verhigh := tmpb ("VER_".toList ++ up ++ "_MAJ".toList)
    verlow := tmpb ("VER_".toList ++ up ++ "_MIN".toList)
    commonInfo := common, driverInfo := driver, hiver := hi, lowver := lo }

/-- Comment block of the driver files, src/app.cpp:111-112. -/
def driverSrcInfo (filename : Str) : Str := "// DBC filename      : ".toList ++ filename ++ ['\n']

/-- Comment block of all files without `-gendate`, src/app.cpp:113-115 and src/codegen/version.h:5-6. -/
def commonSrcInfo : Str := "// Generator version : v3.1\n".toList

/-! ### Formats -/

/-- `%#x` of a `uint32_t`: no prefix for zero. -/
def fmtAltX (n : Nat) : Str := if n = 0 then ['0'] else '0' :: 'x' :: hexStrL n

/-- `%-Nd`: padded on the right. -/
def padRight (n : Nat) (t : Str) : Str := t ++ List.replicate (n - t.length) ' '

/-- `%Nd`: padded on the left. -/
def padLeft (n : Nat) (t : Str) : Str := List.replicate (n - t.length) ' ' ++ t

/-- `%02X` of an `int` that is not negative. -/
def fmt02X (n : Nat) : Str := if n < 16 then '0' :: hexStr n else hexStr n

/-- `StrPrint`, src/helpers/formatter.cpp:36-45: at most 4095 characters. -/
def strPrint (t : Str) : Str := t.take 4095

/-- `__typeprint`, src/helpers/formatter.cpp:11-21, by `PrintType`. -/
def printType : CTy → Str
  | .i8 => "int8_t".toList
  | .i16 => "int16_t".toList
  | .i32 => "int32_t".toList
  | .i64 => "int64_t".toList
  | .u8 => "uint8_t".toList
  | .u16 => "uint16_t".toList
  | .u32 => "uint32_t".toList
  | .u64 => "uint64_t".toList

/-- `std::regex_replace(s, std::regex("\n"), "\n" + pre)`. -/
def replaceNl (pre : Str) (s : Str) : Str := s.flatMap fun c => if c = '\n' then '\n' :: pre else [c]

/-- `prt_double(d, 9)`, src/helpers/formatter.cpp:150-202. -/
def prtDec (d : Dec) : Str :=
  prtDouble (decide (d.num < 0)) ((2 * d.num.natAbs * 10 ^ 10 + 10 ^ d.scale) / (2 * 10 ^ d.scale)) 9 true

/-- `%d` with `(int32_t) d`; the conversion is undefined when the value does not fit. -/
def fmtCastI32 (d : Dec) : Option Str :=
  if -(2 ^ 31) ≤ d.trunc ∧ d.trunc < 2 ^ 31 then some (intStr d.trunc) else none

/-- `IndentedString`, src/helpers/formatter.cpp:23-34. -/
def indentedString (n : Nat) (s : Str) : Str := s ++ List.replicate (n - s.length) ' '

/-! ### Conversion macros -/

/-- `#define DRV_SIG`, the beginning of the conversion macros. -/
def macroStart (s : Sig) (drv : Str) : Str := "#define ".toList ++ drv ++ "_".toList ++ s.name

/-- The three conversion macros, src/codegen/c-sigprinter.cpp:61-123, from the printed factor and the
printed bodies of `toS` and `fromS`. -/
def convText (s : Sig) (drv cov toS fromS : Str) : Str :=
  strPrint ("// signal: @".toList ++ s.name ++ "\n".toList) ++
  strPrint (macroStart s drv ++ "_CovFactor (".toList ++ cov ++ ")\n".toList) ++
  strPrint (macroStart s drv ++ "_toS(x) ( (".toList ++ printType s.typeRo ++ ") ".toList) ++ strPrint toS ++
  strPrint (macroStart s drv ++ "_fromS(x) ( ".toList) ++ strPrint fromS

/-- `(((x) - (o)) / (f)) )`, src/codegen/c-sigprinter.cpp:77, 94. -/
def toSFull (o f : Str) : Str := "(((x) - (".toList ++ o ++ ")) / (".toList ++ f ++ ")) )\n".toList
/-- `(((x) * (f)) + (o)) )`, src/codegen/c-sigprinter.cpp:102, 119. -/
def fromSFull (o f : Str) : Str := "(((x) * (".toList ++ f ++ ")) + (".toList ++ o ++ ")) )\n".toList
/-- `((x) / (f)) )`, src/codegen/c-sigprinter.cpp:84. -/
def toSFactor (f : Str) : Str := "((x) / (".toList ++ f ++ ")) )\n".toList
/-- `((x) * (f)) )`, src/codegen/c-sigprinter.cpp:109. -/
def fromSFactor (f : Str) : Str := "((x) * (".toList ++ f ++ ")) )\n".toList
/-- `((x) - (o)) )`, src/codegen/c-sigprinter.cpp:89. -/
def toSOffset (o : Str) : Str := "((x) - (".toList ++ o ++ ")) )\n".toList
/-- `((x) + (o)) )`, src/codegen/c-sigprinter.cpp:114. -/
def fromSOffset (o : Str) : Str := "((x) + (".toList ++ o ++ ")) )\n".toList

/-- `CSigPrinter::PrintPhysicalToRaw`, src/codegen/c-sigprinter.cpp:53-124.  `none`: undefined
conversion of a factor or offset to `int32_t`. -/
def printPhysicalToRaw (s : Sig) (drv : Str) : Option Str :=
  if s.isDouble then
    some (convText s drv (prtDec s.factor) (toSFull (prtDec s.offset) (prtDec s.factor)) (fromSFull (prtDec s.offset) (prtDec s.factor)))
  else (fmtCastI32 s.factor).bind fun f =>
    if s.offset.eqInt 0 then some (convText s drv f (toSFactor f) (fromSFactor f))
    else (fmtCastI32 s.offset).map fun o =>
      if s.factor.eqInt 1 then convText s drv f (toSOffset o) (fromSOffset o)
      else convText s drv f (toSFull o f) (fromSFull o f)

/-! ### Header -/

/-- `fwriter.Append("#ifdef %s", def)` -/
def opIfdef (d : Str) : WOp := .appendF ("#ifdef ".toList ++ d)
/-- `fwriter.Append("#ifndef %s", def)` -/
def opIfndef (d : Str) : WOp := .appendF ("#ifndef ".toList ++ d)
/-- `fwriter.Append("#endif // %s", def)` -/
def opEndif (d : Str) : WOp := .appendF ("#endif // ".toList ++ d)
/-- `fwriter.Append(text)` with a text without format specifiers -/
def opLine (s : String) : WOp := .appendF s.toList
/-- `fwriter.Append()` -/
def opEmpty : WOp := .lines 1

/-- `dtype` of `WriteSigStructField`, src/codegen/c-main-generator.cpp:579-588. -/
def fieldText (s : Sig) (bits : Bool) : Str :=
  "  ".toList ++ printType s.typeRo ++ " ".toList ++ s.name ++
  (if bits && decide (s.lengthBit < 8) then strPrint (" : ".toList ++ fmtD s.lengthBit) else []) ++ ";".toList

/-- `" Offset= "` with the printed value, src/codegen/c-main-generator.cpp:609-612, 625-628. -/
def offsetText (v : Str) : Str × Nat := (" Offset= ".toList ++ v, 27)

/-- `" Factor= "` with the printed value after the text so far, src/codegen/c-main-generator.cpp:614-619,
630-635. -/
def factorText (t : Str × Nat) (v : Str) : Str × Nat := (indentedString t.2 t.1 ++ " Factor= ".toList ++ v, t.2 + 24)

/-- Offset part of `infocmnt`, src/codegen/c-main-generator.cpp:607-628, with the indent after it.  (The
result of `StrPrint` is never longer than its buffer here.) -/
def infoOffset (s : Sig) : Option (Str × Nat) :=
  if s.offset.eqInt 0 then some ([], 0)
  else if s.isDouble then some (offsetText (prtDec s.offset))
  else (fmtCastI32 s.offset).map offsetText

/-- Offset and factor part of `infocmnt`, src/codegen/c-main-generator.cpp:603-636. -/
def infoScale (s : Sig) : Option (Str × Nat) :=
  if s.isSimple && !s.isDouble then some ([], 0)
  else (infoOffset s).bind fun t =>
    if s.factor.eqInt 1 then some t
    else if s.isDouble then some (factorText t (prtDec s.factor))
    else (fmtCastI32 s.factor).map (factorText t)

/-- The unit, src/codegen/c-main-generator.cpp:638-642. -/
def infoUnit (s : Sig) (t : Str × Nat) : Str :=
  if s.unit.length > 0 then indentedString t.2 t.1 ++ strPrint (" Unit:'".toList ++ s.unit ++ "'".toList) else t.1

/-- `infocmnt` of `WriteSigStructField`, src/codegen/c-main-generator.cpp:603-645. -/
def infoComment (s : Sig) : Option Str := (infoScale s).map (infoUnit s)

/-- Comments above a field, src/codegen/c-main-generator.cpp:560-577. -/
def fieldCommentOps (s : Sig) : List WOp :=
  (if s.commentText.length > 0 then [.append ("  // ".toList ++ replaceNl "  // ".toList s.commentText)] else []) ++
  (if s.valueText.length > 0 then [.append ("  // ".toList ++ replaceNl "  // ".toList s.valueText)] else []) ++
  (match s.multiplex with
    | .mulValue => [opLine "  // multiplex variable"]
    | .master => [opLine "  // MULTIPLEX master signal"]
    | .none => [])

/-- The field with the comment behind it, src/codegen/c-main-generator.cpp:590-647. -/
def fieldLineOps (s : Sig) (bits : Bool) (padwidth : Nat) (info : Str) : List WOp :=
  [.appendText (fieldText s bits ++ List.replicate (padwidth + 16 - (fieldText s bits).length) ' ' ++ " ".toList),
   .appendText (" // ".toList ++ if s.signed then " [-]".toList else "    ".toList),
   .appendTextF (" Bits=".toList ++ padLeft 2 (fmtD s.lengthBit)),
   .appendText info, .appendF [], opEmpty]

/-- The physical field, src/codegen/c-main-generator.cpp:649-676. -/
def physFieldOps (g : GenDesc) (s : Sig) : List WOp :=
  if s.isSimple then []
  else [opIfdef g.usesigfloat,
    .appendF ("  ".toList ++ (if s.isDouble then "sigfloat_t".toList else printType s.typePhys) ++ " ".toList ++
      s.nameFloat ++ ";".toList),
    opEndif g.usesigfloat, opEmpty]

/-- `CiMainGenerator::WriteSigStructField`, src/codegen/c-main-generator.cpp:558-677.  `none`:
`std::length_error` from `pad.insert` with a width that wrapped around (line 592), or an undefined
conversion. -/
def writeSigStructField (g : GenDesc) (s : Sig) (bits : Bool) (padwidth : Nat) : Option (List WOp) :=
  (infoComment s).bind fun info =>
    if (fieldText s bits).length ≤ padwidth + 16 then
      some (fieldCommentOps s ++ fieldLineOps s bits padwidth info ++ physFieldOps g s)
    else none

/-- All results of a list, if all are there. -/
def allSome {α : Type} : List (Option α) → Option (List α)
  | [] => some []
  | none :: _ => none
  | some x :: r => (allSome r).map (x :: ·)

/-- Macros of one value table, src/codegen/c-main-generator.cpp:200-223. -/
def valTableOps (m : Msg) (s : Sig) : List WOp :=
  if s.valDefs.vpairs.length > 0 then
    [.appendF ("\n// Value tables for @".toList ++ s.name ++ " signal".toList), opEmpty] ++
    s.valDefs.vpairs.flatMap fun v =>
      [opIfndef (strPrint (s.name ++ "_".toList ++ m.name ++ "_".toList ++ v.1)),
       .appendF ("#define ".toList ++ s.name ++ "_".toList ++ m.name ++ "_".toList ++ v.1 ++ " (".toList ++ fmtD v.2 ++ ")".toList),
       opLine "#endif", opEmpty]
  else []

/-- Conversion macros of a signal, src/codegen/c-main-generator.cpp:182-193: the calls and the new set
of printed signal names. -/
def convMacroOps (g : GenDesc) (s : Sig) (seen : List Str) : Option (List WOp × List Str) :=
  if !s.isSimple && !seen.contains s.name then
    (printPhysicalToRaw s g.drvUp).map fun t => ([.append t], seen ++ [s.name])
  else some ([], seen)

/-- The first signal loop of a message, src/codegen/c-main-generator.cpp:180-224. -/
def sigMacroOps (g : GenDesc) (m : Msg) : List Sig → List Str → Option (List WOp × List Str)
  | [], seen => some ([], seen)
  | s :: rest, seen =>
    (convMacroOps g s seen).bind fun c =>
      (sigMacroOps g m rest c.2).map fun r => (c.1 ++ valTableOps m s ++ r.1, r.2)

/-- `max_sig_name_len`, src/codegen/c-main-generator.cpp:171, 195-198. -/
def maxSigNameLen (m : Msg) : Nat := m.signals.foldl (fun n s => if s.name.length > n then s.name.length else n) 27

/-- `rollsig`, src/codegen/c-main-generator.cpp:234-242. -/
def rollCopy (r : Sig) : Sig := { r with commentText := [], name := r.name ++ "_expt".toList }

/-- The expected value of the rolling counter, src/codegen/c-main-generator.cpp:251-260, 268-277. -/
def rollFieldOps (g : GenDesc) (f : List WOp) : List WOp := [opIfdef g.useroll, opEmpty] ++ f ++ [opEndif g.useroll, opEmpty]

/-- One variant (bit-fields or plain) of the struct members, src/codegen/c-main-generator.cpp:244-281. -/
def structPartOps (g : GenDesc) (m : Msg) (bits : Bool) : Option (List WOp) :=
  (allSome (m.signals.map fun s => writeSigStructField g s bits (maxSigNameLen m))).bind fun fs =>
    match m.sigAt m.rollSig with
    | none => some fs.flatten
    | some r => (writeSigStructField g (rollCopy r) bits (maxSigNameLen m)).map fun f => fs.flatten ++ rollFieldOps g f

/-- The struct of a message from the two variants of its members. -/
def structText (g : GenDesc) (m : Msg) (a b : List WOp) : List WOp :=
  [opEmpty, opLine "typedef struct", opLine "{", opIfdef g.usebits, opEmpty] ++ a ++
  [opLine "#else", opEmpty] ++ b ++
  [opEndif g.usebits, opEmpty, opIfdef g.usemon, opEmpty, opLine "  FrameMonitor_t mon1;", opEmpty,
   opEndif g.usemon, opEmpty, .appendF ("} ".toList ++ m.name ++ "_t;".toList), opEmpty]

/-- The struct of a message, src/codegen/c-main-generator.cpp:226-295. -/
def structOps (g : GenDesc) (m : Msg) : Option (List WOp) :=
  (structPartOps g m true).bind fun a => (structPartOps g m false).map fun b => structText g m a b

/-- The constants of a message, src/codegen/c-main-generator.cpp:155-169. -/
def msgConstOps (m : Msg) : List WOp :=
  (if m.commentText.length > 0 then [.append ("// ".toList ++ replaceNl "// ".toList m.commentText)] else []) ++
  [.appendF ("// def @".toList ++ m.name ++ " CAN Message (".toList ++ padRight 4 (fmtD m.msgId) ++ " ".toList ++ fmtAltX m.msgId ++ ")".toList),
   .appendF ("#define ".toList ++ m.name ++ "_IDE (".toList ++ decStr m.ide ++ "U)".toList),
   .appendF ("#define ".toList ++ m.name ++ "_DLC (".toList ++ decStr m.dlc ++ "U)".toList),
   .appendF ("#define ".toList ++ m.name ++ "_CANID (".toList ++ fmtAltX m.msgId ++ "U)".toList)] ++
  (if m.cycle > 0 then [.appendF ("#define ".toList ++ m.name ++ "_CYC (".toList ++ fmtD m.cycle ++ "U)".toList)] else [])

/-- The message loop of `Gen_MainHeader`, src/codegen/c-main-generator.cpp:150-296; `seen` is
`passed_sigs`. -/
def headerMsgOps (g : GenDesc) : List Msg → List Str → Option (List WOp)
  | [], _ => some []
  | m :: rest, seen =>
    if m.frameNotEmpty then
      (sigMacroOps g m m.signals seen).bind fun mac =>
        (structOps g m).bind fun st =>
          (headerMsgOps g rest mac.2).map fun r => msgConstOps m ++ mac.1 ++ st ++ r
    else (headerMsgOps g rest seen).map fun r => msgConstOps m ++ [opEmpty] ++ r

/-- Signature of `Unpack`, src/codegen/c-main-generator.cpp:310, 394. -/
def unpackSig (g : GenDesc) (m : Msg) : Str :=
  "uint32_t Unpack_".toList ++ m.name ++ "_".toList ++ g.drvOrig ++ "(".toList ++ m.name ++ "_t* _m, const uint8_t* _d, uint8_t dlc_)".toList

/-- Signature of `Pack` with a frame struct, src/codegen/c-main-generator.cpp:315, 413. -/
def packStructSig (g : GenDesc) (m : Msg) : Str :=
  "uint32_t Pack_".toList ++ m.name ++ "_".toList ++ g.drvOrig ++ "(".toList ++ m.name ++ "_t* _m, __CoderDbcCanFrame_t__* cframe)".toList

/-- Signature of `Pack` with arrays, src/codegen/c-main-generator.cpp:320, 422. -/
def packArraySig (g : GenDesc) (m : Msg) : Str :=
  "uint32_t Pack_".toList ++ m.name ++ "_".toList ++ g.drvOrig ++ "(".toList ++ m.name ++ "_t* _m, uint8_t* _d, uint8_t* _len, uint8_t* _ide)".toList

/-- Prototypes of a message, src/codegen/c-main-generator.cpp:306-324. -/
def prototypeOps (g : GenDesc) (m : Msg) : List WOp :=
  if m.frameNotEmpty then
    [.appendF (unpackSig g m ++ ";".toList), opIfdef g.usestruct, .appendF (packStructSig g m ++ ";".toList), opLine "#else",
     .appendF (packArraySig g m ++ ";".toList), opEndif g.usestruct, opEmpty]
  else []

/-- `maxDlcMacroName`, src/codegen/c-main-generator.cpp:118. -/
def maxDlcName (g : GenDesc) : Str := g.drvUp ++ "_MAX_DLC_VALUE".toList
/-- `prt_dlcValidateMacroName`, src/codegen/c-main-generator.cpp:121. -/
def validateName (g : GenDesc) : Str := g.drvUp ++ "_VALIDATE_DLC".toList
/-- `prt_initialDataByteValueName`, src/codegen/c-main-generator.cpp:124. -/
def initByteName (g : GenDesc) : Str := g.drvUp ++ "_INITIAL_BYTE_VALUE".toList

/-- Beginning of the header, src/codegen/c-main-generator.cpp:86-148. -/
def headerStartOps (g : GenDesc) (maxDlc : Nat) : List WOp :=
  [.appendText g.commonInfo, .appendText g.driverInfo, opLine "#pragma once", opEmpty,
   opLine "#ifdef __cplusplus\nextern \"C\" {\n#endif", opEmpty, opLine "#include <stdint.h>", opEmpty,
   opLine "// DBC file version",
   .appendF ("#define ".toList ++ g.verhigh ++ " (".toList ++ decStr g.hiver ++ "U)".toList),
   .appendF ("#define ".toList ++ g.verlow ++ " (".toList ++ decStr g.lowver ++ "U)".toList), opEmpty,
   opLine "// include current dbc-driver compilation config",
   .appendF ("#include \"".toList ++ g.drvLow ++ "-config.h\"".toList), opEmpty,
   opIfdef g.usemon,
   opLine "// This file must define:\n// base monitor struct\n#include \"canmonitorutil.h\"\n\n",
   opEndif g.usemon, .lines 2,
   opLine "// DLC maximum value which is used as the limit for frame's data buffer size.",
   opLine "// Client can set its own value (not sure why) in driver-config",
   opLine "// or can test it on some limit specified by application",
   opLine "// e.g.: static_assert(TESTDB_MAX_DLC_VALUE <= APPLICATION_FRAME_DATA_SIZE, \"Max DLC value in the driver is too big\")",
   opIfndef (maxDlcName g),
   opLine "// The value which was found out by generator (real max value)",
   .appendF ("#define ".toList ++ maxDlcName g ++ " ".toList ++ decStr maxDlc ++ "U".toList),
   opLine "#endif", opEmpty,
   opLine "// The limit is used for setting frame's data bytes",
   .appendF ("#define ".toList ++ validateName g ++ "(msgDlc) (((msgDlc) <= (".toList ++ maxDlcName g ++ ")) ? (msgDlc) : (".toList ++
     maxDlcName g ++ "))".toList),
   opEmpty,
   opLine "// Initial byte value to be filles in data bytes of the frame before pack signals",
   opLine "// User can define its own custom value in driver-config file",
   opIfndef (initByteName g),
   .appendF ("#define ".toList ++ initByteName g ++ " 0U".toList),
   opLine "#endif", .lines 2]

/-- End of the header, src/codegen/c-main-generator.cpp:298-327. -/
def headerEndOps (g : GenDesc) (msgs : List Msg) : List WOp :=
  [opLine "// Function signatures", opEmpty] ++ msgs.flatMap (prototypeOps g) ++ [opLine "#ifdef __cplusplus\n}\n#endif"]

/-- `CiMainGenerator::Gen_MainHeader`, src/codegen/c-main-generator.cpp:83-329, without the final
`Flush`.  `msgs` are the messages in the order of `sigs_expr`.  `%u` is used for a `size_t` (line 137):
modelled as the value. -/
def mainHeaderOps (g : GenDesc) (maxDlc : Nat) (msgs : List Msg) : Option (List WOp) :=
  (headerMsgOps g msgs []).map fun ms => headerStartOps g maxDlc ++ ms ++ headerEndOps g msgs

/-! ### Source -/

/-- Signal part of `WriteUnpackBody`, src/codegen/c-main-generator.cpp:681-728; `last` is true for the
last signal. -/
def unpackSigOps (g : GenDesc) (s : Sig) (e : Str) (last : Bool) : List WOp :=
  [.appendF (if s.signed then
      "  _m->".toList ++ s.name ++ " = (".toList ++ printType s.typeRo ++ ") __ext_sig__(( ".toList ++ e ++ " ), ".toList ++
        decStr s.lengthBit ++ ");".toList
    else "  _m->".toList ++ s.name ++ " = (".toList ++ printType s.typeRo ++ ") ( ".toList ++ e ++ " );".toList)] ++
  (if s.isSimple then (if last then [.appendF []] else [])
   else [opIfdef g.usesigfloat,
     .appendF (if s.isDouble then
        "  _m->".toList ++ s.nameFloat ++ " = (sigfloat_t)(".toList ++ g.drvUp ++ "_".toList ++ s.name ++ "_fromS(_m->".toList ++ s.name ++ "));".toList
      else
        "  _m->".toList ++ s.nameFloat ++ " = (".toList ++ printType s.typePhys ++ ") ".toList ++ g.drvUp ++ "_".toList ++ s.name ++
          "_fromS(_m->".toList ++ s.name ++ ");".toList),
     opEndif g.usesigfloat, opEmpty])

/-- The signal loop of `WriteUnpackBody`. -/
def unpackSigsOps (g : GenDesc) : List Sig → List Str → List WOp
  | s :: ss, e :: es => unpackSigOps g s e (decide (es = [])) ++ unpackSigsOps g ss es
  | _, _ => []

/-- Roll counter part of `WriteUnpackBody`, src/codegen/c-main-generator.cpp:739-749.  `none`:
`1 << LengthBit` is undefined (line 743). -/
def unpackRollOps (g : GenDesc) (m : Msg) : Option (List WOp) :=
  match m.sigAt m.rollSig with
  | none => some []
  | some r => (rollMask r.lengthBit).map fun msk =>
    [opIfdef g.useroll,
     .appendF ("  _m->mon1.roll_error = (_m->".toList ++ r.name ++ " != _m->".toList ++ r.name ++ "_expt);".toList),
     .appendF ("  _m->".toList ++ r.name ++ "_expt = (_m->".toList ++ r.name ++ " + 1) & (0x".toList ++ fmt02X msk ++ "U);".toList),
     opEndif g.useroll, opEmpty]

/-- Checksum part of `WriteUnpackBody`, src/codegen/c-main-generator.cpp:751-760. -/
def unpackCsmOps (g : GenDesc) (m : Msg) : List WOp :=
  match m.sigAt m.csmSig with
  | none => []
  | some c => [opIfdef g.usecsm,
      .appendF ("  _m->mon1.csm_error = (((uint8_t)GetFrameHash(_d, ".toList ++ m.name ++ "_DLC, ".toList ++ m.name ++ "_CANID, ".toList ++
        m.csmMethod ++ ", ".toList ++ fmtD m.csmOp ++ ")) != (_m->".toList ++ c.name ++ "));".toList),
      opEndif g.usecsm, opEmpty]

/-- `CiMainGenerator::WriteUnpackBody`, src/codegen/c-main-generator.cpp:679-768. -/
def unpackBodyOps (g : GenDesc) (m : Msg) (es : List Str) : Option (List WOp) :=
  (unpackRollOps g m).map fun roll =>
    unpackSigsOps g m.signals es ++
    [opIfdef g.usemon, .appendF ("  _m->mon1.dlc_error = (dlc_ < ".toList ++ m.name ++ "_DLC);".toList),
     opLine "  _m->mon1.last_cycle = GetSystemTick();", opLine "  _m->mon1.frame_cnt++;", opEmpty] ++
    roll ++ unpackCsmOps g m ++
    [.appendF ("  FMon_".toList ++ m.name ++ "_".toList ++ g.drvLow ++ "(&_m->mon1, ".toList ++ m.name ++ "_CANID);".toList),
     opEndif g.usemon, opEmpty, .appendF ("  return ".toList ++ m.name ++ "_CANID;".toList)]

/-- Roll counter part of `PrintPackCommonText`, src/codegen/c-main-generator.cpp:800-808. -/
def packRollOps (g : GenDesc) (m : Msg) : Option (List WOp) :=
  match m.sigAt m.rollSig with
  | none => some []
  | some r => (rollMask r.lengthBit).map fun msk =>
    [opIfdef g.useroll,
     .appendF ("  _m->".toList ++ r.name ++ " = (_m->".toList ++ r.name ++ " + 1) & (0x".toList ++ fmt02X msk ++ "U);".toList),
     opEndif g.useroll, opEmpty]

/-- Clearing of the checksum signal, src/codegen/c-main-generator.cpp:810-817. -/
def packClearOps (g : GenDesc) (m : Msg) : List WOp :=
  match m.sigAt m.csmSig with
  | none => []
  | some c => [opIfdef g.usecsm, .appendF ("  _m->".toList ++ c.name ++ " = (".toList ++ printType c.typeRo ++ ") 0;".toList),
      opEndif g.usecsm, opEmpty]

/-- Conversion of the physical values, src/codegen/c-main-generator.cpp:820-842. -/
def packPhysOps (g : GenDesc) (m : Msg) : List WOp :=
  if m.hasPhys then
    [opIfdef g.usesigfloat] ++
    (m.signals.filter (fun s => !s.isSimple)).map (fun s =>
      .appendF ("  _m->".toList ++ s.name ++ " = (".toList ++ printType s.typeRo ++ ") ".toList ++ g.drvUp ++ "_".toList ++ s.name ++
        "_toS(_m->".toList ++ s.nameFloat ++ ");".toList)) ++
    [opEndif g.usesigfloat, opEmpty]
  else []

/-- The bytes, src/codegen/c-main-generator.cpp:844-854. -/
def packByteOps (arr : Str) (bs : List Str) : List WOp :=
  (bs.zipIdx.filter (fun p => decide (2 ≤ p.1.length))).map fun p =>
    .appendF ("  ".toList ++ arr ++ "[".toList ++ fmtD p.2 ++ "] |= (uint8_t) ( ".toList ++ p.1 ++ " );".toList)

/-- Checksum part of `PrintPackCommonText`, src/codegen/c-main-generator.cpp:858-870. -/
def packCsmOps (g : GenDesc) (arr : Str) (m : Msg) : Option (List WOp) :=
  match m.sigAt m.csmSig with
  | none => some []
  | some c => (csmText c).map fun t =>
    [opIfdef g.usecsm,
     .appendF ("  _m->".toList ++ c.name ++ " = ((uint8_t)GetFrameHash(".toList ++ arr ++ ", ".toList ++ m.name ++ "_DLC, ".toList ++
       m.name ++ "_CANID, ".toList ++ m.csmMethod ++ ", ".toList ++ fmtD m.csmOp ++ "));".toList),
     .appendF ("  ".toList ++ arr ++ "[".toList ++ fmtD t.1 ++ "] |= (uint8_t) ( ".toList ++ t.2 ++ " );".toList),
     opEndif g.usecsm, opEmpty]

/-- The loop that clears the payload, src/codegen/c-main-generator.cpp:795-798. -/
def initLoopText (g : GenDesc) (arr : Str) (m : Msg) : Str :=
  "  uint8_t i; for (i = 0u; i < ".toList ++ validateName g ++ "(".toList ++ m.name ++ "_DLC); ".toList ++ arr ++
    "[i++] = ".toList ++ initByteName g ++ ");".toList

/-- `CiMainGenerator::PrintPackCommonText`, src/codegen/c-main-generator.cpp:793-871; `bs` is
`to_bytes`. -/
def packCommonOps (g : GenDesc) (arr : Str) (m : Msg) (bs : List Str) : Option (List WOp) :=
  (packRollOps g m).bind fun roll => (packCsmOps g arr m).map fun csm =>
    [.appendF (initLoopText g arr m), opEmpty] ++
    roll ++ packClearOps g m ++ packPhysOps g m ++ packByteOps arr bs ++ [.appendF []] ++ csm

/-- End of the pack function with a frame struct, src/codegen/c-main-generator.cpp:774-779. -/
def packStructEnd (m : Msg) : List WOp :=
  [.appendF ("  cframe->MsgId = (uint32_t) ".toList ++ m.name ++ "_CANID;".toList),
   .appendF ("  cframe->DLC = (uint8_t) ".toList ++ m.name ++ "_DLC;".toList),
   .appendF ("  cframe->IDE = (uint8_t) ".toList ++ m.name ++ "_IDE;".toList),
   .appendF ("  return ".toList ++ m.name ++ "_CANID;".toList), opLine "}", opEmpty]

/-- End of the pack function with arrays, src/codegen/c-main-generator.cpp:786-790. -/
def packArrayEnd (m : Msg) : List WOp :=
  [.appendF ("  *_len = (uint8_t) ".toList ++ m.name ++ "_DLC;".toList),
   .appendF ("  *_ide = (uint8_t) ".toList ++ m.name ++ "_IDE;".toList),
   .appendF ("  return ".toList ++ m.name ++ "_CANID;".toList), opLine "}", opEmpty]

/-- `CiMainGenerator::WritePackStructBody`, src/codegen/c-main-generator.cpp:770-780. -/
def packStructOps (g : GenDesc) (m : Msg) (bs : List Str) : Option (List WOp) :=
  (packCommonOps g "cframe->Data".toList m bs).map fun c => [opLine "{"] ++ c ++ packStructEnd m

/-- `CiMainGenerator::WritePackArrayBody`, src/codegen/c-main-generator.cpp:782-791. -/
def packArrayOps (g : GenDesc) (m : Msg) (bs : List Str) : Option (List WOp) :=
  (packCommonOps g "_d".toList m bs).map fun c => [opLine "{"] ++ c ++ packArrayEnd m

/-- The functions of a message from their bodies. -/
def functionsText (g : GenDesc) (m : Msg) (u p q : List WOp) : List WOp :=
  [.appendF (unpackSig g m ++ "\n{".toList), opLine "  (void)dlc_;"] ++ u ++ [opLine "}", opEmpty] ++
  [opIfdef g.usestruct, opEmpty, .appendF (packStructSig g m)] ++ p ++
  [opLine "#else", opEmpty, .appendF (packArraySig g m)] ++ q ++
  [opEndif g.usestruct, opEmpty]

/-- The functions of a message, src/codegen/c-main-generator.cpp:381-430. -/
def sourceMsgOps (g : GenDesc) (m : Msg) : Option (List WOp) :=
  if m.frameNotEmpty then
    (buildText m).bind fun t => (unpackBodyOps g m t.1).bind fun u =>
      (packStructOps g m t.2).bind fun p => (packArrayOps g m t.2).map fun q => functionsText g m u p q
  else some []

/-- `extend_func_body`, src/codegen/c-main-generator.cpp:19-31. -/
def extSigText : Str :=
  ("// This function performs extension of sign for the signals\n" ++
  "// whose bit width value is not aligned to one of power of 2 or less than 8.\n" ++
  "// The types 'bitext_t' and 'ubitext_t' define the biggest bit width which\n" ++
  "// can be correctly handled. You need to select type which can contain\n" ++
  "// n+1 bits where n is the largest signed signal width. For example if\n" ++
  "// the most wide signed signal has a width of 31 bits you need to set\n" ++
  "// bitext_t as int32_t and ubitext_t as uint32_t\n" ++
  "// Defined these typedefs in @dbccodeconf.h or locally in 'dbcdrvname'-config.h\n" ++
  "static bitext_t __ext_sig__(ubitext_t val, uint8_t bits)\n" ++
  "{\n" ++
  "  ubitext_t const m = (ubitext_t) (1u << (bits - 1u));\n" ++
  "  return ((val ^ m) - m);\n" ++
  "}\n\n").toList

/-- The version check of the source files, src/codegen/c-main-generator.cpp:342 and
src/codegen/c-util-generator.cpp:203. -/
def versionCheck (g : GenDesc) (hi lo : Nat) : Str :=
  "#if (".toList ++ g.verhigh ++ " != (".toList ++ decStr hi ++ "U)) || (".toList ++ g.verlow ++ " != (".toList ++ decStr lo ++ "U))".toList

/-- Beginning of the source, src/codegen/c-main-generator.cpp:334-376. -/
def sourceStartOps (g : GenDesc) : List WOp :=
  [.appendText g.commonInfo, .appendText g.driverInfo,
   .appendF ("#include \"".toList ++ g.drvLow ++ ".h\"".toList), .lines 2,
   opLine "// DBC file version",
   .appendF (versionCheck g g.hiver g.lowver),
   .appendF ("#error The ".toList ++ g.drvUp ++ " dbc source files have different versions".toList),
   opLine "#endif", opEmpty,
   opIfdef g.usemon,
   opLine "// Function prototypes to be called each time CAN frame is unpacked\n// FMon function may detect RC, CRC or DLC violation\n",
   .appendF ("#include \"".toList ++ g.drvLow ++ "-fmon.h\"".toList), opEmpty,
   opEndif g.usemon, .appendF [],
   opLine "// This macro guard for the case when you need to enable",
   opLine "// using diag monitors but there is no necessity in proper",
   opLine "// SysTick provider. For providing one you need define macro",
   opLine "// before this line - in dbccodeconf.h",
   .appendF [],
   opLine "#ifndef GetSystemTick", opLine "#define GetSystemTick() (0u)", opLine "#endif",
   .appendF [],
   opLine "// This macro guard is for the case when you want to build",
   opLine "// app with enabled optoin auto CSM, but don't yet have",
   opLine "// proper getframehash implementation",
   .appendF [],
   opLine "#ifndef GetFrameHash", opLine "#define GetFrameHash(a,b,c,d,e) (0u)", opLine "#endif", opEmpty,
   .appendF extSigText]

/-- `CiMainGenerator::Gen_MainSource`, src/codegen/c-main-generator.cpp:331-433, without the final
`Flush`. -/
def mainSourceOps (g : GenDesc) (msgs : List Msg) : Option (List WOp) :=
  (allSome (msgs.map (sourceMsgOps g))).map fun ms => sourceStartOps g ++ ms.flatten

/-! ### Monitor files -/

/-- `MonGenerator::FillHeader`, src/codegen/mon-generator.cpp:6-82. -/
def fmonHeaderOps (g : GenDesc) (msgs : List Msg) : List WOp :=
  [.appendText g.commonInfo, .appendText g.driverInfo, opLine "#pragma once", opEmpty,
   opLine "#ifdef __cplusplus\nextern \"C\" {\n#endif", opEmpty,
   opLine "// DBC file version",
   .appendF ("#define ".toList ++ g.verhigh ++ "_FMON (".toList ++ decStr g.hiver ++ "U)".toList),
   .appendF ("#define ".toList ++ g.verlow ++ "_FMON (".toList ++ decStr g.lowver ++ "U)".toList), opEmpty,
   .appendF ("#include \"".toList ++ g.drvLow ++ "-config.h\"".toList), opEmpty,
   opIfdef g.usemon, opEmpty, opLine "#include \"canmonitorutil.h\"",
   opLine "/*\nThis file contains the prototypes of all the functions that will be called\nfrom each Unpack_*name* function to detect DBC related errors\nIt is the user responsibility to defined these functions in the\nseparated .c file. If it won't be done the linkage error will happen\n*/",
   opEmpty,
   .appendF ("#ifdef ".toList ++ g.drvUp ++ "_USE_MONO_FMON".toList), opEmpty,
   .appendF ("void _FMon_MONO_".toList ++ g.drvLow ++ "(FrameMonitor_t* _mon, uint32_t msgid);".toList), opEmpty] ++
  msgs.map (fun m => .appendF ("#define FMon_".toList ++ m.name ++ "_".toList ++ g.drvLow ++ "(x, y) _FMon_MONO_".toList ++ g.drvLow ++ "((x), (y))".toList)) ++
  [opEmpty, opLine "#else", opEmpty] ++
  msgs.map (fun m => .appendF ("void _FMon_".toList ++ m.name ++ "_".toList ++ g.drvLow ++ "(FrameMonitor_t* _mon, uint32_t msgid);".toList)) ++
  [opEmpty] ++
  msgs.map (fun m => .appendF ("#define FMon_".toList ++ m.name ++ "_".toList ++ g.drvLow ++ "(x, y) _FMon_".toList ++ m.name ++ "_".toList ++ g.drvLow ++ "((x), (y))".toList)) ++
  [opEmpty, opLine "#endif", opEmpty, opEndif g.usemon, opEmpty, opLine "#ifdef __cplusplus\n}\n#endif"]

/-- `MonGenerator::FillSource`, src/codegen/mon-generator.cpp:84-126. -/
def fmonSourceOps (g : GenDesc) (msgs : List Msg) : List WOp :=
  [.appendText g.commonInfo, .appendText g.driverInfo,
   .appendF ("#include \"".toList ++ g.drvLow ++ "-fmon.h\"".toList), opEmpty, opIfdef g.usemon, opEmpty,
   opLine "/*\nPut the monitor function content here, keep in mind -\nnext generation will completely clear all manually added code (!)\n*/\n\n",
   .appendF ("#ifdef ".toList ++ g.drvUp ++ "_USE_MONO_FMON".toList), opEmpty,
   .appendF ("void _FMon_MONO_".toList ++ g.drvLow ++ "(FrameMonitor_t* _mon, uint32_t msgid)".toList),
   opLine "{", opLine "  (void)_mon;", opLine "  (void)msgid;", opLine "}", opEmpty, opLine "#else", opEmpty] ++
  msgs.map (fun m => .appendF ("void _FMon_".toList ++ m.name ++ "_".toList ++ g.drvLow ++
    "(FrameMonitor_t* _mon, uint32_t msgid)\n{\n  (void)_mon;\n  (void)msgid;\n}\n\n".toList)) ++
  [.appendF ("#endif // ".toList ++ g.drvUp ++ "_USE_MONO_FMON".toList), opEmpty, opEndif g.usemon]

/-! ### Util files -/

/-- What `CiUtilGenerator` prints with: the descriptor changed for the node (src/app.cpp:193-205), the
name of the driver and the util header. -/
structure UtilDesc where
  g : GenDesc
  /-- `gdesc->drvname` -/
  name : Str
  /-- `gdesc->DRVNAME` -/
  NAME : Str
  /-- `code_drvname` -/
  drv : Str
  /-- `fdesc->util_h.fname` -/
  hname : Str
  deriving DecidableEq, Repr

/-- A struct with one member per message, src/codegen/c-util-generator.cpp:124-134, 145-155. -/
def utilStructOps (u : UtilDesc) (dir : Str) (ms : List Msg) : List WOp :=
  [opLine "typedef struct\n{"] ++
  ms.map (fun m => .appendF ("  ".toList ++ m.name ++ "_t ".toList ++ m.name ++ ";".toList)) ++
  [.appendF ("} ".toList ++ u.name ++ "_".toList ++ dir ++ "_t;".toList), opEmpty]

/-- `CiUtilGenerator::PrintHeader`, src/codegen/c-util-generator.cpp:101-192. -/
def utilHeaderOps (u : UtilDesc) (rx tx : List Msg) : List WOp :=
  [.appendText u.g.commonInfo, .appendText u.g.driverInfo, opLine "#pragma once", opEmpty,
   .append "#ifdef __cplusplus\nextern \"C\" {\n#endif".toList, opEmpty,
   opLine "#include \"dbccodeconf.h\"", opEmpty,
   .appendF ("#include \"".toList ++ strLower u.drv ++ ".h\"".toList), opEmpty] ++
  (if rx.length = 0 then [opLine "// There is no any RX mapped massage.", opEmpty] else utilStructOps u "rx".toList rx) ++
  (if tx.length = 0 then [opLine "// There is no any TX mapped massage.", opEmpty] else utilStructOps u "tx".toList tx) ++
  (if rx.length > 0 then
    [.appendF ("uint32_t ".toList ++ u.name ++ "_Receive(".toList ++ u.name ++ "_rx_t* m, const uint8_t* d, uint32_t msgid, uint8_t dlc);".toList), opEmpty]
   else []) ++
  (if rx.length > 0 ∨ tx.length > 0 then
    [.appendF ("#ifdef __DEF_".toList ++ u.NAME ++ "__".toList), opEmpty] ++
    (if rx.length > 0 then [.appendF ("extern ".toList ++ u.name ++ "_rx_t ".toList ++ u.name ++ "_rx;".toList), opEmpty] else []) ++
    (if tx.length > 0 then [.appendF ("extern ".toList ++ u.name ++ "_tx_t ".toList ++ u.name ++ "_tx;".toList), opEmpty] else []) ++
    [.appendF ("#endif // __DEF_".toList ++ u.NAME ++ "__".toList), opEmpty]
   else []) ++
  [.append "#ifdef __cplusplus\n}\n#endif".toList]

/-- The receive function, src/codegen/c-util-generator.cpp:233-258.  `none`: the tree construction
leaves the vector. -/
def receiveOps (u : UtilDesc) (rx : List Msg) : Option (List WOp) :=
  if rx.length > 0 then
    (fillTree rx (rx.length + 1) 0 rx.length false).map fun t =>
      [.appendF ("uint32_t ".toList ++ u.name ++ "_Receive(".toList ++ u.name ++ "_rx_t* _m, const uint8_t* _d, uint32_t _id, uint8_t dlc_)".toList),
       opLine "{", opLine " uint32_t recid = 0;", .append (printCode u.drv (writeCode t 1)), opEmpty, opLine " return recid;", opLine "}", opEmpty]
  else some []

/-- `CiUtilGenerator::PrintSource`, src/codegen/c-util-generator.cpp:194-261. -/
def utilSourceOps (u : UtilDesc) (hi lo : Nat) (rx tx : List Msg) : Option (List WOp) :=
  (receiveOps u rx).map fun body =>
    [.appendText u.g.commonInfo, .appendText u.g.driverInfo,
     .appendF ("#include \"".toList ++ u.hname ++ "\"".toList), opEmpty, opLine "// DBC file version",
     .appendF (versionCheck u.g hi lo),
     .appendF ("#error The ".toList ++ u.NAME ++ " binutil source file has inconsistency with core dbc lib!".toList),
     opLine "#endif", opEmpty] ++
    (if rx.length > 0 ∨ tx.length > 0 then
      [.appendF ("#ifdef __DEF_".toList ++ u.NAME ++ "__".toList), opEmpty] ++
      (if rx.length > 0 then [.appendF (u.name ++ "_rx_t ".toList ++ u.name ++ "_rx;".toList), opEmpty] else []) ++
      (if tx.length > 0 then [.appendF (u.name ++ "_tx_t ".toList ++ u.name ++ "_tx;".toList), opEmpty] else []) ++
      [.appendF ("#endif // __DEF_".toList ++ u.NAME ++ "__".toList), opEmpty]
     else []) ++ body

/-- The text a sequence of calls puts into the writer. -/
def opsText (ops : List WOp) : Str := (Writer.run {} ops).buf

end Verif
