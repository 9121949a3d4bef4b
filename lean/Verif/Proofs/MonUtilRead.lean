import Verif.Proofs.ConfRead
/-
`dbccodeconf.h` and `canmonitorutil.h`, read by the preprocessor and the C parser.
-/
namespace Verif
open Spec

variable {files : List (Str × Str)} {D D0 E : Defs} {g : GenDesc}

/-- Words of the two files that no other file uses. -/
def confWords : List Str := ["double", "enum", "CRC_ALG_COUNT", "DbcCanCrcMethods", "timeout_cycle", "cycle_error"].map String.toList

/-- Fixed words are no macros. -/
structure ConfBase (D : Defs) : Prop extends Base D where
  conf : ∀ w ∈ confWords, D.lookup w = none

theorem ConfBase.sub {D E : Defs} (s : Sub D E) (h : ConfBase E) : ConfBase D := ⟨s.base h.toBase, fun w hw => s.none (h.conf w hw)⟩

/-- A line is empty, a comment or code with fixed words. -/
def fixB (t : Str) : Bool :=
  decide (t.length ≤ 9997 ∧ '\n' ∉ t) &&
  match t with
  | [] => true
  | '/' :: '/' :: c => decide (c.getLast? ≠ some '\\')
  | ' ' :: ' ' :: '/' :: '/' :: c => decide (c.getLast? ≠ some '\\')
  | t => t.all plainCh && (match dropBlank t with | '#' :: _ => false | _ => true) &&
    (tokWords (lex t)).all fun w => inNumber w || codeWords.contains w || confWords.contains w

/-- The tokens of the line. -/
def fixT (t : Str) : List Tok :=
  match t with
  | [] => []
  | '/' :: '/' :: _ => []
  | ' ' :: ' ' :: '/' :: '/' :: _ => []
  | t => lex t

theorem gen_fixB (hB : ConfBase D) {t : Str} (h : fixB t = true) : Gen files [.appendF t] D D (fixT t) := by
  unfold fixB at h
  rw [Bool.and_eq_true] at h
  obtain ⟨h1, h3⟩ := h
  obtain ⟨hl, hn⟩ := of_decide_eq_true h1
  unfold fixT
  split at h3
  · exact Gen.appendNil
  · rename_i c
    simp only [List.length_cons] at hl
    exact Gen.comment (by omega) (fun h => hn (by simp [h])) (of_decide_eq_true h3)
  · rename_i c
    simp only [List.length_cons] at hl
    refine Gen.silent (ls := [[' ', ' ', ' ']]) ⟨_, emits_line (by simp only [List.length_cons]; omega) hn, ?_⟩ (fun c => Run.blankLine c rfl rfl)
    exact PPL.comment (a := [' ', ' ']) (by decide) (fun h => hn (by simp [h])) (of_decide_eq_true h3)
  · rename_i n1 n2 n3
    rw [Bool.and_eq_true, Bool.and_eq_true] at h3
    obtain ⟨⟨p1, p2⟩, p3⟩ := h3
    refine ⟨[t], ol_plain (fun c hc => List.all_eq_true.mp p1 c hc) (by omega), fun out => Run.text ?_ ?_⟩
    · intro r e
      rw [e] at p2
      cases p2
    · refine (ExpP.plain fun w hw => .inr ?_).exp
      have := List.all_eq_true.mp p3 w hw
      rw [Bool.or_eq_true, Bool.or_eq_true] at this
      rcases this with (q | q) | q
      · exact hB.num w q
      · exact hB.code w (List.contains_iff_mem.mp q)
      · exact hB.conf w (List.contains_iff_mem.mp q)

theorem gen_fixes (hB : ConfBase D) : ∀ ls : List Str, ls.all fixB = true → Gen files (ls.map WOp.appendF) D D (ls.flatMap fixT)
  | [], _ => Gen.nil
  | t :: r, h => by
    rw [List.all_cons, Bool.and_eq_true] at h
    exact Gen.cons (gen_fixB hB h.1) (gen_fixes hB r h.2)

theorem PItems.alias (t n : Str) : PItems [.word "typedef".toList, .word t, .word n, .p [';']] [.alias n t] :=
  PItems.one (by simp) fun r => ⟨0, fun f _ => rfl⟩

/-! ### The common configuration -/

/-- What the user declares in `dbccodeconf.h` (the generated file has it as comments): nothing, the type `sigfloat_t`,
the struct of the frame with 8 or 64 data bytes, or both. -/
inductive ConfEdit where
  | none | float | frame8 | frame64 | float8 | float64
  deriving DecidableEq, Repr

/-- `sigfloat_t` is declared. -/
def ConfEdit.flt : ConfEdit → Bool
  | .float | .float8 | .float64 => true
  | _ => false

/-- Bytes of `Data` of the struct of the frame, if it is declared. -/
def ConfEdit.data : ConfEdit → Option Nat
  | .frame8 | .float8 => some 8
  | .frame64 | .float64 => some 64
  | _ => Option.none

/-- All of them. -/
def ConfEdit.all : List ConfEdit := [.none, .float, .frame8, .frame64, .float8, .float64]

instance {p : ConfEdit → Prop} [DecidablePred p] : Decidable (∀ e, p e) :=
  decidable_of_iff (∀ e ∈ ConfEdit.all, p e) ⟨fun h e => h e (by cases e <;> decide), fun h e _ => h e⟩

/-- The line with the type `sigfloat_t`: the user takes the comment sign away. -/
def floatLine (fl : ConfEdit) : WOp := if fl.flt then opLine "typedef double sigfloat_t;" else opLine "// typedef double sigfloat_t;"

/-- The line with the struct of the frame, with the fields the configuration header lists
(src/codegen/config-generator.cpp:24-29). -/
def frameLine (fl : ConfEdit) : WOp :=
  match fl.data with
  | some 8 => opLine "typedef struct { uint32_t MsgId; uint8_t DLC; uint8_t Data[8]; uint8_t IDE; } __CoderDbcCanFrame_t__;"
  | some _ => opLine "typedef struct { uint32_t MsgId; uint8_t DLC; uint8_t Data[64]; uint8_t IDE; } __CoderDbcCanFrame_t__;"
  | .none => opLine "// typedef {can_struct} __CoderDbcCanFrame_t__;"

/-- `dbccodeconf.h` with the declarations of the user. -/
def userCodeConf (fl : ConfEdit) (g : GenDesc) : List WOp := dbcCodeConfWith (floatLine fl) (frameLine fl) g

def codeConf1 : List Str :=
  [[], "// when USE_SIGFLOAT enabed the sigfloat_t must be defined".toList]

def codeConf2 : List Str :=
  [[],
   "// when USE_CANSTRUCT enabled __CoderDbcCanFrame_t__ must be defined".toList,
   "// #include \"{header_with_can_struct}\"".toList]

def codeConf3 : List Str :=
  [[],
   "// if you need to allocate rx and tx messages structs put the allocation macro here".toList,
   "// #define __DEF_{your_driver_name}__".toList,
   [],
   "// defualt @__ext_sig__ help types definition".toList,
   [],
   "typedef uint32_t ubitext_t;".toList,
   "typedef int32_t bitext_t;".toList,
   [],
   "// To provide a way to make missing control correctly you".toList,
   "// have to define macro @GetSystemTick() which has to".toList,
   "// return kind of tick counter (e.g. 1 ms ticker)".toList,
   [],
   "// #define GetSystemTick() __get__tick__()".toList,
   [],
   "// To provide a way to calculate hash (crc) for CAN".toList,
   "// frame's data field you have to define macro @GetFrameHash".toList,
   [],
   "// #define GetFrameHash(a,b,c,d,e) __get_hash__(a,b,c,d,e)".toList,
   []]

/-- The members of the struct of the frame. -/
def frameMembers (n : Nat) : List (Str × MTy) :=
  [("MsgId".toList, .int .u32 none), ("DLC".toList, .int .u8 none), ("Data".toList, .arr .u8 n), ("IDE".toList, .int .u8 none)]

/-- The name of the struct of the frame. -/
def frameType : Str := "__CoderDbcCanFrame_t__".toList

/-- The struct of the frame. -/
def frameItems (fl : ConfEdit) : List Spec.Item :=
  match fl.data with
  | some n => [.struct frameType (frameMembers n)]
  | .none => []

/-- What the common configuration declares. -/
def codeConfItems (fl : ConfEdit) : List Spec.Item :=
  (if fl.flt then [.alias "sigfloat_t".toList "double".toList] else []) ++ (frameItems fl ++
  [.alias "ubitext_t".toList "uint32_t".toList, .alias "bitext_t".toList "int32_t".toList])

/-- The common configuration behind `#pragma once`. -/
def codeConfTail (fl : ConfEdit) : List WOp :=
  WOp.appendF [] :: opLine "#include <stdint.h>" ::
    (codeConf1.map WOp.appendF ++ (floatLine fl :: (codeConf2.map WOp.appendF ++ (frameLine fl :: codeConf3.map WOp.appendF))))

theorem codeConf_eq (fl : ConfEdit) : userCodeConf fl g = .appendText g.commonInfo :: opLine "#pragma once" :: codeConfTail fl := rfl

/-- Tokens of the struct of the frame. -/
def frameToks (w : Str) : List Tok :=
  [.word "uint32_t".toList, .word "MsgId".toList, .p [';'], .word "uint8_t".toList, .word "DLC".toList, .p [';'],
   .word "uint8_t".toList, .word "Data".toList, .p ['['], .word w, .p [']'], .p [';'], .word "uint8_t".toList, .word "IDE".toList, .p [';']]

theorem frame_parse {w : Str} {n : Nat} (hw : litOf w = some ⟨.i32, (n : Nat)⟩) (hn : 1 ≤ n) :
    PItems (.word "typedef".toList :: .word "struct".toList :: .p ['{'] :: (frameToks w ++ [.p ['}'], .word frameType, .p [';']]))
      [.struct frameType (frameMembers n)] := by
  refine PItems.struct (l := frameMembers n) ⟨?_, ?_⟩ (show (["MsgId".toList, "DLC".toList, "Data".toList, "IDE".toList] : List Str).Nodup by decide)
  · intro r ms h
    have k1 : typeNames.lookup "uint32_t".toList = some (some .u32) := by decide +kernel
    have k2 : typeNames.lookup "uint8_t".toList = some (some .u8) := by decide +kernel
    have k3 : (1 : Int) ≤ (n : Nat) := by omega
    unfold frameToks
    simp only [List.cons_append, List.nil_append]
    simp only [parseMembers, h, k1, k2, hw, k3, if_true]
    rfl
  · exact closeBlock_skip rfl

theorem frame_read (hB : ConfBase D) (fl : ConfEdit) : GItems files [frameLine fl] D D (frameItems fl) := by
  have h0 : GItems files [opLine "// typedef {can_struct} __CoderDbcCanFrame_t__;"] D D [] :=
    GItems.silent (gen_cmt "// typedef {can_struct} __CoderDbcCanFrame_t__;" (by decide) D)
  have h8 : GItems files [opLine "typedef struct { uint32_t MsgId; uint8_t DLC; uint8_t Data[8]; uint8_t IDE; } __CoderDbcCanFrame_t__;"] D D
      [.struct frameType (frameMembers 8)] :=
    ⟨_, (gen_fixB hB (t := "typedef struct { uint32_t MsgId; uint8_t DLC; uint8_t Data[8]; uint8_t IDE; } __CoderDbcCanFrame_t__;".toList) (by decide +kernel)).eq
      (by decide +kernel), frame_parse (w := "8".toList) (n := 8) (by decide +kernel) (by decide)⟩
  have h64 : GItems files [opLine "typedef struct { uint32_t MsgId; uint8_t DLC; uint8_t Data[64]; uint8_t IDE; } __CoderDbcCanFrame_t__;"] D D
      [.struct frameType (frameMembers 64)] :=
    ⟨_, (gen_fixB hB (t := "typedef struct { uint32_t MsgId; uint8_t DLC; uint8_t Data[64]; uint8_t IDE; } __CoderDbcCanFrame_t__;".toList) (by decide +kernel)).eq
      (by decide +kernel), frame_parse (w := "64".toList) (n := 64) (by decide +kernel) (by decide)⟩
  cases fl with
  | none => exact h0
  | float => exact h0
  | frame8 => exact h8
  | float8 => exact h8
  | frame64 => exact h64
  | float64 => exact h64

theorem codeConf_read (hB : ConfBase D) (fl : ConfEdit) (hs : files.lookup "stdint.h".toList = none) : GItems files (codeConfTail fl) D D (codeConfItems fl) := by
  have h1 : GItems files (codeConf1.map WOp.appendF) D D [] := GItems.silent (gen_fixes hB codeConf1 (by decide +kernel))
  have h2 : GItems files (codeConf2.map WOp.appendF) D D [] := GItems.silent (gen_fixes hB codeConf2 (by decide +kernel))
  have e3 : codeConf3.flatMap fixT = [.word "typedef".toList, .word "uint32_t".toList, .word "ubitext_t".toList, .p [';']] ++
      [.word "typedef".toList, .word "int32_t".toList, .word "bitext_t".toList, .p [';']] := by decide +kernel
  have h3 : GItems files (codeConf3.map WOp.appendF) D D [.alias "ubitext_t".toList "uint32_t".toList, .alias "bitext_t".toList "int32_t".toList] :=
    ⟨_, (gen_fixes hB codeConf3 (by decide +kernel)).eq e3, (PItems.alias _ _).append (PItems.alias _ _)⟩
  have hf : GItems files [floatLine fl] D D (if fl.flt then [.alias "sigfloat_t".toList "double".toList] else []) := by
    unfold floatLine
    cases fl.flt with
    | true => exact ⟨_, (gen_fixB hB (t := "typedef double sigfloat_t;".toList) (by decide +kernel)).eq
        (vs := [.word "typedef".toList, .word "double".toList, .word "sigfloat_t".toList, .p [';']]) (by decide +kernel), PItems.alias _ _⟩
    | false => exact GItems.silent (gen_cmt "// typedef double sigfloat_t;" (by decide) D)
  exact (GItems.silent Gen.appendNil).cons ((GItems.silent (gen_stdint hs D)).cons (h1.append (hf.cons (h2.append ((frame_read hB fl).cons h3)))))

/-! ### The monitor -/

def monUtilLines : List Str :=
  [[],
   "// declare here all availible checksum algorithms".toList,
   "typedef enum".toList,
   "{".toList,
   "  // XOR8 = 0,".toList,
   "  // XOR4 = 1,".toList,
   "  // etc".toList,
   [],
   "  // it is up to user to have or to skip final enum value - @CRC_ALG_COUNT".toList,
   "  CRC_ALG_COUNT".toList,
   "} DbcCanCrcMethods;".toList,
   [],
   "typedef struct".toList,
   "{".toList,
   "  // @last_cycle keeps tick-value when last frame was received".toList,
   "  uint32_t last_cycle;".toList,
   [],
   "  // @timeout_cycle keeps maximum timeout for frame, user responsibility".toList,
   "  // to init this field and use it in missing frame monitoring function".toList,
   "  uint32_t timeout_cycle;".toList,
   [],
   "  // @frame_cnt keeps count of all the received frames".toList,
   "  uint32_t frame_cnt;".toList,
   [],
   "  // setting up @roll_error bit indicates roll counting fail.".toList,
   "  // Bit is not clearing automatically!".toList,
   "  uint32_t roll_error : 1;".toList,
   [],
   "  // setting up @checksum_error bit indicates checksum checking failure.".toList,
   "  // Bit is not clearing automatically!".toList,
   "  uint32_t csm_error : 1;".toList,
   [],
   "  // setting up @cycle_error bit indicates that time was overrunned.".toList,
   "  // Bit is not clearing automatically!".toList,
   "  uint32_t cycle_error : 1;".toList,
   [],
   "  // setting up @dlc_error bit indicates that the actual length of".toList,
   "  // CAN frame is less then defined by CAN matrix!".toList,
   "  uint32_t dlc_error : 1;".toList,
   [],
   "} FrameMonitor_t;".toList,
   []]

/-- The members of the monitor. -/
def monitorMembers : List (Str × MTy) :=
  [("last_cycle".toList, .int .u32 none), ("timeout_cycle".toList, .int .u32 none), ("frame_cnt".toList, .int .u32 none), ("roll_error".toList, .int .u32 (some 1)),
   ("csm_error".toList, .int .u32 (some 1)), ("cycle_error".toList, .int .u32 (some 1)), ("dlc_error".toList, .int .u32 (some 1))]

/-- What the monitor header declares. -/
def monUtilItems : List Spec.Item :=
  [.enum "DbcCanCrcMethods".toList ["CRC_ALG_COUNT".toList], .struct "FrameMonitor_t".toList monitorMembers]

/-- The monitor header behind `#pragma once`. -/
def monUtilTail : List WOp :=
  WOp.appendF [] :: opLine "#include <stdint.h>" :: WOp.appendF [] :: (([opIfdef "__cplusplus".toList] ++ [opLine "extern \"C\" {"] ++ [opLine "#endif"]) ++
    (monUtilLines.map WOp.appendF ++ (([opIfdef "__cplusplus".toList] ++ [opLine "}"] ++ [opLine "#endif"]) ++ [WOp.appendF []])))

theorem monUtil_eq : canMonUtilOps g = .appendText g.commonInfo :: opLine "#pragma once" :: monUtilTail := by
  have e : opIfdef "__cplusplus".toList = opLine "#ifdef __cplusplus" := by
    unfold opIfdef opLine
    exact congrArg WOp.appendF (by decide)
  unfold monUtilTail
  rw [e]
  rfl

theorem PItems.enum1 (n w : Str) : PItems [.word "typedef".toList, .word "enum".toList, .p ['{'], .word w, .p ['}'], .word n, .p [';']] [.enum n [w]] :=
  PItems.one (by simp) fun r => ⟨0, fun f _ => rfl⟩

/-- A member of the monitor as tokens. -/
def memToks (m : String × Bool) : List Tok :=
  if m.2 then [.word "uint32_t".toList, .word m.1.toList, .p [':'], .word "1".toList, .p [';']] else [.word "uint32_t".toList, .word m.1.toList, .p [';']]

theorem monitor_parse : PItems (monUtilLines.flatMap fixT) monUtilItems := by
  have e : monUtilLines.flatMap fixT =
      [.word "typedef".toList, .word "enum".toList, .p ['{'], .word "CRC_ALG_COUNT".toList, .p ['}'], .word "DbcCanCrcMethods".toList, .p [';']] ++
      (.word "typedef".toList :: .word "struct".toList :: .p ['{'] ::
        ([("last_cycle", false), ("timeout_cycle", false), ("frame_cnt", false), ("roll_error", true), ("csm_error", true), ("cycle_error", true), ("dlc_error", true)].flatMap memToks ++
        [.p ['}'], .word "FrameMonitor_t".toList, .p [';']])) := by decide +kernel
  rw [e]
  refine (PItems.enum1 _ _).append (PItems.struct (l := monitorMembers) ⟨?_, ?_⟩ (by decide))
  · intro r ms h
    have e2 : [("last_cycle", false), ("timeout_cycle", false), ("frame_cnt", false), ("roll_error", true), ("csm_error", true), ("cycle_error", true), ("dlc_error", true)].flatMap memToks =
      [.word "uint32_t".toList, .word "last_cycle".toList, .p [';'], .word "uint32_t".toList, .word "timeout_cycle".toList, .p [';'], .word "uint32_t".toList, .word "frame_cnt".toList, .p [';'],
       .word "uint32_t".toList, .word "roll_error".toList, .p [':'], .word "1".toList, .p [';'], .word "uint32_t".toList, .word "csm_error".toList, .p [':'], .word "1".toList, .p [';'],
       .word "uint32_t".toList, .word "cycle_error".toList, .p [':'], .word "1".toList, .p [';'], .word "uint32_t".toList, .word "dlc_error".toList, .p [':'], .word "1".toList, .p [';']] := rfl
    rw [e2]
    simp only [List.cons_append, List.nil_append]
    have k1 : typeNames.lookup "uint32_t".toList = some (some .u32) := by decide +kernel
    have k2 : litOf "1".toList = some ⟨.i32, 1⟩ := by decide +kernel
    simp only [parseMembers, h, k1, k2]
    rfl
  · exact closeBlock_skip (by decide +kernel)

theorem monUtil_read (hB : ConfBase D) (hc : D.lookup "__cplusplus".toList = none) (hs : files.lookup "stdint.h".toList = none) : GItems files monUtilTail D D monUtilItems := by
  have hcl : (D.lookup "__cplusplus".toList).isSome = false := by rw [hc]; rfl
  have s1 : GSkip files [opLine "extern \"C\" {"] := ⟨_, ol_extern, Skips.text notDir_extern⟩
  have s2 : GSkip files [opLine "}"] := ⟨_, ol_plain (t := "}".toList) (plain_lit (by decide)) (by decide), Skips.text notDir_close⟩
  have h1 : Gen files ([opIfdef "__cplusplus".toList] ++ [opLine "extern \"C\" {"] ++ [opLine "#endif"]) D D [] :=
    Gen.ifdefF ⟨by decide, by decide⟩ (by decide) hcl closeOp_plain s1
  have h2 : Gen files ([opIfdef "__cplusplus".toList] ++ [opLine "}"] ++ [opLine "#endif"]) D D [] :=
    Gen.ifdefF ⟨by decide, by decide⟩ (by decide) hcl closeOp_plain s2
  have h3 : GItems files (monUtilLines.map WOp.appendF) D D monUtilItems := ⟨_, gen_fixes hB monUtilLines (by decide +kernel), monitor_parse⟩
  have := (GItems.silent (files := files) (D := D) Gen.appendNil).cons ((GItems.silent (gen_stdint hs D)).cons ((GItems.silent (files := files) (D := D) Gen.appendNil).cons
    ((GItems.silent h1).append (h3.append ((GItems.silent h2).append (GItems.silent Gen.appendNil))))))
  exact this.eq (by simp)

end Verif
