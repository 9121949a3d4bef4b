import Verif.Model.SigPrinter
/-
The bodies of the generated functions (src/codegen/c-main-generator.cpp) as lists of statements
with preprocessor conditionals, the preprocessor, and the execution of statements.
-/
namespace Verif

/-- Configuration macros of `<drv>-config.h` that the generated code tests
(src/codegen/config-generator.cpp:8-70). -/
inductive Flag where
  | useBits | useCanStruct | useSigFloat | useMon | autoRoll | autoCsm
  deriving DecidableEq, Repr

/-- What the user of the generated code chooses. -/
structure Cfg where
  /-- which configuration macros are defined -/
  flag : Flag → Bool
  /-- `bitext_t`/`ubitext_t` are the 64-bit types (otherwise the default 32-bit ones,
  src/codegen/c-main-generator.cpp:540-541) -/
  ext64 : Bool
  /-- `<DRV>_MAX_DLC_VALUE` -/
  maxDlc : Nat
  /-- `<DRV>_INITIAL_BYTE_VALUE`, as stored into a `uint8_t` -/
  initByte : Nat

/-- Statements of generated code.  Field names are the printed ones. -/
inductive CStmt where
  /-- `_m->dst = (ty) ( e );` -/
  | setSig (dst : Str) (ty : CTy) (e : SigText)
  /-- `_m->dst = (ty) __ext_sig__(( e ), bits);` -/
  | setSigExt (dst : Str) (ty : CTy) (e : SigText) (bits : Nat)
  /-- `_m->dst = (sigfloat_t)(DRV_mac_fromS(_m->mac));` -/
  | fromSFloat (dst mac : Str)
  /-- `_m->dst = (ty) DRV_mac_fromS(_m->mac);` -/
  | fromSInt (dst : Str) (ty : CTy) (mac : Str)
  /-- `_m->dst = (ty) DRV_dst_toS(_m->src);` -/
  | toS (dst : Str) (ty : CTy) (src : Str)
  /-- `_m->mon1.dlc_error = (dlc_ < NAME_DLC);` -/
  | monDlc (dlc : Nat)
  /-- `_m->mon1.last_cycle = GetSystemTick();` -/
  | monTick
  /-- `_m->mon1.frame_cnt++;` -/
  | monCnt
  /-- `_m->mon1.roll_error = (_m->n != _m->n_expt);` -/
  | monRoll (n : Str)
  /-- `_m->dst = (_m->src + 1) & (0xmaskU);` -/
  | incr (dst src : Str) (mask : Nat)
  /-- `_m->mon1.csm_error = (((uint8_t)GetFrameHash(_d, DLC, CANID, method, op)) != (_m->n));` -/
  | monCsm (dlc id : Nat) (method : Str) (op : Nat) (n : Str)
  /-- `FMon_NAME_drv(&_m->mon1, NAME_CANID);` -/
  | fmon (name : Str) (id : Nat)
  /-- `for (i = 0u; i < DRV_VALIDATE_DLC(NAME_DLC); arr[i++] = DRV_INITIAL_BYTE_VALUE);` -/
  | initLoop (dlc : Nat)
  /-- `_m->n = (ty) 0;` -/
  | clear (n : Str) (ty : CTy)
  /-- `arr[i] |= (uint8_t) ( e );` -/
  | orByte (i : Nat) (e : Slot)
  /-- `_m->n = ((uint8_t)GetFrameHash(arr, DLC, CANID, method, op));` -/
  | setCsm (n : Str) (dlc id : Nat) (method : Str) (op : Nat)
  /-- `cframe->MsgId = (uint32_t) NAME_CANID;` -/
  | outId (id : Nat)
  /-- `cframe->DLC = (uint8_t) NAME_DLC;` or `*_len = (uint8_t) NAME_DLC;` -/
  | outDlc (dlc : Nat)
  /-- `cframe->IDE = (uint8_t) NAME_IDE;` or `*_ide = (uint8_t) NAME_IDE;` -/
  | outIde (ide : Nat)
  /-- `return NAME_CANID;` -/
  | ret (id : Nat)
  deriving DecidableEq, Repr

/-- A line of a generated body. -/
inductive GLine where
  | stmt (s : CStmt)
  | ifdef (f : Flag)
  | els
  | endif
  deriving DecidableEq, Repr

/-- C preprocessor on the conditionals.  The stack holds, per open `#ifdef`, whether its current
branch is taken. -/
def preprocess (flag : Flag → Bool) : List Bool → List GLine → List CStmt
  | _, [] => []
  | st, .stmt s :: rest =>
    if st.all id then s :: preprocess flag st rest else preprocess flag st rest
  | st, .ifdef f :: rest => preprocess flag (flag f :: st) rest
  | b :: st, .els :: rest => preprocess flag ((!b) :: st) rest
  | [], .els :: rest => preprocess flag [] rest
  | _ :: st, .endif :: rest => preprocess flag st rest
  | [], .endif :: rest => preprocess flag [] rest

/-- `(1 << LengthBit) - 1` computed by the generator in `int`
(src/codegen/c-main-generator.cpp:743,808); undefined from 31 bits on. -/
def rollMask (len : Nat) : Option Nat := if len < 31 then some (2 ^ len - 1) else none

/-- Signal a pointer field of the message points to. -/
def Msg.sigAt (m : Msg) (i : Option Nat) : Option Sig := i.bind fun k => m.signals[k]?

/-- `"_expt"` -/
def exptName (n : Str) : Str := n ++ "_expt".toList

/-- Outcome of the checksum part of `BuildCConvertExprs`, src/codegen/c-sigprinter.cpp:160-175.
`none` when printing goes out of bounds, or when no slot is filled (then `CsmByteNum` is
uninitialised). -/
def csmExpr (s : Sig) : Option (Nat × Slot) :=
  match printSignalExpr s (List.replicate 8 .empty) with
  | .oob => none
  | .ok _ tb =>
    match tb.findIdx? (· != .empty) with
    | some i => some (i, tb.getD i .empty)
    | none => none

/-- Signal part of `CiMainGenerator::WriteUnpackBody`, src/codegen/c-main-generator.cpp:681-728. -/
def unpackSigLines (s : Sig) (e : SigText) : List GLine :=
  [.stmt (if s.signed then .setSigExt s.name s.typeRo e s.lengthBit else .setSig s.name s.typeRo e)] ++
  (if s.isSimple then []
   else [.ifdef .useSigFloat,
     .stmt (if s.isDouble then .fromSFloat s.nameFloat s.name
            else .fromSInt s.nameFloat s.typePhys s.name),
     .endif])

/-- Rolling counter part of `WriteUnpackBody`, src/codegen/c-main-generator.cpp:736-747. -/
def unpackRollLines (m : Msg) : Option (List GLine) :=
  match m.sigAt m.rollSig with
  | none => some []
  | some r => do
    let msk ← rollMask r.lengthBit
    return [.ifdef .autoRoll, .stmt (.monRoll r.name), .stmt (.incr (exptName r.name) r.name msk), .endif]

/-- Checksum part of `WriteUnpackBody`, src/codegen/c-main-generator.cpp:749-758. -/
def unpackCsmLines (m : Msg) : List GLine :=
  match m.sigAt m.csmSig with
  | none => []
  | some c => [.ifdef .autoCsm, .stmt (.monCsm m.dlc m.msgId m.csmMethod m.csmOp c.name), .endif]

/-- `CiMainGenerator::WriteUnpackBody`, src/codegen/c-main-generator.cpp:679-768.  `none`: the
generator runs into undefined behaviour. -/
def writeUnpackBody (m : Msg) (toSignals : List SigText) : Option (List GLine) := do
  let roll ← unpackRollLines m
  return ((m.signals.zip toSignals).flatMap fun p => unpackSigLines p.1 p.2) ++
    [.ifdef .useMon, .stmt (.monDlc m.dlc), .stmt .monTick, .stmt .monCnt] ++
    roll ++ unpackCsmLines m ++
    [.stmt (.fmon m.name m.msgId), .endif, .stmt (.ret m.msgId)]

/-- Rolling counter part of `PrintPackCommonText`, src/codegen/c-main-generator.cpp:804-811. -/
def packRollLines (m : Msg) : Option (List GLine) :=
  match m.sigAt m.rollSig with
  | none => some []
  | some r => do
    let msk ← rollMask r.lengthBit
    return [.ifdef .autoRoll, .stmt (.incr r.name r.name msk), .endif]

/-- Clearing of the checksum field, src/codegen/c-main-generator.cpp:813-820. -/
def packClearLines (m : Msg) : List GLine :=
  match m.sigAt m.csmSig with
  | none => []
  | some c => [.ifdef .autoCsm, .stmt (.clear c.name c.typeRo), .endif]

/-- Conversion of physical values, src/codegen/c-main-generator.cpp:822-843. -/
def packPhysLines (m : Msg) : List GLine :=
  if m.hasPhys then
    [.ifdef .useSigFloat] ++
    (m.signals.filter (fun s => !s.isSimple)).map (fun s => .stmt (.toS s.name s.typeRo s.nameFloat)) ++
    [.endif]
  else []

/-- Byte statements, src/codegen/c-main-generator.cpp:845-853 (a printed expression is always
longer than one character, so only empty strings are skipped). -/
def packByteLines (tb : List Slot) : List GLine :=
  (tb.zipIdx.filter (fun p => p.1 != .empty)).map fun p => .stmt (.orByte p.2 p.1)

/-- Checksum computation, src/codegen/c-main-generator.cpp:857-870. -/
def packCsmLines (m : Msg) : Option (List GLine) :=
  match m.sigAt m.csmSig with
  | none => some []
  | some c => do
    let (i, e) ← csmExpr c
    return [.ifdef .autoCsm, .stmt (.setCsm c.name m.dlc m.msgId m.csmMethod m.csmOp),
      .stmt (.orByte i e), .endif]

/-- `CiMainGenerator::PrintPackCommonText`, src/codegen/c-main-generator.cpp:793-871. -/
def printPackCommonText (m : Msg) (tb : List Slot) : Option (List GLine) := do
  let roll ← packRollLines m
  let csm ← packCsmLines m
  return [.stmt (.initLoop m.dlc)] ++ roll ++ packClearLines m ++ packPhysLines m ++
    packByteLines tb ++ csm

/-- Value of `NAME_IDE`. -/
def Msg.ide (m : Msg) : Nat := if m.isExt then 1 else 0

/-- `CiMainGenerator::WritePackStructBody`, src/codegen/c-main-generator.cpp:770-780. -/
def writePackStructBody (m : Msg) (tb : List Slot) : Option (List GLine) := do
  return (← printPackCommonText m tb) ++
    [.stmt (.outId m.msgId), .stmt (.outDlc m.dlc), .stmt (.outIde m.ide), .stmt (.ret m.msgId)]

/-- `CiMainGenerator::WritePackArrayBody`, src/codegen/c-main-generator.cpp:782-791. -/
def writePackArrayBody (m : Msg) (tb : List Slot) : Option (List GLine) := do
  return (← printPackCommonText m tb) ++
    [.stmt (.outDlc m.dlc), .stmt (.outIde m.ide), .stmt (.ret m.msgId)]

/-! ### Declarations -/

/-- A declared struct member: its type and, for bit-fields, its width. -/
structure FDecl where
  ty : CTy
  width : Option Nat
  deriving DecidableEq, Repr

/-- Integer member declared by `WriteSigStructField`, src/codegen/c-main-generator.cpp:579-588. -/
def sigDecl (cfg : Cfg) (s : Sig) : FDecl :=
  ⟨s.typeRo, if cfg.flag .useBits && decide (s.lengthBit < 8) then some s.lengthBit else none⟩

/-- Integer members of one signal (raw and integer physical),
src/codegen/c-main-generator.cpp:579-588, 651-676. -/
def sigDecls (cfg : Cfg) (s : Sig) : List (Str × FDecl) :=
  (s.name, sigDecl cfg s) ::
  (if !s.isSimple && cfg.flag .useSigFloat && !s.isDouble then [(s.nameFloat, ⟨s.typePhys, none⟩)] else [])

/-- Floating members of one signal (`sigfloat_t`), src/codegen/c-main-generator.cpp:663-668. -/
def sigFloats (cfg : Cfg) (s : Sig) : List Str :=
  if !s.isSimple && cfg.flag .useSigFloat && s.isDouble then [s.nameFloat] else []

/-- The signals that get struct members: all signals, and with AUTO_ROLL the copy of the rolling
counter renamed `<name>_expt` (its `NameFloat` is not renamed),
src/codegen/c-main-generator.cpp:234-281. -/
def structSigs (cfg : Cfg) (m : Msg) : List Sig :=
  m.signals ++
  match m.sigAt m.rollSig with
  | some r => if cfg.flag .autoRoll then [{ r with name := exptName r.name }] else []
  | none => []

/-- Integer members of the message struct, src/codegen/c-main-generator.cpp:226-290. -/
def structDecls (cfg : Cfg) (m : Msg) : List (Str × FDecl) := (structSigs cfg m).flatMap (sigDecls cfg)

/-- Floating members of the message struct. -/
def floatDecls (cfg : Cfg) (m : Msg) : List Str := (structSigs cfg m).flatMap (sigFloats cfg)

/-- Storing an integer into a member: conversion, and reduction to the bit-field width. -/
def FDecl.store (d : FDecl) (z : Int) : Int :=
  match d.width with
  | none => d.ty.conv z
  | some w => if d.ty.signed then Int.bmod (d.ty.conv z) (2 ^ w) else d.ty.conv z % (2 ^ w : Nat)

/-! ### Conversion macros -/

/-- Type of a printed decimal `int` literal `(%d)`: `-2147483648` is the negation of a literal that
does not fit `int`. -/
def litVal (z : Int) : CVal := if z = -(2 ^ 31) then ⟨.i64, z⟩ else ⟨.i32, z⟩

/-- Integer `fromS` macro of a signal, src/codegen/c-sigprinter.cpp:104-121. -/
def macroFromS (s : Sig) (x : CVal) : Option CVal :=
  if s.offset.eqInt 0 then x.mul (litVal s.factor.trunc)
  else if s.factor.eqInt 1 then x.add (litVal s.offset.trunc)
  else do (← x.mul (litVal s.factor.trunc)).add (litVal s.offset.trunc)

/-- Integer `toS` macro of a signal (with its cast to the raw type),
src/codegen/c-sigprinter.cpp:72-96. -/
def macroToS (s : Sig) (x : CVal) : Option CVal := do
  let v ←
    if s.offset.eqInt 0 then x.div (litVal s.factor.trunc)
    else if s.factor.eqInt 1 then x.sub (litVal s.offset.trunc)
    else do (← x.sub (litVal s.offset.trunc)).div (litVal s.factor.trunc)
  return v.cast s.typeRo

/-- Emission of conversion macros in `Gen_MainHeader`, src/codegen/c-main-generator.cpp:150-192:
one per signal name, in message order.  The macro is identified by the signal it is printed
from. -/
def headerMacros : List Sig → List (Str × Sig) → List (Str × Sig)
  | [], acc => acc
  | s :: rest, acc =>
    if !s.isSimple && (acc.find? (fun p => p.1 == s.name)).isNone then headerMacros rest (acc ++ [(s.name, s)])
    else headerMacros rest acc

/-- All macros of a driver: messages in id order, empty frames skipped. -/
def driverMacros (msgs : List Msg) : List (Str × Sig) :=
  headerMacros ((msgs.filter (·.frameNotEmpty)).flatMap (·.signals)) []

/-! ### Execution -/

/-- Floating point operations of the target, left abstract: `sigfloat_t` is `φ`. -/
structure FloatOps (φ : Type) where
  /-- `x * factor + offset` -/
  fromS : Sig → Int → φ
  /-- `(T)((x - offset) / factor)`; undefined when out of range of `T` -/
  toS : Sig → φ → Option Int
  /-- conversion of an integer to floating point -/
  ofInt : Int → φ
  /-- conversion to an integer type; undefined out of range -/
  toInt : CTy → φ → Option Int

/-- `FrameMonitor_t`, src/codegen/c-main-generator.cpp:482-510. -/
structure Mon where
  lastCycle : Nat
  timeoutCycle : Nat
  frameCnt : Nat
  rollError : Nat
  csmError : Nat
  cycleError : Nat
  dlcError : Nat
  deriving DecidableEq, Repr

/-- Environment of a call. -/
structure Ctx (φ : Type) where
  cfg : Cfg
  /-- integer members of the message struct -/
  decls : List (Str × FDecl)
  /-- floating members -/
  floats : List Str
  /-- conversion macros in scope -/
  macros : List (Str × Sig)
  fl : FloatOps φ
  /-- `GetFrameHash(data, dlc, id, method, op)` -/
  hash : List Nat → Nat → Nat → Str → Nat → Nat
  /-- `GetSystemTick()` -/
  tick : Nat
  /-- parameter `dlc_` of Unpack -/
  dlcArg : Nat

/-- State of a call: message struct, payload buffer, outputs, log of monitor callbacks. -/
structure St (φ : Type) where
  fld : Str → Int
  flt : Str → φ
  mon : Mon
  dat : List Nat
  outId : Option Nat := none
  outDlc : Option Nat := none
  outIde : Option Nat := none
  retv : Option Nat := none
  calls : List (Str × Nat) := []

variable {φ : Type}

/-- Declaration lookup. -/
def Ctx.decl (c : Ctx φ) (n : Str) : Option FDecl := c.decls.lookup n

/-- Read of an integer member. -/
def Ctx.read (c : Ctx φ) (st : St φ) (n : Str) : Option CVal := (c.decl n).map fun d => ⟨d.ty, st.fld n⟩

/-- Update of a member. -/
def St.upd (st : St φ) (n : Str) (z : Int) : St φ :=
  { st with fld := fun x => if x = n then z else st.fld x }

/-- Assignment to an integer member; `none` when it is not declared (does not compile). -/
def Ctx.assign (c : Ctx φ) (st : St φ) (n : Str) (z : Int) : Option (St φ) :=
  (c.decl n).map fun d => st.upd n (d.store z)

/-- Environment for printed expressions. -/
def Ctx.env (c : Ctx φ) (st : St φ) : CEnv := ⟨st.dat, c.read st⟩

/-- `__ext_sig__`, src/codegen/c-main-generator.cpp:19-32, called with an argument of any integer
type and a bit count. -/
def extSig (ext64 : Bool) (v : CVal) (bits : Nat) : Option CVal :=
  let ut : CTy := if ext64 then .u64 else .u32
  let st : CTy := if ext64 then .i64 else .i32
  do
    let n ← (⟨.u8, (bits : Nat)⟩ : CVal).sub ⟨.u32, 1⟩
    let m0 ← (⟨.u32, 1⟩ : CVal).shl n.val.toNat
    let m := m0.cast ut
    let r ← ((v.cast ut).lxor m).sub m
    return r.cast st

/-- One statement.  `none`: undefined behaviour, or text that does not compile. -/
def exec (c : Ctx φ) (st : St φ) : CStmt → Option (St φ)
  | .setSig dst ty e =>
    match e with
    | .err => none
    | .expr e => do
      let v ← e.eval (c.env st)
      c.assign st dst (v.cast ty).val
  | .setSigExt dst ty e bits =>
    match e with
    | .err => none
    | .expr e => do
      let v ← e.eval (c.env st)
      let x ← extSig c.cfg.ext64 v bits
      c.assign st dst (x.cast ty).val
  | .fromSFloat dst mac => do
    let v ← c.read st mac
    let s ← c.macros.lookup mac
    if dst ∈ c.floats then
      if s.isDouble then
        return { st with flt := fun x => if x = dst then c.fl.fromS s v.val else st.flt x }
      else do
        let y ← macroFromS s v
        return { st with flt := fun x => if x = dst then c.fl.ofInt y.val else st.flt x }
    else none
  | .fromSInt dst ty mac => do
    let v ← c.read st mac
    let s ← c.macros.lookup mac
    if s.isDouble then do
      let z ← c.fl.toInt ty (c.fl.fromS s v.val)
      c.assign st dst z
    else do
      let y ← macroFromS s v
      c.assign st dst (y.cast ty).val
  | .toS dst ty src => do
    let s ← c.macros.lookup dst
    match c.read st src with
    | some v =>
      if s.isDouble then do
        let z ← c.fl.toS s (c.fl.ofInt v.val)
        c.assign st dst (ty.conv z)
      else do
        let y ← macroToS s v
        c.assign st dst (y.cast ty).val
    | none =>
      if src ∈ c.floats then do
        let z ← c.fl.toS s (st.flt src)
        c.assign st dst (ty.conv z)
      else none
  | .monDlc dlc => some { st with mon := { st.mon with dlcError := if c.dlcArg < dlc then 1 else 0 } }
  | .monTick => some { st with mon := { st.mon with lastCycle := c.tick % 2 ^ 32 } }
  | .monCnt => some { st with mon := { st.mon with frameCnt := (st.mon.frameCnt + 1) % 2 ^ 32 } }
  | .monRoll n => do
    let a ← c.read st n
    let b ← c.read st (exptName n)
    return { st with mon := { st.mon with rollError := if a.val = b.val then 0 else 1 } }
  | .incr dst src mask => do
    let v ← c.read st src
    let w ← v.add ⟨.i32, 1⟩
    c.assign st dst (w.land ⟨.u32, (mask : Nat)⟩).val
  | .monCsm dlc id method op n => do
    let v ← c.read st n
    return { st with mon := { st.mon with
      csmError := if ((c.hash st.dat dlc id method op % 256 : Nat) : Int) = v.val then 0 else 1 } }
  | .fmon name id => some { st with calls := st.calls ++ [(name, id)] }
  | .initLoop dlc =>
    let n := if dlc ≤ c.cfg.maxDlc then dlc else c.cfg.maxDlc
    if n ≤ st.dat.length then
      some { st with dat := List.replicate n c.cfg.initByte ++ st.dat.drop n }
    else none
  | .clear n ty => c.assign st n (ty.conv 0)
  | .orByte i e =>
    match e with
    | .empty => none
    | .err => none
    | .expr e => do
      let v ← e.eval (c.env st)
      let old ← st.dat[i]?
      let r := (⟨.u8, (old : Nat)⟩ : CVal).lor (v.cast .u8)
      return { st with dat := st.dat.set i (CTy.toU .u8 r.val) }
  | .setCsm n dlc id method op => c.assign st n ((c.hash st.dat dlc id method op % 256 : Nat) : Int)
  | .outId id => some { st with outId := some (id % 2 ^ 32) }
  | .outDlc dlc => some { st with outDlc := some (dlc % 256) }
  | .outIde ide => some { st with outIde := some (ide % 256) }
  | .ret id => some { st with retv := some id }

/-- A statement list. -/
def execAll (c : Ctx φ) : St φ → List CStmt → Option (St φ)
  | st, [] => some st
  | st, s :: rest =>
    match exec c st s with
    | none => none
    | some st => execAll c st rest

/-- The context of the functions generated for message `m` of a driver with messages `msgs`. -/
def mkCtx (cfg : Cfg) (msgs : List Msg) (m : Msg) (fl : FloatOps φ)
    (hash : List Nat → Nat → Nat → Str → Nat → Nat) (tick dlcArg : Nat) : Ctx φ :=
  { cfg, decls := structDecls cfg m, floats := floatDecls cfg m, macros := driverMacros msgs,
    fl, hash, tick, dlcArg }

/-- Outcome of calling a generated function on a struct and a payload buffer. -/
inductive CallRes (φ : Type) where
  /-- the generator ran into undefined behaviour while producing the code -/
  | genUB
  /-- the generated code does not compile, or has undefined behaviour on this input -/
  | bad
  | ok (st : St φ)

/-- Names of all members of the struct are different (C requires it). -/
def Ctx.declsOk (c : Ctx φ) : Bool := decide (c.decls.map (·.1) ++ c.floats).Nodup

/-- Compile and run a body. -/
def runBody (c : Ctx φ) (lines : List GLine) (st : St φ) : CallRes φ :=
  if c.declsOk then
    match execAll c st (preprocess c.cfg.flag [] lines) with
    | none => .bad
    | some st => .ok st
  else .bad

/-- `Unpack_<msg>_<drv>(_m, _d, dlc_)`, src/codegen/c-main-generator.cpp:395-407. -/
def runUnpack (c : Ctx φ) (m : Msg) (st : St φ) : CallRes φ :=
  match buildExprs m with
  | .oob => .genUB
  | .ok sx _ =>
    match writeUnpackBody m sx with
    | none => .genUB
    | some lines => runBody c lines st

/-- `Pack_<msg>_<drv>`, src/codegen/c-main-generator.cpp:409-430: the struct or the array variant,
selected by `USE_CANSTRUCT`. -/
def runPack (c : Ctx φ) (m : Msg) (st : St φ) : CallRes φ :=
  match buildExprs m with
  | .oob => .genUB
  | .ok _ tb =>
    match (if c.cfg.flag .useCanStruct then writePackStructBody m tb else writePackArrayBody m tb) with
    | none => .genUB
    | some lines => runBody c lines st

end Verif
