import Verif.Proofs.DriverCheck
import Verif.Props.Fixtures
/-
C54: the text of the generated files, read as C.
-/
namespace Verif
open Spec

variable {φ : Type} {drv : Str} {file : Source} {hi lo maxDlc : Nat} {msgs : List Msg} {D0 : Defs} {tick hash : Hook} {maxW initW : Str}

/-- **C54**.  The literal text of `<drv>.c` with `<drv>.h` and `<drv>-fmon.h`, put through the C
preprocessor with any set `D0` of user macros and then through the C parser, is a translation unit; and a
call of `Unpack_M` or `Pack_M` of that unit (any message that is not empty, any state, any target) does
exactly what the model of the functions (`runUnpack`, `runPack`) does: same members, payload, monitor,
outputs, monitor calls and return value, or undefined behaviour in both.  The configuration of the model is
read off `D0`. -/
theorem C54_model_partial (h : DriverOk drv file hi lo maxDlc msgs D0 tick hash maxW initW) (ext64 : Bool) (maxV initV : Nat) :
    let g := driverDesc drv file hi lo
    let cfg := cfgOf g D0 ext64 maxV initV
    let K := lookOf g D0 msgs tick hash maxW initW
    ∃ hops sops is, mainHeaderOps g maxDlc msgs = some hops ∧ mainSourceOps g msgs = some sops ∧
      (∃ F, ∀ f, F ≤ f → compile f (genFiles g hops msgs) D0 (opsText sops) = some is) ∧
      ∀ (T : Target φ) (hashF : List Nat → Nat → Nat → Str → Nat → Nat) (now : Nat),
        TargetOk g msgs (D0.lookup (monoName g)).isSome cfg K T hashF now →
        ∀ m ∈ msgs, m.frameNotEmpty = true → ∀ (dlcArg : Nat) (v : CVal), dlcArg < 256 → CTy.u8.conv v.val = (dlcArg : Nat) →
        ∀ (N : OutNames), (cfg.flag .useCanStruct = true → N.len = "DLC".toList ∧ N.ide = "IDE".toList) →
        ∀ (st : St φ) (cst : CSt φ), Obs K N st cst → Typed (mkCtx cfg msgs m (fltOps T.F) hashF now dlcArg) st → ∀ f, 256 ≤ f →
          Same K N m.msgId (runUnpack (mkCtx cfg msgs m (fltOps T.F) hashF now dlcArg) m st) (callUnit f T is (unpackName g m) (unpackArgs v) cst) ∧
          Same K N m.msgId (runPack (mkCtx cfg msgs m (fltOps T.F) hashF now dlcArg) m st)
            (callUnit f T is (packName g m) (packArgs (cfg.flag .useCanStruct) N) cst) := by
  intro g cfg K
  obtain ⟨hops, ho⟩ := h.toDriverRd.header
  have hU := h.unit hops ext64 maxV initV
  obtain ⟨sops, ls, h1, h2, h3, h4⟩ := unit_compile hU ho (files_ok _ _ _)
  exact ⟨hops, sops, _, ho, h1, h4, fun T hashF now hT m hm hne dlcArg v hd hv N hN st cst hob ht f hf =>
    unit_call hU h2 h3 hT (fun m hm hne => (h.frame m hm hne).call) hd hm hne hf hN hob ht hv⟩

/-- **C54**, exactly: files that can be read compile if and only if no two of the struct types and functions
have the same name. -/
theorem C54_compiles_partial (h : DriverRd drv file hi lo maxDlc msgs D0 tick hash maxW initW) :
    let g := driverDesc drv file hi lo
    ∃ hops sops F, mainHeaderOps g maxDlc msgs = some hops ∧ mainSourceOps g msgs = some sops ∧
      ∀ f, F ≤ f → ((compile f (genFiles g hops msgs) D0 (opsText sops)).isSome = true ↔ (definedNames g msgs).Nodup) := by
  intro g
  obtain ⟨hops, ho⟩ := h.header
  obtain ⟨sops, ls, h1, -, -, F, h4⟩ := unit_compile_iff (h.unit hops false 0 0) ho (files_ok _ _ _)
  refine ⟨hops, sops, F, ho, h1, fun f hf => ?_⟩
  rw [h4 f hf]
  split
  · rename_i q
    exact ⟨fun _ => q, fun _ => rfl⟩
  · rename_i q
    exact ⟨fun x => absurd x Bool.false_ne_true, fun x => absurd x q⟩

/-! Example: rolling counter, checksum, signed Motorola signal, scaled signal with value names, empty
message; every macro of the user defined. -/

namespace Fix

def sigT : Sig :=
  { name := "Temp".toList, nameFloat := "Temp_phys".toList, startBit := 0, lengthBit := 10, order := .intel, signed := false, typeRo := .u16,
    typePhys := .i16, isSimple := false, factor := ⟨2, 0⟩, offset := ⟨-40, 0⟩, unit := "degC".toList, valDefs := { vpairs := [("ERR".toList, 1023)] } }

def msgT : Msg :=
  { name := "TMP".toList, dlc := 2, msgId := 0x1ABCD, isExt := true, cycle := 100, signals := [sigT], frameNotEmpty := true, commentText := "two\nlines".toList }

def msgE : Msg := { name := "NONE".toList, dlc := 0, msgId := 1, signals := [], frameNotEmpty := false }

def phys (s : Sig) : Sig := { s with nameFloat := s.name ++ "_phys".toList }

def msgA : Msg := { msg with signals := [phys sigR, phys sigA, phys sigB, phys sigC] }

def drvMsgs : List Msg := [msgA, msgT, msgE]

def call5 (f : String) : MDef := .fn hashParams (hashToks (.call f.toList) (hashParams.map fun p => [.word p]))

/-- Every macro defined. -/
def userMax : Defs :=
  (["DRV_USE_BITS_SIGNAL", "DRV_USE_CANSTRUCT", "DRV_USE_SIGFLOAT", "DRV_USE_DIAG_MONITORS", "DRV_AUTO_ROLL", "DRV_AUTO_CSM"].map fun s => (s.toList, MDef.obj [])) ++
  [("GetFrameHash".toList, call5 "GetHash"), ("GetSystemTick".toList, .fn [] (tickBody (.call "GetTick".toList)))]

theorem drvMax : DriverOk "drv".toList "my.dbc".toList 1 2 8 drvMsgs userMax (.call "GetTick".toList) (.call "GetHash".toList) "8U".toList "0U".toList :=
  driverB_sound (by decide +kernel)

/-- No macro defined. -/
theorem drvMin : DriverOk "drv".toList "my.dbc".toList 1 2 8 drvMsgs [] .zero .zero "8U".toList "0U".toList :=
  driverB_sound (by decide +kernel)

/-- Messages `A` and `Unpack_A`. -/
def clashMsgs : List Msg := [{ msgT with name := "A".toList }, { msgT with name := "Unpack_A".toList, msgId := 5, signals := [{ sigT with name := "B".toList, nameFloat := "B_phys".toList }] }]

theorem clashRd : DriverRd "t".toList "my.dbc".toList 1 2 8 clashMsgs [] .zero .zero "8U".toList "0U".toList :=
  readB_sound (by decide +kernel)

end Fix

/-- **C54** is false in general: with a driver named `t` and messages `A` and `Unpack_A` (every condition on
texts and macros is met) the struct type of the second is called like a function of the first, and the
generated files do not compile. -/
theorem C54_refuted : ∃ hops sops F, mainHeaderOps (driverDesc "t".toList "my.dbc".toList 1 2) 8 Fix.clashMsgs = some hops ∧
    mainSourceOps (driverDesc "t".toList "my.dbc".toList 1 2) Fix.clashMsgs = some sops ∧
    ∀ f, F ≤ f → compile f (genFiles (driverDesc "t".toList "my.dbc".toList 1 2) hops Fix.clashMsgs) [] (opsText sops) = none := by
  obtain ⟨hops, sops, F, h1, h2, h3⟩ := C54_compiles_partial Fix.clashRd
  refine ⟨hops, sops, F, h1, h2, fun f hf => ?_⟩
  have hn : ¬ (definedNames (driverDesc "t".toList "my.dbc".toList 1 2) Fix.clashMsgs).Nodup := by decide +kernel
  have := mt (h3 f hf).1 hn
  simpa using this

end Verif
