import Verif.Props.Directory
import Verif.Props.EndToEnd
/-
C73: the struct of the frame declared by the user, and the array `Data` in it.
-/
namespace Verif
open Spec

variable {φ : Type} {drv : Str} {file : Source} {hi lo maxDlc : Nat} {msgs : List Msg} {D0 : Defs} {on : List Str} {fl : ConfEdit} {tick hash : Hook} {maxW initW : Str}

/-- The compiled unit declares `__CoderDbcCanFrame_t__` with an array `Data` of `n` bytes. -/
def Spec.FrameData (is : List Spec.Item) (n : Nat) : Prop :=
  ∃ fs, Spec.Item.struct "__CoderDbcCanFrame_t__".toList fs ∈ is ∧ ("Data".toList, MTy.arr .u8 n) ∈ fs ∧
    ("MsgId".toList, MTy.int .u32 none) ∈ fs ∧ ("DLC".toList, MTy.int .u8 none) ∈ fs ∧ ("IDE".toList, MTy.int .u8 none) ∈ fs

/-- State before a call of Pack with a frame whose array has `n` bytes: the members of struct and monitor
hold values of their types, the array holds bytes, nothing has been written or called. -/
structure Spec.StartAt (flag : Flag → Bool) (m : Msg) (n : Nat) (cst : CSt φ) : Prop where
  fld : ∀ x t w, (x, MTy.int t w) ∈ structMembers flag m → t.conv (cst.fld x) = cst.fld x
  mon : ∀ d ∈ monMembers, 0 ≤ cst.mon d.1
  dat : IsPayload cst.dat
  len : cst.dat.length = n
  out : cst.out = fun _ => none
  calls : cst.calls = []

theorem startAt_obs {flag : Flag → Bool} {m : Msg} {n : Nat} {cst : CSt φ} (h : StartAt flag m n cst) (K : Look) (N : OutNames) : Obs K N (startSt cst) cst :=
  start_obs (flag := fun _ => false) (m := { m with dlc := 0, signals := [], rollSig := none, csmSig := none })
    ⟨fun x t w q => (nomatch q), h.mon, h.dat, Nat.zero_le _, h.out, h.calls⟩ K N

/-- The names under which the interpreter keeps what Pack passes out, with the struct of the frame. -/
def frameNames : OutNames := ⟨"DLC".toList, "IDE".toList, by decide, by decide, by decide⟩

/-- Pack is undefined on a buffer shorter than the validated length of the message. -/
theorem runPack_short {c : Ctx φ} {m : Msg} (hm : MsgOk m) {st st' : St φ} (h : runPack c m st = .ok st') : min m.dlc c.cfg.maxDlc ≤ st.dat.length := by
  obtain ⟨-, -, -, stA, -, -, -, hA, -⟩ := runPack_parts hm h
  rw [Nat.min_def]
  simp only [exec, Option.ite_none_right_eq_some] at hA
  exact hA.1

/-- **C73**.  With `<DRV>_USE_CANSTRUCT` switched on and `__CoderDbcCanFrame_t__` declared in
`dbccodeconf.h` as `<drv>-config.h` tells the user to - the array `Data` with `n` bytes - the generated
directory compiles, and for every message whose layout is in its payload: a call of `Pack_M` with a frame is
defined whenever the message has at most `n` bytes, fills in `MsgId`, `DLC`, `IDE` and exactly the bits of the
members in `Data`; and whenever the validated length of the message (`VALIDATE_DLC`) is larger than `n` every
call has undefined behaviour: it writes behind the array. -/
theorem C73_frame_partial (h : DirDriver drv file hi lo maxDlc msgs D0 on fl tick hash maxW initW) (maxV initV n : Nat) (hn : fl.data = some n) :
    let g := driverDesc drv file hi lo
    let cfg := cfgOf g (userTable g D0 on) false maxV initV
    let K := lookOf g (userTable g D0 on) msgs tick hash maxW initW
    cfg.flag .useCanStruct = true →
    ∃ hops sops, mainHeaderOps g maxDlc msgs = some hops ∧ mainSourceOps g msgs = some sops ∧
      ∀ dir, DirOk dir g on fl hops msgs → dir.lookup (srcFile g) = some (opsText sops) →
      ∃ is, (∃ F, ∀ f, F ≤ f → compileTree f dir D0 (srcFile g) = some is) ∧ FrameData is n ∧
      ∀ (T : Target φ) (hashF : List Nat → Nat → Nat → Str → Nat → Nat) (now : Nat),
        TargetOk g msgs ((userTable g D0 on).lookup (monoName g)).isSome cfg K T hashF now →
        ∀ m ∈ msgs, m.frameNotEmpty = true → MsgGood cfg m → ∀ (cst : CSt φ), StartAt cfg.flag m n cst → ∀ f, 256 ≤ f →
          (m.dlc ≤ n → (∀ r, m.sigAt m.rollSig = some r → InSigRange r.signed r.lengthBit (cst.fld r.name)) →
            ∃ r, callUnit f T is (packName g m) [.p .msg, .p .frame] cst = some r ∧ PackDone cfg m frameNames cst r ∧
              r.1.out "MsgId".toList = some ((m.msgId % 2 ^ 32 : Nat) : Int) ∧ r.1.out "DLC".toList = some (m.dlc : Int) ∧
              r.1.out "IDE".toList = some (if m.isExt then 1 else 0)) ∧
          (n < min m.dlc maxV → callUnit f T is (packName g m) [.p .msg, .p .frame] cst = none) := by
  intro g cfg K hfr
  obtain ⟨hops, sops, ho, hs, hall⟩ := C61_model_partial (φ := φ) h maxV initV
  refine ⟨hops, sops, ho, hs, fun dir hd hsrc => ?_⟩
  obtain ⟨is, ⟨F, hF⟩, -, -, hrun⟩ := hall dir hd hsrc
  have hn2 : (definedNames g msgs).Nodup := (List.nodup_append.1 h.names).2.1
  have hD : DriverOk drv file hi lo maxDlc msgs (userTable g D0 on) tick hash maxW initW := ⟨h.rd, hn2⟩
  have hN : NamesOk g := driver_names h.confName h.rd.headers.2
  have hsw : SwitchOk g := driver_switches h.rd.drvId
  have hU := h.rd.unit hops false maxV initV
  obtain ⟨sops', ls, b1, b2, b3, b4⟩ := dir_compile_iff hd hN hsw hU h.words h.fresh ho
  cases hs.symm.trans b1
  obtain ⟨F', hF'⟩ := b4 hsrc
  refine ⟨is, ⟨F, hF⟩, ?_, fun T hashF now hT m hm hne hg cst hst f hf => ?_⟩
  · have e := (hF (max F F') (Nat.le_max_left _ _)).symm.trans (hF' (max F F') (Nat.le_max_right _ _))
    split at e
    · cases e
      refine ⟨frameMembers n, List.mem_append_left _ (List.mem_append_left _ ?_), ?_, ?_, ?_, ?_⟩
      · unfold codeConfItems frameItems
        rw [hn]
        exact List.mem_append_right _ List.mem_cons_self
      all_goals unfold frameMembers; simp only [List.mem_cons, true_or, or_true]
    · cases e
  have hpa : packArgs (φ := φ) (cfg.flag .useCanStruct) frameNames = [.p .msg, .p .frame] := by rw [hfr]; rfl
  have hR : RunsModel φ g msgs ((userTable g D0 on).lookup (monoName g)).isSome cfg K is :=
    fun T hashF now hT m hm hne dlcArg v h1 h2 N h3 st cst h4 h5 f hf => hrun T hashF now hT m hm hne dlcArg v h1 h2 N st cst h3 h4 h5 f hf
  constructor
  · intro hle hroll
    have hs' : Start cfg.flag m cst := ⟨hst.fld, hst.mon, hst.dat, hst.len.symm ▸ hle, hst.out, hst.calls⟩
    obtain ⟨r, q1, q2⟩ := (runs_done hD rfl hR T hashF now hT m hm hne hg cst hs' f hf).2 frameNames (fun _ => ⟨rfl, rfl⟩) hroll
    rw [hpa] at q1
    have q3 := q2
    obtain ⟨-, -, -, -, -, ⟨o1, o2, o3⟩, -⟩ := q3
    exact ⟨r, q1, q2, o3 hfr, o1, o2⟩
  · intro hlt
    have q := (hrun T hashF now hT m hm hne 0 ⟨.u8, 0⟩ (by decide) rfl frameNames (startSt cst) cst (fun _ => ⟨rfl, rfl⟩) (startAt_obs hst K frameNames)
      (fun x d hx => hst.fld x d.ty d.width (decls_mem hx)) f hf).2
    rw [hpa] at q
    cases hr : runPack (mkCtx cfg msgs m (fltOps T.F) hashF now 0) m (startSt cst) with
    | ok st' =>
      have := runPack_short hg.layout hr
      have e : (startSt cst).dat.length = n := hst.len
      have e2 : (mkCtx cfg msgs m (fltOps T.F) hashF now 0).cfg.maxDlc = maxV := rfl
      omega
    | genUB =>
      rw [hr] at q
      exact q.elim
    | bad =>
      rw [hr] at q
      cases hc : callUnit f T is (packName g m) [.p .msg, .p .frame] cst with
      | none => rfl
      | some r => rw [hc] at q; exact q.elim

/-! Examples: the struct as documented (`u8 Data[8]`), with a message of 2 bytes and with one of 12 (CAN FD). -/

namespace Fix

/-- The messages of the example without roll counter and checksum. -/
def shortMsgs : List Msg := [msgT, msgE]

/-- The message of the example with a payload of 12 bytes. -/
def msgW : Msg := { msgT with dlc := 12 }

def wideMsgs : List Msg := [msgW, msgE]

theorem dirShort : DirDriver "drv".toList "my.dbc".toList 1 2 2 shortMsgs [] ["DRV_USE_CANSTRUCT".toList] .frame8 .zero .zero "2U".toList "0U".toList where
  rd := readB_sound (by decide +kernel)
  confName := by decide +kernel
  words := by decide +kernel
  fresh := by decide +kernel
  names := by decide +kernel
  protos := by decide +kernel
  frame := by decide +kernel
  float := .inr (by decide +kernel)

theorem dirWide : DirDriver "drv".toList "my.dbc".toList 1 2 12 wideMsgs [] ["DRV_USE_CANSTRUCT".toList] .frame8 .zero .zero "12U".toList "0U".toList where
  rd := readB_sound (by decide +kernel)
  confName := by decide +kernel
  words := by decide +kernel
  fresh := by decide +kernel
  names := by decide +kernel
  protos := by decide +kernel
  frame := by decide +kernel
  float := .inr (by decide +kernel)

def frameTarget : Target Unit := { target with ext64 := false }

def frameTable : Defs := userTable drvG [] ["DRV_USE_CANSTRUCT".toList]
def frameCfg (maxV : Nat) : Cfg := cfgOf drvG frameTable false maxV 0
def frameLook (msgs : List Msg) (maxW : Str) : Look := lookOf drvG frameTable msgs .zero .zero maxW "0U".toList

theorem frameFlag (maxV : Nat) : (frameCfg maxV).flag .useCanStruct = true := by
  show (frameTable.lookup (flagName drvG .useCanStruct)).isSome = true
  decide +kernel

theorem frameOff (maxV : Nat) (f : Flag) (h : f ≠ .useCanStruct) : (frameCfg maxV).flag f = false := by
  show (frameTable.lookup (flagName drvG f)).isSome = false
  cases f <;> first | exact absurd rfl h | decide +kernel

theorem frameTargetOk (msgs : List Msg) (maxW : Str) (maxV : Nat) (mono : Bool) (h : maxW.contains '.' = false ∧ ∃ v, litOf maxW = some v ∧ v.val = (maxV : Nat) ∧ maxV < 2 ^ 31) :
    TargetOk drvG msgs mono (frameCfg maxV) (frameLook msgs maxW) frameTarget (fun _ _ _ _ _ => 0) 0 := by
  refine ⟨rfl, rfl, fun q => ?_, fun q => ?_, h, ⟨show "0U".toList.contains '.' = false by decide, ⟨.u32, 0⟩, show litOf "0U".toList = _ by decide, rfl⟩⟩
  · rw [frameOff maxV .autoCsm (by decide)] at q
    cases q
  · rw [frameOff maxV .useMon (by decide)] at q
    cases q

theorem msgTgood (dlc maxV : Nat) (h : 2 ≤ dlc ∧ dlc ≤ 64) : MsgGood (frameCfg maxV) { msgT with dlc := dlc } := by
  refine ⟨⟨h.2, ?_⟩, ?_, ?_, fun s hs => (by cases hs), Or.inl (frameOff maxV .useSigFloat (by decide)), show 0 < 256 by decide⟩
  · intro s hs
    cases List.mem_singleton.1 hs
    refine ⟨by decide, by decide, fun k hk => ?_⟩
    have : sigT.pos k < 8 * 2 := (show ∀ k, k < sigT.lengthBit → sigT.pos k < 8 * 2 from fits_of_all (by decide)) k hk
    show sigT.pos k < 8 * dlc
    omega
  · intro s hs
    cases List.mem_singleton.1 hs
    exact ⟨by decide, by decide⟩
  · intro s hs
    cases List.mem_singleton.1 hs
    decide

theorem frameStart (m : Msg) (maxV : Nat) : StartAt (frameCfg maxV).flag m 8 cst0 := by
  refine ⟨fun n t w _ => ?_, fun _ _ => Int.le_refl _, ?_, by decide, rfl, rfl⟩
  · cases t <;> rfl
  · intro b hb
    revert b
    decide

end Fix

/-- A frame of the documented struct packed by the compiled directory: the first 10 bits of `Data` hold `Temp` = 3. -/
example : ∃ hops sops, mainHeaderOps Fix.drvG 2 Fix.shortMsgs = some hops ∧ mainSourceOps Fix.drvG Fix.shortMsgs = some sops ∧
    ∀ dir, DirOk dir Fix.drvG ["DRV_USE_CANSTRUCT".toList] .frame8 hops Fix.shortMsgs → dir.lookup (srcFile Fix.drvG) = some (opsText sops) →
    ∃ is, FrameData is 8 ∧ ∃ r, callUnit 256 Fix.frameTarget is "Pack_TMP_drv".toList [.p .msg, .p .frame] Fix.cst0 = some r ∧
      r.1.out "MsgId".toList = some 0x1ABCD ∧ r.1.out "DLC".toList = some 2 ∧ r.1.out "IDE".toList = some 1 ∧ r.1.dat.length = 8 := by
  obtain ⟨hops, sops, h1, h2, h3⟩ := C73_frame_partial (φ := Unit) Fix.dirShort 2 0 8 rfl (Fix.frameFlag 2)
  refine ⟨hops, sops, h1, h2, fun dir hd hs => ?_⟩
  obtain ⟨is, -, h4, h5⟩ := h3 dir hd hs
  obtain ⟨r, q1, q2, q3, q4, q5⟩ := (h5 Fix.frameTarget (fun _ _ _ _ _ => 0) 0 (Fix.frameTargetOk _ _ 2 _ ⟨by decide, ⟨.u32, 2⟩, by decide, rfl, by decide⟩) Fix.msgT List.mem_cons_self rfl
    (Fix.msgTgood 2 2 (by decide)) Fix.cst0 (Fix.frameStart _ 2) 256 (Nat.le_refl _)).1 (by decide) (fun r hr => (by cases hr))
  exact ⟨is, h4, r, q1, q3, q4, q5, q2.2.2.2.1⟩

/-- **C73** is false for the struct as documented in `<drv>-config.h` (`u8 Data[8]`) and a message of more than 8
bytes: for the message of 12 bytes the directory compiles with `Data[8]`, and the call of `Pack_TMP_drv`
writes behind the array. -/
theorem C73_data8_refuted : ∃ hops sops, mainHeaderOps Fix.drvG 12 Fix.wideMsgs = some hops ∧ mainSourceOps Fix.drvG Fix.wideMsgs = some sops ∧
    ∀ dir, DirOk dir Fix.drvG ["DRV_USE_CANSTRUCT".toList] .frame8 hops Fix.wideMsgs → dir.lookup (srcFile Fix.drvG) = some (opsText sops) →
    ∃ is, (∃ F, ∀ f, F ≤ f → compileTree f dir [] (srcFile Fix.drvG) = some is) ∧ FrameData is 8 ∧
      ∀ cst : CSt Unit, StartAt (Fix.frameCfg 12).flag Fix.msgW 8 cst → ∀ f, 256 ≤ f →
        callUnit f Fix.frameTarget is "Pack_TMP_drv".toList [.p .msg, .p .frame] cst = none := by
  obtain ⟨hops, sops, h1, h2, h3⟩ := C73_frame_partial (φ := Unit) Fix.dirWide 12 0 8 rfl (Fix.frameFlag 12)
  refine ⟨hops, sops, h1, h2, fun dir hd hs => ?_⟩
  obtain ⟨is, hc, h4, h5⟩ := h3 dir hd hs
  exact ⟨is, hc, h4, fun cst hst f hf => (h5 Fix.frameTarget (fun _ _ _ _ _ => 0) 0
    (Fix.frameTargetOk _ _ 12 _ ⟨by decide, ⟨.u32, 12⟩, by decide, rfl, by decide⟩) Fix.msgW List.mem_cons_self rfl
    (Fix.msgTgood 12 12 (by decide)) cst hst f hf).2 (by decide)⟩

end Verif
