import Verif.Proofs.DirDriver
import Verif.Props.Unit
/-
C61: the complete generated directory.
-/
namespace Verif
open Spec

variable {φ : Type} {drv : Str} {file : Source} {hi lo maxDlc : Nat} {msgs : List Msg} {D0 : Defs} {on : List Str} {fl : ConfEdit} {tick hash : Hook} {maxW initW : Str}

/-- **C61**.  The files the generator writes are complete: in a directory with the literal texts of `<drv>.c`,
`<drv>.h`, `<drv>-config.h`, `<drv>-fmon.h`, `dbccodeconf.h` and `canmonitorutil.h` (and an empty `stdint.h`: its types
are known) the source file compiles - every `#include` finds a file, every type is declared before it is used,
nothing is defined twice, declarations agree - for any set `on` of switches the user switches on in `<drv>-config.h` and any further macros
`D0`; and a call of `Unpack_M` or `Pack_M` of this unit does exactly what the model of the functions does. -/
theorem C61_model_partial (h : DirDriver drv file hi lo maxDlc msgs D0 on fl tick hash maxW initW) (maxV initV : Nat) :
    let g := driverDesc drv file hi lo
    let cfg := cfgOf g (userTable g D0 on) false maxV initV
    let K := lookOf g (userTable g D0 on) msgs tick hash maxW initW
    ∃ hops sops, mainHeaderOps g maxDlc msgs = some hops ∧ mainSourceOps g msgs = some sops ∧
      ∀ dir, DirOk dir g on fl hops msgs → dir.lookup (srcFile g) = some (opsText sops) →
      ∃ is, (∃ F, ∀ f, F ≤ f → compileTree f dir D0 (srcFile g) = some is) ∧
      .alias "ubitext_t".toList "uint32_t".toList ∈ is ∧ .alias "bitext_t".toList "int32_t".toList ∈ is ∧
      ∀ (T : Target φ) (hashF : List Nat → Nat → Nat → Str → Nat → Nat) (now : Nat),
        TargetOk g msgs ((userTable g D0 on).lookup (monoName g)).isSome cfg K T hashF now →
        ∀ m ∈ msgs, m.frameNotEmpty = true → ∀ (dlcArg : Nat) (v : CVal), dlcArg < 256 → CTy.u8.conv v.val = (dlcArg : Nat) →
        ∀ (N : OutNames) (st : St φ) (cst : CSt φ), (cfg.flag .useCanStruct = true → N.len = "DLC".toList ∧ N.ide = "IDE".toList) → Obs K N st cst → Typed (mkCtx cfg msgs m (fltOps T.F) hashF now dlcArg) st → ∀ f, 256 ≤ f →
          Same K N m.msgId (runUnpack (mkCtx cfg msgs m (fltOps T.F) hashF now dlcArg) m st) (callUnit f T is (unpackName g m) (unpackArgs v) cst) ∧
          Same K N m.msgId (runPack (mkCtx cfg msgs m (fltOps T.F) hashF now dlcArg) m st) (callUnit f T is (packName g m) (packArgs (cfg.flag .useCanStruct) N) cst) := by
  intro g cfg K
  obtain ⟨hops, ho⟩ := h.rd.header
  have hn2 : (definedNames g msgs).Nodup := (List.nodup_append.1 h.names).2.1
  have hD : DriverOk drv file hi lo maxDlc msgs (userTable g D0 on) tick hash maxW initW := ⟨h.rd, hn2⟩
  have hU := hD.unit hops false maxV initV
  have hN : NamesOk g := driver_names h.confName h.rd.headers.2
  have hsw : SwitchOk g := driver_switches h.rd.drvId
  obtain ⟨sops, -, a1, -⟩ := unit_compile hU ho (files_ok _ _ _)
  refine ⟨hops, sops, ho, a1, fun dir hd hs => ?_⟩
  obtain ⟨sops', ls, b1, b2, b3, b4⟩ := dir_compile_iff hd hN hsw hU.toUnitRd h.words h.fresh ho
  cases a1.symm.trans b1
  obtain ⟨F, hF⟩ := b4 hs
  have hty := unit_types (fl := fl) (mono := ((userTable g D0 on).lookup (monoName g)).isSome) b3 rfl b2 h.frame h.float
  have hag := unit_agree (fl := fl) (mono := ((userTable g D0 on).lookup (monoName g)).isSome) b3 b2 rfl h.names h.protos
  refine ⟨_, ⟨F, fun f hf => (hF f hf).trans (if_pos ⟨h.names, hty, hag⟩)⟩, ?_, ?_, ?_⟩
  · refine List.mem_append_left _ (List.mem_append_left _ ?_)
    cases fl <;> decide
  · refine List.mem_append_left _ (List.mem_append_left _ ?_)
    cases fl <;> decide
  intro T hashF now hT m hm hne dlcArg v hd hv N st cst hNs hob ht f hf
  have hc := unit_call (f := f) hU b2 b3 hT (fun m hm hne => (hD.frame m hm hne).call) hd hm hne hf (N := N) hNs hob ht hv
  have hnd : ((unitItems g cfg.flag ((userTable g D0 on).lookup (monoName g)).isSome msgs ls).flatMap Item.defines).Nodup := by
    rw [unit_defines b2 b3]
    exact hn2
  obtain ⟨y, hy, hz⟩ := zip_mem b2 hm
  have hx := b3 _ hz
  unfold IsFuncs at hx
  rw [hne, if_pos rfl] at hx
  obtain ⟨xs, tb, u, p, -, -, -, h4⟩ := hx
  have h4 : y = _ := h4
  have mem : ∀ i ∈ y, i ∈ unitItems g cfg.flag ((userTable g D0 on).lookup (monoName g)).isSome msgs ls := fun i hi => List.mem_append_right _ (List.mem_flatten.2 ⟨y, hy, hi⟩)
  have q1 := funcOf_mem (fn := unpackFunc g m K (preprocess cfg.flag [] u)) hnd (mem _ (by rw [h4]; exact List.mem_cons_self))
  have q2 := funcOf_mem (fn := packFunc g m K (preprocess cfg.flag [] p)) hnd (mem _ (by rw [h4]; exact List.mem_cons_of_mem _ List.mem_cons_self))
  have q3 : typeName m ∉ (confItems fl (cfg.flag .useMon)).flatMap Item.defines := by
    intro q
    refine (List.nodup_append.1 h.names).2.2 _ q _ ?_ rfl
    rw [← unit_defines (mono := ((userTable g D0 on).lookup (monoName g)).isSome) b2 b3 cfg.flag]
    exact List.mem_flatMap.2 ⟨_, struct_mem hm hne, List.mem_singleton.2 rfl⟩
  have e2 : msgType (packFunc g m K (preprocess cfg.flag [] p)).params (packArgs (φ := φ) (cfg.flag .useCanStruct) N) = some (typeName m) := by
    have hk : K.frame = cfg.flag .useCanStruct := rfl
    show msgType (packParams K.frame m) _ = _
    rw [hk]
    cases cfg.flag .useCanStruct <;> rfl
  constructor
  · exact (congrArg (Same K N m.msgId _) (callUnit_pre (conf_noFuncs _ _) f T (unpackName g m) (unpackArgs v) cst q1 rfl q3)).mpr hc.1
  · exact (congrArg (Same K N m.msgId _) (callUnit_pre (conf_noFuncs _ _) f T (packName g m) (packArgs (cfg.flag .useCanStruct) N) cst q2 e2 q3)).mpr hc.2

/-! Examples. -/

namespace Fix

/-- Nothing switched on. -/
theorem dirMin : DirDriver "drv".toList "my.dbc".toList 1 2 8 drvMsgs [] [] .none .zero .zero "8U".toList "0U".toList where
  rd := readB_sound (by decide +kernel)
  confName := by decide +kernel
  words := by decide +kernel
  fresh := by decide +kernel
  names := by decide +kernel
  protos := by decide +kernel
  frame := by decide +kernel
  float := .inr (by decide +kernel)

/-- The user's macros. -/
def userHooks : Defs := [("GetFrameHash".toList, call5 "GetHash"), ("GetSystemTick".toList, .fn [] (tickBody (.call "GetTick".toList)))]

/-- The switches of the configuration header, apart from the struct of the frame. -/
def allOn : List Str := ["DRV_USE_BITS_SIGNAL", "DRV_USE_SIGFLOAT", "DRV_USE_DIAG_MONITORS", "DRV_AUTO_ROLL", "DRV_AUTO_CSM"].map String.toList

theorem dirMax : DirDriver "drv".toList "my.dbc".toList 1 2 8 drvMsgs userHooks allOn .float (.call "GetTick".toList) (.call "GetHash".toList) "8U".toList "0U".toList where
  rd := readB_sound (by decide +kernel)
  confName := by decide +kernel
  words := by decide +kernel
  fresh := by decide +kernel
  names := by decide +kernel
  protos := by decide +kernel
  frame := by decide +kernel
  float := .inl rfl

/-- The struct of the frame switched on. -/
theorem dirFrame : DirRd "drv".toList "my.dbc".toList 1 2 8 drvMsgs [] ["DRV_USE_CANSTRUCT".toList] .zero .zero "8U".toList "0U".toList where
  rd := readB_sound (by decide +kernel)
  confName := by decide +kernel
  words := by decide +kernel
  fresh := by decide +kernel

/-- A message with a signal scaled by 0.5. -/
def fltMsgs : List Msg := [{ msgT with signals := [{ sigT with factor := ⟨5, 1⟩, isDouble := true }] }, msgE]

/-- Physical values switched on. -/
theorem dirFloat : DirRd "drv".toList "my.dbc".toList 1 2 8 fltMsgs [] ["DRV_USE_SIGFLOAT".toList] .zero .zero "8U".toList "0U".toList where
  rd := readB_sound (by decide +kernel)
  confName := by decide +kernel
  words := by decide +kernel
  fresh := by decide +kernel

/-- With a physical value that is a `sigfloat_t`. -/
theorem dirDouble : DirDriver "drv".toList "my.dbc".toList 1 2 8 fltMsgs [] ["DRV_USE_SIGFLOAT".toList] .float .zero .zero "8U".toList "0U".toList where
  toDirRd := dirFloat
  names := by decide +kernel
  protos := by decide +kernel
  frame := by decide +kernel
  float := .inl rfl

end Fix

/-- The directory assumed by `C61_model_partial` exists: the list of the generated files. -/
theorem C61_dir_partial (h : DirRd drv file hi lo maxDlc msgs D0 on tick hash maxW initW) (fl : ConfEdit) :
    let g := driverDesc drv file hi lo
    ∃ hops sops, mainHeaderOps g maxDlc msgs = some hops ∧ mainSourceOps g msgs = some sops ∧ DirOk (genDir g on fl hops sops msgs) g on fl hops msgs ∧
      (genDir g on fl hops sops msgs).lookup (srcFile g) = some (opsText sops) ∧ ((genDir g on fl hops sops msgs).map Prod.fst).Nodup := by
  intro g
  obtain ⟨hops, ho⟩ := h.rd.header
  have hN : NamesOk g := driver_names h.confName h.rd.headers.2
  obtain ⟨sops, -, a1, -⟩ := source_read (h.rd.unit hops false 0 0) ho (files_ok _ _ _)
  have hs : hdrFile g ≠ stdFile := by
    intro e
    have e : strLower drv ++ ".h".toList = "stdint".toList ++ ".h".toList := e
    exact h.rd.headers.1 (List.append_cancel_right e)
  obtain ⟨b1, b2⟩ := genDir_ok (on := on) (fl := fl) (msgs := msgs) hN hs hops sops
  exact ⟨hops, sops, ho, a1, b1, b2, genDir_nodup hN hs hops sops⟩

/-- What the compiler says to a directory that can be read and lacks a type used by the header. -/
theorem dir_unknown (h : DirRd drv file hi lo maxDlc msgs D0 on tick hash maxW initW)
    (ht : typesKnown baseTypes (confItems fl ((userTable (driverDesc drv file hi lo) D0 on).lookup (driverDesc drv file hi lo).usemon).isSome ++
      headerItems (driverDesc drv file hi lo) (cfgOf (driverDesc drv file hi lo) (userTable (driverDesc drv file hi lo) D0 on) false 0 0).flag msgs) = false) :
    let g := driverDesc drv file hi lo
    ∃ hops sops, mainHeaderOps g maxDlc msgs = some hops ∧ mainSourceOps g msgs = some sops ∧
      ∀ dir, DirOk dir g on fl hops msgs → dir.lookup (srcFile g) = some (opsText sops) → ∃ F, ∀ f, F ≤ f → compileTree f dir D0 (srcFile g) = none := by
  intro g
  obtain ⟨hops, ho⟩ := h.rd.header
  have hN : NamesOk g := driver_names h.confName h.rd.headers.2
  have hsw : SwitchOk g := driver_switches h.rd.drvId
  have hU := h.rd.unit hops false 0 0
  obtain ⟨sops, -, a1, -⟩ := source_read hU ho (files_ok _ _ _)
  refine ⟨hops, sops, ho, a1, fun dir hd hs => ?_⟩
  obtain ⟨sops', ls, b1, b2, b3, b4⟩ := dir_compile_iff hd hN hsw hU h.words h.fresh ho
  cases a1.symm.trans b1
  obtain ⟨F, hF⟩ := b4 hs
  refine ⟨F, fun f hf => (hF f hf).trans (if_neg fun q => ?_)⟩
  have q := q.2.1
  unfold unitItems at q
  rw [List.append_assoc, ← List.append_assoc, typesKnown_app, Bool.and_eq_true] at q
  exact absurd (ht.symm.trans q.1) Bool.false_ne_true

/-- **C61** is false for the switch `<DRV>_USE_CANSTRUCT`: with it the generated files do not compile as they are,
because no generated file declares `__CoderDbcCanFrame_t__`. -/
theorem C61_frame_refuted : let g := driverDesc "drv".toList "my.dbc".toList 1 2
    ∃ hops sops, mainHeaderOps g 8 Fix.drvMsgs = some hops ∧ mainSourceOps g Fix.drvMsgs = some sops ∧
      ∀ dir, DirOk dir g ["DRV_USE_CANSTRUCT".toList] .float hops Fix.drvMsgs → dir.lookup (srcFile g) = some (opsText sops) →
        ∃ F, ∀ f, F ≤ f → compileTree f dir [] (srcFile g) = none :=
  dir_unknown Fix.dirFrame (by decide +kernel)

/-- **C61** is false for the switch `<DRV>_USE_SIGFLOAT`: with it the generated files do not compile as they are,
because the declaration of `sigfloat_t` in `dbccodeconf.h` is a comment. -/
theorem C61_float_refuted : let g := driverDesc "drv".toList "my.dbc".toList 1 2
    ∃ hops sops, mainHeaderOps g 8 Fix.fltMsgs = some hops ∧ mainSourceOps g Fix.fltMsgs = some sops ∧
      ∀ dir, DirOk dir g ["DRV_USE_SIGFLOAT".toList] .none hops Fix.fltMsgs → dir.lookup (srcFile g) = some (opsText sops) →
        ∃ F, ∀ f, F ≤ f → compileTree f dir [] (srcFile g) = none :=
  dir_unknown Fix.dirFloat (by decide +kernel)

end Verif
