import Verif.Proofs.DirFmon
import Verif.Props.Directory
/-
C62: the two source files of a driver.
-/
namespace Verif
open Spec

variable {φ : Type} {drv : Str} {file : Source} {hi lo maxDlc : Nat} {msgs : List Msg} {D0 : Defs} {on : List Str} {fl : ConfEdit} {tick hash : Hook} {maxW initW : Str}

theorem bind_two {env : Env φ} {s t a b : Str} {ty : Ty} {q : Ptr} {v w : V φ} (h : tyOf env.ext64 t = some ty) (hc : convTo env.F ty v = some w) :
    bindParams env [⟨s, true, a⟩, ⟨t, false, b⟩] [.p q, v] = some [(a, .ptr, some (.p q)), (b, ty, some w)] := by
  have hp : convTo env.F .ptr (.p q) = some (.p q) := rfl
  simp only [bindParams, if_true, Bool.false_eq_true, if_false, h, hc, hp]

/-- A monitor function does nothing. -/
theorem fmonFunc_run (n : Str) (k : Nat) (env : Env φ) (q : Ptr) (v : CVal) (st : CSt φ) : runVoid k env (fmonFunc n) [.p q, .i v] st = some st := by
  have e : bindParams env fmonParams [.p q, .i v] = some [("_mon".toList, .ptr, some (.p q)), ("msgid".toList, .int .u32, some (.i (v.cast .u32)))] := by
    have hu : tyOf env.ext64 "uint32_t".toList = some (.int .u32) := by cases env.ext64 <;> rfl
    exact bind_two hu rfl
  have h1 : ∀ s : CSt φ, s.loc = [("_mon".toList, .ptr, some (.p q)), ("msgid".toList, .int .u32, some (.i (v.cast .u32)))] →
      Spec.exec k env (fmonFunc n).body s = some (s, none) := by
    intro s hs
    have a1 : Spec.exec k env (voidOf "_mon") s = some (s, none) := exec_void (t := .ptr) (v := .p q) (by rw [hs]; rfl)
    have a2 : Spec.exec k env (voidOf "msgid") s = some (s, none) := exec_void (t := .int .u32) (v := .i (v.cast .u32)) (by rw [hs]; rfl)
    show Spec.exec k env (.seq (voidOf "_mon") (.seq (voidOf "msgid") .skip)) s = _
    rw [Spec.exec, a1]
    dsimp only
    rw [Spec.exec, a2]
    dsimp only
    rw [Spec.exec]
  unfold runVoid
  have e : bindParams env (fmonFunc n).params [.p q, .i v] = _ := e
  have hv : (fmonFunc n).ret = "void".toList := rfl
  rw [if_pos hv, e, Option.bind_some, h1 _ rfl]

/-- Conditions under which both source files compile: in addition to those for the main source file the user does not define the version macros of the monitor functions. -/
structure LinkDriver (drv : Str) (file : Source) (hi lo maxDlc : Nat) (msgs : List Msg) (D0 : Defs) (on : List Str) (fl : ConfEdit) (tick hash : Hook) (maxW initW : Str) : Prop
    extends DirDriver drv file hi lo maxDlc msgs D0 on fl tick hash maxW initW where
  ver : Fresh (userTable (driverDesc drv file hi lo) D0 on) (fmonVerDefs (driverDesc drv file hi lo))

/-- **C62**.  `<drv>-fmon.c` completes the program: in the directory of generated files it compiles too, the two units link
(no name is defined twice, everything that is declared is defined with the declared type), the monitor function that `Unpack_M` calls is
defined in it, and a call of any of its functions comes to an end and changes nothing - neither the monitor nor the message. -/
theorem C62_link_partial (h : LinkDriver drv file hi lo maxDlc msgs D0 on fl tick hash maxW initW) :
    let g := driverDesc drv file hi lo
    ∃ hops sops, mainHeaderOps g maxDlc msgs = some hops ∧ mainSourceOps g msgs = some sops ∧
      ∀ dir, DirOk dir g on fl hops msgs → dir.lookup (srcFile g) = some (opsText sops) → dir.lookup (g.drvLow ++ "-fmon.c".toList) = some (opsText (fmonSourceOps g msgs)) →
      ∃ is js, (∃ F, ∀ f, F ≤ f → compileTree f dir D0 (srcFile g) = some is ∧ compileTree f dir D0 (g.drvLow ++ "-fmon.c".toList) = some js) ∧ links [is, js] = true ∧
        (((userTable g D0 on).lookup g.usemon).isSome = true → ∀ m ∈ msgs, ∃ fn, .func fn ∈ js ∧
          fn.name = if ((userTable g D0 on).lookup (monoName g)).isSome then "_FMon_MONO_".toList ++ g.drvLow else "_FMon_".toList ++ m.name ++ "_".toList ++ g.drvLow) ∧
        ∀ fn, .func fn ∈ js → ∀ (k : Nat) (env : Env φ) (q : Ptr) (v : CVal) (st : CSt φ), runVoid k env fn [.p q, .i v] st = some st := by
  intro g
  obtain ⟨hops, ho⟩ := h.rd.header
  have hN : NamesOk g := driver_names h.confName h.rd.headers.2
  have hsw : SwitchOk g := driver_switches h.rd.drvId
  have hU := h.rd.unit hops false 0 0
  obtain ⟨sops, -, a1, -⟩ := source_read hU ho (files_ok _ _ _)
  refine ⟨hops, sops, ho, a1, fun dir hd hs hs2 => ?_⟩
  obtain ⟨sops', ls, b1, b2, b3, b4⟩ := dir_compile_iff hd hN hsw hU h.words h.fresh ho
  cases a1.symm.trans b1
  obtain ⟨F, hF⟩ := b4 hs
  have hty := unit_types (fl := fl) (mono := ((userTable g D0 on).lookup (monoName g)).isSome) b3 rfl b2 h.frame h.float
  have hag := unit_agree (fl := fl) (mono := ((userTable g D0 on).lookup (monoName g)).isSome) b3 b2 rfl h.names h.protos
  have hfm := fmonRd hU h.words (fun m hm => (h.rd.text m hm).name) (driver_verFar h.rd.drvId) fun _ => h.ver
  obtain ⟨F2, hF2⟩ := fmonUnit_compile hd hsw hfm h.fresh hs2
  have hnn : (cfgOf g (userTable g D0 on) false 0 0).flag .useMon = true → (fmonNames g ((userTable g D0 on).lookup (monoName g)).isSome msgs).Nodup := fun q => by
    have hf := hfm.fresh
    rw [q, if_pos rfl] at hf
    exact fmonNames_nodup hf
  refine ⟨_, _, ⟨F + F2, fun f hf => ⟨(hF f (by omega)).trans (if_pos ⟨h.names, hty, hag⟩), hF2 f (by omega)⟩⟩, unit_links b3 b2 rfl h.names h.protos hnn, fun q m hm => ?_, fun fn hfn k env p v st => ?_⟩
  · refine ⟨fmonFunc (fmonFn g ((userTable g D0 on).lookup (monoName g)).isSome m.name), fmonUnit_proto q ?_, rfl⟩
    unfold fmonNames
    cases ((userTable g D0 on).lookup (monoName g)).isSome with
    | true => exact List.mem_singleton.2 rfl
    | false => exact List.mem_map.2 ⟨m, hm, rfl⟩
  · rcases fmonUnit_mem hfn with q | ⟨-, n, -, q | q⟩
    · have : ∀ fl mon, ∀ i ∈ confItems fl mon, i.gives = none := by decide
      exact absurd (this _ _ _ q) (by simp [Item.gives])
    · cases q
    · cases q
      exact fmonFunc_run n k env p v st

/-! Examples. -/

namespace Fix

/-- Nothing switched on: no monitor functions. -/
theorem linkMin : LinkDriver "drv".toList "my.dbc".toList 1 2 8 drvMsgs [] [] .none .zero .zero "8U".toList "0U".toList where
  toDirDriver := dirMin
  ver := by decide +kernel

/-- A monitor function per message. -/
theorem linkMax : LinkDriver "drv".toList "my.dbc".toList 1 2 8 drvMsgs userHooks allOn .float (.call "GetTick".toList) (.call "GetHash".toList) "8U".toList "0U".toList where
  toDirDriver := dirMax
  ver := by decide +kernel

/-- One monitor function. -/
theorem linkMono : LinkDriver "drv".toList "my.dbc".toList 1 2 8 drvMsgs userHooks (allOn ++ ["DRV_USE_MONO_FMON".toList]) .float (.call "GetTick".toList) (.call "GetHash".toList) "8U".toList "0U".toList where
  rd := readB_sound (by decide +kernel)
  confName := by decide +kernel
  words := by decide +kernel
  fresh := by decide +kernel
  names := by decide +kernel
  protos := by decide +kernel
  frame := by decide +kernel
  float := .inl rfl
  ver := by decide +kernel

end Fix

/-- The directory assumed by `C62_link_partial` exists. -/
theorem C62_dir_partial (h : DirRd drv file hi lo maxDlc msgs D0 on tick hash maxW initW) (fl : ConfEdit) :
    let g := driverDesc drv file hi lo
    ∃ hops sops dir, mainHeaderOps g maxDlc msgs = some hops ∧ mainSourceOps g msgs = some sops ∧ DirOk dir g on fl hops msgs ∧
      dir.lookup (srcFile g) = some (opsText sops) ∧ dir.lookup (g.drvLow ++ "-fmon.c".toList) = some (opsText (fmonSourceOps g msgs)) := by
  intro g
  obtain ⟨hops, sops, a1, a2, a3, a4, -⟩ := C61_dir_partial h fl
  have hne : hdrFile g ≠ fsrcFile g := ne_fsrc (last_h _ ".h" ⟨".".toList, rfl⟩)
  have hsr : srcFile g ≠ fsrcFile g := by
    intro e
    have e : g.drvLow ++ ".c".toList = g.drvLow ++ "-fmon.c".toList := e
    exact absurd (List.append_cancel_left e) (by decide)
  refine ⟨hops, sops, (fsrcFile g, opsText (fmonSourceOps g msgs)) :: genDir g on fl hops sops msgs, a1, a2, ⟨?_, ?_, ?_, ?_, ?_, ?_⟩, (lookup_ne hsr).trans a4, lookup_eq⟩
  · exact (lookup_ne hne).trans a3.header
  · exact (lookup_ne cfg_fsrc).trans a3.config
  · exact (lookup_ne cc_fsrc).trans a3.codeconf
  · exact a3.monutil.same (lookup_ne mu_fsrc)
  · exact (lookup_ne fmon_fsrc).trans a3.fmon
  · exact (lookup_ne (ne_fsrc (by decide))).trans a3.stdint

end Verif
