import Verif.Proofs.VersionRead
import Verif.Props.Unit
/-
C56: the version check of the generated source file.
-/
namespace Verif
open Spec

variable {drv : Str} {file : Source} {hi lo maxDlc : Nat} {msgs : List Msg} {D0 : Defs} {tick hash : Hook} {maxW initW : Str}

/-- **C56**.  The literal text of a `<drv>.c` generated (from whatever messages) for a database of another
version than the headers beside it does not compile, whichever macros the user defines: its `#error` is reached. -/
theorem C56_mismatch_partial (h : DriverRd drv file hi lo maxDlc msgs D0 tick hash maxW initW) {file' : Source}
    (hf' : SourceOk file') {hi' lo' : Nat} (hv : hi' < 2 ^ 32 ∧ lo' < 2 ^ 32) (hne : ¬ (hi = hi' ∧ lo = lo')) (msgs' : List Msg)
    {sops : List WOp} (hs : mainSourceOps (driverDesc drv file' hi' lo') msgs' = some sops) :
    ∃ hops F, mainHeaderOps (driverDesc drv file hi lo) maxDlc msgs = some hops ∧
      ∀ f, F ≤ f → compile f (genFiles (driverDesc drv file hi lo) hops msgs) D0 (opsText sops) = none := by
  obtain ⟨hops, ho⟩ := h.header
  obtain ⟨F, hF⟩ := source_mismatch h ho hf' hv hne hs
  exact ⟨hops, F, ho, hF⟩

/-- The functions of a message do not depend on the version. -/
theorem sourceMsgs_version {hi' lo' : Nat} (m : Msg) : sourceMsgOps (driverDesc drv file hi lo) m = sourceMsgOps (driverDesc drv file hi' lo') m := by
  have e0 : ∀ ss es, unpackSigsOps (driverDesc drv file hi lo) ss es = unpackSigsOps (driverDesc drv file hi' lo') ss es := by
    intro ss
    induction ss with
    | nil => intro es; rfl
    | cons s ss ih =>
      intro es
      cases es with
      | nil => rfl
      | cons e es =>
        show _ ++ unpackSigsOps (driverDesc drv file hi lo) ss es = _ ++ unpackSigsOps (driverDesc drv file hi' lo') ss es
        rw [ih]
        rfl
  have e1 : ∀ t, unpackBodyOps (driverDesc drv file hi lo) m t = unpackBodyOps (driverDesc drv file hi' lo') m t := by
    intro t
    unfold unpackBodyOps
    rw [e0]
    rfl
  have e2 : ∀ t, packStructOps (driverDesc drv file hi lo) m t = packStructOps (driverDesc drv file hi' lo') m t := fun t => rfl
  have e3 : ∀ t, packArrayOps (driverDesc drv file hi lo) m t = packArrayOps (driverDesc drv file hi' lo') m t := fun t => rfl
  have e4 : functionsText (driverDesc drv file hi lo) m = functionsText (driverDesc drv file hi' lo') m := rfl
  unfold sourceMsgOps
  simp only [e1, e2, e3, e4]

theorem sourceOps_some {hi' lo' : Nat} {sops : List WOp} (h : mainSourceOps (driverDesc drv file hi lo) msgs = some sops) :
    ∃ sops', mainSourceOps (driverDesc drv file hi' lo') msgs = some sops' := by
  unfold mainSourceOps at h ⊢
  rw [funext (sourceMsgs_version (hi' := hi') (lo' := lo'))] at h
  cases hm : allSome (msgs.map (sourceMsgOps (driverDesc drv file hi' lo'))) with
  | none => rw [hm] at h; cases h
  | some ms => exact ⟨_, rfl⟩

/-- **C56**.  Header and source of the same messages: they compile exactly if the two versions are equal. -/
theorem C56_check_partial (h : DriverOk drv file hi lo maxDlc msgs D0 tick hash maxW initW) {hi' lo' : Nat} (hv : hi' < 2 ^ 32 ∧ lo' < 2 ^ 32) :
    ∃ hops sops F, mainHeaderOps (driverDesc drv file hi lo) maxDlc msgs = some hops ∧ mainSourceOps (driverDesc drv file hi' lo') msgs = some sops ∧
      ∀ f, F ≤ f → ((compile f (genFiles (driverDesc drv file hi lo) hops msgs) D0 (opsText sops)).isSome = true ↔ hi = hi' ∧ lo = lo') := by
  obtain ⟨hops, sops, F, ho, hs, hF⟩ := C54_compiles_partial h.toDriverRd
  by_cases q : hi = hi' ∧ lo = lo'
  · obtain ⟨rfl, rfl⟩ := q
    exact ⟨hops, sops, F, ho, hs, fun f hf => by
      rw [hF f hf]
      exact ⟨fun _ => ⟨rfl, rfl⟩, fun _ => h.names⟩⟩
  · obtain ⟨sops', hs'⟩ := sourceOps_some (hi' := hi') (lo' := lo') hs
    obtain ⟨F', hF'⟩ := source_mismatch h.toDriverRd ho h.fileT hv q hs'
    exact ⟨hops, sops', F', ho, hs', fun f hf => by
      rw [hF' f hf]
      exact ⟨fun x => absurd x (by decide), fun x => absurd x q⟩⟩

/-- Example: header of version 1.2, source of version 1.3, every macro of the user defined. -/
example : ∃ hops sops F, mainHeaderOps (driverDesc "drv".toList "my.dbc".toList 1 2) 8 Fix.drvMsgs = some hops ∧
    mainSourceOps (driverDesc "drv".toList "my.dbc".toList 1 3) Fix.drvMsgs = some sops ∧
    ∀ f, F ≤ f → (compile f (genFiles (driverDesc "drv".toList "my.dbc".toList 1 2) hops Fix.drvMsgs) Fix.userMax (opsText sops)).isSome = false := by
  obtain ⟨hops, sops, F, h1, h2, h3⟩ := C56_check_partial Fix.drvMax (hi' := 1) (lo' := 3) (by decide)
  refine ⟨hops, sops, F, h1, h2, fun f hf => ?_⟩
  have := mt (h3 f hf).1 (by decide)
  simpa using this

end Verif
