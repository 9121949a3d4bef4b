import Verif.Proofs.Bounds
import Verif.Props.Fixtures
/-
C10, C11: memory bounds of the generated code and of the generator.
-/
namespace Verif
open Spec
variable {φ : Type}

/-! ### C10 -/

/-- **C10**, reading: every payload index in an Unpack expression of any message (no assumption on
the message) is below its DLC. -/
theorem C10_unpack_reads (m : Msg) (sx : List SigText) (tb : List Slot) (h : buildExprs m = .ok sx tb)
    (e : CExpr) (he : .expr e ∈ sx) : ∀ i ∈ e.reads, i < m.dlc := by
  obtain ⟨h1, h2, h3⟩ := buildExprs_bounds h
  obtain ⟨k, hk, hke⟩ := List.getElem_of_mem he
  exact (h3 k (by omega) e (by rw [List.getElem?_eq_getElem hk, hke])).1

/-- **C10**, reading, semantically: the value of an Unpack expression depends on the first DLC
payload bytes only. -/
theorem C10_unpack_local (m : Msg) (sx : List SigText) (tb : List Slot) (h : buildExprs m = .ok sx tb)
    (e : CExpr) (he : .expr e ∈ sx) (env env' : CEnv) (hf : env.fld = env'.fld)
    (hd : ∀ i, i < m.dlc → env.dat[i]? = env'.dat[i]?) : e.eval env = e.eval env' :=
  eval_congr hf fun i hi => hd i (C10_unpack_reads m sx tb h e he i hi)

/-- **C10**, writing: Pack of any message for which the generator produced code without error text
leaves all bytes from DLC on untouched. -/
theorem C10_pack_writes (c : Ctx φ) (m : Msg) (sx : List SigText) (tb : List Slot)
    (h : buildExprs m = .ok sx tb) (hok : ∀ x ∈ sx, x ≠ .err)
    (st st' : St φ) (hr : runPack c m st = .ok st') :
    ∀ i, m.dlc ≤ i → st'.dat[i]? = st.dat[i]? := by
  obtain ⟨h1, h2, h3⟩ := buildExprs_bounds h
  unfold runPack at hr
  rw [h] at hr
  dsimp only at hr
  -- all lines of the body are below the DLC
  have hlines : ∀ lines, (if c.cfg.flag .useCanStruct then writePackStructBody m tb else writePackArrayBody m tb) =
      some lines → ∀ x, GLine.stmt x ∈ lines → x.below m.dlc := by
    intro lines hl
    have hc : ∀ cl, printPackCommonText m tb = some cl → ∀ x, GLine.stmt x ∈ cl → x.below m.dlc := by
      intro cl hcl x hx
      simp only [printPackCommonText, Option.bind_eq_bind, Option.bind_eq_some_iff, pure, Option.some.injEq] at hcl
      obtain ⟨roll, hroll, csm, hcsm, rfl⟩ := hcl
      simp only [List.mem_append] at hx
      rcases hx with ((((hx | hx) | hx) | hx) | hx) | hx
      · simp only [List.mem_singleton, GLine.stmt.injEq] at hx
        subst hx; exact Nat.le_refl _
      · unfold packRollLines at hroll
        split at hroll
        · cases hroll; cases hx
        · simp only [Option.bind_eq_bind, Option.bind_eq_some_iff, pure, Option.some.injEq] at hroll
          obtain ⟨msk, -, rfl⟩ := hroll
          simp at hx; subst hx; trivial
      · unfold packClearLines at hx
        split at hx
        · cases hx
        · simp at hx; subst hx; trivial
      · unfold packPhysLines at hx
        split at hx
        · simp at hx; obtain ⟨s, -, rfl⟩ := hx; trivial
        · cases hx
      · unfold packByteLines at hx
        simp only [List.mem_map, GLine.stmt.injEq] at hx
        obtain ⟨⟨sl, i⟩, hp, rfl⟩ := hx
        have hmem := (List.mem_filter.1 hp).1
        have := (List.mem_zipIdx hmem).2.1
        show i < m.dlc
        omega
      · unfold packCsmLines at hcsm
        split at hcsm
        · cases hcsm; cases hx
        next s hs =>
          simp only [Option.bind_eq_bind, Option.bind_eq_some_iff, pure, Option.some.injEq] at hcsm
          obtain ⟨⟨i, e⟩, hce, rfl⟩ := hcsm
          simp at hx
          rcases hx with rfl | rfl
          · trivial
          · show i < m.dlc
            unfold Msg.sigAt at hs
            rw [Option.bind_eq_some_iff] at hs
            obtain ⟨k, -, hk⟩ := hs
            obtain ⟨hkl, rfl⟩ := List.getElem?_eq_some_iff.1 hk
            have hkx : k < sx.length := by omega
            have hexp : ∃ e', sx[k]? = some (.expr e') := by
              rw [List.getElem?_eq_getElem hkx]
              cases hxk : sx[k] with
              | expr e' => exact ⟨e', rfl⟩
              | err => exact absurd hxk (hok _ (List.getElem_mem hkx))
            obtain ⟨e', he'⟩ := hexp
            have hb := (h3 k hkl e' he').2
            exact csmExpr_bound hce (by omega) hb
    unfold writePackStructBody writePackArrayBody at hl
    intro x hx
    split at hl <;>
    · simp only [Option.bind_eq_bind, Option.bind_eq_some_iff, pure, Option.some.injEq] at hl
      obtain ⟨cl, hcl, rfl⟩ := hl
      rcases List.mem_append.1 hx with hx | hx
      · exact hc cl hcl x hx
      · simp at hx
        rcases hx with rfl | rfl | rfl | rfl <;> trivial
  split at hr
  · cases hr
  next lines hl =>
    unfold runBody at hr
    split at hr
    · split at hr
      · cases hr
      next st1 he =>
        cases hr
        exact execAll_below _ (fun x hx => hlines lines hl x (preprocess_sub _ _ _ x hx)) he
    · cases hr

example : ∃ sx tb, buildExprs Fix.msg = .ok sx tb ∧ (∀ x ∈ sx, x ≠ .err) ∧ ∃ e, .expr e ∈ sx :=
  ⟨_, _, buildExprs_ok Fix.msgOk, by
    intro x hx
    obtain ⟨s, -, rfl⟩ := List.mem_map.1 hx
    simp, joinFrags (frags Fix.sigR), by simp [Fix.msg]⟩

/-! ### C11 -/

theorem motorola_fits (start len n : Nat) (hl : 0 < len) :
    Fits false start len n ↔ lin start + len ≤ 8 * n := by
  have key : ∀ p, p < 8 * n ↔ lin p < 8 * n := by intro p; unfold lin; omega
  unfold Fits bitPos
  simp only [Bool.false_eq_true, if_false]
  constructor
  · intro h
    have := h 0 hl
    rw [key, lin_iter] at this
    omega
  · intro h k hk
    rw [key, lin_iter]
    omega

theorem byteLoop_overrun (name : Str) (fuel : Nat) :
    ∀ (acc : CExpr) (tb : List Slot) (slen bn : Nat), slen ≤ fuel → bn < tb.length → tb.length ≤ 64 →
    8 * tb.length < 8 * (bn + 1) + slen →
    match byteLoop name .motorolla fuel acc tb slen bn with
    | .done _ tb' slen' bn' => tb'.length ≤ shiftByte .motorolla bn' ∧ 0 < slen'
    | .err _ => False
    | .oob => True := by
  induction fuel with
  | zero => intro acc tb slen bn h1 h2 h3 h4; omega
  | succ fuel ih =>
    intro acc tb slen bn h1 h2 h3 h4
    have hsb : shiftByte .motorolla bn = bn + 1 := by simp only [shiftByte]; omega
    unfold byteLoop
    by_cases h8 : slen < 8
    · rw [if_pos h8]
      show tb.length ≤ shiftByte .motorolla bn ∧ 0 < slen
      omega
    · rw [if_neg h8]
      dsimp only
      rw [hsb, if_neg (by omega)]
      by_cases hlast : bn + 1 = tb.length
      · have : ∀ e, appendAt tb (bn + 1) e = none := by
          intro e; unfold appendAt; rw [List.getElem?_eq_none (by omega)]
        rw [this, this]
        by_cases h0 : slen - 8 = 0
        · rw [if_pos h0]; trivial
        · rw [if_neg h0]; trivial
      · rw [appendAt_lt (by omega), appendAt_lt (by omega)]
        dsimp only
        by_cases h0 : slen - 8 = 0
        · omega
        · rw [if_neg h0]
          exact ih _ (tb.set _ _) (slen - 8) (bn + 1) (by omega) (by simp; omega) (by simpa using h3) (by simp; omega)

/-- **C11**, exact outcome of the printer for every signal whose most significant bit is at a position
up to 511 (positions above are clamped) and every DLC 1..64: code exactly if the signal fits; error
text exactly if it does not fit and is Intel or starts outside; **an access outside the generator's
vector** exactly if it is Motorola, starts inside and runs past the end. -/
theorem C11_exact_partial (s : Sig) (tb : List Slot) (hn0 : 0 < tb.length) (hn : tb.length ≤ 64)
    (hl : 0 < s.lengthBit) (hl2 : s.lengthBit < 256)
    (hpos : (if s.order = .intel then s.startBit + s.lengthBit - 1 else s.startBit) ≤ 511) :
    (Fits (s.order == .intel) s.startBit s.lengthBit tb.length ∧
        ∃ e tb', printSignalExpr s tb = .ok (.expr e) tb') ∨
    (¬ Fits (s.order == .intel) s.startBit s.lengthBit tb.length ∧
        (s.order = .intel ∨ tb.length ≤ s.startBit / 8) ∧
        ∃ tb', printSignalExpr s tb = .ok .err tb' ∧ tb'.getD 0 .empty = .err) ∨
    (¬ Fits (s.order == .intel) s.startBit s.lengthBit tb.length ∧
        s.order = .motorolla ∧ s.startBit / 8 < tb.length ∧ printSignalExpr s tb = .oob) := by
  by_cases hf : Fits (s.order == .intel) s.startBit s.lengthBit tb.length
  · exact Or.inl ⟨hf, _, _, printSignalExpr_ok hn hl hl2 (frags_lt_of_fits hl hf)⟩
  · have hstart : startb s = msbPos s := by
      unfold startb msbPos
      cases ho : s.order <;> rw [ho] at hpos <;> simp only [reduceCtorEq, if_true, if_false] at hpos ⊢ <;>
        split <;> omega
    have herr : tb.length ≤ msbPos s / 8 →
        ∃ tb', printSignalExpr s tb = .ok .err tb' ∧ tb'.getD 0 .empty = .err := by
      intro hb
      refine ⟨setErr tb, ?_, by simp [setErr, List.getD, hn0]⟩
      unfold printSignalExpr
      rw [if_neg (by omega)]
      dsimp only
      rw [hstart, if_pos hb]
    cases ho : s.order with
    | intel =>
      refine Or.inr (Or.inl ⟨by rw [ho] at hf; exact hf, Or.inl rfl, herr ?_⟩)
      apply Classical.byContradiction
      intro hx
      apply hf
      intro k hk
      unfold msbPos at hx
      rw [ho] at hx ⊢
      simp only [bitPos, beq_self_eq_true, if_true] at *
      omega
    | motorolla =>
      have hms : msbPos s = s.startBit := by unfold msbPos; rw [ho]
      by_cases hb : tb.length ≤ s.startBit / 8
      · exact Or.inr (Or.inl ⟨by rw [ho] at hf; exact hf, Or.inr hb, herr (by rw [hms]; exact hb)⟩)
      · refine Or.inr (Or.inr ⟨by rw [ho] at hf; exact hf, rfl, by omega, ?_⟩)
        rw [ho, show (BitLayout.motorolla == BitLayout.intel) = false from rfl,
          motorola_fits _ _ _ hl] at hf
        unfold lin at hf
        unfold printSignalExpr
        rw [if_neg (by omega)]
        dsimp only
        rw [hstart, hms, if_neg hb, if_neg (by omega), if_neg (by omega), appendAt_lt (by omega)]
        dsimp only
        rw [ho]
        have := byteLoop_overrun s.name (s.lengthBit - (s.startBit % 8 + 1))
          (.shl (t64 (s.lengthBit - (s.startBit % 8 + 1)) (.band (.dat (s.startBit / 8)) (.mask (s.startBit % 8 + 1))))
            (s.lengthBit - (s.startBit % 8 + 1)))
          (tb.set (s.startBit / 8) ((tb.getD (s.startBit / 8) .empty).append
            (.band (.shr (.fld s.name) (s.lengthBit - (s.startBit % 8 + 1))) (.mask (s.startBit % 8 + 1)))))
          (s.lengthBit - (s.startBit % 8 + 1)) (s.startBit / 8) (Nat.le_refl _) (by simp; omega) (by simpa using hn)
          (by simp; omega)
        revert this
        cases byteLoop s.name .motorolla (s.lengthBit - (s.startBit % 8 + 1)) _ _ _ _ with
        | oob => intro _; rfl
        | err _ => intro h; exact h.elim
        | done acc tb' slen' bn' =>
          intro h
          dsimp only at h ⊢
          rw [if_pos h.2]
          have : ∀ e, appendAt tb' (shiftByte .motorolla bn') e = none := by
            intro e; unfold appendAt; rw [List.getElem?_eq_none h.1]
          rw [this]

/-- **C11**: messages whose signals all fit never make the generator access memory outside its
vector, and get code for every signal. -/
theorem C11_fitting_partial (m : Msg) (h64 : m.dlc ≤ 64)
    (h : ∀ s ∈ m.signals, 0 < s.lengthBit ∧ s.lengthBit ≤ 64 ∧
      Fits (s.order == .intel) s.startBit s.lengthBit m.dlc) :
    ∃ sx tb, buildExprs m = .ok sx tb ∧ ∀ x ∈ sx, x ≠ .err :=
  ⟨_, _, buildExprs_ok ⟨h64, h⟩, by
    intro x hx
    obtain ⟨s, -, rfl⟩ := List.mem_map.1 hx
    simp⟩

/-- **C11** is false (1): a 17-bit Motorola signal at bit 0 of a two byte message makes the generator
write past its vector. -/
theorem C11_refuted_overrun :
    ∃ s : Sig, ¬ Fits (s.order == .intel) s.startBit s.lengthBit 2 ∧
      printSignalExpr s (List.replicate 2 .empty) = .oob := by
  refine ⟨{ startBit := 0, lengthBit := 17, order := .motorolla }, ?_, by decide⟩
  intro h
  exact absurd (h 0 (by decide)) (by decide)

/-- **C11** is false (2): a start bit of 65536 is accepted and addresses byte 0. -/
theorem C11_refuted_wrap :
    ∃ (s : Sig) (e : CExpr) (tb : List Slot), ¬ Fits (s.order == .intel) s.startBit s.lengthBit 8 ∧
      printSignalExpr s (List.replicate 8 .empty) = .ok (.expr e) tb ∧ e.reads = [0] := by
  refine ⟨{ startBit := 65536, lengthBit := 8, order := .intel }, .band (.dat 0) (.mask 8),
    (List.replicate 8 .empty).set 0 (.expr (.band (.fld []) (.mask 8))), ?_, by decide, by decide⟩
  intro h
  exact absurd (h 0 (by decide)) (by decide)

/-- **C11** is false (3): in a 64 byte message a start bit above 511 is clamped and addresses byte 63. -/
theorem C11_refuted_clamp :
    ∃ (s : Sig) (e : CExpr) (tb : List Slot), ¬ Fits (s.order == .intel) s.startBit s.lengthBit 64 ∧
      printSignalExpr s (List.replicate 64 .empty) = .ok (.expr e) tb ∧ e.reads = [63] := by
  refine ⟨{ startBit := 600, lengthBit := 8, order := .intel }, .band (.dat 63) (.mask 8),
    (List.replicate 64 .empty).set 63 (.expr (.band (.fld []) (.mask 8))), ?_, by decide, by decide⟩
  intro h
  exact absurd (h 0 (by decide)) (by decide)

example : ∃ (s : Sig), 0 < s.lengthBit ∧ s.lengthBit < 256 ∧ s.order = .motorolla ∧ s.startBit ≤ 511 ∧
    ¬ Fits false s.startBit s.lengthBit 2 :=
  ⟨{ startBit := 0, lengthBit := 17, order := .motorolla }, by decide, by decide, rfl, by decide,
    fun h => absurd (h 0 (by decide)) (by decide)⟩

end Verif
