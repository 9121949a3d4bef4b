import Verif.Proofs.Macros
/- The physical members after Unpack. -/
namespace Verif
open Spec
variable {φ : Type}

theorem physStmts_int {cfg : Cfg} {s : Sig} (h1 : s.isSimple = false) (h2 : cfg.flag .useSigFloat = true)
    (h3 : s.isDouble = false) : physStmts cfg s = [.fromSInt s.nameFloat s.typePhys s.name] := by
  unfold physStmts; simp [h1, h2, h3]

/-- The physical member name occurs once among the declarations. -/
theorem physName_unique {cfg : Cfg} {m : Msg} (hn : ((structDecls cfg m).map (·.1)).Nodup)
    {a b : List Sig} {s : Sig} (hm : m.signals = a ++ s :: b)
    (h1 : s.isSimple = false) (h2 : cfg.flag .useSigFloat = true) (h3 : s.isDouble = false) :
    s.nameFloat ∉ (b.flatMap (sigDecls cfg)).map (·.1) ∧ s.name ≠ s.nameFloat ∧
    (∀ r, m.sigAt m.rollSig = some r → cfg.flag .autoRoll = true → s.nameFloat ≠ exptName r.name) ∧
    s.nameFloat ∉ (a.flatMap (sigDecls cfg)).map (·.1) := by
  unfold structDecls structSigs at hn
  rw [hm, List.flatMap_append, List.flatMap_append, List.flatMap_cons, List.map_append, List.map_append,
    List.map_append] at hn
  have hw : (sigDecls cfg s).map (·.1) = [s.name, s.nameFloat] := by
    unfold sigDecls; simp [h1, h2, h3]
  rw [hw] at hn
  simp only [List.nodup_append, List.nodup_cons, List.cons_append, List.nil_append, List.mem_append,
    List.mem_cons] at hn
  obtain ⟨⟨g1, ⟨g2, g3, g4⟩, g5⟩, g6, g7⟩ := hn
  refine ⟨g3, fun h => g2 (Or.inl h), ?_, fun h => g5 _ h s.nameFloat (Or.inr (Or.inl rfl)) rfl⟩
  intro r hr hf heq
  refine g7 s.nameFloat (Or.inr (Or.inr (Or.inl rfl))) (exptName r.name) ?_ heq
  rw [hr]
  simp only [hf, if_true, List.flatMap_cons, List.flatMap_nil, List.append_nil]
  unfold sigDecls
  simp

theorem physDecl_of_mem {c : Ctx φ} {m : Msg} (hd : c.decls = structDecls c.cfg m)
    (hn : (c.decls.map (·.1)).Nodup) {s : Sig} (h : s ∈ m.signals)
    (h1 : s.isSimple = false) (h2 : c.cfg.flag .useSigFloat = true) (h3 : s.isDouble = false) :
    c.decl s.nameFloat = some ⟨s.typePhys, none⟩ := by
  unfold Ctx.decl
  apply lookup_of_nodup hn
  rw [hd]
  unfold structDecls
  refine List.mem_flatMap.2 ⟨s, structSigs_mem h, ?_⟩
  unfold sigDecls
  simp [h1, h2, h3]

/-- The integer physical member after a successful Unpack: the macro of `s0`, the signal whose macros
are in scope, applied to the raw member. -/
theorem unpack_phys {c : Ctx φ} {m : Msg} (hc : c.decls = structDecls c.cfg m) (hm : MsgOk m)
    {st st' : St φ} (h : runUnpack c m st = .ok st')
    {s : Sig} (hs : s ∈ m.signals) (h1 : s.isSimple = false) (h2 : c.cfg.flag .useSigFloat = true)
    (h3 : s.isDouble = false) {s0 : Sig} (hmac : c.macros.lookup s.name = some s0) (h4 : s0.isDouble = false) :
    ∃ y, macroFromS s0 ⟨s.typeRo, st'.fld s.name⟩ = some y ∧
      st'.fld s.nameFloat = s.typePhys.conv (s.typePhys.conv y.val) := by
  obtain ⟨hdo, hr, st1, st2, e1, e2, rfl⟩ := runUnpack_parts hm h
  have hn := nodup_of_declsOk hdo
  obtain ⟨a, b, hab⟩ := List.append_of_mem hs
  have hsplit : unpackSigStmts c.cfg m.signals =
      (unpackSigStmts c.cfg a ++ [rawStmt s]) ++
        (.fromSInt s.nameFloat s.typePhys s.name) :: unpackSigStmts c.cfg b := by
    rw [hab]; unfold unpackSigStmts; simp [physStmts_int h1 h2 h3]
  rw [hsplit] at e1
  obtain ⟨sa, sb, x1, x2, x3⟩ := execAll_split e1
  have hn' : ((structDecls c.cfg m).map (·.1)).Nodup := hc ▸ hn
  obtain ⟨u1, u2, u3, u4⟩ := name_unique hn' hab
  obtain ⟨p1, p2, p3, -⟩ := physName_unique hn' hab h1 h2 h3
  have hdecl : c.decl s.name = some (sigDecl c.cfg s) := decl_of_mem hc hn (structSigs_mem hs)
  have hpd := physDecl_of_mem hc hn hs h1 h2 h3
  have hread : c.read sa s.name = some ⟨s.typeRo, sa.fld s.name⟩ := by unfold Ctx.read; rw [hdecl]; rfl
  simp only [exec, hread, hmac, h4, Bool.false_eq_true, if_false, Option.bind_eq_bind, Option.bind_some,
    Option.bind_eq_some_iff] at x2
  obtain ⟨y, hy, x2⟩ := x2
  have hname : st2.fld s.name = sa.fld s.name := by
    rw [(execAll_frame e2).1 s.name, (execAll_frame x3).1 s.name, (exec_frame (s := .fromSInt s.nameFloat s.typePhys s.name)
      (c := c) (st := sa) (st' := sb) ?_).1 s.name]
    · simpa [CStmt.writes] using p2
    · simp only [exec, hread, hmac, h4, Bool.false_eq_true, if_false, Option.bind_eq_bind, Option.bind_some,
        Option.bind_eq_some_iff]
      exact ⟨y, hy, x2⟩
    · rw [unpackSigStmts_writes]; exact u2
    · intro hx
      obtain ⟨r, r1, r2, -, r3⟩ := monStmts_writes hx
      exact u4 r r1 r2 r3
  have hphys : st2.fld s.nameFloat = sb.fld s.nameFloat := by
    rw [(execAll_frame e2).1 s.nameFloat, (execAll_frame x3).1 s.nameFloat]
    · rw [unpackSigStmts_writes]; exact p1
    · intro hx
      obtain ⟨r, r1, r2, -, r3⟩ := monStmts_writes hx
      exact p3 r r1 r2 r3
  refine ⟨y, ?_, ?_⟩
  · show macroFromS s0 ⟨s.typeRo, st2.fld s.name⟩ = some y
    rw [hname]; exact hy
  · show st2.fld s.nameFloat = _
    rw [hphys]
    obtain ⟨d, hd, rfl⟩ := assign_some x2
    rw [hpd] at hd
    cases hd
    rw [upd_same]
    rfl


/-- The stored raw member for signals whose expression is right. -/
theorem store_unpacked {cfg : Cfg} {s : Sig} {d : List Nat} (ht : s.TypeOk) (hl : 0 < s.lengthBit)
    (hl2 : s.lengthBit ≤ 64) (ha : s.aligned) (hsg : s.signed = true → s.lengthBit ≤ 32) :
    ∃ z, s.unpacked d = some z ∧ (sigDecl cfg s).store z = s.value d ∧
      InSigRange s.signed s.lengthBit (s.value d) := by
  have hr : InSigRange s.signed s.lengthBit (s.value d) := raw_inRange s d hl
  have hst := store_of_sigRange (cfg := cfg) ht hl hr
  have hcv := conv_of_sigRange ht hl hr
  unfold Sig.unpacked
  cases hs : s.signed
  · refine ⟨_, rfl, ?_, by rw [hs] at hr; exact hr⟩
    rw [orFrags_eq_raw d hl hl2 ha]
    unfold Sig.value at hcv hst ⊢
    simp only [hs, Bool.false_eq_true, if_false] at hcv hst ⊢
    rw [hcv, hst]
  · refine ⟨_, by rw [if_pos rfl, if_pos (hsg hs)], ?_, by rw [hs] at hr; exact hr⟩
    unfold Sig.value at hcv hst ⊢
    simp only [hs, if_true] at hcv hst ⊢
    rw [hcv, hst]

/-- The conversions of a signal are defined on all its raw values. -/
def PhysOk (c : Ctx φ) (s : Sig) : Prop :=
  s.isSimple = true ∨ c.cfg.flag .useSigFloat = false ∨
  (s.aligned ∧ ∃ s0, c.macros.lookup s.name = some s0 ∧
    ((s.isDouble = true ∧ s0.isDouble = true) ∨
     (s.isDouble = false ∧ s0.isDouble = false ∧
      ∀ x, InSigRange s.signed s.lengthBit x → ∃ y, macroFromS s0 ⟨s.typeRo, x⟩ = some y)))

theorem unpack_phys_total {c : Ctx φ} {m : Msg} (hc : c.decls = structDecls c.cfg m)
    (hcf : c.floats = floatDecls c.cfg m) (hm : MsgOk m)
    (hdo : c.declsOk = true) (hr : RollOk m) (hph : ∀ s ∈ m.signals, PhysOk c s)
    (hsg : ∀ s ∈ m.signals, s.signed = true → s.lengthBit ≤ 32)
    (hty : ∀ s ∈ m.signals, s.TypeOk)
    {st : St φ} (hd : IsPayload st.dat) (hlen : m.dlc ≤ st.dat.length) :
    ∃ st', runUnpack c m st = .ok st' := by
  have hn := nodup_of_declsOk hdo
  refine unpack_total_of hc hm hdo hr hty hd hlen ?_
  suffices H : ∀ (l : List Sig), (∀ s ∈ l, s ∈ m.signals) → ∀ st0 : St φ, st0.dat = st.dat →
      ∃ st1, execAll c st0 (unpackSigStmts c.cfg l) = some st1 ∧ st1.dat = st.dat from
    H m.signals (fun _ h => h) st rfl
  intro l
  induction l with
  | nil => intro _ st0 h0; exact ⟨st0, rfl, h0⟩
  | cons s l ih =>
    intro hsub st0 h0
    have hs := hsub s (List.mem_cons_self ..)
    have hdecl : c.decl s.name = some (sigDecl c.cfg s) := decl_of_mem hc hn (structSigs_mem hs)
    have hraw := exec_raw (c := c) (st := st0) (hm.2 s hs) (by rw [h0]; exact hd) (by rw [h0]; exact hlen) hdecl
    obtain ⟨p1, p2, -⟩ := hm.2 s hs
    have hu : ∃ z, s.unpacked st0.dat = some z := by
      unfold Sig.unpacked
      cases hsgn : s.signed
      · exact ⟨_, rfl⟩
      · exact ⟨_, by rw [if_pos rfl, if_pos (hsg s hs hsgn)]⟩
    obtain ⟨z, hz⟩ := hu
    rw [hz, Option.map_some] at hraw
    have hphys : ∃ st1, execAll c (st0.upd s.name ((sigDecl c.cfg s).store z)) (physStmts c.cfg s) = some st1 ∧
        st1.dat = st.dat := by
      rcases hph s hs with hp | hp | ⟨ha, s0, hl0, hp⟩
      · exact (show physStmts c.cfg s = [] by unfold physStmts; simp [hp]) ▸ ⟨_, rfl, h0⟩
      · exact (show physStmts c.cfg s = [] by unfold physStmts; simp [hp]) ▸ ⟨_, rfl, h0⟩
      · cases hsim : s.isSimple
        case true => exact (show physStmts c.cfg s = [] by unfold physStmts; simp [hsim]) ▸ ⟨_, rfl, h0⟩
        cases hfl : c.cfg.flag .useSigFloat
        case false => exact (show physStmts c.cfg s = [] by unfold physStmts; simp [hfl]) ▸ ⟨_, rfl, h0⟩
        obtain ⟨z', hz', hv, hrg⟩ := store_unpacked (cfg := c.cfg) (d := st0.dat) (hty s hs) p1 p2 ha (hsg s hs)
        rw [hz] at hz'
        cases hz'
        rw [hv]
        have hread : c.read (st0.upd s.name (s.value st0.dat)) s.name = some ⟨s.typeRo, s.value st0.dat⟩ := by
          unfold Ctx.read; rw [hdecl, Option.map_some, upd_same]; rfl
        rcases hp with ⟨d1, d2⟩ | ⟨d1, d2, d3⟩
        · have hmem : s.nameFloat ∈ c.floats := by
            rw [hcf]
            unfold floatDecls
            refine List.mem_flatMap.2 ⟨s, structSigs_mem hs, ?_⟩
            unfold sigFloats
            simp [hsim, hfl, d1]
          have hst : physStmts c.cfg s = [.fromSFloat s.nameFloat s.name] := by
            unfold physStmts; simp [hsim, hfl, d1]
          rw [hst]
          simp only [execAll, exec, hread, hl0, d2, if_pos hmem, if_true, Option.bind_eq_bind, Option.bind_some, pure]
          exact ⟨_, rfl, h0⟩
        · obtain ⟨y, hy⟩ := d3 _ hrg
          have hpd := physDecl_of_mem hc hn hs hsim hfl d1
          rw [physStmts_int hsim hfl d1]
          simp only [execAll, exec, hread, hl0, d2, Bool.false_eq_true, if_false, Option.bind_eq_bind,
            Option.bind_some, hy, Ctx.assign, hpd, Option.map_some]
          exact ⟨_, rfl, h0⟩
    obtain ⟨st1, e1, d1⟩ := hphys
    obtain ⟨st2, e2, d2⟩ := ih (fun x hx => hsub x (List.mem_cons_of_mem _ hx)) st1 d1
    refine ⟨st2, ?_, d2⟩
    have : unpackSigStmts c.cfg (s :: l) = rawStmt s :: (physStmts c.cfg s ++ unpackSigStmts c.cfg l) := by
      unfold unpackSigStmts; simp
    rw [this]
    simp only [execAll, hraw]
    rw [execAll_append, e1]
    exact e2

theorem store_inRange (cfg : Cfg) (s : Sig) (z : Int) : s.typeRo.InRange ((sigDecl cfg s).store z) := by
  unfold sigDecl FDecl.store
  dsimp only
  have hc := CTy.inRange_conv s.typeRo z
  split
  · exact hc
  next w hw =>
    split at hw
    next hlt =>
      simp only [Option.some.injEq] at hw
      subst hw
      simp only [Bool.and_eq_true, decide_eq_true_eq] at hlt
      have hp : (0:Int) < ((2 ^ s.lengthBit : Nat) : Int) := by
        have := Nat.two_pow_pos s.lengthBit; exact_mod_cast this
      have h7 : ((2 ^ s.lengthBit : Nat) : Int) ≤ 128 := by
        have : 2 ^ s.lengthBit ≤ 2 ^ 7 := Nat.pow_le_pow_right (by decide) (by omega)
        exact_mod_cast this
      generalize s.typeRo.conv z = w
      cases hsg : s.typeRo.signed
      · simp only [Bool.false_eq_true, if_false]
        have a1 := Int.emod_nonneg w (b := ((2 ^ s.lengthBit : Nat) : Int)) (by omega)
        have a2 := Int.emod_lt_of_pos w hp
        unfold CTy.InRange CTy.minV CTy.maxV
        rw [hsg]
        simp only [Bool.false_eq_true, if_false]
        have h8 : (2:Int) ^ 8 ≤ 2 ^ s.typeRo.bits := by
          exact_mod_cast Nat.pow_le_pow_right (n := 2) (by decide) s.typeRo.bits_ge_8
        omega
      · simp only [if_true]
        have a1 := Int.le_bmod (x := w) (m := 2 ^ s.lengthBit) (Nat.two_pow_pos _)
        have a2 := Int.bmod_lt (x := w) (m := 2 ^ s.lengthBit) (Nat.two_pow_pos _)
        unfold CTy.InRange CTy.minV CTy.maxV
        rw [hsg]
        simp only [if_true]
        have h8 : (2:Int) ^ 7 ≤ 2 ^ (s.typeRo.bits - 1) := by
          exact_mod_cast Nat.pow_le_pow_right (n := 2) (by decide) (by have := s.typeRo.bits_ge_8; omega)
        omega
    · cases hw

end Verif
