import Verif.Proofs.PhysRun
import Verif.Proofs.PackRun3
/- The raw members that Pack computes from physical members. -/
namespace Verif
open Spec
variable {φ : Type}

/-- No raw member has the name of a physical member. -/
theorem physName_ne {cfg : Cfg} {m : Msg} (hn : ((structDecls cfg m).map (·.1)).Nodup)
    {s : Sig} (hs : s ∈ m.signals) (h1 : s.isSimple = false) (h2 : cfg.flag .useSigFloat = true)
    (h3 : s.isDouble = false) {t : Sig} (ht : t ∈ m.signals) : s.nameFloat ≠ t.name := by
  intro he
  obtain ⟨a, b, hab⟩ := List.append_of_mem hs
  obtain ⟨p1, p2, -, p4⟩ := physName_unique hn hab h1 h2 h3
  have hmem : ∀ l : List Sig, t ∈ l → s.nameFloat ∈ (l.flatMap (sigDecls cfg)).map (·.1) := by
    intro l hl
    refine List.mem_map.2 ⟨(t.name, sigDecl cfg t), List.mem_flatMap.2 ⟨t, hl, ?_⟩, he.symm⟩
    unfold sigDecls; simp
  rw [hab, List.mem_append, List.mem_cons] at ht
  rcases ht with ht | rfl | ht
  · exact p4 (hmem a ht)
  · exact p2 he.symm
  · exact p1 (hmem b ht)

theorem toSStmts_split {cfg : Cfg} {m : Msg} {a b : List Sig} {s : Sig} (hm : m.signals = a ++ s :: b)
    (hp : m.hasPhys = true) (h1 : s.isSimple = false) (h2 : cfg.flag .useSigFloat = true) :
    toSStmts cfg m =
      (a.filter (fun s => !s.isSimple)).map (fun s => CStmt.toS s.name s.typeRo s.nameFloat) ++
      .toS s.name s.typeRo s.nameFloat ::
      (b.filter (fun s => !s.isSimple)).map (fun s => CStmt.toS s.name s.typeRo s.nameFloat) := by
  unfold toSStmts
  simp [hp, h2, hm, h1]

theorem toS_writes {l : List Sig} {n : Str}
    (h : n ∈ ((l.filter (fun s => !s.isSimple)).map (fun s => CStmt.toS s.name s.typeRo s.nameFloat)).flatMap
      CStmt.writes) : ∃ t ∈ l, n = t.name := by
  obtain ⟨x, hx, hn⟩ := List.mem_flatMap.1 h
  obtain ⟨s, hs, rfl⟩ := List.mem_map.1 hx
  exact ⟨s, (List.mem_filter.1 hs).1, by simpa [CStmt.writes] using hn⟩

/-- The raw member of a scaled signal after Pack: the macro of `s0`, the signal whose macros are in
scope, applied to the physical member. -/
theorem pack_phys {c : Ctx φ} {m : Msg} (hc : c.decls = structDecls c.cfg m) (hm : MsgOk m)
    (hty : ∀ s ∈ m.signals, s.TypeOk) (hcs : CsmHyp c.cfg m) (hi : c.cfg.initByte < 256)
    {st st' : St φ} (hd : IsPayload st.dat) (hlen : m.dlc ≤ st.dat.length)
    (h : runPack c m st = .ok st') (hp : m.hasPhys = true)
    {s : Sig} (hs : s ∈ m.signals) (h1 : s.isSimple = false) (h2 : c.cfg.flag .useSigFloat = true)
    (h3 : s.isDouble = false) {s0 : Sig} (hmac : c.macros.lookup s.name = some s0) (h4 : s0.isDouble = false) :
    ∃ y, macroToS s0 ⟨s.typePhys, st.fld s.nameFloat⟩ = some y ∧
      st'.fld s.name = (sigDecl c.cfg s).store (s.typeRo.conv y.val) := by
  obtain ⟨hdo, hro, hco, stA, stB, stC, stD, hA, hB, hC, hD, rfl⟩ := runPack_parts hm h
  have hn := nodup_of_declsOk hdo
  have hn' : ((structDecls c.cfg m).map (·.1)).Nodup := hc ▸ hn
  have hdecl : ∀ s ∈ m.signals, c.decl s.name = some (sigDecl c.cfg s) :=
    fun s hs => decl_of_mem hc hn (structSigs_mem hs)
  obtain ⟨dA, rfl, lA, pA, bA, -⟩ := exec_init hi hd hA
  have hz := prePack_csm hn' hdecl hcs hB
  obtain ⟨fB1, fB2, fB3⟩ := prePack_frame hB
  obtain ⟨dC, eC, lC, pC, bC⟩ := bytePart (st := stB) hm hty hdecl (by rw [fB1]; exact pA)
    (by rw [fB1]; simp only [lA]; exact hlen)
  rw [eC, Option.some.injEq] at hC
  subst hC
  obtain ⟨lD, pD, bD, cD, fD⟩ := csmPart (st := { stB with dat := dC }) hm hty hn' hdecl hcs pC hz hD
  obtain ⟨a, b, hab⟩ := List.append_of_mem hs
  obtain ⟨u1, u2, u3, u4⟩ := name_unique hn' hab
  rw [prePack_eq, toSStmts_split hab hp h1 h2, ← List.append_assoc] at hB
  obtain ⟨s1, s2, x1, x2, x3⟩ := execAll_split hB
  have hpd := physDecl_of_mem hc hn hs h1 h2 h3
  have hkeep : s1.fld s.nameFloat = st.fld s.nameFloat := by
    rw [(execAll_frame x1).1]
    simp only [List.flatMap_append, List.mem_append]
    rintro ((hx | hx) | hx)
    · obtain ⟨-, t, ht, he⟩ := rollStmts_writes hx
      exact physName_ne hn' hs h1 h2 h3 (sigAt_mem ht) he
    · obtain ⟨-, t, ht, he⟩ := clearStmts_writes hx
      exact physName_ne hn' hs h1 h2 h3 (sigAt_mem ht) he
    · obtain ⟨t, ht, he⟩ := toS_writes hx
      exact physName_ne hn' hs h1 h2 h3 (by rw [hab]; exact List.mem_append_left _ ht) he
  have hread : c.read s1 s.nameFloat = some ⟨s.typePhys, st.fld s.nameFloat⟩ := by
    unfold Ctx.read; rw [hpd, Option.map_some, hkeep]
  simp only [exec, hmac, hread, h4, Bool.false_eq_true, if_false, Option.bind_eq_bind, Option.bind_some,
    Option.bind_eq_some_iff] at x2
  obtain ⟨y, hy, x2⟩ := x2
  refine ⟨y, hy, ?_⟩
  simp only
  rw [fD s.name ?_]
  · simp only
    rw [(execAll_frame x3).1 s.name ?_]
    · obtain ⟨d, hd', rfl⟩ := assign_some x2
      rw [hdecl s hs] at hd'
      cases hd'
      rw [upd_same]
      rfl
    · intro hx
      obtain ⟨t, ht, he⟩ := toS_writes hx
      apply u2
      refine List.mem_map.2 ⟨(t.name, sigDecl c.cfg t), List.mem_flatMap.2 ⟨t, ht, ?_⟩, he.symm⟩
      unfold sigDecls; simp
  · intro hf t ht he
    have := names_inj hn' hs (sigAt_mem ht) he
    subst this
    rw [(hcs hf s ht).1] at h1
    cases h1

/-! ### toS -/

/-- Value of the `toS` macro. -/
theorem macroToS_value {s : Sig} {f o : Int} (h : IntConv s f o) {p : CTy} {v : Int}
    (hf0 : f ≠ 0) (hp : p.InRange v) (hT1 : p.macroTy.InRange (v - o))
    (hT2 : p.macroTy.InRange (Int.tdiv (v - o) f))
    (hpos : p.macroTy.signed = false → 0 < f) :
    macroToS s ⟨p, v⟩ = some ⟨s.typeRo, s.typeRo.conv (Int.tdiv (v - o) f)⟩ := by
  obtain ⟨t1, t2, t3, t4⟩ := h.truncs
  have hf := i32_inRange h.rf
  have ho := i32_inRange h.ro
  have hpm := hp.macroTy
  have hfc : p.macroTy.conv f = f := by
    apply CTy.conv_inRange
    cases hs : p.macroTy.signed
    · have := hpos hs
      have := h.rf
      refine ⟨?_, ?_⟩
      · unfold CTy.minV; rw [hs]; simp only [Bool.false_eq_true, if_false]; omega
      · have h32 : (2:Int) ^ 32 ≤ 2 ^ p.macroTy.bits := by
          exact_mod_cast Nat.pow_le_pow_right (n := 2) (by decide) (CTy.common_bits p .i32)
        unfold CTy.maxV; rw [hs]; simp only [Bool.false_eq_true, if_false]; omega
    · exact CTy.lit_macroTy hs hf
  have harith : ∀ z, p.macroTy.InRange z → CVal.arith p.macroTy z = some ⟨p.macroTy, z⟩ := by
    intro z hz
    cases hs : p.macroTy.signed
    · rw [arith_unsigned hs, CTy.conv_inRange hz]
    · rw [arith_signed hs, if_pos hz]
  have hsub : (⟨p, v⟩ : CVal).sub ⟨.i32, o⟩ = some ⟨p.macroTy, v - o⟩ := by
    show CVal.arith p.macroTy (p.macroTy.conv v - p.macroTy.conv o) = _
    cases hs : p.macroTy.signed
    · rw [arith_unsigned hs]
      congr 2
      refine Eq.trans ?_ (CTy.conv_inRange hT1)
      apply CTy.conv_congr
      rw [Int.sub_emod, p.macroTy.conv_mod, p.macroTy.conv_mod, ← Int.sub_emod]
    · rw [CTy.conv_inRange hpm, CTy.conv_inRange (CTy.lit_macroTy hs ho)]
      exact harith _ hT1
  have hdiv : ∀ q : CTy, q.macroTy = p.macroTy →
      (⟨q, v - o⟩ : CVal).div ⟨.i32, f⟩ = some ⟨p.macroTy, Int.tdiv (v - o) f⟩ := by
    intro q hq
    show (if q.macroTy.conv f = 0 then none
      else CVal.arith q.macroTy (Int.tdiv (q.macroTy.conv (v - o)) (q.macroTy.conv f))) = _
    rw [hq, hfc, if_neg hf0, CTy.conv_inRange hT1]
    exact harith _ hT2
  unfold macroToS
  rw [t1, t2, t3, t4, litVal_int h.rf, litVal_int h.ro]
  by_cases h0 : o = 0
  · subst h0
    simp only [beq_self_eq_true, if_true]
    have := hdiv p rfl
    simp only [Int.sub_zero] at this ⊢
    rw [this]
    rfl
  · rw [if_neg (by simpa using h0)]
    by_cases h1 : f = 1
    · subst h1
      simp only [beq_self_eq_true, if_true]
      rw [hsub]
      simp only [Option.bind_eq_bind, Option.bind_some, pure, Int.tdiv_one, CVal.cast]
    · rw [if_neg (by simpa using h1), hsub]
      simp only [Option.bind_eq_bind, Option.bind_some, pure]
      rw [hdiv _ (macroTy_macroTy p)]
      rfl

/-- The `toS` macro undoes `x * f + o`. -/
theorem macroToS_inverse {s : Sig} {f o : Int} (h : IntConv s f o) {p : CTy} {x : Int}
    (hx : s.typeRo.InRange x) (hf0 : f ≠ 0)
    (hp : p.InRange (x * f + o)) (hT1 : p.macroTy.InRange x) (hT2 : p.macroTy.InRange (x * f))
    (hpos : p.macroTy.signed = false → 0 < f) :
    macroToS s ⟨p, x * f + o⟩ = some ⟨s.typeRo, x⟩ := by
  have e : x * f + o - o = x * f := by omega
  rw [macroToS_value h hf0 hp (by rw [e]; exact hT2) (by rw [e, Int.mul_tdiv_cancel _ hf0]; exact hT1) hpos,
    e, Int.mul_tdiv_cancel _ hf0, CTy.conv_inRange hx]

end Verif
