import Verif.Proofs.PackRun
/- The whole Pack function. -/
namespace Verif
open Spec
variable {φ : Type}

/-- The statements after the payload is complete. -/
def packOuts (cfg : Cfg) (m : Msg) : List CStmt :=
  (if cfg.flag .useCanStruct then [.outId m.msgId] else []) ++ [.outDlc m.dlc, .outIde m.ide, .ret m.msgId]

/-- The statements of Pack. -/
def packStmts (cfg : Cfg) (m : Msg) : List CStmt :=
  [.initLoop m.dlc] ++ prePackStmts cfg m ++
    byteStmts ((itemsOf m.signals).foldl Item.apply (List.replicate m.dlc .empty)) ++ csmStmts cfg m

theorem runPack_eq (c : Ctx φ) {m : Msg} (hm : MsgOk m) (st : St φ) :
    (¬ (RollOk m ∧ CsmOk m) → runPack c m st = .genUB) ∧
    (RollOk m ∧ CsmOk m → runPack c m st =
      if c.declsOk then
        match execAll c st (packStmts c.cfg m ++ packOuts c.cfg m) with
        | none => .bad
        | some st => .ok st
      else .bad) := by
  unfold runPack
  rw [buildExprs_ok hm]
  dsimp only
  obtain ⟨h1, h2⟩ := printPackCommonText_eq c.cfg m
    ((itemsOf m.signals).foldl Item.apply (List.replicate m.dlc .empty))
  unfold writePackStructBody writePackArrayBody
  constructor
  · intro h; rw [h1 h]; simp
  · intro h
    obtain ⟨lines, e1, e2, e3⟩ := h2 h
    rw [e1]
    simp only [Option.bind_eq_bind, Option.bind_some]
    have : ∀ l : List CStmt, preprocess c.cfg.flag [] (lines ++ l.map .stmt) = packStmts c.cfg m ++ l := by
      intro l
      rw [preprocess_append e2, preprocess_stmts, e3]; rfl
    cases hf : c.cfg.flag .useCanStruct
    · have t := this [.outDlc m.dlc, .outIde m.ide, .ret m.msgId]
      simp only [List.map_cons, List.map_nil] at t
      simp only [Bool.false_eq_true, if_false, pure, runBody, t, packOuts, hf, List.nil_append]
      rfl
    · have t := this [.outId m.msgId, .outDlc m.dlc, .outIde m.ide, .ret m.msgId]
      simp only [List.map_cons, List.map_nil] at t
      simp only [if_true, pure, runBody, t, packOuts, hf]
      rfl

theorem execAll_outs (c : Ctx φ) (m : Msg) (st : St φ) :
    execAll c st (packOuts c.cfg m) = some { st with
      outId := if c.cfg.flag .useCanStruct then some (m.msgId % 2 ^ 32) else st.outId
      outDlc := some (m.dlc % 256), outIde := some (m.ide % 256), retv := some m.msgId } := by
  unfold packOuts
  cases c.cfg.flag .useCanStruct <;> rfl

/-- A successful Pack, split into its parts. -/
theorem runPack_parts {c : Ctx φ} {m : Msg} (hm : MsgOk m) {st st' : St φ}
    (h : runPack c m st = .ok st') :
    c.declsOk = true ∧ RollOk m ∧ CsmOk m ∧ ∃ stA stB stC stD,
      exec c st (.initLoop m.dlc) = some stA ∧
      execAll c stA (prePackStmts c.cfg m) = some stB ∧
      execAll c stB (byteStmts ((itemsOf m.signals).foldl Item.apply (List.replicate m.dlc .empty))) = some stC ∧
      execAll c stC (csmStmts c.cfg m) = some stD ∧
      st' = { stD with
        outId := if c.cfg.flag .useCanStruct then some (m.msgId % 2 ^ 32) else stD.outId
        outDlc := some (m.dlc % 256), outIde := some (m.ide % 256), retv := some m.msgId } := by
  obtain ⟨e1, e2⟩ := runPack_eq c hm st
  by_cases hr' : ¬ (RollOk m ∧ CsmOk m)
  · rw [e1 hr'] at h; cases h
  have hr := Classical.not_not.1 hr'
  rw [e2 hr] at h
  by_cases hdo' : ¬ c.declsOk = true
  · rw [if_neg hdo'] at h; cases h
  have hdo := Classical.not_not.1 hdo'
  rw [if_pos hdo] at h
  split at h
  · cases h
  next st3 he =>
  cases h
  unfold packStmts at he
  rw [execAll_append, Option.bind_eq_some_iff] at he
  obtain ⟨stD, he, ho⟩ := he
  rw [execAll_append, Option.bind_eq_some_iff] at he
  obtain ⟨stC, he, hD⟩ := he
  rw [execAll_append, Option.bind_eq_some_iff] at he
  obtain ⟨stB, he, hC⟩ := he
  rw [execAll_append, Option.bind_eq_some_iff] at he
  obtain ⟨stA, hA, hB⟩ := he
  have hA' : exec c st (.initLoop m.dlc) = some stA := by
    simp only [execAll] at hA
    split at hA
    · cases hA
    next s1 h1 => rw [h1]; exact hA
  rw [execAll_outs, Option.some.injEq] at ho
  exact ⟨hdo, hr.1, hr.2, stA, stB, stC, stD, hA', hB, hC, hD, ho.symm⟩

/-! ### Initialisation -/

theorem exec_init {c : Ctx φ} {st stA : St φ} {dlc : Nat} (hi : c.cfg.initByte < 256)
    (hp : IsPayload st.dat) (h : exec c st (.initLoop dlc) = some stA) :
    ∃ d', stA = { st with dat := d' } ∧ d'.length = st.dat.length ∧ IsPayload d' ∧
      (∀ p, payloadBit d' p = baseBit c.cfg dlc st.dat p) ∧ min dlc c.cfg.maxDlc ≤ st.dat.length := by
  have hmin : (if dlc ≤ c.cfg.maxDlc then dlc else c.cfg.maxDlc) = min dlc c.cfg.maxDlc := by
    rw [Nat.min_def]
  simp only [exec, Option.ite_none_right_eq_some, Option.some.injEq, hmin] at h
  obtain ⟨hle, rfl⟩ := h
  refine ⟨_, rfl, ?_, ?_, ?_, hle⟩
  · simp; omega
  · intro b hb
    rcases List.mem_append.1 hb with hb | hb
    · rw [(List.mem_replicate.1 hb).2]; exact hi
    · exact hp b (List.mem_of_mem_drop hb)
  · intro p
    unfold baseBit payloadBit
    split
    next hlt =>
      rw [List.getD_eq_getElem?_getD, List.getElem?_append_left (by simpa using hlt)]
      rw [List.getElem?_replicate, if_pos hlt]; rfl
    next hlt =>
      rw [List.getD_eq_getElem?_getD, List.getElem?_append_right (by simpa using hlt)]
      simp only [List.length_replicate, List.getElem?_drop]
      rw [List.getD_eq_getElem?_getD]
      congr 3
      omega

/-! ### Preparation of fields -/

theorem prePack_dat {cfg : Cfg} {m : Msg} {x : CStmt} (h : x ∈ prePackStmts cfg m) :
    x.writesDat = false ∧ x.writesMon = false := by
  unfold prePackStmts at h
  simp only [List.mem_append] at h
  rcases h with (h | h) | h
  · cases hr : m.sigAt m.rollSig with
    | none => simp [hr] at h
    | some r => cases hf : cfg.flag .autoRoll <;> simp [hr, hf] at h; subst h; exact ⟨rfl, rfl⟩
  · cases hr : m.sigAt m.csmSig with
    | none => simp [hr] at h
    | some r => cases hf : cfg.flag .autoCsm <;> simp [hr, hf] at h; subst h; exact ⟨rfl, rfl⟩
  · split at h
    · obtain ⟨s, -, rfl⟩ := List.mem_map.1 h; exact ⟨rfl, rfl⟩
    · cases h

theorem names_inj {cfg : Cfg} {m : Msg} (hn : ((structDecls cfg m).map (·.1)).Nodup) {s t : Sig}
    (hs : s ∈ m.signals) (ht : t ∈ m.signals) (h : s.name = t.name) : s = t := by
  obtain ⟨a, b, hab⟩ := List.append_of_mem hs
  obtain ⟨u1, u2, u3, u4⟩ := name_unique hn hab
  have hin : ∀ l : List Sig, t ∈ l → t.name ∈ (l.flatMap (sigDecls cfg)).map (·.1) := by
    intro l hl
    exact List.mem_map.2 ⟨(t.name, sigDecl cfg t), List.mem_flatMap.2 ⟨t, hl, List.mem_cons_self ..⟩, rfl⟩
  rw [hab] at ht
  rcases List.mem_append.1 ht with ht | ht
  · exact absurd (h ▸ hin a ht) u3
  · rcases List.mem_cons.1 ht with ht | ht
    · exact ht.symm
    · exact absurd (h ▸ hin b ht) u2

/-! ### Checksum -/

theorem frags_single {s : Sig} (hl : 0 < s.lengthBit) (h : s.inByte) :
    ∃ f, frags s = [f] ∧ f.byte < 8 := by
  obtain ⟨i, hi, hb⟩ := h
  obtain ⟨h1, h2, h3⟩ := frags_spec s hl
  have hbyte : ∀ f ∈ frags s, f.byte = i := by
    intro f hf
    obtain ⟨hw, ho, hs, -, hp⟩ := h1 f hf
    have e := hp 0 hw
    have := hb (f.shift + 0) (by omega)
    omega
  have hfirst := hb 0 hl
  have hlast := hb (s.lengthBit - 1) (by omega)
  revert hbyte
  unfold frags fragsAt
  dsimp only
  split
  next => intro hbyte; exact ⟨_, rfl, by rw [hbyte _ (List.mem_singleton.2 rfl)]; exact hi⟩
  next hle =>
    intro hbyte
    by_cases hz : s.lengthBit - (msbPos s % 8 + 1) = 0
    · refine ⟨⟨msbPos s / 8, 0, msbPos s % 8 + 1, 0⟩, by rw [hz, tailFrags]; simp, ?_⟩
      have := hbyte _ (List.mem_cons_self ..)
      simp only at this ⊢
      omega
    · exfalso
      have hmsb := hbyte _ (List.mem_cons_self ..)
      simp only at hmsb
      have hne : ∃ g, g ∈ tailFrags s.order (s.lengthBit - (msbPos s % 8 + 1)) (msbPos s / 8) ∧
          g.byte = nextByte s.order (msbPos s / 8) := by
        rw [tailFrags]
        split
        · exact ⟨_, List.mem_cons_self .., rfl⟩
        · rw [if_pos (by omega)]; exact ⟨_, List.mem_singleton.2 rfl, rfl⟩
      obtain ⟨g, hg, hgb⟩ := hne
      have hgi := hbyte g (List.mem_cons_of_mem _ hg)
      rw [hgb, ← hmsb] at hgi
      unfold nextByte at hgi
      unfold Sig.pos bitPos Sig.intel at hfirst
      unfold msbPos at *
      cases ho : s.order <;> simp only [ho] at *
      · simp only [beq_self_eq_true, if_true] at hfirst
        omega
      · omega

theorem csmExpr_single {s : Sig} {f : Frag} (hl : 0 < s.lengthBit) (hl2 : s.lengthBit ≤ 64)
    (hf : frags s = [f]) (h8 : f.byte < 8) : csmExpr s = some (f.byte, .expr (f.toByte s.name)) := by
  unfold csmExpr
  rw [printSignalExpr_ok (by simp) hl (by omega) (by rw [hf]; simpa using h8), hf]
  simp only [List.foldl_cons, List.foldl_nil, Frag.apply]
  have hget : (List.replicate 8 Slot.empty).getD f.byte .empty = .empty := by
    simp only [List.getD, List.getElem?_replicate, if_pos h8, Option.getD_some]
  rw [hget]
  have hidx : (((List.replicate 8 Slot.empty).set f.byte (Slot.empty.append (f.toByte s.name))).findIdx?
      (· != .empty)) = some f.byte := by
    rw [List.findIdx?_eq_some_iff_getElem]
    refine ⟨by simpa using h8, by simp [Slot.append], ?_⟩
    intro j hj
    have : f.byte ≠ j := by omega
    simp only [List.getElem_set, this, if_false, List.getElem_replicate]; decide
  rw [hidx]
  simp [Slot.append, List.getD, h8]

/-- Effect of the checksum statements. -/
theorem csmPart {c : Ctx φ} {m : Msg} {st st' : St φ} (hm : MsgOk m) (hty : ∀ s ∈ m.signals, s.TypeOk)
    (hn : ((structDecls c.cfg m).map (·.1)).Nodup)
    (hdecl : ∀ s ∈ m.signals, c.decl s.name = some (sigDecl c.cfg s))
    (hcs : CsmHyp c.cfg m) (hp : IsPayload st.dat)
    (hz : c.cfg.flag .autoCsm = true → ∀ s, m.sigAt m.csmSig = some s → st.fld s.name = 0)
    (h : execAll c st (csmStmts c.cfg m) = some st') :
    st'.dat.length = st.dat.length ∧ IsPayload st'.dat ∧
    (∀ p, (payloadBit st'.dat p = true ↔ payloadBit st.dat p = true ∨
      ∃ s ∈ m.signals, st'.fld s.name ≠ st.fld s.name ∧ SigBit s (st'.fld s.name) p)) ∧
    (c.cfg.flag .autoCsm = true → ∀ s, m.sigAt m.csmSig = some s →
      st'.fld s.name = (sigDecl c.cfg s).store ((c.hash st.dat m.dlc m.msgId m.csmMethod m.csmOp % 256 : Nat) : Int)) ∧
    (∀ n, (c.cfg.flag .autoCsm = true → ∀ s, m.sigAt m.csmSig = some s → n ≠ s.name) → st'.fld n = st.fld n) := by
  unfold csmStmts at h
  cases hsig : m.sigAt m.csmSig with
  | none =>
    simp only [hsig, execAll, Option.some.injEq] at h
    subst h
    refine ⟨rfl, hp, fun p => ?_, fun _ s hs => (by cases hs), fun _ _ => rfl⟩
    constructor
    · exact Or.inl
    · rintro (h | ⟨s, -, hne, -⟩)
      · exact h
      · exact absurd rfl hne
  | some s =>
    have hs := sigAt_mem hsig
    rw [hsig] at h
    cases hf : c.cfg.flag .autoCsm with
    | false =>
      simp only [hf, Bool.false_eq_true, if_false, execAll, Option.some.injEq] at h
      subst h
      refine ⟨rfl, hp, fun p => ?_, fun h => (by simp at h), fun _ _ => rfl⟩
      constructor
      · exact Or.inl
      · rintro (h | ⟨s, -, hne, -⟩)
        · exact h
        · exact absurd rfl hne
    | true =>
      obtain ⟨hl, hl2, hfit⟩ := hm.2 s hs
      obtain ⟨hsimple, hin⟩ := hcs hf s hsig
      obtain ⟨f, hfr, hf8⟩ := frags_single hl hin
      have hz0 := hz hf s hsig
      simp only [hf, if_true, csmExpr_single hl hl2 hfr hf8, execAll] at h
      have hset : exec c st (.setCsm s.name m.dlc m.msgId m.csmMethod m.csmOp) = some (st.upd s.name
          ((sigDecl c.cfg s).store ((c.hash st.dat m.dlc m.msgId m.csmMethod m.csmOp % 256 : Nat) : Int))) := by
        simp only [exec, Ctx.assign, hdecl s hs, Option.map_some]
      rw [hset] at h
      simp only at h
      generalize hZ : (sigDecl c.cfg s).store ((c.hash st.dat m.dlc m.msgId m.csmMethod m.csmOp % 256 : Nat) : Int) = Z at *
      obtain ⟨g1, g2, -⟩ := frags_spec s hl
      obtain ⟨hw, ho, hsh, hzz, hpos⟩ := g1 f (by rw [hfr]; simp)
      have hread : (c.env (st.upd s.name Z)).fld s.name = some ⟨s.typeRo, Z⟩ := by
        show c.read _ s.name = _
        unfold Ctx.read
        rw [hdecl s hs, upd_same]; rfl
      have hpb : f.shift < s.typeRo.promote.bits := by
        have := (hty s hs).2
        have := s.typeRo.bits_le_promote
        omega
      obtain ⟨t, -, hev⟩ := eval_toByte hread hw ho hzz hpb
      simp only at hev
      cases hold : (st.upd s.name Z).dat[f.byte]? with
      | none =>
        have : exec c (st.upd s.name Z) (.orByte f.byte (.expr (f.toByte s.name))) = none := by
          simp only [exec, hev, Option.bind_eq_bind, Option.bind_some, hold, Option.bind_none]
        rw [this] at h
        simp at h
      | some old =>
        have hold' : st.dat[f.byte]? = some old := hold
        have ho256 : old < 256 := hp old (List.mem_of_getElem? hold')
        have hbv := f.byteVal_lt ho Z
        rw [exec_orByte hev hbv hold ho256] at h
        simp only [Option.some.injEq] at h
        subst h
        have hdat : (st.upd s.name Z).dat = st.dat := rfl
        have hflt : f.byte < st.dat.length := by
          rw [List.getElem?_eq_some_iff] at hold'; exact hold'.1
        refine ⟨by simp [hdat], ?_, ?_, ?_, ?_⟩
        · intro b hb
          rcases List.mem_or_eq_of_mem_set hb with hb | hb
          · exact hp b hb
          · subst hb; exact Nat.or_lt_two_pow (n := 8) ho256 hbv
        · intro p
          have hpd : 8 * (p / 8) + p % 8 = p := by omega
          have hbits : payloadBit ((st.upd s.name Z).dat.set f.byte (old ||| f.byteVal Z)) p = true ↔
              payloadBit st.dat p = true ∨ SigBit s Z p := by
            rw [hdat]
            have hfb := frags_bit hl Z (p / 8) (p % 8) (by omega)
            rw [hpd, hfr] at hfb
            rw [← hfb]
            unfold payloadBit
            rw [List.getD_eq_getElem?_getD, List.getD_eq_getElem?_getD]
            by_cases hb : f.byte = p / 8
            · rw [← hb]
              simp only [List.getElem?_set_self hflt, Option.getD_some, hold', Nat.testBit_or, Bool.or_eq_true,
                List.mem_singleton]
              apply or_congr Iff.rfl
              constructor
              · intro h; exact ⟨f, rfl, rfl, h⟩
              · rintro ⟨_, rfl, -, h⟩; exact h
            · rw [List.getElem?_set_ne hb]
              constructor
              · exact Or.inl
              · rintro (h | ⟨g, hg, hgb, -⟩)
                · exact h
                · rw [List.mem_singleton] at hg; subst hg; exact absurd hgb hb
          rw [hbits]
          apply or_congr Iff.rfl
          constructor
          · intro hsb
            refine ⟨s, hs, ?_, ?_⟩
            · show (st.upd s.name Z).fld s.name ≠ _
              rw [upd_same, hz0]
              rintro rfl
              obtain ⟨k, -, -, hk⟩ := hsb
              simp [intBit] at hk
            · show SigBit s ((st.upd s.name Z).fld s.name) p
              rw [upd_same]; exact hsb
          · rintro ⟨s', hs', hne, hsb⟩
            by_cases hnm : s'.name = s.name
            · have := names_inj hn hs' hs hnm
              subst this
              have : (st.upd s'.name Z).fld s'.name = Z := upd_same ..
              rw [← this]; exact hsb
            · exact absurd (upd_ne st Z hnm) hne
        · intro _ s' hs'
          cases hs'
          rw [hZ]
          exact upd_same ..
        · intro n hne
          exact upd_ne st Z (hne rfl s rfl)

end Verif
