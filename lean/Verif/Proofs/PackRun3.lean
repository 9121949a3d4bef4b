import Verif.Proofs.PackRun2
/- Results about the whole Pack function. -/
namespace Verif
open Spec
variable {φ : Type}

theorem store_zero (d : FDecl) : d.store 0 = 0 := by
  have h : d.ty.conv 0 = 0 := by unfold CTy.conv; split <;> simp
  unfold FDecl.store
  rw [h]
  split
  · rfl
  · split <;> simp

/-- The physical conversion statements of Pack. -/
def toSStmts (cfg : Cfg) (m : Msg) : List CStmt :=
  if m.hasPhys && cfg.flag .useSigFloat then
    (m.signals.filter (fun s => !s.isSimple)).map (fun s => .toS s.name s.typeRo s.nameFloat) else []

/-- The rolling counter statement of Pack. -/
def rollStmts (cfg : Cfg) (m : Msg) : List CStmt :=
  match m.sigAt m.rollSig with
  | some r => if cfg.flag .autoRoll then [.incr r.name r.name (2 ^ r.lengthBit - 1)] else []
  | none => []

/-- The checksum clearing statement of Pack. -/
def clearStmts (cfg : Cfg) (m : Msg) : List CStmt :=
  match m.sigAt m.csmSig with
  | some s => if cfg.flag .autoCsm then [.clear s.name s.typeRo] else []
  | none => []

theorem prePack_eq (cfg : Cfg) (m : Msg) :
    prePackStmts cfg m = rollStmts cfg m ++ clearStmts cfg m ++ toSStmts cfg m := rfl

theorem toSStmts_writes {cfg : Cfg} {m : Msg} {n : Str} (h : n ∈ (toSStmts cfg m).flatMap CStmt.writes) :
    cfg.flag .useSigFloat = true ∧ ∃ s ∈ m.signals, s.isSimple = false ∧ n = s.name := by
  unfold toSStmts at h
  split at h
  next hf =>
    obtain ⟨x, hx, hn⟩ := List.mem_flatMap.1 h
    obtain ⟨s, hs, rfl⟩ := List.mem_map.1 hx
    obtain ⟨hs1, hs2⟩ := List.mem_filter.1 hs
    refine ⟨(Bool.and_eq_true _ _ ▸ hf).2, s, hs1, by simpa using hs2, by simpa [CStmt.writes] using hn⟩
  next => cases h

theorem toSStmts_nil {cfg : Cfg} {m : Msg} (h : NoPhys cfg m) : toSStmts cfg m = [] := by
  unfold toSStmts
  rcases h with h | h
  · simp [h]
  · split
    · have : m.signals.filter (fun s => !s.isSimple) = [] := by
        rw [List.filter_eq_nil_iff]
        intro s hs
        simp [h s hs]
      rw [this]; rfl
    · rfl

theorem rollStmts_writes {cfg : Cfg} {m : Msg} {n : Str} (h : n ∈ (rollStmts cfg m).flatMap CStmt.writes) :
    cfg.flag .autoRoll = true ∧ ∃ s, m.sigAt m.rollSig = some s ∧ n = s.name := by
  unfold rollStmts at h
  cases hr : m.sigAt m.rollSig with
  | none => simp [hr] at h
  | some r => cases hf : cfg.flag .autoRoll <;> simp [hr, hf, CStmt.writes] at h; exact ⟨rfl, r, rfl, h⟩

theorem clearStmts_writes {cfg : Cfg} {m : Msg} {n : Str} (h : n ∈ (clearStmts cfg m).flatMap CStmt.writes) :
    cfg.flag .autoCsm = true ∧ ∃ s, m.sigAt m.csmSig = some s ∧ n = s.name := by
  unfold clearStmts at h
  cases hr : m.sigAt m.csmSig with
  | none => simp [hr] at h
  | some r => cases hf : cfg.flag .autoCsm <;> simp [hr, hf, CStmt.writes] at h; exact ⟨rfl, r, rfl, h⟩

theorem prePack_frame {c : Ctx φ} {m : Msg} {st st' : St φ}
    (h : execAll c st (prePackStmts c.cfg m) = some st') :
    st'.dat = st.dat ∧ st'.mon = st.mon ∧ ∀ n, ¬ PackWrites c.cfg m n → st'.fld n = st.fld n := by
  obtain ⟨h1, h2, h3⟩ := execAll_frame h
  refine ⟨h2 fun x hx => (prePack_dat hx).1, h3 fun x hx => (prePack_dat hx).2, ?_⟩
  intro n hn
  apply h1
  rw [prePack_eq, List.flatMap_append, List.flatMap_append, List.mem_append, List.mem_append]
  rintro ((hx | hx) | hx)
  · exact hn (Or.inl (rollStmts_writes hx))
  · exact hn (Or.inr (Or.inl (clearStmts_writes hx)))
  · exact hn (Or.inr (Or.inr (toSStmts_writes hx)))

theorem prePack_csm {c : Ctx φ} {m : Msg} (hn : ((structDecls c.cfg m).map (·.1)).Nodup)
    (hdecl : ∀ s ∈ m.signals, c.decl s.name = some (sigDecl c.cfg s)) (hcs : CsmHyp c.cfg m) {st st' : St φ}
    (h : execAll c st (prePackStmts c.cfg m) = some st') :
    c.cfg.flag .autoCsm = true → ∀ s, m.sigAt m.csmSig = some s → st'.fld s.name = 0 := by
  intro hf s hs
  have hm := sigAt_mem hs
  have : clearStmts c.cfg m = [.clear s.name s.typeRo] := by unfold clearStmts; rw [hs]; simp [hf]
  rw [prePack_eq, this, List.append_assoc, List.singleton_append] at h
  obtain ⟨st1, st2, -, h2, h3⟩ := execAll_split h
  rw [(execAll_frame h3).1]
  · simp only [exec, Ctx.assign, hdecl s hm, Option.map_some, Option.some.injEq] at h2
    subst h2
    rw [upd_same]
    have : s.typeRo.conv 0 = 0 := by unfold CTy.conv; split <;> simp
    rw [this]; exact store_zero _
  · intro hx
    obtain ⟨-, t, ht, hts, hnm⟩ := toSStmts_writes hx
    have := names_inj hn hm ht hnm
    subst this
    rw [(hcs hf s hs).1] at hts
    cases hts

/-- Payload after Pack, bit by bit, in terms of the final fields. -/
theorem pack_bits {c : Ctx φ} {m : Msg} (hc : c.decls = structDecls c.cfg m) (hm : MsgOk m)
    (hty : ∀ s ∈ m.signals, s.TypeOk) (hcs : CsmHyp c.cfg m) (hi : c.cfg.initByte < 256)
    {st st' : St φ} (hd : IsPayload st.dat) (hlen : m.dlc ≤ st.dat.length)
    (h : runPack c m st = .ok st') :
    st'.dat.length = st.dat.length ∧ IsPayload st'.dat ∧
    (∀ p, payloadBit st'.dat p = true ↔
      baseBit c.cfg m.dlc st.dat p = true ∨ ∃ s ∈ m.signals, SigBit s (st'.fld s.name) p) ∧
    (∀ n, ¬ PackWrites c.cfg m n → st'.fld n = st.fld n) ∧
    st'.mon = st.mon ∧ st'.retv = some m.msgId ∧ st'.outDlc = some (m.dlc % 256) ∧
    st'.outIde = some (m.ide % 256) ∧ (c.cfg.flag .useCanStruct = true → st'.outId = some (m.msgId % 2 ^ 32)) := by
  obtain ⟨hdo, hr, hco, stA, stB, stC, stD, hA, hB, hC, hD, rfl⟩ := runPack_parts hm h
  have hn := nodup_of_declsOk hdo
  have hn' : ((structDecls c.cfg m).map (·.1)).Nodup := hc ▸ hn
  have hdecl : ∀ s ∈ m.signals, c.decl s.name = some (sigDecl c.cfg s) :=
    fun s hs => decl_of_mem hc hn (structSigs_mem hs)
  obtain ⟨dA, rfl, lA, pA, bA, -⟩ := exec_init hi hd hA
  obtain ⟨fB1, fB2, fB3⟩ := prePack_frame hB
  have hz := prePack_csm hn' hdecl hcs hB
  obtain ⟨dC, eC, lC, pC, bC⟩ := bytePart (st := stB) hm hty hdecl (by rw [fB1]; exact pA)
    (by rw [fB1]; simp only [lA]; exact hlen)
  rw [eC, Option.some.injEq] at hC
  subst hC
  obtain ⟨lD, pD, bD, cD, fD⟩ := csmPart (st := { stB with dat := dC }) hm hty hn' hdecl hcs pC hz hD
  have hmonD : stD.mon = stB.mon := by
    refine (execAll_frame hD).2.2 ?_
    intro x hx
    unfold csmStmts at hx
    cases hsig : m.sigAt m.csmSig with
    | none => simp [hsig] at hx
    | some s =>
      cases hf : c.cfg.flag .autoCsm
      · simp [hsig, hf] at hx
      · simp only [hsig, hf, if_true] at hx
        split at hx
        · simp only [List.mem_cons, List.not_mem_nil, or_false] at hx
          rcases hx with rfl | rfl <;> rfl
        · cases hx
  have hfits : ∀ s ∈ m.signals, ∀ z p, SigBit s z p → p < 8 * m.dlc := by
    rintro s hs z p ⟨k, hk, rfl, -⟩
    exact (hm.2 s hs).2.2 k hk
  refine ⟨?_, pD, ?_, ?_, by simp only [hmonD, fB2], rfl, rfl, rfl, fun q => if_pos q⟩
  · simp only [lD, lC, fB1, lA]
  · intro p
    simp only
    rw [bD p]
    simp only
    rw [bC p, fB1]
    simp only
    rw [bA p]
    constructor
    · rintro ((h1 | ⟨-, s, hs, hb⟩) | ⟨s, hs, -, hb⟩)
      · exact Or.inl h1
      · refine Or.inr ⟨s, hs, ?_⟩
        have : stD.fld s.name = stB.fld s.name := by
          apply fD
          intro hf t ht hnm
          have := names_inj hn' hs (sigAt_mem ht) hnm
          subst this
          rw [hz hf s ht] at hb
          obtain ⟨k, -, -, hk⟩ := hb
          simp [intBit] at hk
        rw [this]; exact hb
      · exact Or.inr ⟨s, hs, hb⟩
    · rintro (h1 | ⟨s, hs, hb⟩)
      · exact Or.inl (Or.inl h1)
      · by_cases he : stD.fld s.name = stB.fld s.name
        · rw [he] at hb
          exact Or.inl (Or.inr ⟨hfits s hs _ p hb, s, hs, hb⟩)
        · exact Or.inr ⟨s, hs, he, hb⟩
  · intro n hnw
    simp only
    rw [fD n ?_]
    · exact fB3 n hnw
    · intro hf s hs he
      exact hnw (Or.inr (Or.inl ⟨hf, s, hs, he⟩))

/-- The rolling counter field after Pack. -/
theorem pack_roll {c : Ctx φ} {m : Msg} (hc : c.decls = structDecls c.cfg m) (hm : MsgOk m)
    (hty : ∀ s ∈ m.signals, s.TypeOk) (hcs : CsmHyp c.cfg m)
    (hi : c.cfg.initByte < 256)
    {st st' : St φ} (hd : IsPayload st.dat) (hlen : m.dlc ≤ st.dat.length)
    {r : Sig} (hr : m.sigAt m.rollSig = some r) (hf : c.cfg.flag .autoRoll = true)
    (hnc : c.cfg.flag .autoCsm = true → m.sigAt m.csmSig ≠ some r)
    (hsimple : c.cfg.flag .useSigFloat = true → r.isSimple = true)
    (hb : -(2:Int) ^ 30 ≤ st.fld r.name ∧ st.fld r.name < 2 ^ 30)
    (h : runPack c m st = .ok st') :
    st'.fld r.name = (sigDecl c.cfg r).store ((st.fld r.name + 1) % 2 ^ r.lengthBit) := by
  obtain ⟨hdo, hro, hco, stA, stB, stC, stD, hA, hB, hC, hD, rfl⟩ := runPack_parts hm h
  have hn := nodup_of_declsOk hdo
  have hn' : ((structDecls c.cfg m).map (·.1)).Nodup := hc ▸ hn
  have hrm := sigAt_mem hr
  have hdecl : ∀ s ∈ m.signals, c.decl s.name = some (sigDecl c.cfg s) :=
    fun s hs => decl_of_mem hc hn (structSigs_mem hs)
  obtain ⟨dA, rfl, lA, pA, bA, -⟩ := exec_init hi hd hA
  have hz := prePack_csm hn' hdecl hcs hB
  obtain ⟨fB1, fB2, fB3⟩ := prePack_frame hB
  obtain ⟨dC, eC, lC, pC, bC⟩ := bytePart (st := stB) hm hty hdecl (by rw [fB1]; exact pA)
    (by rw [fB1]; simp only [lA]; exact hlen)
  rw [eC, Option.some.injEq] at hC
  subst hC
  obtain ⟨lD, pD, bD, cD, fD⟩ := csmPart (st := { stB with dat := dC }) hm hty hn' hdecl hcs pC hz hD
  simp only
  rw [fD r.name ?_]
  · simp only
    have hrs : rollStmts c.cfg m = [.incr r.name r.name (2 ^ r.lengthBit - 1)] := by
      unfold rollStmts; rw [hr]; simp [hf]
    rw [prePack_eq, hrs, List.append_assoc, List.singleton_append] at hB
    obtain ⟨st1, st2, x1, x2, x3⟩ := execAll_split (a := []) hB
    simp only [execAll, Option.some.injEq] at x1
    subst x1
    rw [exec_incr (hdecl r hrm) (hdecl r hrm) (hro r hr) (by exact hb), Option.some.injEq] at x2
    rw [(execAll_frame x3).1, ← x2, upd_same]
    rw [List.flatMap_append, List.mem_append]
    rintro (hx | hx)
    · obtain ⟨hfc, t, ht, he⟩ := clearStmts_writes hx
      have := names_inj hn' hrm (sigAt_mem ht) he
      subst this
      exact hnc hfc ht
    · obtain ⟨hfs, t, ht, hts, he⟩ := toSStmts_writes hx
      have := names_inj hn' hrm ht he
      subst this
      rw [hsimple hfs] at hts
      cases hts
  · intro hfc t ht he
    have := names_inj hn' hrm (sigAt_mem ht) he
    subst this
    exact hnc hfc ht

/-- Condition on the checksum signal for every configuration. -/
theorem csmOk_of {m : Msg} (hm : MsgOk m)
    (h : ∀ s, m.sigAt m.csmSig = some s → s.isSimple = true ∧ s.inByte) : CsmOk m := by
  intro s hs
  obtain ⟨hl, hl2, -⟩ := hm.2 s (sigAt_mem hs)
  obtain ⟨f, hf, h8⟩ := frags_single hl (h s hs).2
  rw [csmExpr_single hl hl2 hf h8]
  simp

/-- Pack has no undefined behaviour if the statements before the byte statements have none. -/
theorem pack_total_of {c : Ctx φ} {m : Msg} (hc : c.decls = structDecls c.cfg m) (hm : MsgOk m)
    (hty : ∀ s ∈ m.signals, s.TypeOk)
    (hcs' : ∀ s, m.sigAt m.csmSig = some s → s.isSimple = true ∧ s.inByte)
    (hi : c.cfg.initByte < 256) (hdo : c.declsOk = true) (hr : RollOk m)
    {st : St φ} (hd : IsPayload st.dat) (hlen : m.dlc ≤ st.dat.length)
    (hpre : ∀ dA, ∃ stB, execAll c { st with dat := dA } (prePackStmts c.cfg m) = some stB) :
    ∃ st', runPack c m st = .ok st' := by
  have hco := csmOk_of hm hcs'
  have hcs : CsmHyp c.cfg m := fun _ => hcs'
  have hn := nodup_of_declsOk hdo
  have hn' : ((structDecls c.cfg m).map (·.1)).Nodup := hc ▸ hn
  have hdecl : ∀ s ∈ m.signals, c.decl s.name = some (sigDecl c.cfg s) :=
    fun s hs => decl_of_mem hc hn (structSigs_mem hs)
  rw [(runPack_eq c hm st).2 ⟨hr, hco⟩, if_pos hdo]
  have hmin : (if m.dlc ≤ c.cfg.maxDlc then m.dlc else c.cfg.maxDlc) ≤ st.dat.length := by split <;> omega
  have hA : ∃ stA, exec c st (.initLoop m.dlc) = some stA := by
    simp only [exec]; rw [if_pos hmin]; exact ⟨_, rfl⟩
  obtain ⟨stA, hA⟩ := hA
  obtain ⟨dA, rfl, lA, pA, bA, -⟩ := exec_init hi hd hA
  have hB := hpre dA
  obtain ⟨stB, hB⟩ := hB
  obtain ⟨fB1, fB2, fB3⟩ := prePack_frame hB
  obtain ⟨dC, eC, lC, pC, bC⟩ := bytePart (st := stB) hm hty hdecl (by rw [fB1]; exact pA)
    (by rw [fB1]; simp only [lA]; exact hlen)
  have hD : ∃ stD, execAll c { stB with dat := dC } (csmStmts c.cfg m) = some stD := by
    unfold csmStmts
    cases hsig : m.sigAt m.csmSig with
    | none => exact ⟨_, rfl⟩
    | some s =>
      cases hf : c.cfg.flag .autoCsm
      · simp only [Bool.false_eq_true, if_false]; exact ⟨_, rfl⟩
      · have hs := sigAt_mem hsig
        obtain ⟨hl, hl2, hfit⟩ := hm.2 s hs
        obtain ⟨hsimple, hin⟩ := hcs hf s hsig
        obtain ⟨f, hfr, hf8⟩ := frags_single hl hin
        obtain ⟨g1, g2, -⟩ := frags_spec s hl
        obtain ⟨hw, ho, hsh, hzz, hpos⟩ := g1 f (by rw [hfr]; simp)
        have hfb := frags_lt_of_fits hl hfit f (by rw [hfr]; simp)
        simp only [if_true, csmExpr_single hl hl2 hfr hf8, execAll]
        simp only [exec, Ctx.assign, hdecl s hs, Option.map_some]
        generalize (sigDecl c.cfg s).store _ = Z
        have hread : (c.env (St.upd { stB with dat := dC } s.name Z)).fld s.name = some ⟨s.typeRo, Z⟩ := by
          show c.read _ s.name = _
          unfold Ctx.read
          rw [hdecl s hs, upd_same]; rfl
        have hpb : f.shift < s.typeRo.promote.bits := by
          have := (hty s hs).2
          have := s.typeRo.bits_le_promote
          omega
        obtain ⟨t, -, hev⟩ := eval_toByte hread hw ho hzz hpb
        have hdl : f.byte < dC.length := by rw [lC, fB1]; simp only [lA]; omega
        have hold : (St.upd { stB with dat := dC } s.name Z).dat[f.byte]? = some dC[f.byte] :=
          List.getElem?_eq_getElem hdl
        simp only [hev, Option.bind_eq_bind, Option.bind_some, hold, pure]
        exact ⟨_, rfl⟩
  obtain ⟨stD, hD⟩ := hD
  have hall : execAll c st (packStmts c.cfg m ++ packOuts c.cfg m) ≠ none := by
    unfold packStmts
    rw [execAll_append, execAll_append, execAll_append, execAll_append]
    simp only [execAll, hA, Option.bind_some, hB, eC, hD, execAll_outs]
    simp
  cases hfin : execAll c st (packStmts c.cfg m ++ packOuts c.cfg m) with
  | none => exact absurd hfin hall
  | some st' => exact ⟨st', rfl⟩

/-- The statements for the rolling counter and the checksum member are defined. -/
theorem rollClear_total {c : Ctx φ} {m : Msg} (hc : c.decls = structDecls c.cfg m) (hn : (c.decls.map (·.1)).Nodup) (hr : RollOk m) {st : St φ}
    (hb : c.cfg.flag .autoRoll = true → ∀ r, m.sigAt m.rollSig = some r →
      -(2:Int) ^ 30 ≤ st.fld r.name ∧ st.fld r.name < 2 ^ 30) :
    ∃ st1, execAll c st (rollStmts c.cfg m ++ clearStmts c.cfg m) = some st1 := by
  have hdecl : ∀ s ∈ m.signals, c.decl s.name = some (sigDecl c.cfg s) :=
    fun s hs => decl_of_mem hc hn (structSigs_mem hs)
  rw [execAll_append]
  have h1 : ∃ st1, execAll c st (rollStmts c.cfg m) = some st1 := by
    unfold rollStmts
    cases hrs : m.sigAt m.rollSig with
    | none => exact ⟨_, rfl⟩
    | some r =>
      cases hf : c.cfg.flag .autoRoll
      · simp only [Bool.false_eq_true, if_false]; exact ⟨_, rfl⟩
      · have hrm := sigAt_mem hrs
        simp only [if_true, execAll]
        rw [exec_incr (st := st) (hdecl r hrm) (hdecl r hrm) (hr r hrs) (hb hf r hrs)]
        exact ⟨_, rfl⟩
  obtain ⟨st1, h1⟩ := h1
  rw [h1, Option.bind_some]
  unfold clearStmts
  cases hrs : m.sigAt m.csmSig with
  | none => exact ⟨_, rfl⟩
  | some r =>
    cases hf : c.cfg.flag .autoCsm
    · simp only [Bool.false_eq_true, if_false]; exact ⟨_, rfl⟩
    · have hrm := sigAt_mem hrs
      simp only [if_true, execAll, exec, Ctx.assign, hdecl r hrm, Option.map_some]
      exact ⟨_, rfl⟩

/-- Pack has no undefined behaviour. -/
theorem pack_total {c : Ctx φ} {m : Msg} (hc : c.decls = structDecls c.cfg m) (hm : MsgOk m)
    (hty : ∀ s ∈ m.signals, s.TypeOk)
    (hcs' : ∀ s, m.sigAt m.csmSig = some s → s.isSimple = true ∧ s.inByte)
    (hi : c.cfg.initByte < 256) (hdo : c.declsOk = true) (hr : RollOk m) (hph : NoPhys c.cfg m)
    {st : St φ} (hd : IsPayload st.dat) (hlen : m.dlc ≤ st.dat.length)
    (hb : c.cfg.flag .autoRoll = true → ∀ r, m.sigAt m.rollSig = some r →
      -(2:Int) ^ 30 ≤ st.fld r.name ∧ st.fld r.name < 2 ^ 30) :
    ∃ st', runPack c m st = .ok st' := by
  refine pack_total_of hc hm hty hcs' hi hdo hr hd hlen fun dA => ?_
  rw [prePack_eq, toSStmts_nil hph, List.append_nil]
  exact rollClear_total hc (nodup_of_declsOk hdo) hr hb

end Verif
