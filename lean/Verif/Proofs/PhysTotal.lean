import Verif.Proofs.PhysPack
/- Pack with physical conversions is defined; the floating members after Unpack and the raw members Pack
computes from them. -/
namespace Verif
open Spec
variable {φ : Type}

/-- The statement writes a floating member. -/
def CStmt.fltWrites : CStmt → List Str
  | .fromSFloat dst _ => [dst]
  | _ => []

theorem assign_flt {c : Ctx φ} {st st' : St φ} {n : Str} {z : Int} (h : c.assign st n z = some st') : st'.flt = st.flt := by
  obtain ⟨d, -, rfl⟩ := assign_some h
  rfl

theorem exec_flt {c : Ctx φ} {st st' : St φ} {s : CStmt} (h : exec c st s = some st') : ∀ n, n ∉ s.fltWrites → st'.flt n = st.flt n := by
  have fin : ∀ {st st' : St φ} {k : Str} {z : Int}, c.assign st k z = some st' → ∀ n, n ∉ ([] : List Str) → st'.flt n = st.flt n :=
    fun h n _ => by rw [assign_flt h]
  cases s with
  | setSig d t e =>
    cases e with
    | err => simp [exec] at h
    | expr e =>
      simp only [exec, Option.bind_eq_bind, Option.bind_eq_some_iff] at h
      obtain ⟨v, -, h⟩ := h
      exact fin h
  | setSigExt d t e b =>
    cases e with
    | err => simp [exec] at h
    | expr e =>
      simp only [exec, Option.bind_eq_bind, Option.bind_eq_some_iff] at h
      obtain ⟨v, -, x, -, h⟩ := h
      exact fin h
  | fromSFloat d mac =>
    simp only [exec, Option.bind_eq_bind, Option.bind_eq_some_iff] at h
    obtain ⟨v, -, s, -, h⟩ := h
    intro n hn
    have hne : n ≠ d := by simpa [CStmt.fltWrites] using hn
    split at h
    · split at h
      · simp only [pure, Option.some.injEq] at h; subst h; simp [hne]
      · simp only [Option.bind_eq_some_iff, pure, Option.some.injEq] at h
        obtain ⟨y, -, h⟩ := h
        subst h; simp [hne]
    · cases h
  | fromSInt d t mac =>
    simp only [exec, Option.bind_eq_bind, Option.bind_eq_some_iff] at h
    obtain ⟨v, -, s, -, h⟩ := h
    split at h
    · rw [Option.bind_eq_some_iff] at h
      obtain ⟨z, -, h⟩ := h
      exact fin h
    · rw [Option.bind_eq_some_iff] at h
      obtain ⟨z, -, h⟩ := h
      exact fin h
  | toS d t src =>
    simp only [exec, Option.bind_eq_bind, Option.bind_eq_some_iff] at h
    obtain ⟨s, -, h⟩ := h
    split at h
    · split at h
      · rw [Option.bind_eq_some_iff] at h
        obtain ⟨z, -, h⟩ := h
        exact fin h
      · rw [Option.bind_eq_some_iff] at h
        obtain ⟨z, -, h⟩ := h
        exact fin h
    · split at h
      · rw [Option.bind_eq_some_iff] at h
        obtain ⟨z, -, h⟩ := h
        exact fin h
      · cases h
  | incr d src k =>
    simp only [exec, Option.bind_eq_bind, Option.bind_eq_some_iff] at h
    obtain ⟨v, -, w, -, h⟩ := h
    exact fin h
  | clear n t => simp only [exec] at h; exact fin h
  | setCsm n a b k o => simp only [exec] at h; exact fin h
  | monDlc d => simp only [exec, Option.some.injEq] at h; subst h; exact fun _ _ => rfl
  | monTick => simp only [exec, Option.some.injEq] at h; subst h; exact fun _ _ => rfl
  | monCnt => simp only [exec, Option.some.injEq] at h; subst h; exact fun _ _ => rfl
  | monRoll n =>
    simp only [exec, Option.bind_eq_bind, Option.bind_eq_some_iff, pure, Option.some.injEq] at h
    obtain ⟨a, -, b, -, h⟩ := h
    subst h; exact fun _ _ => rfl
  | monCsm a b k o n =>
    simp only [exec, Option.bind_eq_bind, Option.bind_eq_some_iff, pure, Option.some.injEq] at h
    obtain ⟨a, -, h⟩ := h
    subst h; exact fun _ _ => rfl
  | fmon a b => simp only [exec, Option.some.injEq] at h; subst h; exact fun _ _ => rfl
  | initLoop d =>
    simp only [exec] at h
    generalize (if d ≤ c.cfg.maxDlc then d else c.cfg.maxDlc) = k at h
    split at h
    · simp only [Option.some.injEq] at h; subst h; exact fun _ _ => rfl
    · cases h
  | orByte i e =>
    cases e with
    | empty => simp [exec] at h
    | err => simp [exec] at h
    | expr e =>
      simp only [exec, Option.bind_eq_bind, Option.bind_eq_some_iff, pure, Option.some.injEq] at h
      obtain ⟨v, -, old, -, h⟩ := h
      subst h; exact fun _ _ => rfl
  | outId i => simp only [exec, Option.some.injEq] at h; subst h; exact fun _ _ => rfl
  | outDlc i => simp only [exec, Option.some.injEq] at h; subst h; exact fun _ _ => rfl
  | outIde i => simp only [exec, Option.some.injEq] at h; subst h; exact fun _ _ => rfl
  | ret i => simp only [exec, Option.some.injEq] at h; subst h; exact fun _ _ => rfl

theorem execAll_flt {c : Ctx φ} : ∀ {l : List CStmt} {st st' : St φ}, execAll c st l = some st' →
    ∀ n, n ∉ l.flatMap CStmt.fltWrites → st'.flt n = st.flt n
  | [], _, _, h, _, _ => by simp only [execAll, Option.some.injEq] at h; rw [h]
  | s :: l, st, st', h, n, hn => by
    simp only [execAll] at h
    simp only [List.flatMap_cons, List.mem_append, not_or] at hn
    split at h
    · cases h
    next st1 h1 => rw [execAll_flt h n hn.2, exec_flt h1 n hn.1]

/-! ### Names of the floating members -/

theorem lookup_key {α : Type} : ∀ {l : List (Str × α)} {n : Str} {a : α}, l.lookup n = some a → n ∈ l.map (·.1)
  | [], _, _, h => by cases h
  | (k, v) :: l, n, a, h => by
    rw [List.lookup_cons] at h
    by_cases he : n = k
    · rw [he]; exact List.mem_cons_self
    · rw [beq_false_of_ne he] at h
      exact List.mem_cons_of_mem _ (lookup_key h)

/-- All names of members of the struct. -/
theorem names_all {c : Ctx φ} (h : c.declsOk = true) : (c.decls.map (·.1) ++ c.floats).Nodup := by
  unfold Ctx.declsOk at h
  exact of_decide_eq_true h

theorem float_mem {cfg : Cfg} {m : Msg} {s : Sig} (hs : s ∈ m.signals) (h1 : s.isSimple = false) (h2 : cfg.flag .useSigFloat = true) (h3 : s.isDouble = true) :
    s.nameFloat ∈ floatDecls cfg m := by
  unfold floatDecls
  refine List.mem_flatMap.2 ⟨s, structSigs_mem hs, ?_⟩
  unfold sigFloats
  simp [h1, h2, h3]

/-- A floating member is no integer member. -/
theorem float_noDecl {c : Ctx φ} {m : Msg} (hcf : c.floats = floatDecls c.cfg m) (hdo : c.declsOk = true) {s : Sig} (hs : s ∈ m.signals) (h1 : s.isSimple = false)
    (h2 : c.cfg.flag .useSigFloat = true) (h3 : s.isDouble = true) : c.decl s.nameFloat = none := by
  have hn := names_all hdo
  have hm : s.nameFloat ∈ c.floats := by rw [hcf]; exact float_mem hs h1 h2 h3
  unfold Ctx.decl
  cases hl : c.decls.lookup s.nameFloat with
  | none => rfl
  | some d =>
    have : s.nameFloat ∈ c.decls.map (·.1) := lookup_key hl
    exact absurd rfl ((List.nodup_append.1 hn).2.2 _ this _ hm)

/-- The floating member is the member of one signal. -/
theorem float_unique {c : Ctx φ} {m : Msg} (hcf : c.floats = floatDecls c.cfg m) (hdo : c.declsOk = true) {a b : List Sig} {s : Sig} (hm : m.signals = a ++ s :: b)
    (h1 : s.isSimple = false) (h2 : c.cfg.flag .useSigFloat = true) (h3 : s.isDouble = true) : s.nameFloat ∉ b.flatMap (sigFloats c.cfg) := by
  have hn := (List.nodup_append.1 (names_all hdo)).2.1
  rw [hcf] at hn
  unfold floatDecls structSigs at hn
  rw [hm, List.flatMap_append, List.flatMap_append, List.flatMap_cons] at hn
  have hw : sigFloats c.cfg s = [s.nameFloat] := by unfold sigFloats; simp [h1, h2, h3]
  rw [hw] at hn
  have h4 := (List.nodup_append.1 (List.nodup_append.1 hn).1).2.1
  rw [List.singleton_append, List.nodup_cons] at h4
  exact h4.1

theorem rawStmt_flt (s : Sig) : (rawStmt s).fltWrites = [] := by
  unfold rawStmt
  split <;> rfl

theorem physStmts_flt (cfg : Cfg) (s : Sig) : (physStmts cfg s).flatMap CStmt.fltWrites = sigFloats cfg s := by
  unfold physStmts sigFloats
  cases s.isSimple <;> cases cfg.flag .useSigFloat <;> cases s.isDouble <;> simp [CStmt.fltWrites]

theorem unpackSig_flt (cfg : Cfg) : ∀ l : List Sig, (unpackSigStmts cfg l).flatMap CStmt.fltWrites = l.flatMap (sigFloats cfg)
  | [] => rfl
  | s :: l => by
    have : unpackSigStmts cfg (s :: l) = rawStmt s :: (physStmts cfg s ++ unpackSigStmts cfg l) := by
      unfold unpackSigStmts; simp
    rw [this, List.flatMap_cons, List.flatMap_append, rawStmt_flt, physStmts_flt, unpackSig_flt cfg l, List.flatMap_cons]
    rfl

theorem monStmts_flt (cfg : Cfg) (m : Msg) : (monStmts cfg m).flatMap CStmt.fltWrites = [] := by
  unfold monStmts
  cases cfg.flag .useMon
  · rfl
  · cases m.sigAt m.rollSig <;> cases m.sigAt m.csmSig <;> cases cfg.flag .autoRoll <;> cases cfg.flag .autoCsm <;> rfl

/-- The floating member after a successful Unpack. -/
theorem unpack_float {c : Ctx φ} {m : Msg} (hc : c.decls = structDecls c.cfg m) (hcf : c.floats = floatDecls c.cfg m) (hm : MsgOk m)
    {st st' : St φ} (h : runUnpack c m st = .ok st')
    {s : Sig} (hs : s ∈ m.signals) (h1 : s.isSimple = false) (h2 : c.cfg.flag .useSigFloat = true)
    (h3 : s.isDouble = true) {s0 : Sig} (hmac : c.macros.lookup s.name = some s0) (h4 : s0.isDouble = true) :
    st'.flt s.nameFloat = c.fl.fromS s0 (st'.fld s.name) := by
  obtain ⟨hdo, hr, st1, st2, e1, e2, rfl⟩ := runUnpack_parts hm h
  have hn := nodup_of_declsOk hdo
  obtain ⟨a, b, hab⟩ := List.append_of_mem hs
  have hps : physStmts c.cfg s = [.fromSFloat s.nameFloat s.name] := by unfold physStmts; simp [h1, h2, h3]
  have hsplit : unpackSigStmts c.cfg m.signals =
      (unpackSigStmts c.cfg a ++ [rawStmt s]) ++ (.fromSFloat s.nameFloat s.name) :: unpackSigStmts c.cfg b := by
    rw [hab]; unfold unpackSigStmts; simp [hps]
  rw [hsplit] at e1
  obtain ⟨sa, sb, x1, x2, x3⟩ := execAll_split e1
  have hn' : ((structDecls c.cfg m).map (·.1)).Nodup := hc ▸ hn
  obtain ⟨u1, u2, u3, u4⟩ := name_unique hn' hab
  have hdecl : c.decl s.name = some (sigDecl c.cfg s) := decl_of_mem hc hn (structSigs_mem hs)
  have hmem : s.nameFloat ∈ c.floats := by rw [hcf]; exact float_mem hs h1 h2 h3
  have hread : c.read sa s.name = some ⟨s.typeRo, sa.fld s.name⟩ := by unfold Ctx.read; rw [hdecl]; rfl
  simp only [exec, hread, hmac, h4, if_pos hmem, if_true, Option.bind_eq_bind, Option.bind_some, pure, Option.some.injEq] at x2
  subst x2
  have hname : st2.fld s.name = sa.fld s.name := by
    rw [(execAll_frame e2).1 s.name, (execAll_frame x3).1 s.name]
    · rw [unpackSigStmts_writes]; exact u2
    · intro hx
      obtain ⟨r, r1, r2, -, r3⟩ := monStmts_writes hx
      exact u4 r r1 r2 r3
  show st2.flt s.nameFloat = c.fl.fromS s0 (st2.fld s.name)
  rw [hname, execAll_flt e2 _ (by rw [monStmts_flt]; exact List.not_mem_nil), execAll_flt x3 _ (by rw [unpackSig_flt]; exact float_unique hcf hdo hab h1 h2 h3)]
  simp

/-! ### Pack -/

/-- The conversion of a signal in Pack is defined on the state. -/
def PackPhysOk (c : Ctx φ) (st : St φ) (s : Sig) : Prop :=
  s.isSimple = true ∨ c.cfg.flag .useSigFloat = false ∨
  ∃ s0, c.macros.lookup s.name = some s0 ∧
    ((s.isDouble = true ∧ ∃ z, c.fl.toS s0 (st.flt s.nameFloat) = some z) ∨
     (s.isDouble = false ∧ s0.isDouble = false ∧ ∃ y, macroToS s0 ⟨s.typePhys, st.fld s.nameFloat⟩ = some y))

theorem pre_flt (cfg : Cfg) (m : Msg) : (rollStmts cfg m ++ clearStmts cfg m).flatMap CStmt.fltWrites = [] := by
  unfold rollStmts clearStmts
  cases m.sigAt m.rollSig <;> cases m.sigAt m.csmSig <;> cases cfg.flag .autoRoll <;> cases cfg.flag .autoCsm <;> rfl

theorem pack_phys_total {c : Ctx φ} {m : Msg} (hc : c.decls = structDecls c.cfg m) (hcf : c.floats = floatDecls c.cfg m) (hm : MsgOk m)
    (hty : ∀ s ∈ m.signals, s.TypeOk)
    (hcs' : ∀ s, m.sigAt m.csmSig = some s → s.isSimple = true ∧ s.inByte)
    (hi : c.cfg.initByte < 256) (hdo : c.declsOk = true) (hr : RollOk m)
    {st : St φ} (hph : ∀ s ∈ m.signals, PackPhysOk c st s) (hd : IsPayload st.dat) (hlen : m.dlc ≤ st.dat.length)
    (hb : c.cfg.flag .autoRoll = true → ∀ r, m.sigAt m.rollSig = some r →
      -(2:Int) ^ 30 ≤ st.fld r.name ∧ st.fld r.name < 2 ^ 30) :
    ∃ st', runPack c m st = .ok st' := by
  have hn := nodup_of_declsOk hdo
  have hn' : ((structDecls c.cfg m).map (·.1)).Nodup := hc ▸ hn
  refine pack_total_of hc hm hty hcs' hi hdo hr hd hlen fun dA => ?_
  rw [prePack_eq, execAll_append]
  obtain ⟨st1, e1⟩ := rollClear_total (st := { st with dat := dA }) hc hn hr hb
  rw [e1, Option.bind_some]
  have hflt : st1.flt = st.flt := by
    funext n
    exact execAll_flt e1 n (by rw [pre_flt]; exact List.not_mem_nil)
  rcases Classical.em (¬ (m.hasPhys = true ∧ c.cfg.flag .useSigFloat = true)) with hf | hf
  · have : toSStmts c.cfg m = [] := by
      unfold toSStmts
      rw [if_neg (by simpa using hf)]
    rw [this]
    exact ⟨_, rfl⟩
  obtain ⟨hp, h2⟩ := Classical.not_not.1 hf
  have hfld : ∀ s ∈ m.signals, s.isSimple = false → s.isDouble = false → st1.fld s.nameFloat = st.fld s.nameFloat := by
    intro s hs h1 h3
    rw [(execAll_frame e1).1]
    simp only [List.flatMap_append, List.mem_append]
    rintro (hx | hx)
    · obtain ⟨-, t, ht, he⟩ := rollStmts_writes hx
      exact physName_ne hn' hs h1 h2 h3 (sigAt_mem ht) he
    · obtain ⟨-, t, ht, he⟩ := clearStmts_writes hx
      exact physName_ne hn' hs h1 h2 h3 (sigAt_mem ht) he
  have ht : toSStmts c.cfg m = (m.signals.filter (fun s => !s.isSimple)).map (fun s => .toS s.name s.typeRo s.nameFloat) := by
    unfold toSStmts
    simp [hp, h2]
  rw [ht]
  suffices H : ∀ (l : List Sig), (∀ s ∈ l, s ∈ m.signals) → ∀ st0 : St φ, st0.flt = st.flt →
      (∀ s ∈ m.signals, s.isSimple = false → s.isDouble = false → st0.fld s.nameFloat = st.fld s.nameFloat) →
      ∃ st2, execAll c st0 ((l.filter (fun s => !s.isSimple)).map (fun s => .toS s.name s.typeRo s.nameFloat)) = some st2 from
    H m.signals (fun _ h => h) st1 hflt hfld
  intro l
  induction l with
  | nil => intro _ st0 _ _; exact ⟨st0, rfl⟩
  | cons s l ih =>
    intro hsub st0 h0 hf0
    have hs := hsub s List.mem_cons_self
    have ih' := ih fun x hx => hsub x (List.mem_cons_of_mem _ hx)
    cases hsim : s.isSimple
    case true =>
      rw [List.filter_cons_of_neg (by simp [hsim])]
      exact ih' st0 h0 hf0
    rw [List.filter_cons_of_pos (by simp [hsim]), List.map_cons]
    have hdecl : c.decl s.name = some (sigDecl c.cfg s) := decl_of_mem hc hn (structSigs_mem hs)
    have hex : ∃ z, exec c st0 (.toS s.name s.typeRo s.nameFloat) = some (st0.upd s.name z) := by
      rcases hph s hs with q | q | ⟨s0, hl, q⟩
      · rw [hsim] at q; cases q
      · rw [h2] at q; cases q
      · rcases q with ⟨d1, z, hz⟩ | ⟨d1, d2, y, hy⟩
        · have hrd : c.read st0 s.nameFloat = none := by
            unfold Ctx.read
            rw [float_noDecl hcf hdo hs hsim h2 d1]
            rfl
          have hmem : s.nameFloat ∈ c.floats := by rw [hcf]; exact float_mem hs hsim h2 d1
          simp only [exec, hl, hrd, Option.bind_eq_bind, Option.bind_some, if_pos hmem, h0, hz, Ctx.assign, hdecl, Option.map_some]
          exact ⟨_, rfl⟩
        · have hrd : c.read st0 s.nameFloat = some ⟨s.typePhys, st.fld s.nameFloat⟩ := by
            unfold Ctx.read
            rw [physDecl_of_mem hc hn hs hsim h2 d1, Option.map_some, hf0 s hs hsim d1]
          simp only [exec, hl, hrd, d2, Option.bind_eq_bind, Option.bind_some, Bool.false_eq_true, if_false, hy, Ctx.assign, hdecl, Option.map_some]
          exact ⟨_, rfl⟩
    obtain ⟨z, hz⟩ := hex
    simp only [execAll, hz]
    refine ih' _ h0 fun t ht t1 t2 => ?_
    rw [upd_ne _ _ (physName_ne hn' ht t1 h2 t2 hs)]
    exact hf0 t ht t1 t2

/-- The raw member of a signal with a floating member after Pack. -/
theorem pack_float {c : Ctx φ} {m : Msg} (hc : c.decls = structDecls c.cfg m) (hcf : c.floats = floatDecls c.cfg m) (hm : MsgOk m)
    (hty : ∀ s ∈ m.signals, s.TypeOk) (hcs : CsmHyp c.cfg m) (hi : c.cfg.initByte < 256)
    {st st' : St φ} (hd : IsPayload st.dat) (hlen : m.dlc ≤ st.dat.length)
    (h : runPack c m st = .ok st') (hp : m.hasPhys = true)
    {s : Sig} (hs : s ∈ m.signals) (h1 : s.isSimple = false) (h2 : c.cfg.flag .useSigFloat = true)
    (h3 : s.isDouble = true) {s0 : Sig} (hmac : c.macros.lookup s.name = some s0) :
    ∃ z, c.fl.toS s0 (st.flt s.nameFloat) = some z ∧ st'.fld s.name = (sigDecl c.cfg s).store (s.typeRo.conv z) := by
  obtain ⟨hdo, hro, hco, stA, stB, stC, stD, hA, hB, hC, hD, rfl⟩ := runPack_parts hm h
  have hn := nodup_of_declsOk hdo
  have hn' : ((structDecls c.cfg m).map (·.1)).Nodup := hc ▸ hn
  have hdecl : ∀ s ∈ m.signals, c.decl s.name = some (sigDecl c.cfg s) :=
    fun s hs => decl_of_mem hc hn (structSigs_mem hs)
  obtain ⟨dA, rfl, lA, pA, bA, -⟩ := exec_init hi hd hA
  have hz := prePack_csm hn' hdecl hcs hB
  obtain ⟨fB1, fB2, fB3⟩ := prePack_frame hB
  obtain ⟨dC, eC, lC, pC, bC⟩ := bytePart (st := stB) hm hty hdecl (by rw [fB1]; exact pA)
    (by rw [fB1]; simp only [lA]; exact hlen)
  rw [eC, Option.some.injEq] at hC
  subst hC
  obtain ⟨lD, pD, bD, cD, fD⟩ := csmPart (st := { stB with dat := dC }) hm hty hn' hdecl hcs pC hz hD
  obtain ⟨a, b, hab⟩ := List.append_of_mem hs
  obtain ⟨u1, u2, u3, u4⟩ := name_unique hn' hab
  rw [prePack_eq, toSStmts_split hab hp h1 h2, ← List.append_assoc] at hB
  obtain ⟨s1, s2, x1, x2, x3⟩ := execAll_split hB
  have hkeep : s1.flt s.nameFloat = st.flt s.nameFloat := by
    refine execAll_flt x1 _ ?_
    rw [List.flatMap_append, pre_flt, List.nil_append]
    intro hx
    obtain ⟨q, hq, hx⟩ := List.mem_flatMap.1 hx
    obtain ⟨t, -, rfl⟩ := List.mem_map.1 hq
    cases hx
  have hread : c.read s1 s.nameFloat = none := by
    unfold Ctx.read
    rw [float_noDecl hcf hdo hs h1 h2 h3]
    rfl
  have hmem : s.nameFloat ∈ c.floats := by rw [hcf]; exact float_mem hs h1 h2 h3
  simp only [exec, hmac, hread, if_pos hmem, Option.bind_eq_bind, Option.bind_some, Option.bind_eq_some_iff] at x2
  obtain ⟨z, hz', x2⟩ := x2
  rw [hkeep] at hz'
  refine ⟨z, hz', ?_⟩
  simp only
  rw [fD s.name ?_]
  · simp only
    rw [(execAll_frame x3).1 s.name ?_]
    · obtain ⟨d, hd', rfl⟩ := assign_some x2
      rw [hdecl s hs] at hd'
      cases hd'
      rw [upd_same]
    · intro hx
      obtain ⟨t, ht, he⟩ := toS_writes hx
      apply u2
      refine List.mem_map.2 ⟨(t.name, sigDecl c.cfg t), List.mem_flatMap.2 ⟨t, ht, ?_⟩, he.symm⟩
      unfold sigDecls; simp
  · intro hf t ht he
    have := names_inj hn' hs (sigAt_mem ht) he
    subst this
    rw [(hcs hf s ht).1] at h1
    cases h1

end Verif
