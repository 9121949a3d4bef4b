import Verif.Proofs.StmtRun
/-
The statements of the generated functions, run on a state, do what the model says.
-/
namespace Verif
open Verif.Spec

variable {φ : Type}

/-! ### Arguments -/

/-- The arguments an expression stands for. -/
def goArgs (env : Env φ) (e : PExpr) (st : CSt φ) : Option (List (V φ) × CSt φ) :=
  match go env e st with
  | none => none
  | some (r, s) => (r.list env s).map fun l => (l, s)

section
variable {env : Env φ} {st st' : CSt φ}

/-- The expression is no list of arguments. -/
def Single (env : Env φ) (e : PExpr) (st : CSt φ) : Prop := ∀ r s, go env e st = some (r, s) → ∀ l, r ≠ .args l

theorem goArgs_single {e : PExpr} (h : Single env e st) : goArgs env e st = (evalE env e st).map fun x => ([x.1], x.2) := by
  unfold goArgs evalE
  cases hg : go env e st with
  | none => rfl
  | some p =>
    obtain ⟨r, s⟩ := p
    have := h r s hg
    cases r with
    | args l => exact absurd rfl (this l)
    | place l =>
      show Option.map _ ((R.get env s (.place l)).map _) = Option.map _ ((R.get env s (.place l)).map _)
      cases R.get env s (.place l) <;> rfl
    | val v => rfl

theorem goArgs_comma (a b : PExpr) : goArgs env (commaE a b) st = (goArgs env a st).bind fun x => (evalE env b x.2).map fun y => (x.1 ++ [y.1], y.2) := by
  unfold goArgs evalE commaE
  rw [go]
  cases hg : go env a st with
  | none => rfl
  | some p =>
    obtain ⟨r, s⟩ := p
    dsimp only [Option.bind_eq_bind, Option.bind_some]
    rw [if_pos rfl]
    cases r.list env s with
    | none => rfl
    | some l =>
      dsimp only [Option.bind_eq_bind, Option.bind_some, Option.map_some]
      cases hb : go env b s with
      | none => rfl
      | some p =>
        obtain ⟨rb, s2⟩ := p
        dsimp only [Option.bind_eq_bind, Option.bind_some, Option.map_some]
        cases rb.get env s2 <;> rfl

/-- A call of a function of the translation unit. -/
theorem evalE_defd {f : Str} {g : List (V φ) → Option (V φ)} (h : env.defd f = some g) (a : PExpr) :
    evalE env (.call (.id f) a) st = (goArgs env a st).bind fun x => (g x.1).map fun v => (v, x.2) := by
  unfold goArgs evalE
  rw [go]
  cases hg : go env a st with
  | none => rfl
  | some p =>
    obtain ⟨r, s⟩ := p
    dsimp only [Option.bind_eq_bind, Option.bind_some, Option.map_some]
    cases r.list env s with
    | none => rfl
    | some l =>
      dsimp only [Option.bind_eq_bind, Option.bind_some, Option.map_some]
      rw [h]
      dsimp only
      cases g l <;> rfl

/-- A call of a function of the user. -/
theorem evalE_user {f : Str} {g : List (V φ) → List Nat → Option (V φ)} (h0 : env.defd f = none) (h : env.user f = some g) (a : PExpr) :
    evalE env (.call (.id f) a) st = (goArgs env a st).bind fun x => (g x.1 x.2.dat).map fun v => (v, x.2) := by
  unfold goArgs evalE
  rw [go]
  cases hg : go env a st with
  | none => rfl
  | some p =>
    obtain ⟨r, s⟩ := p
    dsimp only [Option.bind_eq_bind, Option.bind_some, Option.map_some]
    cases r.list env s with
    | none => rfl
    | some l =>
      dsimp only [Option.bind_eq_bind, Option.bind_some, Option.map_some]
      rw [h0]
      dsimp only
      rw [h]
      dsimp only
      cases g l s.dat <;> rfl

theorem evalE_user0 {f : Str} {g : List (V φ) → List Nat → Option (V φ)} (h : env.user f = some g) :
    evalE env (.call0 (.id f)) st = (g [] st.dat).map fun v => (v, st) := by
  unfold evalE
  rw [go, h]
  dsimp only
  cases g [] st.dat <;> rfl

/-- A call of a declared function. -/
theorem runE_proto {f : Str} (h0 : env.defd f = none) (h1 : env.user f = none) (h2 : env.proto f = true) (a : PExpr) :
    runE env (.call (.id f) a) st = (goArgs env a st).map fun x => { x.2 with calls := x.2.calls ++ [(f, x.1)] } := by
  unfold goArgs runE
  rw [go]
  cases hg : go env a st with
  | none => rfl
  | some p =>
    obtain ⟨r, s⟩ := p
    dsimp only [Option.bind_eq_bind, Option.bind_some, Option.map_some]
    cases r.list env s with
    | none => rfl
    | some l =>
      dsimp only [Option.bind_eq_bind, Option.bind_some, Option.map_some]
      rw [h0]
      dsimp only
      rw [h1]
      dsimp only
      rw [h2, if_pos rfl]
      rfl

/-! ### Printed expressions -/

theorem Single.bin {op : Str} (hop : op ≠ [',']) (a b : PExpr) : Single env (.bin op a b) st := by
  intro r s h l
  rw [go] at h
  cases ha : go env a st with
  | none =>
    rw [ha] at h
    cases h
  | some p =>
    obtain ⟨ra, s1⟩ := p
    rw [ha] at h
    dsimp only [Option.bind_eq_bind, Option.bind_some] at h
    rw [if_neg hop] at h
    cases hg : ra.get env s1 with
    | none =>
      rw [hg] at h
      cases h
    | some va =>
      rw [hg] at h
      dsimp only [Option.bind_eq_bind, Option.bind_some] at h
      cases hb : go env b s1 with
      | none =>
        rw [hb] at h
        cases h
      | some p =>
        obtain ⟨rb, s2⟩ := p
        rw [hb] at h
        dsimp only [Option.bind_eq_bind, Option.bind_some] at h
        cases hg2 : rb.get env s2 with
        | none =>
          rw [hg2] at h
          cases h
        | some vb =>
          rw [hg2] at h
          dsimp only [Option.bind_eq_bind, Option.bind_some] at h
          cases hv : binOp env.F op va vb with
          | none =>
            rw [hv] at h
            cases h
          | some v =>
            rw [hv] at h
            cases h
            exact nofun

theorem Single.cast (t : Str) (a : PExpr) : Single env (.cast t a) st := by
  intro r s h l
  rw [go] at h
  cases ha : go env a st with
  | none =>
    rw [ha] at h
    cases h
  | some p =>
    obtain ⟨ra, s1⟩ := p
    rw [ha] at h
    dsimp only [Option.bind_eq_bind, Option.bind_some] at h
    cases hg : ra.get env s1 with
    | none =>
      rw [hg] at h
      cases h
    | some va =>
      rw [hg] at h
      dsimp only [Option.bind_eq_bind, Option.bind_some] at h
      cases ht : tyOf env.ext64 t with
      | none =>
        rw [ht] at h
        cases h
      | some ty =>
        rw [ht] at h
        dsimp only [Option.bind_eq_bind, Option.bind_some] at h
        cases hv : convTo env.F ty va with
        | none =>
          rw [hv] at h
          cases h
        | some v =>
          rw [hv] at h
          cases h
          exact nofun

theorem Single.of {e : PExpr} {r : R φ} (h : go env e st = some (r, st')) (hr : ∀ l, r ≠ .args l) : Single env e st := by
  intro r' s h'
  rw [h] at h'
  cases h'
  exact hr

theorem Single.num (w : Str) : Single env (.num w) st := by
  intro r s h l
  rw [go] at h
  by_cases hw : w.contains '.' = true
  · rw [if_pos hw] at h
    cases h
    exact nofun
  · rw [if_neg hw] at h
    cases hv : litOf w with
    | none =>
      rw [hv] at h
      cases h
    | some v =>
      rw [hv] at h
      cases h
      exact nofun

/-- `_d[k]` -/
theorem go_byte {a : PExpr} (h : evalE env a st = some (.p .data, st)) {i : PExpr} {v : CVal} (hi : evalE env i st = some (.i v, st')) (h0 : 0 ≤ v.val) :
    go env (.index a i) st = some (.place (.byte v.val.toNat), st') := by
  rw [go]
  unfold evalE at h hi
  cases ha : go env a st with
  | none =>
    rw [ha] at h
    cases h
  | some p =>
    obtain ⟨ra, s1⟩ := p
    rw [ha] at h
    dsimp only at h
    dsimp only [Option.bind_eq_bind, Option.bind_some]
    cases hg : ra.get env s1 with
    | none =>
      rw [hg] at h
      cases h
    | some va =>
      rw [hg] at h
      cases h
      dsimp only [Option.bind_eq_bind, Option.bind_some]
      cases hb : go env i st with
      | none =>
        rw [hb] at hi
        cases hi
      | some p =>
        obtain ⟨rb, s2⟩ := p
        rw [hb] at hi
        dsimp only at hi
        dsimp only [Option.bind_eq_bind, Option.bind_some]
        cases hg2 : rb.get env s2 with
        | none =>
          rw [hg2] at hi
          cases hi
        | some vb =>
          rw [hg2] at hi
          cases hi
          dsimp only [Option.bind_eq_bind, Option.bind_some]
          rw [if_pos h0]

theorem litOf_noDot_mask {w : Nat} (h : w ≤ 8) : (mskText w).contains '.' = false := by
  have : w = 0 ∨ w = 1 ∨ w = 2 ∨ w = 3 ∨ w = 4 ∨ w = 5 ∨ w = 6 ∨ w = 7 ∨ w = 8 := by omega
  rcases this with rfl | rfl | rfl | rfl | rfl | rfl | rfl | rfl | rfl <;> decide +kernel

/-- Memory as expressions see it. -/
structure MemRel (env : Env φ) (st : CSt φ) (d : Bool) (P : Str → Prop) (ce : CEnv) : Prop where
  m : ∃ t, st.loc.lookup "_m".toList = some (t, some (.p .msg))
  d : d = true → ∃ t, st.loc.lookup "_d".toList = some (t, some (.p .data))
  dat : st.dat = ce.dat
  fld : ∀ n, P n → ∃ y w, env.mem.lookup n = some (.int y w) ∧ ce.fld n = some ⟨y, st.fld n⟩

theorem toP_single {ce : CEnv} {d : Bool} {P : Str → Prop} (hm : MemRel env st d P ce) (e : CExpr) (hs : Shape d P e) (hc : Chain e) : Single env (toP e) st := by
  cases e with
  | dat i =>
    obtain ⟨t, ht⟩ := hm.d hs
    exact .of (go_byte (evalE_id ht) (evalE_num (decStr_noDot _) (litOf_decStr hc)) (by simp)) nofun
  | fld n =>
    obtain ⟨t, ht⟩ := hm.m
    obtain ⟨y, w, hn, -⟩ := hm.fld n hs
    exact .of (go_fld ht hn) nofun
  | mask w => exact .num _
  | band a b => exact .bin (by decide) _ _
  | bor a b => exact .bin (by decide) _ _
  | shr a n => exact .bin (by decide) _ _
  | shl a n => exact .bin (by decide) _ _
  | cast t a => exact .cast _ _

theorem evalE_toP {ce : CEnv} {d : Bool} {P : Str → Prop} (hm : MemRel env st d P ce) (e : CExpr) (hs : Shape d P e) (hc : Chain e) :
    evalE env (toP e) st = (e.eval ce).map fun v => (.i v, st) := by
  have key : ∀ e, Operand e → Shape d P e → evalE env (toP e) st = (e.eval ce).map fun v => (.i v, st) := by
    intro e
    induction e with
    | dat i =>
      intro h hs
      obtain ⟨t, ht⟩ := hm.d hs
      rw [toP, evalE_go (go_byte (evalE_id ht) (evalE_num (decStr_noDot _) (litOf_decStr h)) (by simp)), CExpr.eval, ← hm.dat]
      show (readLV env st (.byte i)).map _ = _
      rw [readLV]
      cases st.dat[i]? <;> rfl
    | fld n =>
      intro h hs
      obtain ⟨t, ht⟩ := hm.m
      obtain ⟨y, w, hn, hv⟩ := hm.fld n hs
      rw [CExpr.eval, hv]
      exact evalE_fld ht hn
    | mask w =>
      intro h hs
      have hv : ∃ v, maskVal w = some v := by
        have : w = 0 ∨ w = 1 ∨ w = 2 ∨ w = 3 ∨ w = 4 ∨ w = 5 ∨ w = 6 ∨ w = 7 ∨ w = 8 := by
          have : w ≤ 8 := h
          omega
        rcases this with rfl | rfl | rfl | rfl | rfl | rfl | rfl | rfl | rfl <;> exact ⟨_, rfl⟩
      obtain ⟨v, hv⟩ := hv
      rw [toP, CExpr.eval, hv, evalE_num (litOf_noDot_mask h) ((litOf_mask h).trans hv)]
      rfl
    | band a b iha ihb =>
      intro h hs
      rw [toP, evalE_bin (by decide), iha h.1 hs.1, CExpr.eval]
      cases a.eval ce with
      | none => rfl
      | some v =>
        dsimp only [Option.map_some, Option.bind_some]
        rw [ihb h.2 hs.2]
        cases b.eval ce <;> rfl
    | bor a b => exact fun h => h.elim
    | shr a n ih =>
      intro h hs
      have h2 : n < 2 ^ 32 := by have := h.2; omega
      rw [toP, evalE_bin (by decide), ih h.1 hs, CExpr.eval]
      cases a.eval ce with
      | none => rfl
      | some v =>
        dsimp only [Option.map_some, Option.bind_some]
        rw [evalE_num (decStrU_noDot _) (litOf_decStrU h2)]
        show ((if (0 : Int) ≤ (n : Nat) then v.shr ((n : Int)).toNat else none).map V.i).map _ = _
        rw [if_pos (by omega)]
        show ((v.shr n).map V.i).map _ = Option.map _ (v.shr n)
        cases v.shr n <;> rfl
    | shl a n ih =>
      intro h hs
      have h2 : n < 2 ^ 32 := by have := h.2; omega
      rw [toP, evalE_bin (by decide), ih h.1 hs, CExpr.eval]
      cases a.eval ce with
      | none => rfl
      | some v =>
        dsimp only [Option.map_some, Option.bind_some]
        rw [evalE_num (decStrU_noDot _) (litOf_decStrU h2)]
        show ((if (0 : Int) ≤ (n : Nat) then v.shl ((n : Int)).toNat else none).map V.i).map _ = _
        rw [if_pos (by omega)]
        show ((v.shl n).map V.i).map _ = Option.map _ (v.shl n)
        cases v.shl n <;> rfl
    | cast t a ih =>
      intro h hs
      rw [toP, evalE_cast, ih h hs, CExpr.eval, tyOf_cty]
      cases a.eval ce <;> rfl
  induction e with
  | bor a b iha _ =>
    rw [toP, evalE_bin (by decide), iha hs.1 hc.1, CExpr.eval]
    cases a.eval ce with
    | none => rfl
    | some v =>
      dsimp only [Option.map_some, Option.bind_some]
      rw [key b hc.2 hs.2]
      cases b.eval ce <;> rfl
  | _ => exact key _ hc hs

end

/-! ### States -/

/-- The generated functions. -/
inductive FnKind where
  | unpack | packS | packA
  deriving DecidableEq, Repr

/-- Parameters with their values. -/
def FnKind.params (k : FnKind) (lenN ideN : Str) (dlcArg : Nat) : List (Str × Ty × Option (V φ)) :=
  match k with
  | .unpack => [("_m".toList, .ptr, some (.p .msg)), ("_d".toList, .ptr, some (.p .data)), ("dlc_".toList, .int .u8, some (.i ⟨.u8, (dlcArg : Nat)⟩))]
  | .packS => [("_m".toList, .ptr, some (.p .msg)), ("cframe".toList, .ptr, some (.p .frame))]
  | .packA => [("_m".toList, .ptr, some (.p .msg)), ("_d".toList, .ptr, some (.p .data)), ("_len".toList, .ptr, some (.p (.out lenN))),
      ("_ide".toList, .ptr, some (.p (.out ideN)))]

/-- The members of the monitor. -/
structure MonRel (m : Mon) (g : Str → Int) : Prop where
  last : g "last_cycle".toList = m.lastCycle
  timeout : g "timeout_cycle".toList = m.timeoutCycle
  cnt : g "frame_cnt".toList = m.frameCnt
  roll : g "roll_error".toList = m.rollError
  csm : g "csm_error".toList = m.csmError
  cycle : g "cycle_error".toList = m.cycleError
  dlc : g "dlc_error".toList = m.dlcError

section
variable {m : Mon} {g : Str → Int} {z : Int} {k : Nat}

theorem updAt_same {α : Type} (g : Str → α) (n : Str) (a : α) : updAt g n a n = a := if_pos rfl
theorem updAt_other {α : Type} (g : Str → α) {n x : Str} (a : α) (h : x ≠ n) : updAt g n a x = g x := if_neg h

theorem MonRel.setLast (h : MonRel m g) (hz : z = k) : MonRel { m with lastCycle := k } (updAt g "last_cycle".toList z) :=
  ⟨(updAt_same _ _ _).trans hz, (updAt_other _ _ (by decide)).trans h.timeout, (updAt_other _ _ (by decide)).trans h.cnt, (updAt_other _ _ (by decide)).trans h.roll,
    (updAt_other _ _ (by decide)).trans h.csm, (updAt_other _ _ (by decide)).trans h.cycle, (updAt_other _ _ (by decide)).trans h.dlc⟩

theorem MonRel.setCnt (h : MonRel m g) (hz : z = k) : MonRel { m with frameCnt := k } (updAt g "frame_cnt".toList z) :=
  ⟨(updAt_other _ _ (by decide)).trans h.last, (updAt_other _ _ (by decide)).trans h.timeout, (updAt_same _ _ _).trans hz, (updAt_other _ _ (by decide)).trans h.roll,
    (updAt_other _ _ (by decide)).trans h.csm, (updAt_other _ _ (by decide)).trans h.cycle, (updAt_other _ _ (by decide)).trans h.dlc⟩

theorem MonRel.setRoll (h : MonRel m g) (hz : z = k) : MonRel { m with rollError := k } (updAt g "roll_error".toList z) :=
  ⟨(updAt_other _ _ (by decide)).trans h.last, (updAt_other _ _ (by decide)).trans h.timeout, (updAt_other _ _ (by decide)).trans h.cnt, (updAt_same _ _ _).trans hz,
    (updAt_other _ _ (by decide)).trans h.csm, (updAt_other _ _ (by decide)).trans h.cycle, (updAt_other _ _ (by decide)).trans h.dlc⟩

theorem MonRel.setCsm (h : MonRel m g) (hz : z = k) : MonRel { m with csmError := k } (updAt g "csm_error".toList z) :=
  ⟨(updAt_other _ _ (by decide)).trans h.last, (updAt_other _ _ (by decide)).trans h.timeout, (updAt_other _ _ (by decide)).trans h.cnt,
    (updAt_other _ _ (by decide)).trans h.roll, (updAt_same _ _ _).trans hz, (updAt_other _ _ (by decide)).trans h.cycle, (updAt_other _ _ (by decide)).trans h.dlc⟩

theorem MonRel.setDlc (h : MonRel m g) (hz : z = k) : MonRel { m with dlcError := k } (updAt g "dlc_error".toList z) :=
  ⟨(updAt_other _ _ (by decide)).trans h.last, (updAt_other _ _ (by decide)).trans h.timeout, (updAt_other _ _ (by decide)).trans h.cnt,
    (updAt_other _ _ (by decide)).trans h.roll, (updAt_other _ _ (by decide)).trans h.csm, (updAt_other _ _ (by decide)).trans h.cycle, (updAt_same _ _ _).trans hz⟩

end

/-- The call of the monitor function as it is logged. -/
def monCall (K : Look) (x : Str × Nat) : Str × List (V φ) := (K.fmon x.1, [.p .mon, .i ⟨.u32, (x.2 : Nat)⟩])

/-- The names under which length and frame type are written. -/
structure OutNames where
  len : Str
  ide : Str
  ne : len ≠ ide
  lenId : len ≠ "MsgId".toList
  ideId : ide ≠ "MsgId".toList

/-- The state of the C program against the state of the model. -/
structure Rel (c : Ctx φ) (K : Look) (k : FnKind) (N : OutNames) (st : St φ) (cst : CSt φ) : Prop where
  fld : cst.fld = st.fld
  flt : cst.flt = st.flt
  dat : cst.dat = st.dat
  mon : MonRel st.mon cst.mon
  outId : cst.out "MsgId".toList = st.outId.map Int.ofNat
  outDlc : cst.out N.len = st.outDlc.map Int.ofNat
  outIde : cst.out N.ide = st.outIde.map Int.ofNat
  calls : cst.calls = st.calls.map (monCall K)
  loc : ∀ n, n ≠ "i".toList → cst.loc.lookup n = (k.params N.len N.ide c.dlcArg).lookup n
  typed : ∀ n d, c.decl n = some d → d.ty.conv (st.fld n) = st.fld n

/-- The user's function behind `GetFrameHash` computes the model's hash. -/
def HashRel (c : Ctx φ) (env : Env φ) (h : Hook) (dlc id : Nat) (method : Str) (op : Nat) : Prop :=
  match h with
  | .zero => ∀ d, c.hash d dlc id method op % 256 = 0
  | .call f => env.defd f = none ∧ ∃ z g, env.const method = some z ∧ env.user f = some g ∧
      ∀ d, ∃ v : CVal, g [.p .data, .i ⟨.u32, (dlc : Nat)⟩, .i ⟨.u32, (id : Nat)⟩, .i ⟨.i32, z⟩, .i ⟨.i32, (op : Nat)⟩] d = some (.i v) ∧
        CTy.u8.conv v.val = (c.hash d dlc id method op % 256 : Nat)

/-- The user's function behind `GetSystemTick` computes the model's time. -/
def TickRel (c : Ctx φ) (env : Env φ) : Hook → Prop
  | .zero => c.tick % 2 ^ 32 = 0
  | .call f => ∃ g, env.user f = some g ∧ ∀ d, ∃ v : CVal, g [] d = some (.i v) ∧ CTy.u32.conv v.val = (c.tick % 2 ^ 32 : Nat)

/-- The environment of the C program against the context of the model. -/
structure Link (c : Ctx φ) (K : Look) (k : FnKind) (env : Env φ) : Prop where
  fl : c.fl = fltOps env.F
  mac : ∀ n, K.mac n = c.macros.lookup n
  decl : ∀ n d, c.decl n = some d → env.mem.lookup n = some (.int d.ty d.width) ∧ ∀ w, d.width = some w → w ≤ d.ty.bits
  flt : ∀ n ∈ c.floats, env.mem.lookup n = some .flt
  mon : c.cfg.flag .useMon = true → env.mem.lookup "mon1".toList = some (.named "FrameMonitor_t".toList)
  ext : ∃ h, env.defd "__ext_sig__".toList = some h ∧
    ∀ v bits, bits < 256 → h [.i v, .i ⟨.i32, (bits : Nat)⟩] = (extSig c.cfg.ext64 v bits).map .i
  frame : k ≠ .unpack → (K.frame = true ↔ k = .packS)
  tick : TickRel c env K.tick
  max : K.maxW.contains '.' = false ∧ ∃ v, litOf K.maxW = some v ∧ v.val = (c.cfg.maxDlc : Nat) ∧ c.cfg.maxDlc < 2 ^ 31
  init : K.initW.contains '.' = false ∧ ∃ v, litOf K.initW = some v ∧ CTy.u8.conv v.val = (c.cfg.initByte : Nat)
  dlc : c.dlcArg < 256

/-- An expression whose members are declared. -/
def ExprOk (c : Ctx φ) (d : Bool) (e : CExpr) : Prop := Chain e ∧ Shape d (fun n => ∃ x, c.decl n = some x) e

/-- Which statements may occur, and what they need. -/
def StmtOk (c : Ctx φ) (K : Look) (k : FnKind) (env : Env φ) : CStmt → Prop
  | .setSig dst _ x => k = .unpack ∧ (∃ d, c.decl dst = some d) ∧ ∃ e, x = .expr e ∧ ExprOk c true e
  | .setSigExt dst _ x bits => k = .unpack ∧ bits < 256 ∧ (∃ d, c.decl dst = some d) ∧ ∃ e, x = .expr e ∧ ExprOk c true e
  | .fromSFloat dst mac => dst ∈ c.floats ∧ (∃ d, c.decl mac = some d) ∧ ∃ s, c.macros.lookup mac = some s ∧ IntConsts s
  | .fromSInt dst _ mac => (∃ d, c.decl dst = some d) ∧ (∃ d, c.decl mac = some d) ∧ ∃ s, c.macros.lookup mac = some s ∧ IntConsts s
  | .toS dst _ src => (∃ d, c.decl dst = some d) ∧ ((∃ d, c.decl src = some d) ∨ (c.decl src = none ∧ src ∈ c.floats)) ∧
      ∃ s, c.macros.lookup dst = some s ∧ IntConsts s
  | .monDlc dlc => k = .unpack ∧ c.cfg.flag .useMon = true ∧ dlc < 2 ^ 32
  | .monTick => c.cfg.flag .useMon = true
  | .monCnt => c.cfg.flag .useMon = true
  | .monRoll n => c.cfg.flag .useMon = true ∧ ∃ d, c.decl n = some d ∧ c.decl (exptName n) = some d
  | .incr dst src mask => (∃ d, c.decl dst = some d) ∧ (∃ d, c.decl src = some d) ∧ mask < 2 ^ 32
  | .monCsm dlc id method op n => k = .unpack ∧ c.cfg.flag .useMon = true ∧ (∃ d, c.decl n = some d) ∧ dlc < 2 ^ 32 ∧ id < 2 ^ 32 ∧ op < 2 ^ 31 ∧
      HashRel c env K.hash dlc id method op ∧ method ≠ "i".toList ∧ method ∉ ["_m".toList, "_d".toList, "dlc_".toList]
  | .fmon name id => c.cfg.flag .useMon = true ∧ id < 2 ^ 32 ∧ env.defd (K.fmon name) = none ∧ env.user (K.fmon name) = none ∧ env.proto (K.fmon name) = true
  | .initLoop dlc => k ≠ .unpack ∧ dlc < 256
  | .clear n _ => ∃ d, c.decl n = some d
  | .orByte i x => k ≠ .unpack ∧ i < 2 ^ 31 ∧ ∃ e, x = .expr e ∧ ExprOk c false e
  | .setCsm n dlc id method op => k ≠ .unpack ∧ (∃ d, c.decl n = some d) ∧ dlc < 2 ^ 32 ∧ id < 2 ^ 32 ∧ op < 2 ^ 31 ∧
      HashRel c env K.hash dlc id method op ∧ method ≠ "i".toList ∧ method ∉ ["_m".toList, "_d".toList, "cframe".toList, "_len".toList, "_ide".toList]
  | .outId id => k = .packS ∧ id < 2 ^ 32
  | .outDlc dlc => k ≠ .unpack ∧ dlc < 2 ^ 32
  | .outIde ide => k ≠ .unpack ∧ ide < 2 ^ 32
  | .ret _ => False

/-- Outcomes correspond. -/
def OptRel {α β : Type} (R : α → β → Prop) : Option α → Option β → Prop
  | none, none => True
  | some a, some b => R a b
  | _, _ => False

end Verif
