import Verif.Proofs.BodyRun
/-
One statement of a generated function.
-/
namespace Verif
open Verif.Spec

variable {φ : Type} {c : Ctx φ} {K : Look} {k : FnKind} {N : OutNames} {env : Env φ} {st : St φ} {cst : CSt φ} {f : Nat}

/-! ### Variables -/

theorem Rel.m (h : Rel c K k N st cst) : cst.loc.lookup "_m".toList = some (.ptr, some (.p .msg)) := by
  rw [h.loc _ (by decide)]
  cases k <;> rfl

theorem Rel.d (h : Rel c K k N st cst) (hk : k ≠ .packS) : cst.loc.lookup "_d".toList = some (.ptr, some (.p .data)) := by
  rw [h.loc _ (by decide)]
  cases k with
  | packS => exact absurd rfl hk
  | _ => rfl

theorem Rel.frame (h : Rel c K .packS N st cst) : cst.loc.lookup "cframe".toList = some (.ptr, some (.p .frame)) := by
  rw [h.loc _ (by decide)]
  rfl

theorem Rel.dlcA (h : Rel c K .unpack N st cst) : cst.loc.lookup "dlc_".toList = some (.int .u8, some (.i ⟨.u8, (c.dlcArg : Nat)⟩)) := by
  rw [h.loc _ (by decide)]
  rfl

theorem Rel.len (h : Rel c K .packA N st cst) : cst.loc.lookup "_len".toList = some (.ptr, some (.p (.out N.len))) := by
  rw [h.loc _ (by decide)]
  rfl

theorem Rel.ide (h : Rel c K .packA N st cst) : cst.loc.lookup "_ide".toList = some (.ptr, some (.p (.out N.ide))) := by
  rw [h.loc _ (by decide)]
  rfl

/-- The payload. -/
theorem evalE_arr (hl : Link c K k env) (h : Rel c K k N st cst) (hk : k ≠ .unpack) : evalE env (arrE K.frame) cst = some (.p .data, cst) := by
  cases hf : K.frame with
  | true =>
    have := (hl.frame hk).1 hf
    subst this
    show evalE env (.arrow (.id "cframe".toList) "Data".toList) cst = _
    unfold evalE
    rw [go, go_id h.frame]
    dsimp only [Option.bind_eq_bind, Option.bind_some, Option.map_some]
    rw [get_loc h.frame]
    dsimp only [Option.bind_eq_bind, Option.bind_some, Option.map_some]
    rw [if_pos rfl]
    rfl
  | false =>
    refine evalE_id (h.d ?_)
    intro e
    rw [(hl.frame hk).2 e] at hf
    cases hf

theorem single_arr (hl : Link c K k env) (h : Rel c K k N st cst) (hk : k ≠ .unpack) : Single env (arrE K.frame) cst := by
  cases hf : K.frame with
  | true =>
    have := (hl.frame hk).1 hf
    subst this
    show Single env (.arrow (.id "cframe".toList) "Data".toList) cst
    refine .of (r := .val (.p .data)) (st' := cst) ?_ nofun
    rw [go, go_id h.frame]
    dsimp only [Option.bind_eq_bind, Option.bind_some, Option.map_some]
    rw [get_loc h.frame]
    dsimp only [Option.bind_eq_bind, Option.bind_some, Option.map_some]
    rw [if_pos rfl]
  | false =>
    refine .of (go_id (h.d ?_)) nofun
    intro e
    rw [(hl.frame hk).2 e] at hf
    cases hf

/-! ### Members -/

theorem storeInt_conv (t : CTy) (w : Option Nat) (z : Int) : storeInt t w (t.conv z) = storeInt t w z := by
  unfold storeInt
  cases w <;> simp only [conv_self]

theorem store_eq (d : FDecl) (z : Int) : d.store z = storeInt d.ty d.width z := by
  unfold FDecl.store storeInt
  rfl

theorem bmod_inRange {t : CTy} (hs : t.signed = true) {w : Nat} (hw : w ≤ t.bits) (z : Int) : t.InRange (Int.bmod z (2 ^ w)) := by
  have hp : 2 ^ w ≤ 2 ^ t.bits := Nat.pow_le_pow_right (by decide) hw
  have h0 : 0 < 2 ^ w := Nat.pow_pos (by decide)
  have h1 := @Int.bmod_lt z (2 ^ w) h0
  have h2 := @Int.le_bmod z (2 ^ w) h0
  have hb : (2 : Int) ^ t.bits = 2 * 2 ^ (t.bits - 1) := by
    have := t.bits_pos
    conv => lhs; rw [show t.bits = (t.bits - 1) + 1 by omega, Int.pow_succ]
    omega
  unfold CTy.InRange CTy.minV CTy.maxV
  rw [if_pos hs, if_pos hs]
  have hp' : ((2 ^ w : Nat) : Int) ≤ (2 : Int) ^ t.bits := by exact_mod_cast hp
  generalize ((2 ^ w : Nat) : Int) = A at *
  generalize (2 : Int) ^ (t.bits - 1) = B at *
  omega

theorem storeInt_typed (t : CTy) (w : Option Nat) (hw : ∀ n, w = some n → n ≤ t.bits) (z : Int) : t.conv (storeInt t w z) = storeInt t w z := by
  unfold storeInt
  cases w with
  | none => exact conv_self t z
  | some n =>
    dsimp only
    have hn := hw n rfl
    cases hs : t.signed with
    | true =>
      rw [if_pos rfl]
      exact CTy.conv_inRange (bmod_inRange hs hn _)
    | false =>
      rw [if_neg Bool.false_ne_true]
      have h1 : 0 ≤ t.conv z % (2 ^ n : Nat) := Int.emod_nonneg _ (by have := Nat.pow_pos (n := n) (show 0 < 2 by decide); omega)
      have h2 : t.conv z % (2 ^ n : Nat) < (2 ^ n : Nat) := Int.emod_lt_of_pos _ (by have := Nat.pow_pos (n := n) (show 0 < 2 by decide); omega)
      obtain ⟨j, hj⟩ := Int.eq_ofNat_of_zero_le h1
      rw [hj] at h2 ⊢
      refine CTy.conv_nat_lt_unsigned hs ?_
      have : 2 ^ n ≤ 2 ^ t.bits := Nat.pow_le_pow_right (by decide) hn
      omega

/-- Storing into a member. -/
theorem Rel.store (hl : Link c K k env) (h : Rel c K k N st cst) {n : Str} {d : FDecl} (hd : c.decl n = some d) {z z' : Int} (hz : d.ty.conv z' = d.ty.conv z) :
    OptRel (Rel c K k N) (c.assign st n z) (some { cst with fld := updAt cst.fld n (storeInt d.ty d.width z') }) := by
  unfold Ctx.assign
  rw [hd]
  have e : storeInt d.ty d.width z' = d.store z := by
    rw [store_eq, ← storeInt_conv, hz, storeInt_conv]
  rw [e]
  refine ⟨?_, h.flt, h.dat, h.mon, h.outId, h.outDlc, h.outIde, h.calls, h.loc, ?_⟩
  · show updAt cst.fld n _ = _
    rw [h.fld]
    rfl
  · intro x dx hx
    show dx.ty.conv (if x = n then d.store z else st.fld x) = _
    by_cases hxn : x = n
    · subst hxn
      rw [hd] at hx
      cases hx
      show _ = (if x = x then _ else _)
      rw [if_pos rfl, store_eq]
      exact storeInt_typed _ _ (hl.decl _ _ hd).2 _
    · show _ = (if x = n then _ else _)
      rw [if_neg hxn]
      exact h.typed x dx hx

theorem Rel.memRel (hl : Link c K k env) (h : Rel c K k N st cst) (d : Bool) (hd : d = true → k ≠ .packS) :
    MemRel env cst d (fun n => ∃ x, c.decl n = some x) (c.env st) where
  m := ⟨_, h.m⟩
  d e := ⟨_, h.d (hd e)⟩
  dat := h.dat
  fld n hn := by
    obtain ⟨x, hx⟩ := hn
    refine ⟨_, _, (hl.decl n x hx).1, ?_⟩
    show (c.decl n).map _ = _
    rw [hx, h.fld]
    rfl

theorem Rel.read (hl : Link c K k env) (h : Rel c K k N st cst) {n : Str} {d : FDecl} (hd : c.decl n = some d) :
    c.read st n = some ⟨d.ty, st.fld n⟩ ∧ evalE env (fldE n) cst = some (.i ⟨d.ty, st.fld n⟩, cst) := by
  constructor
  · unfold Ctx.read
    rw [hd]
    rfl
  · rw [evalE_fld h.m (hl.decl n d hd).1, h.fld]

/-- `_m->n = e;` from the value of `e`. -/
theorem Rel.setInt (hl : Link c K k env) (h : Rel c K k N st cst) {n : Str} {d : FDecl} (hd : c.decl n = some d) {e : PExpr} {v : CVal}
    (he : evalE env e cst = some (.i v, cst)) : OptRel (Rel c K k N) (c.assign st n v.val) (runE env (.assign ['='] (fldE n) e) cst) := by
  rw [runE_setInt h.m (hl.decl n d hd).1, he]
  exact h.store hl hd (conv_self _ _)

theorem runE_setInt_none (hl : Link c K k env) (h : Rel c K k N st cst) {n : Str} {d : FDecl} (hd : c.decl n = some d) {e : PExpr}
    (he : evalE env e cst = none) : runE env (.assign ['='] (fldE n) e) cst = none := by
  rw [runE_setInt h.m (hl.decl n d hd).1, he]
  rfl

/-- What is to be shown of a statement. -/
def Step (c : Ctx φ) (K : Look) (k : FnKind) (N : OutNames) (f : Nat) (env : Env φ) (o : Option (St φ)) (l : List CStm) (cst : CSt φ) : Prop :=
  ∃ o', OptRel (Rel c K k N) o o' ∧ Runs f env l cst o'

theorem Step.expr {o : Option (St φ)} {e : PExpr} (h : OptRel (Rel c K k N) o (runE env e cst)) : Step c K k N f env o [.expr e] cst := ⟨_, h, Runs.expr e⟩

/-! ### Signals -/

theorem step_setSig (hl : Link c K k env) (h : Rel c K k N st cst) {dst : Str} {ty : CTy} {e : CExpr} (hk : k = .unpack)
    (hd : ∃ d, c.decl dst = some d) (he : ExprOk c true e) :
    Step c K k N f env (Verif.exec c st (.setSig dst ty (.expr e))) (stmsOf K (.setSig dst ty (.expr e))) cst := by
  obtain ⟨d, hd⟩ := hd
  have hv := evalE_toP (h.memRel hl true (by rw [hk]; exact fun _ => nofun)) e he.2 he.1
  refine Step.expr ?_
  show OptRel _ (do let v ← e.eval (c.env st); c.assign st dst (v.cast ty).val) _
  have hc : evalE env (.cast (ctyText ty) (toP e)) cst = (e.eval (c.env st)).map fun v => (.i (v.cast ty), cst) := by
    rw [evalE_cast, hv, tyOf_cty]
    cases e.eval (c.env st) <;> rfl
  cases hx : e.eval (c.env st) with
  | none =>
    rw [hx] at hc
    rw [runE_setInt_none hl h hd hc]
    trivial
  | some v =>
    rw [hx] at hc
    exact h.setInt hl hd hc

theorem step_setSigExt (hl : Link c K k env) (h : Rel c K k N st cst) {dst : Str} {ty : CTy} {e : CExpr} {bits : Nat} (hk : k = .unpack)
    (hb : bits < 256) (hd : ∃ d, c.decl dst = some d) (he : ExprOk c true e) :
    Step c K k N f env (Verif.exec c st (.setSigExt dst ty (.expr e) bits)) (stmsOf K (.setSigExt dst ty (.expr e) bits)) cst := by
  obtain ⟨d, hd⟩ := hd
  have hm := h.memRel hl true (by rw [hk]; exact fun _ => nofun)
  have hv := evalE_toP hm e he.2 he.1
  have hs := toP_single hm e he.2 he.1
  obtain ⟨g, hg, hg2⟩ := hl.ext
  refine Step.expr ?_
  show OptRel _ (do let v ← e.eval (c.env st); let x ← extSig c.cfg.ext64 v bits; c.assign st dst (x.cast ty).val) _
  have hc : evalE env (.cast (ctyText ty) (.call (.id "__ext_sig__".toList) (commaE (toP e) (.num (decStr bits))))) cst =
      (e.eval (c.env st)).bind fun v => (extSig c.cfg.ext64 v bits).map fun x => (.i (x.cast ty), cst) := by
    rw [evalE_cast, evalE_defd hg, goArgs_comma, goArgs_single hs, hv, tyOf_cty]
    cases e.eval (c.env st) with
    | none => rfl
    | some v =>
      dsimp only [Option.map_some, Option.bind_some]
      rw [evalE_num (decStr_noDot _) (litOf_decStr (by omega))]
      dsimp only [Option.map_some, Option.bind_some, List.cons_append, List.nil_append]
      rw [hg2 v bits hb]
      cases extSig c.cfg.ext64 v bits <;> rfl
  cases hx : e.eval (c.env st) with
  | none =>
    rw [hx] at hc
    rw [runE_setInt_none hl h hd hc]
    trivial
  | some v =>
    rw [hx] at hc
    dsimp only [Option.bind_eq_bind, Option.bind_some] at hc ⊢
    cases hy : extSig c.cfg.ext64 v bits with
    | none =>
      rw [hy] at hc
      rw [runE_setInt_none hl h hd hc]
      trivial
    | some x =>
      rw [hy] at hc
      exact h.setInt hl hd hc

/-! ### Conversions -/

theorem step_fromSFloat (hl : Link c K k env) (h : Rel c K k N st cst) {dst mac : Str} (hf : dst ∈ c.floats) (hm : ∃ d, c.decl mac = some d)
    (hs : ∃ s, c.macros.lookup mac = some s ∧ IntConsts s) :
    Step c K k N f env (Verif.exec c st (.fromSFloat dst mac)) (stmsOf K (.fromSFloat dst mac)) cst := by
  obtain ⟨d, hd⟩ := hm
  obtain ⟨s, hs, hc⟩ := hs
  obtain ⟨r1, r2⟩ := h.read hl hd
  have e1 : stmsOf K (.fromSFloat dst mac) = [setFld dst (.cast "sigfloat_t".toList (fromE s (fldE mac)))] := by
    rw [stmsOf, hl.mac, hs]
  have e2 : Verif.exec c st (.fromSFloat dst mac) = (if s.isDouble then
        some { st with flt := fun x => if x = dst then c.fl.fromS s (st.fld mac) else st.flt x }
      else do
        let y ← macroFromS s ⟨d.ty, st.fld mac⟩
        some { st with flt := fun x => if x = dst then c.fl.ofInt y.val else st.flt x }) := by
    rw [Verif.exec, r1, hs]
    dsimp only [Option.bind_eq_bind, Option.bind_some]
    rw [if_pos hf]
    rfl
  rw [e1, e2]
  refine Step.expr ?_
  have hupd : ∀ x : φ, OptRel (Rel c K k N) (some { st with flt := fun y => if y = dst then x else st.flt y }) (some { cst with flt := updAt cst.flt dst x }) := by
    intro x
    refine ⟨h.fld, ?_, h.dat, h.mon, h.outId, h.outDlc, h.outIde, h.calls, h.loc, h.typed⟩
    show updAt cst.flt dst x = _
    rw [h.flt]
    rfl
  rw [runE_setFlt h.m (hl.flt dst hf), evalE_cast, show tyOf env.ext64 "sigfloat_t".toList = some .flt by cases env.ext64 <;> rfl, hl.fl]
  cases hdb : s.isDouble with
  | true =>
    rw [evalE_fromDbl hdb r2, if_pos rfl]
    exact hupd _
  | false =>
    rw [evalE_fromInt hdb hc r2, if_neg Bool.false_ne_true]
    cases macroFromS s ⟨d.ty, st.fld mac⟩ with
    | none => trivial
    | some y => exact hupd _

theorem step_fromSInt (hl : Link c K k env) (h : Rel c K k N st cst) {dst mac : Str} {ty : CTy} (hf : ∃ d, c.decl dst = some d)
    (hm : ∃ d, c.decl mac = some d) (hs : ∃ s, c.macros.lookup mac = some s ∧ IntConsts s) :
    Step c K k N f env (Verif.exec c st (.fromSInt dst ty mac)) (stmsOf K (.fromSInt dst ty mac)) cst := by
  obtain ⟨d, hd⟩ := hm
  obtain ⟨d2, hd2⟩ := hf
  obtain ⟨s, hs, hc⟩ := hs
  obtain ⟨r1, r2⟩ := h.read hl hd
  have e1 : stmsOf K (.fromSInt dst ty mac) = [setFld dst (.cast (ctyText ty) (fromE s (fldE mac)))] := by
    rw [stmsOf, hl.mac, hs]
  have e2 : Verif.exec c st (.fromSInt dst ty mac) = (if s.isDouble then do
        let z ← c.fl.toInt ty (c.fl.fromS s (st.fld mac))
        c.assign st dst z
      else do
        let y ← macroFromS s ⟨d.ty, st.fld mac⟩
        c.assign st dst (y.cast ty).val) := by
    rw [Verif.exec, r1, hs]
    rfl
  rw [e1, e2]
  refine Step.expr ?_
  cases hdb : s.isDouble with
  | true =>
    have hc : evalE env (.cast (ctyText ty) (fromE s (fldE mac))) cst = (c.fl.toInt ty (c.fl.fromS s (st.fld mac))).map fun z => (.i ⟨ty, z⟩, cst) := by
      rw [evalE_cast, tyOf_cty, evalE_fromDbl hdb r2, hl.fl]
      show Option.map _ (Option.map _ _) = Option.map _ _
      rw [Option.map_map]
      rfl
    rw [if_pos rfl]
    cases hz : c.fl.toInt ty (c.fl.fromS s (st.fld mac)) with
    | none =>
      rw [hz] at hc
      rw [runE_setInt_none hl h hd2 hc]
      trivial
    | some z =>
      rw [hz] at hc
      exact h.setInt hl hd2 hc
  | false =>
    have hc : evalE env (.cast (ctyText ty) (fromE s (fldE mac))) cst = (macroFromS s ⟨d.ty, st.fld mac⟩).map fun y => (.i (y.cast ty), cst) := by
      rw [evalE_cast, tyOf_cty, evalE_fromInt hdb hc r2]
      cases macroFromS s ⟨d.ty, st.fld mac⟩ <;> rfl
    rw [if_neg Bool.false_ne_true]
    cases hz : macroFromS s ⟨d.ty, st.fld mac⟩ with
    | none =>
      rw [hz] at hc
      rw [runE_setInt_none hl h hd2 hc]
      trivial
    | some z =>
      rw [hz] at hc
      exact h.setInt hl hd2 hc

theorem step_toS (hl : Link c K k env) (h : Rel c K k N st cst) {dst src : Str} {ty : CTy} (hf : ∃ d, c.decl dst = some d)
    (hm : (∃ d, c.decl src = some d) ∨ (c.decl src = none ∧ src ∈ c.floats)) (hs : ∃ s, c.macros.lookup dst = some s ∧ IntConsts s) :
    Step c K k N f env (Verif.exec c st (.toS dst ty src)) (stmsOf K (.toS dst ty src)) cst := by
  obtain ⟨d2, hd2⟩ := hf
  obtain ⟨s, hs, hc⟩ := hs
  have e1 : stmsOf K (.toS dst ty src) = [setFld dst (.cast (ctyText ty) (toE s (fldE src)))] := by
    rw [stmsOf, hl.mac, hs]
  rw [e1]
  refine Step.expr ?_
  have fin : ∀ o : Option Int, evalE env (toE s (fldE src)) cst = o.map (fun z => (.i ⟨s.typeRo, z⟩, cst)) →
      OptRel (Rel c K k N) (do let z ← o; c.assign st dst (ty.conv z)) (runE env (.assign ['='] (fldE dst) (.cast (ctyText ty) (toE s (fldE src)))) cst) := by
    intro o ho
    have hc : evalE env (.cast (ctyText ty) (toE s (fldE src))) cst = o.map fun z => (.i ((⟨s.typeRo, z⟩ : CVal).cast ty), cst) := by
      rw [evalE_cast, tyOf_cty, ho]
      cases o <;> rfl
    cases o with
    | none =>
      rw [runE_setInt_none hl h hd2 hc]
      trivial
    | some z =>
      have := h.setInt (v := (⟨s.typeRo, z⟩ : CVal).cast ty) hl hd2 hc
      exact this
  rcases hm with ⟨d, hd⟩ | ⟨hn, hfl⟩
  · obtain ⟨r1, r2⟩ := h.read hl hd
    have e2 : Verif.exec c st (.toS dst ty src) = (if s.isDouble then do
        let z ← c.fl.toS s (c.fl.ofInt (st.fld src))
        c.assign st dst (ty.conv z)
      else do
        let y ← macroToS s ⟨d.ty, st.fld src⟩
        c.assign st dst (y.cast ty).val) := by
      rw [Verif.exec, r1, hs]
      rfl
    rw [e2]
    cases hdb : s.isDouble with
    | true =>
      rw [if_pos rfl]
      refine fin _ ?_
      rw [evalE_toDbl hdb r2, hl.fl]
      rfl
    | false =>
      rw [if_neg Bool.false_ne_true]
      have hc : evalE env (.cast (ctyText ty) (toE s (fldE src))) cst = (macroToS s ⟨d.ty, st.fld src⟩).map fun y => (.i (y.cast ty), cst) := by
        rw [evalE_cast, tyOf_cty, evalE_toInt hdb hc r2]
        cases macroToS s ⟨d.ty, st.fld src⟩ <;> rfl
      cases hz : macroToS s ⟨d.ty, st.fld src⟩ with
      | none =>
        rw [hz] at hc
        rw [runE_setInt_none hl h hd2 hc]
        trivial
      | some z =>
        rw [hz] at hc
        exact h.setInt hl hd2 hc
  · have e2 : Verif.exec c st (.toS dst ty src) = (do
        let z ← c.fl.toS s (st.flt src)
        c.assign st dst (ty.conv z)) := by
      rw [Verif.exec, show c.read st src = none by unfold Ctx.read; rw [hn]; rfl, hs]
      dsimp only [Option.bind_eq_bind, Option.bind_some]
      rw [if_pos hfl]
    rw [e2]
    refine fin _ ?_
    have r2 : evalE env (fldE src) cst = some (.f (st.flt src), cst) := by
      rw [evalE_fltFld h.m (hl.flt src hfl), h.flt]
    rw [evalE_toFlt hc r2, hl.fl]

end Verif
