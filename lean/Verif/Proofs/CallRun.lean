import Verif.Proofs.BodyOk
/-
Calls of the generated functions as C functions against the calls of the model.
-/
namespace Verif
open Spec

variable {φ : Type} {c : Ctx φ} {K : Look} {k : FnKind} {N : OutNames} {env : Env φ} {m : Msg} {xs : List SigText} {tb : List Slot} {g : GenDesc}
  {st : St φ} {cst : CSt φ} {f : Nat}

/-- What a state of the C program and a state of the model have in common. -/
structure Obs (K : Look) (N : OutNames) (st : St φ) (cst : CSt φ) : Prop where
  fld : cst.fld = st.fld
  flt : cst.flt = st.flt
  dat : cst.dat = st.dat
  mon : MonRel st.mon cst.mon
  outId : cst.out "MsgId".toList = st.outId.map Int.ofNat
  outDlc : cst.out N.len = st.outDlc.map Int.ofNat
  outIde : cst.out N.ide = st.outIde.map Int.ofNat
  calls : cst.calls = st.calls.map (monCall K)

/-- The members hold values of their types. -/
def Typed (c : Ctx φ) (st : St φ) : Prop := ∀ n d, c.decl n = some d → d.ty.conv (st.fld n) = st.fld n

theorem Obs.rel (h : Obs K N st cst) (ht : Typed c st) : Rel c K k N st { cst with loc := k.params N.len N.ide c.dlcArg } :=
  ⟨h.fld, h.flt, h.dat, h.mon, h.outId, h.outDlc, h.outIde, h.calls, fun _ _ => rfl, ht⟩

theorem Rel.obs (h : Rel c K k N st cst) : Obs K N st cst := ⟨h.fld, h.flt, h.dat, h.mon, h.outId, h.outDlc, h.outIde, h.calls⟩

/-- A call of the model against a call of the C function. -/
def Same (K : Look) (N : OutNames) (id : Nat) : CallRes φ → Option (CSt φ × V φ) → Prop
  | .ok st, some r => Obs K N st r.1 ∧ st.retv = some id ∧ r.2 = .i ⟨.u32, (id : Nat)⟩
  | .bad, none => True
  | _, _ => False

/-- Parameters of `Unpack`. -/
def unpackArgs (v : CVal) : List (V φ) := [.p .msg, .p .data, .i v]

/-- Parameters of `Pack`. -/
def packArgs (frame : Bool) (N : OutNames) : List (V φ) :=
  if frame then [.p .msg, .p .frame] else [.p .msg, .p .data, .p (.out N.len), .p (.out N.ide)]

theorem bind_unpack {v : CVal} (hv : CTy.u8.conv v.val = (c.dlcArg : Nat)) :
    bindParams env (unpackParams m) (unpackArgs v) = some (FnKind.unpack.params N.len N.ide c.dlcArg) := by
  have ht : tyOf env.ext64 "uint8_t".toList = some (.int .u8) := by cases env.ext64 <;> rfl
  unfold unpackParams unpackArgs
  simp only [bindParams]
  rw [if_neg Bool.false_ne_true, ht]
  simp only [if_true, convTo]
  rw [CVal.cast, hv]
  rfl

theorem bind_pack (frame : Bool) :
    bindParams env (packParams frame m) (packArgs frame N) = some (FnKind.params (φ := φ) (if frame then .packS else .packA) N.len N.ide c.dlcArg) := by
  cases frame <;> rfl

theorem runE_of_evalE {e : PExpr} {v : V φ} {cst' : CSt φ} (h : evalE env e cst = some (v, cst')) : runE env e cst = some cst' := by
  unfold evalE at h
  unfold runE
  cases hg : go env e cst with
  | none => rw [hg] at h; cases h
  | some p =>
    obtain ⟨r, s⟩ := p
    rw [hg] at h
    dsimp only at h
    cases hr : r.get env s with
    | none => rw [hr] at h; cases h
    | some w => rw [hr] at h; cases h; rfl

theorem same_of (hok : c.declsOk = true) {lines : List GLine} {id : Nat} {r : Option (CSt φ × V φ)}
    (h : OptRel (RetRel c K k N id) (execAll c st (preprocess c.cfg.flag [] lines)) r) : Same K N id (runBody c lines st) r := by
  unfold runBody
  rw [if_pos hok]
  revert h
  cases execAll c st (preprocess c.cfg.flag [] lines) with
  | none =>
    cases r with
    | none => exact fun _ => trivial
    | some x => exact fun h => h.elim
  | some st' =>
    cases r with
    | none => exact fun h => h.elim
    | some x => exact fun h => ⟨h.1.obs, h.2.1, h.2.2⟩

theorem unpack_call (hl : Link c K .unpack env) (hR : RunOk c K env m) (hp : Printed m xs tb) (hf : 256 ≤ f) {u : List GLine} (hu : writeUnpackBody m xs = some u)
    (ho : Obs K N st cst) (ht : Typed c st) {v : CVal} (hv : CTy.u8.conv v.val = (c.dlcArg : Nat)) :
    Same K N m.msgId (runUnpack c m st) (callFunc f env (unpackFunc g m K (preprocess c.cfg.flag [] u)) (unpackArgs v) cst) := by
  have hok : c.declsOk = true := decide_eq_true hR.nodup
  unfold runUnpack
  rw [hp.built]
  dsimp only
  rw [hu]
  refine same_of hok (k := .unpack) (c := c) ?_
  obtain ⟨l, e1, e2⟩ := unpack_ok hR hp hu
  rw [e1]
  have hpre : Runs f env [.expr (.cast "void".toList (.id "dlc_".toList))] { cst with loc := FnKind.unpack.params N.len N.ide c.dlcArg }
      (some { cst with loc := FnKind.unpack.params N.len N.ide c.dlcArg }) := by
    have e : runE env (.cast "void".toList (.id "dlc_".toList)) { cst with loc := FnKind.unpack.params N.len N.ide c.dlcArg } =
        some { cst with loc := FnKind.unpack.params N.len N.ide c.dlcArg } := by
      have hvt : tyOf env.ext64 "void".toList = some .void := by cases env.ext64 <;> rfl
      refine runE_of_evalE (v := .unit) ?_
      rw [evalE_cast, evalE_id (t := .int .u8) (v := .i ⟨.u8, (c.dlcArg : Nat)⟩) rfl, hvt]
      rfl
    have := Runs.expr (f := f) (env := env) (st := { cst with loc := FnKind.unpack.params N.len N.ide c.dlcArg }) (.cast "void".toList (.id "dlc_".toList))
    rw [e] at this
    exact this
  exact call_run hl nofun hf (unpackFunc g m K (l ++ [.ret m.msgId])) (bind_unpack hv) rfl rfl hpre (ho.rel ht) e2 hR.id

theorem pack_call (hk : k = if c.cfg.flag .useCanStruct then .packS else .packA) (hK : K.frame = c.cfg.flag .useCanStruct) (hl : Link c K k env) (hN : OutOk k N)
    (hR : RunOk c K env m) (hp : Printed m xs tb)
    (hf : 256 ≤ f) {p : List GLine} (hpk : (if c.cfg.flag .useCanStruct then writePackStructBody m tb else writePackArrayBody m tb) = some p)
    (ho : Obs K N st cst) (ht : Typed c st) :
    Same K N m.msgId (runPack c m st) (callFunc f env (packFunc g m K (preprocess c.cfg.flag [] p)) (packArgs K.frame N) cst) := by
  have hok : c.declsOk = true := decide_eq_true hR.nodup
  unfold runPack
  rw [hp.built]
  dsimp only
  rw [hpk]
  refine same_of hok (k := k) (c := c) ?_
  obtain ⟨l, e1, e2⟩ := pack_ok (k := k) hR hp hk hpk
  rw [e1]
  refine call_run hl hN hf (packFunc g m K (l ++ [.ret m.msgId])) (pre := []) (loc := k.params N.len N.ide c.dlcArg) ?_ rfl rfl Runs.nil (ho.rel ht) e2 hR.id
  have := bind_pack (c := c) (env := env) (m := m) (N := N) K.frame
  rw [hk, ← hK]
  exact this

end Verif
