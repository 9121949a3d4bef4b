import Verif.Proofs.LoopRun
import Verif.Proofs.FuncRead
/-
The bodies of the generated functions as C statements run as in the model.
-/
namespace Verif
open Spec

variable {φ : Type} {c : Ctx φ} {K : Look} {k : FnKind} {N : OutNames} {env : Env φ} {st : St φ} {cst : CSt φ} {f : Nat}

/-- What the names of the outputs are. -/
def OutOk (k : FnKind) (N : OutNames) : Prop := k = .packS → N.len = "DLC".toList ∧ N.ide = "IDE".toList

theorem stmt_run (hl : Link c K k env) (hN : OutOk k N) (hf : 256 ≤ f) (h : Rel c K k N st cst) (s : CStmt) (hs : StmtOk c K k env s) :
    Step c K k N f env (Verif.exec c st s) (stmsOf K s) cst := by
  cases s with
  | setSig dst ty x =>
    obtain ⟨h1, h2, e, rfl, h3⟩ := hs
    exact step_setSig hl h h1 h2 h3
  | setSigExt dst ty x bits =>
    obtain ⟨h1, h0, h2, e, rfl, h3⟩ := hs
    exact step_setSigExt hl h h1 h0 h2 h3
  | fromSFloat dst mac => exact step_fromSFloat hl h hs.1 hs.2.1 hs.2.2
  | fromSInt dst ty mac => exact step_fromSInt hl h hs.1 hs.2.1 hs.2.2
  | toS dst ty src => exact step_toS hl h hs.1 hs.2.1 hs.2.2
  | monDlc dlc => exact step_monDlc hl h hs.1 hs.2.1 hs.2.2
  | monTick => exact step_monTick hl h hs
  | monCnt => exact step_monCnt hl h hs
  | monRoll n => exact step_monRoll hl h hs.1 hs.2
  | incr dst src mask => exact step_incr hl h hs.1 hs.2.1 hs.2.2
  | monCsm dlc id method op n =>
    obtain ⟨h1, h2, h3, h4, h5, h6, h7, h8, h9⟩ := hs
    exact step_monCsm hl h h1 h2 h3 h4 h5 h6 h7 h8 h9
  | fmon name id => exact step_fmon hl h hs.1 hs.2.1 hs.2.2.1 hs.2.2.2.1 hs.2.2.2.2
  | initLoop dlc => exact step_initLoop hl h hs.1 hs.2 hf
  | clear n ty => exact step_clear hl h hs
  | orByte i x =>
    obtain ⟨h1, h2, e, rfl, h3⟩ := hs
    exact step_orByte hl h h1 h2 h3
  | setCsm n dlc id method op =>
    obtain ⟨h1, h3, h4, h5, h6, h7, h8, h9⟩ := hs
    exact step_setCsm hl h h1 h3 h4 h5 h6 h7 h8 h9
  | outId id => exact step_outId h hs.1 hs.2
  | outDlc dlc => exact step_outDlc hl hN h hs.1 hs.2
  | outIde ide => exact step_outIde hl hN h hs.1 hs.2
  | ret id => exact hs.elim

theorem body_run (hl : Link c K k env) (hN : OutOk k N) (hf : 256 ≤ f) : ∀ (l : List CStmt) (st : St φ) (cst : CSt φ), Rel c K k N st cst → (∀ s ∈ l, StmtOk c K k env s) →
    Step c K k N f env (execAll c st l) (l.flatMap (stmsOf K)) cst := by
  intro l
  induction l with
  | nil =>
    intro st cst h _
    exact ⟨some cst, h, Runs.nil⟩
  | cons s l ih =>
    intro st cst h hs
    obtain ⟨o, h1, h2⟩ := stmt_run hl hN hf h s (hs s (List.mem_cons_self ..))
    rw [execAll, List.flatMap_cons]
    revert h1
    cases ho : Verif.exec c st s with
    | none =>
      cases o with
      | none => exact fun _ => ⟨none, trivial, Runs.none_append h2⟩
      | some x => exact fun h => h.elim
    | some st' =>
      cases o with
      | none => exact fun h => h.elim
      | some cst' =>
        intro h'
        obtain ⟨o2, h3, h4⟩ := ih st' cst' h' fun s hs' => hs s (List.mem_cons_of_mem _ hs')
        exact ⟨o2, h3, Runs.append h2 h4⟩

/-! ### Calls -/

/-- The returned state and value. -/
def RetRel (c : Ctx φ) (K : Look) (k : FnKind) (N : OutNames) (id : Nat) (st : St φ) (r : CSt φ × V φ) : Prop :=
  Rel c K k N st r.1 ∧ st.retv = some id ∧ r.2 = .i ⟨.u32, (id : Nat)⟩

theorem runs_ret {id : Nat} (hi : id < 2 ^ 32) (k : CStm) : Spec.exec f env (seqs [.ret (idU id)] k) cst = some (cst, some (.i ⟨.u32, (id : Nat)⟩)) := by
  show Spec.exec f env (.seq (.ret (idU id)) k) cst = _
  rw [Spec.exec, Spec.exec]
  unfold idU
  rw [evalE_num (altX_noDot _) (litOf_altX hi)]
  rfl

theorem Rel.ret (h : Rel c K k N st cst) (id : Nat) : Rel c K k N { st with retv := some id } cst :=
  ⟨h.fld, h.flt, h.dat, h.mon, h.outId, h.outDlc, h.outIde, h.calls, h.loc, h.typed⟩

theorem ret_conv {id : Nat} (hi : id < 2 ^ 32) : ((tyOf env.ext64 "uint32_t".toList).bind fun ty => (convTo env.F ty (.i ⟨.u32, (id : Nat)⟩)).map fun x => (cst, x)) =
    some (cst, .i ⟨.u32, (id : Nat)⟩) := by
  have ht : tyOf env.ext64 "uint32_t".toList = some (.int .u32) := by cases env.ext64 <;> rfl
  rw [ht, Option.bind_some, convTo, Option.map_some, CVal.cast]
  have e : CTy.u32.conv (id : Nat) = (id : Nat) := by rw [u32_conv]; omega
  rw [e]

theorem call_run (hl : Link c K k env) (hN : OutOk k N) (hf : 256 ≤ f) (fn : Func) {vs : List (V φ)} {loc : List (Str × Ty × Option (V φ))} {pre : List CStm} {l : List CStmt} {id : Nat}
    (hb : bindParams env fn.params vs = some loc) (hr : fn.ret = "uint32_t".toList) (hbody : fn.body = seqs (pre ++ (l ++ [CStmt.ret id]).flatMap (stmsOf K)) .skip)
    (hpre : Runs f env pre { cst with loc := loc } (some { cst with loc := loc }))
    (h : Rel c K k N st { cst with loc := loc }) (hs : ∀ s ∈ l, StmtOk c K k env s) (hi : id < 2 ^ 32) :
    OptRel (RetRel c K k N id) (execAll c st (l ++ [.ret id])) (callFunc f env fn vs cst) := by
  obtain ⟨o, h1, h2⟩ := body_run hl hN hf l st _ h hs
  rw [execAll_append]
  unfold callFunc
  rw [hb, hr, hbody, seqs_append]
  dsimp only
  rw [hpre, Option.bind_some, List.flatMap_append, seqs_append, h2]
  revert h1
  cases execAll c st l with
  | none =>
    cases o with
    | none => exact fun _ => trivial
    | some x => exact fun h => h.elim
  | some st' =>
    cases o with
    | none => exact fun h => h.elim
    | some cst' =>
      intro h'
      rw [Option.bind_some, Option.bind_some]
      have e : [CStmt.ret id].flatMap (stmsOf K) = [.ret (idU id)] := rfl
      rw [e, runs_ret hi]
      dsimp only
      rw [ret_conv hi]
      exact ⟨h'.ret id, rfl, rfl⟩

end Verif
