import Verif.Proofs.FuncRun
import Verif.Proofs.PhysRun
import Verif.Proofs.MonRun2
import Verif.Proofs.Macros
/-
The statements of the generated bodies are of the kinds that have been run.
-/
namespace Verif
open Spec

variable {φ : Type} {c : Ctx φ} {K : Look} {k : FnKind} {N : OutNames} {env : Env φ} {m : Msg} {xs : List SigText} {tb : List Slot}

theorem Printed.exprs {P : Str → Prop} (h : Printed m xs tb) (hn : ∀ s ∈ m.signals, IsIdent s.name ∧ P s.name) :
    (∀ x ∈ xs, ∃ e, x = .expr e ∧ Chain e ∧ Shape true P e) ∧ (∀ sl ∈ tb, sl = .empty ∨ ∃ e, sl = .expr e ∧ Chain e ∧ Shape false P e) ∧
      tb.length = m.dlc ∧
      ∀ c, m.sigAt m.csmSig = some c → ∀ i e, csmExpr c = some (i, e) → i < 8 ∧ ∃ x, e = .expr x ∧ Chain x ∧ Shape false P x := by
  have hb := h.built
  unfold buildExprs at hb
  have hc := buildLoop_chain m.signals (fun s hs => ⟨(hn s hs).1, h.bits s hs⟩) [] (List.replicate m.dlc .empty) (by simpa using h.dlc) (by simp)
    (fun sl h => by rw [(List.mem_replicate.1 h).2]; trivial)
  have hs := buildLoop_shape (P := P) m.signals (fun s hs => (hn s hs).2) [] (List.replicate m.dlc .empty) (by simp)
    (fun sl h => by rw [(List.mem_replicate.1 h).2]; trivial)
  rw [hb] at hc hs
  obtain ⟨c1, c2, c3, c4⟩ := hc
  obtain ⟨s1, s2⟩ := hs
  refine ⟨fun x hx => ?_, fun sl hsl => ?_, by simpa using c3, ?_⟩
  · obtain ⟨e, rfl, hl⟩ := h.sigs x hx
    exact ⟨e, rfl, c1 _ hx, Shape.mono (s1 _ hx) (fun _ h => h.elim)⟩
  · rcases h.slots sl hsl with he | ⟨e, rfl, -⟩
    · exact .inl he
    · exact .inr ⟨e, rfl, c2 _ hsl, s2 _ hsl⟩
  · intro c hcs i e he
    obtain ⟨i', x, hx, hl⟩ := h.csm c hcs
    rw [he] at hx
    cases hx
    have hm := sigAt_mem hcs
    have hc := printSignal_chain c (hn c hm).1 (h.bits c hm) (List.replicate 8 .empty) (by simp)
      (fun sl h => by rw [(List.mem_replicate.1 h).2]; trivial)
    have hs := printSignal_shape (P := P) c (hn c hm).2 (List.replicate 8 .empty)
      (fun sl h => by rw [(List.mem_replicate.1 h).2]; trivial)
    unfold csmExpr at he
    revert hc hs he
    cases printSignalExpr c (List.replicate 8 .empty) with
    | oob => intro h; cases h
    | ok y tb' =>
      dsimp only
      intro he hc hs
      cases hi : tb'.findIdx? (· != Slot.empty) with
      | none => rw [hi] at he; cases he
      | some j =>
        rw [hi] at he
        have hj : j < tb'.length := by
          rw [List.findIdx?_eq_some_iff_getElem] at hi
          exact hi.1
        have hij : j = i := by injection he with he; injection he
        have : Slot.expr x ∈ tb' := by
          have e2 : tb'.getD j .empty = .expr x := by injection he with he; injection he
          rw [← e2, List.getD_eq_getElem?_getD]
          simp [hj]
        refine ⟨?_, x, rfl, hc.2.1 _ this, hs.2 _ this⟩
        rw [← hij]
        have h8 : tb'.length = 8 := by rw [hc.2.2]; simp
        omega

/-- What running the functions of a message needs. -/
structure RunOk (c : Ctx φ) (K : Look) (env : Env φ) (m : Msg) : Prop where
  decls : c.decls = structDecls c.cfg m
  floats : c.floats = floatDecls c.cfg m
  nodup : (c.decls.map (·.1) ++ c.floats).Nodup
  names : ∀ s ∈ m.signals, IsIdent s.name
  macs : ∀ s ∈ m.signals, s.isSimple = false → ∃ o, c.macros.lookup s.name = some o ∧ IntConsts o
  bits : ∀ s ∈ m.signals, s.lengthBit < 256
  id : m.msgId < 2 ^ 32
  dlc : m.dlc < 256
  csm : ∀ x, m.sigAt m.csmSig = some x → c.cfg.flag .autoCsm = true → m.csmOp < 2 ^ 31 ∧ HashRel c env K.hash m.dlc m.msgId m.csmMethod m.csmOp ∧
    m.csmMethod ∉ ["_m".toList, "_d".toList, "dlc_".toList, "cframe".toList, "_len".toList, "_ide".toList, "i".toList]
  fmon : c.cfg.flag .useMon = true → env.defd (K.fmon m.name) = none ∧ env.user (K.fmon m.name) = none ∧ env.proto (K.fmon m.name) = true

theorem RunOk.declared (h : RunOk c K env m) {s : Sig} (hs : s ∈ m.signals) : c.decl s.name = some (sigDecl c.cfg s) :=
  decl_of_mem h.decls (List.nodup_append.1 h.nodup).1 (structSigs_mem hs)

theorem RunOk.floated (h : RunOk c K env m) {s : Sig} (hs : s ∈ m.signals) (h1 : s.isSimple = false) (h2 : c.cfg.flag .useSigFloat = true) (h3 : s.isDouble = true) :
    c.decl s.nameFloat = none ∧ s.nameFloat ∈ c.floats := by
  have hm : s.nameFloat ∈ c.floats := by
    rw [h.floats]
    unfold floatDecls
    refine List.mem_flatMap.2 ⟨s, structSigs_mem hs, ?_⟩
    unfold sigFloats
    simp [h1, h2, h3]
  refine ⟨?_, hm⟩
  have hd := (List.nodup_append.1 h.nodup).2.2
  unfold Ctx.decl
  cases hl : c.decls.lookup s.nameFloat with
  | none => rfl
  | some d =>
    have := List.lookup_eq_some_iff.1 hl
    obtain ⟨l1, l2, e, -⟩ := this
    have hmem : s.nameFloat ∈ c.decls.map (·.1) := by rw [e]; simp
    exact absurd rfl (hd _ hmem _ hm)

theorem notMem_of {n : Str} {a b : List Str} (h : n ∉ a) (hb : ∀ x ∈ b, x ∈ a) : n ∉ b := fun hx => h (hb _ hx)

theorem sigStmts_ok (h : RunOk c K env m) {s : Sig} (hs : s ∈ m.signals) {e : CExpr} (he : ExprOk c true e) (x : CStmt) (hx : x ∈ sigStmts c.cfg s (.expr e)) :
    StmtOk c K .unpack env x := by
  unfold sigStmts at hx
  rcases List.mem_cons.1 hx with rfl | hx
  · cases s.signed with
    | true => exact ⟨rfl, h.bits s hs, ⟨_, h.declared hs⟩, e, rfl, he⟩
    | false => exact ⟨rfl, ⟨_, h.declared hs⟩, e, rfl, he⟩
  · cases h1 : s.isSimple with
    | true => rw [h1] at hx; simp at hx
    | false =>
      cases h2 : c.cfg.flag .useSigFloat with
      | false => rw [h2] at hx; simp at hx
      | true =>
        rw [h1, h2] at hx
        simp only [Bool.not_false, Bool.and_self, if_true, List.mem_singleton] at hx
        subst hx
        cases h3 : s.isDouble with
        | true => exact ⟨(h.floated hs h1 h2 h3).2, ⟨_, h.declared hs⟩, h.macs s hs h1⟩
        | false => exact ⟨⟨_, physDecl_of_mem h.decls (List.nodup_append.1 h.nodup).1 hs h1 h2 h3⟩, ⟨_, h.declared hs⟩, h.macs s hs h1⟩

theorem pow_mask {r : Sig} (h : r.lengthBit < 31) : 2 ^ r.lengthBit - 1 < 2 ^ 32 := by
  have : 2 ^ r.lengthBit ≤ 2 ^ 31 := Nat.pow_le_pow_right (by omega) (by omega)
  have h2 : (2 : Nat) ^ 31 = 2147483648 := by decide
  omega

theorem monStmts_ok (h : RunOk c K env m) (hr : RollOk m) (x : CStmt) (hx : x ∈ monStmts c.cfg m) : StmtOk c K .unpack env x := by
  unfold monStmts at hx
  cases hf : c.cfg.flag .useMon with
  | false => rw [hf] at hx; simp at hx
  | true =>
    rw [hf, if_pos rfl] at hx
    have hn := (List.nodup_append.1 h.nodup).1
    simp only [List.mem_append] at hx
    rcases hx with ((hx | hx) | hx) | hx
    · simp only [List.mem_cons, List.not_mem_nil, or_false] at hx
      rcases hx with rfl | rfl | rfl
      · exact ⟨rfl, hf, by have := h.dlc; omega⟩
      · exact hf
      · exact hf
    · cases hs : m.sigAt m.rollSig with
      | none => rw [hs] at hx; cases hx
      | some r =>
        rw [hs] at hx
        dsimp only at hx
        cases ha : c.cfg.flag .autoRoll with
        | false => rw [ha] at hx; cases hx
        | true =>
          rw [ha, if_pos rfl] at hx
          have h1 := h.declared (sigAt_mem hs)
          have h2 := expt_decl h.decls hn hs ha
          simp only [List.mem_cons, List.not_mem_nil, or_false] at hx
          rcases hx with rfl | rfl
          · exact ⟨hf, _, h1, h2⟩
          · exact ⟨⟨_, h2⟩, ⟨_, h1⟩, pow_mask (hr r hs)⟩
    · cases hs : m.sigAt m.csmSig with
      | none => rw [hs] at hx; cases hx
      | some r =>
        rw [hs] at hx
        dsimp only at hx
        cases ha : c.cfg.flag .autoCsm with
        | false => rw [ha] at hx; cases hx
        | true =>
          rw [ha, if_pos rfl, List.mem_singleton] at hx
          subst hx
          obtain ⟨q1, q2, q3⟩ := h.csm r hs ha
          exact ⟨rfl, hf, ⟨_, h.declared (sigAt_mem hs)⟩, by have := h.dlc; omega, h.id, q1, q2, fun e => q3 (by rw [e]; decide),
            notMem_of q3 (by decide)⟩
    · rw [List.mem_singleton] at hx
      subst hx
      exact ⟨hf, h.id, h.fmon hf⟩

/-- The statements of Unpack. -/
theorem unpack_ok (h : RunOk c K env m) (hp : Printed m xs tb) {u : List GLine} (hu : writeUnpackBody m xs = some u) :
    ∃ l, preprocess c.cfg.flag [] u = l ++ [.ret m.msgId] ∧ ∀ s ∈ l, StmtOk c K .unpack env s := by
  obtain ⟨u', h1, h2⟩ := (writeUnpackBody_eq c.cfg m xs).2 hp.roll
  rw [hu] at h1
  cases h1
  refine ⟨_, h2, ?_⟩
  obtain ⟨e1, -, -, -⟩ := hp.exprs (P := fun n => ∃ x, c.decl n = some x) (fun s hs => ⟨h.names s hs, _, h.declared hs⟩)
  intro x hx
  rcases List.mem_append.1 hx with hx | hx
  · obtain ⟨⟨s, y⟩, hq, hx⟩ := List.mem_flatMap.1 hx
    have := List.of_mem_zip hq
    obtain ⟨e, rfl, he⟩ := e1 y this.2
    exact sigStmts_ok h this.1 he x hx
  · exact monStmts_ok h hp.roll x hx

theorem prePack_ok (h : RunOk c K env m) (hr : RollOk m) (x : CStmt) (hx : x ∈ prePackStmts c.cfg m) : StmtOk c K k env x := by
  unfold prePackStmts at hx
  simp only [List.mem_append] at hx
  rcases hx with (hx | hx) | hx
  · cases hs : m.sigAt m.rollSig with
    | none => rw [hs] at hx; cases hx
    | some r =>
      rw [hs] at hx
      dsimp only at hx
      cases ha : c.cfg.flag .autoRoll with
      | false => rw [ha] at hx; cases hx
      | true =>
        rw [ha, if_pos rfl, List.mem_singleton] at hx
        subst hx
        have h1 := h.declared (sigAt_mem hs)
        exact ⟨⟨_, h1⟩, ⟨_, h1⟩, pow_mask (hr r hs)⟩
  · cases hs : m.sigAt m.csmSig with
    | none => rw [hs] at hx; cases hx
    | some r =>
      rw [hs] at hx
      dsimp only at hx
      cases ha : c.cfg.flag .autoCsm with
      | false => rw [ha] at hx; cases hx
      | true =>
        rw [ha, if_pos rfl, List.mem_singleton] at hx
        subst hx
        exact ⟨_, h.declared (sigAt_mem hs)⟩
  · cases h2 : c.cfg.flag .useSigFloat with
    | false => rw [h2] at hx; simp at hx
    | true =>
      rw [h2] at hx
      split at hx
      · obtain ⟨s, hs, rfl⟩ := List.mem_map.1 hx
        simp only [List.mem_filter, Bool.not_eq_true'] at hs
        obtain ⟨hs, h1⟩ := hs
        refine ⟨⟨_, h.declared hs⟩, ?_, h.macs s hs h1⟩
        cases h3 : s.isDouble with
        | true => exact .inr (h.floated hs h1 h2 h3)
        | false => exact .inl ⟨_, physDecl_of_mem h.decls (List.nodup_append.1 h.nodup).1 hs h1 h2 h3⟩
      · cases hx

/-- The statements of Pack. -/
theorem pack_ok (h : RunOk c K env m) (hp : Printed m xs tb) (hk : k = if c.cfg.flag .useCanStruct then .packS else .packA) {p : List GLine}
    (hpk : (if c.cfg.flag .useCanStruct then writePackStructBody m tb else writePackArrayBody m tb) = some p) :
    ∃ l, preprocess c.cfg.flag [] p = l ++ [.ret m.msgId] ∧ ∀ s ∈ l, StmtOk c K k env s := by
  have hk2 : k ≠ .unpack := by rw [hk]; split <;> exact nofun
  obtain ⟨cl, h1, hbal, h2⟩ := (printPackCommonText_eq c.cfg m tb).2 ⟨hp.roll, hp.csmOk⟩
  obtain ⟨-, e1, e2, e3⟩ := hp.exprs (P := fun n => ∃ x, c.decl n = some x) (fun s hs => ⟨h.names s hs, _, h.declared hs⟩)
  have hd := h.dlc
  have hcommon : ∀ s ∈ [CStmt.initLoop m.dlc] ++ prePackStmts c.cfg m ++ byteStmts tb ++ csmStmts c.cfg m, StmtOk c K k env s := by
    intro x hx
    simp only [List.mem_append] at hx
    rcases hx with ((hx | hx) | hx) | hx
    · rw [List.mem_singleton] at hx
      subst hx
      exact ⟨hk2, hd⟩
    · exact prePack_ok h hp.roll x hx
    · unfold byteStmts at hx
      obtain ⟨⟨sl, i⟩, hq, rfl⟩ := List.mem_map.1 hx
      rw [List.mem_filter] at hq
      obtain ⟨hq, hne⟩ := hq
      have hlt := List.mem_zipIdx hq
      have hmem : sl ∈ tb := List.fst_mem_of_mem_zipIdx hq
      rcases e1 sl hmem with rfl | ⟨e, rfl, he⟩
      · simp at hne
      · exact ⟨hk2, by dsimp only; omega, e, rfl, he⟩
    · unfold csmStmts at hx
      cases hs : m.sigAt m.csmSig with
      | none => rw [hs] at hx; cases hx
      | some r =>
        rw [hs] at hx
        dsimp only at hx
        cases ha : c.cfg.flag .autoCsm with
        | false => rw [ha] at hx; cases hx
        | true =>
          rw [ha, if_pos rfl] at hx
          cases hcs : csmExpr r with
          | none => rw [hcs] at hx; cases hx
          | some q =>
            obtain ⟨i, e⟩ := q
            rw [hcs] at hx
            simp only [List.mem_cons, List.not_mem_nil, or_false] at hx
            obtain ⟨hi, e', rfl, he⟩ := e3 r hs i e hcs
            obtain ⟨q1, q2, q3⟩ := h.csm r hs ha
            rcases hx with rfl | rfl
            · exact ⟨hk2, ⟨_, h.declared (sigAt_mem hs)⟩, by omega, h.id, q1, q2, fun e => q3 (by rw [e]; decide),
                notMem_of q3 (by decide)⟩
            · exact ⟨hk2, by omega, e', rfl, he⟩
  have hide : m.ide < 2 ^ 32 := by unfold Msg.ide; split <;> decide
  cases hf : c.cfg.flag .useCanStruct with
  | true =>
    rw [hf, if_pos rfl] at hpk hk
    unfold writePackStructBody at hpk
    rw [h1] at hpk
    cases hpk
    refine ⟨([CStmt.initLoop m.dlc] ++ prePackStmts c.cfg m ++ byteStmts tb ++ csmStmts c.cfg m) ++ [.outId m.msgId, .outDlc m.dlc, .outIde m.ide], ?_, ?_⟩
    · rw [preprocess_append hbal, h2]
      have := preprocess_stmts (flag := c.cfg.flag) [.outId m.msgId, .outDlc m.dlc, .outIde m.ide, .ret m.msgId]
      simp only [List.map_cons, List.map_nil] at this
      rw [this]
      simp
    · intro x hx
      rcases List.mem_append.1 hx with hx | hx
      · exact hcommon x hx
      · simp only [List.mem_cons, List.not_mem_nil, or_false] at hx
        rcases hx with rfl | rfl | rfl
        · exact ⟨hk, h.id⟩
        · exact ⟨hk2, by omega⟩
        · exact ⟨hk2, hide⟩
  | false =>
    rw [hf, if_neg Bool.false_ne_true] at hpk hk
    unfold writePackArrayBody at hpk
    rw [h1] at hpk
    cases hpk
    refine ⟨([CStmt.initLoop m.dlc] ++ prePackStmts c.cfg m ++ byteStmts tb ++ csmStmts c.cfg m) ++ [.outDlc m.dlc, .outIde m.ide], ?_, ?_⟩
    · rw [preprocess_append hbal, h2]
      have := preprocess_stmts (flag := c.cfg.flag) [.outDlc m.dlc, .outIde m.ide, .ret m.msgId]
      simp only [List.map_cons, List.map_nil] at this
      rw [this]
      simp
    · intro x hx
      rcases List.mem_append.1 hx with hx | hx
      · exact hcommon x hx
      · simp only [List.mem_cons, List.not_mem_nil, or_false] at hx
        rcases hx with rfl | rfl
        · exact ⟨hk2, by omega⟩
        · exact ⟨hk2, hide⟩

end Verif
