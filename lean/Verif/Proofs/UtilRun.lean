import Verif.Proofs.UtilRead
/-
Calls of the receive function of the util source file.
-/
namespace Verif
open Spec

variable {φ : Type} {env : Env φ} {st : CSt φ} {f : Nat}

/-- Ids in the conditions of a tree. -/
def treeIds : CTree → List Nat
  | .null => []
  | .cond c a b => condIds c ++ treeIds a ++ treeIds b
  | .express c _ => condIds c
  | .single _ => []
where condIds : RCond → List Nat
  | .eq i => [i]
  | .range a b => [a, b]

theorem fillTree_ids {list : List Msg} : ∀ {fuel l h : Nat} {s : Bool} {t : CTree}, fillTree list fuel l h s = some t → ∀ i ∈ treeIds t, ∃ m ∈ list, m.msgId = i := by
  intro fuel
  induction fuel with
  | zero => intro l h s t e; cases e
  | succ k ih =>
    intro l h s t e i hi
    have one : ∀ {x : Msg} {l : Nat}, list[l]? = some x → i = x.msgId → ∃ m ∈ list, m.msgId = i := fun hx e => ⟨_, List.mem_of_getElem? hx, e.symm⟩
    rw [fillTree] at e
    dsimp only at e
    split at e
    · cases e; cases hi
    · split at e
      · obtain ⟨x, hx, rfl⟩ := Option.map_eq_some_iff.1 e
        exact one hx (by simpa [treeIds, treeIds.condIds] using hi)
      · split at e
        · simp only [Option.bind_eq_bind, Option.bind_eq_some_iff, Option.pure_def, Option.some.injEq] at e
          obtain ⟨a, ha, b, hb, hi', h1, lo, h2, rfl⟩ := e
          rcases List.mem_append.1 hi with hi | hi
          · rcases List.mem_append.1 hi with hi | hi
            · split at hi
              · rcases List.mem_cons.1 hi with hi | hi
                · exact one ha hi
                · exact one hb (List.mem_singleton.1 hi)
              · exact one ha (List.mem_singleton.1 hi)
            · exact ih h1 i hi
          · exact ih h2 i hi
        · obtain ⟨x, hx, rfl⟩ := Option.map_eq_some_iff.1 e
          exact one hx (by simpa [treeIds, treeIds.condIds] using hi)

/-- Value of the variable of the receive function and of its parameters. -/
def recvLoc (r : CVal) (id d : Nat) : List (Str × Ty × Option (V φ)) :=
  [("recid".toList, .int .u32, some (.i r)), ("_m".toList, .ptr, some (.p .msg)), ("_d".toList, .ptr, some (.p .data)), ("_id".toList, .int .u32, some (.i ⟨.u32, (id : Nat)⟩)),
   ("dlc_".toList, .int .u8, some (.i ⟨.u8, (d : Nat)⟩))]

theorem hexU_noDot (n : Nat) : (hexU n).contains '.' = false := by
  rw [List.contains_eq_any_beq, List.any_eq_false]
  intro c hc e
  have h := (numW_hexU n).2 c hc
  have : '.' = c := by simpa using e
  subst this
  revert h
  decide

theorem evalE_hexU {n : Nat} (h : n < 2 ^ 32) (st : CSt φ) : evalE env (.num (hexU n)) st = some (.i ⟨.u32, (n : Nat)⟩, st) := by
  unfold evalE go
  rw [hexU_noDot, if_neg Bool.false_ne_true, litOf_hexU h]
  rfl

theorem u32_nat {n : Nat} (h : n < 2 ^ 32) : CTy.u32.conv (n : Int) = n := by
  rw [u32_conv]
  omega

theorem recv_id (r : CVal) (id d : Nat) : evalE env (.id "_id".toList) { st with loc := recvLoc r id d } = some (.i ⟨.u32, (id : Nat)⟩, { st with loc := recvLoc r id d }) := rfl

theorem evalE_bin2 {op : Str} (hop : op ≠ [',']) {a b : PExpr} {va vb : V φ} {s1 s2 : CSt φ} (ha : evalE env a st = some (va, s1)) (hb : evalE env b s1 = some (vb, s2)) :
    evalE env (.bin op a b) st = (binOp env.F op va vb).map fun v => (v, s2) := by
  unfold evalE at ha hb ⊢
  rw [go]
  cases h1 : go env a st with
  | none => rw [h1] at ha; cases ha
  | some x =>
    obtain ⟨ra, t1⟩ := x
    rw [h1] at ha
    obtain ⟨v, g1, g2⟩ := Option.map_eq_some_iff.1 ha
    cases g2
    simp only [Option.bind_eq_bind, Option.bind_some, if_neg hop, g1]
    cases h2 : go env b s1 with
    | none => rw [h2] at hb; cases hb
    | some y =>
      obtain ⟨rb, t2⟩ := y
      rw [h2] at hb
      obtain ⟨w, k1, k2⟩ := Option.map_eq_some_iff.1 hb
      cases k2
      simp only [Option.bind_some, k1]
      cases binOp env.F op va vb <;> rfl

theorem cmp_u32 {a b : Nat} (ha : a < 2 ^ 32) (hb : b < 2 ^ 32) (r : Int → Int → Bool) : cmpInt r ⟨.u32, (a : Nat)⟩ ⟨.u32, (b : Nat)⟩ = ⟨.i32, if r a b then 1 else 0⟩ := by
  unfold cmpInt
  have e : CTy.common .u32 .u32 = .u32 := rfl
  dsimp only
  rw [e, u32_nat ha, u32_nat hb]

theorem evalE_cond {c : RCond} {r : CVal} {id d : Nat} (hid : id < 2 ^ 32) (hc : ∀ i ∈ treeIds.condIds c, i < 2 ^ 32) :
    evalE env (condE c) { st with loc := recvLoc r id d } = some (.i ⟨.i32, if c.eval id then 1 else 0⟩, { st with loc := recvLoc r id d }) := by
  cases c with
  | eq i =>
    have hi := hc i (by simp [treeIds.condIds])
    rw [condE, evalE_bin2 (by decide) (recv_id r id d) (evalE_hexU hi _)]
    show some (V.i (cmpInt (fun x y => decide (x = y)) _ _), _) = _
    rw [cmp_u32 hid hi]
    congr 5
    simp [RCond.eval]
    omega
  | range a b =>
    have ha := hc a (by simp [treeIds.condIds])
    have hb := hc b (by simp [treeIds.condIds])
    have e1 : evalE env (.bin ['>', '='] (.id "_id".toList) (.num (hexU a))) { st with loc := recvLoc r id d } = some (.i ⟨.i32, if decide (a ≤ id) then 1 else 0⟩, { st with loc := recvLoc r id d }) := by
      rw [evalE_bin2 (by decide) (recv_id r id d) (evalE_hexU ha _)]
      show some (V.i (cmpInt (fun x y => decide (x ≥ y)) _ _), _) = _
      rw [cmp_u32 hid ha]
      congr 5
      simp
    have e2 : evalE env (.bin ['<'] (.id "_id".toList) (.num (hexU b))) { st with loc := recvLoc r id d } = some (.i ⟨.i32, if decide (id < b) then 1 else 0⟩, { st with loc := recvLoc r id d }) := by
      rw [evalE_bin2 (by decide) (recv_id r id d) (evalE_hexU hb _)]
      show some (V.i (cmpInt (fun x y => decide (x < y)) _ _), _) = _
      rw [cmp_u32 hid hb]
      congr 5
      simp
    rw [condE, evalE_bin2 (by decide) e1 e2, RCond.eval]
    by_cases h1 : a ≤ id <;> by_cases h2 : id < b <;> simp [h1, h2] <;> rfl

/-! ### Calls -/

/-- The arguments of a call. -/
def callArgs (m : Msg) (d : Nat) : List (V φ) := [.p (.sub m.name), .p .data, .i ⟨.u8, (d : Nat)⟩]

/-- The call of a message can be made. -/
structure CallEnv (env : Env φ) (drv : Str) (m : Msg) : Prop where
  mem : env.mem.lookup m.name = some (.named (typeName m))
  mon : typeName m ≠ "FrameMonitor_t".toList
  defd : env.defd (callName drv m) = none
  user : env.user (callName drv m) = none
  proto : env.proto (callName drv m) = true

theorem call_exec {drv : Str} {m : Msg} (h : CallEnv env drv m) {r v : CVal} {id d : Nat} (hr : env.ret (callName drv m) (callArgs m d) = .i v) :
    runE env (callE drv m) { st with loc := recvLoc r id d } =
      some { st with calls := st.calls ++ [(callName drv m, callArgs m d)], loc := recvLoc (v.cast .u32) id d } := by
  have e1 : go env (.arrow (.id "_m".toList) m.name) { st with loc := recvLoc r id d } = some (.place (.sub m.name), { st with loc := recvLoc r id d }) := by
    show (match env.mem.lookup m.name with
      | some (.named t) => some (R.place (if t = "FrameMonitor_t".toList then LV.mon else .sub m.name), _)
      | some _ => some (.place (.mem m.name), _)
      | none => none) = _
    rw [h.mem]
    dsimp only
    rw [if_neg h.mon]
  have e2 : go env (.bin [','] (.bin [','] (.addr (.arrow (.id "_m".toList) m.name)) (.id "_d".toList)) (.id "dlc_".toList)) { st with loc := recvLoc r id d } =
      some (.args (callArgs m d), { st with loc := recvLoc r id d }) := by
    have e0 : go env (.addr (.arrow (.id "_m".toList) m.name)) { st with loc := recvLoc r id d } = some (.val (.p (.sub m.name)), { st with loc := recvLoc r id d }) := by
      rw [go, e1]
      rfl
    rw [go, go, e0]
    rfl
  have e3 : go env (.call (.id (callName drv m)) (.bin [','] (.bin [','] (.addr (.arrow (.id "_m".toList) m.name)) (.id "_d".toList)) (.id "dlc_".toList))) { st with loc := recvLoc r id d } =
      some (.val (.i v), { st with calls := st.calls ++ [(callName drv m, callArgs m d)], loc := recvLoc r id d }) := by
    rw [go, e2]
    simp only [Option.bind_eq_bind, Option.bind_some, R.list, h.defd, h.user, h.proto, if_true, hr]
  unfold runE callE
  rw [go]
  have e4 : go env (.id "recid".toList) { st with loc := recvLoc r id d } = some (.place (.loc "recid".toList), { st with loc := recvLoc r id d }) := rfl
  rw [e4]
  simp only [Option.bind_eq_bind, Option.bind_some, e3]
  rfl

/-- State after calls: the calls are noted, the variable has the last returned value. -/
def afterCalls (rv : Msg → CVal) (drv : Str) (d : Nat) : List Msg → CSt φ → CVal → CSt φ × CVal
  | [], st, r => (st, r)
  | m :: l, st, _ => afterCalls rv drv d l { st with calls := st.calls ++ [(callName drv m, callArgs m d)] } ((rv m).cast .u32)

theorem exec_seqs_expr {e : PExpr} {s : CSt φ} (h : runE env e st = some s) (k : CStm) : Spec.exec f env (seqs [.expr e] k) st = Spec.exec f env k s := by
  show (match (runE env e st).map fun st => (st, (none : Option (V φ))) with
    | none => none
    | some (st, some v) => some (st, some v)
    | some (st, none) => Spec.exec f env k st) = _
  rw [h]
  rfl

theorem exec_seq_none {a k : CStm} {s : CSt φ} (h : Spec.exec f env a st = some (s, none)) : Spec.exec f env (.seq a k) st = Spec.exec f env k s := by
  rw [Spec.exec, h]

theorem exec_ifs {c : PExpr} {a b : CStm} {v : Bool} (h : evalE env c st = some (.i ⟨.i32, if v then 1 else 0⟩, st)) :
    Spec.exec f env (.ifs c a b) st = if v then Spec.exec f env a st else Spec.exec f env b st := by
  rw [Spec.exec, h]
  cases v <;> rfl

theorem tree_exec {drv : Str} {rv : Msg → CVal} {id d : Nat} (hid : id < 2 ^ 32) : ∀ (t : CTree), (∀ i ∈ treeIds t, i < 2 ^ 32) →
    (∀ m ∈ treeCalls id t, CallEnv env drv m ∧ env.ret (callName drv m) (callArgs m d) = .i (rv m)) → ∀ (k : CStm) (st : CSt φ) (r : CVal),
    Spec.exec f env (seqs (treeStms drv t) k) { st with loc := recvLoc r id d } =
      Spec.exec f env k { (afterCalls rv drv d (treeCalls id t) st r).1 with loc := recvLoc (afterCalls rv drv d (treeCalls id t) st r).2 id d } := by
  intro t
  have one : ∀ (m : Msg), (CallEnv env drv m ∧ env.ret (callName drv m) (callArgs m d) = .i (rv m)) → ∀ (k : CStm) (st : CSt φ) (r : CVal),
      Spec.exec f env (seqs [.expr (callE drv m)] k) { st with loc := recvLoc r id d } =
      Spec.exec f env k { (afterCalls rv drv d [m] st r).1 with loc := recvLoc (afterCalls rv drv d [m] st r).2 id d } :=
    fun m h k st r => exec_seqs_expr (call_exec h.1 h.2) k
  induction t with
  | null => intro _ _ k st r; rfl
  | express c m => intro _ h k st r; exact one m (h m (by simp [treeCalls])) k st r
  | single m => intro _ h k st r; exact one m (h m (by simp [treeCalls])) k st r
  | cond c a b ih1 ih2 =>
    intro hi h k st r
    have hc := evalE_cond (env := env) (st := st) (r := r) (d := d) hid (c := c) fun i hx => hi i (by simp [treeIds, hx])
    have ha := fun hv : c.eval id = true => ih1 (fun i hx => hi i (by simp [treeIds, hx])) (fun m hx => h m (by simp [treeCalls, hv, hx])) .skip st r
    have hb := fun (hv : c.eval id = false) (hg : lowGuard id b = true) => ih2 (fun i hx => hi i (by simp [treeIds, hx])) (fun m hx => h m (by simp [treeCalls, hv, hg, hx])) .skip st r
    have key : ∀ B, (c.eval id = false → Spec.exec f env B { st with loc := recvLoc r id d } =
          some ({ (afterCalls rv drv d (if lowGuard id b then treeCalls id b else []) st r).1 with loc := recvLoc (afterCalls rv drv d (if lowGuard id b then treeCalls id b else []) st r).2 id d }, none)) →
        Spec.exec f env (seqs [.ifs (condE c) (seqs (treeStms drv a) .skip) B] k) { st with loc := recvLoc r id d } =
        Spec.exec f env k { (afterCalls rv drv d (treeCalls id (.cond c a b)) st r).1 with loc := recvLoc (afterCalls rv drv d (treeCalls id (.cond c a b)) st r).2 id d } := by
      intro B hB
      refine exec_seq_none ?_
      rw [exec_ifs hc, treeCalls]
      cases hv : c.eval id with
      | true => exact ha hv
      | false => exact hB hv
    cases b with
    | null => exact key .skip fun _ => rfl
    | single m => exact key _ fun hv => hb hv rfl
    | cond c' h' l' =>
      rw [treeStms]
      exact key _ fun hv => hb hv rfl
    | express c' m =>
      refine key _ fun hv => ?_
      have hc' := evalE_cond (env := env) (st := st) (r := r) (d := d) hid (c := c') fun i hx => hi i (by simp [treeIds, hx])
      rw [exec_ifs hc', lowGuard]
      cases hv' : c'.eval id with
      | true => exact hb hv hv'
      | false => rfl

end Verif
