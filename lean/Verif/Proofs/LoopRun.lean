import Verif.Proofs.StepRun2
/-
The loop that fills the payload; whole bodies.
-/
namespace Verif
open Verif.Spec

variable {φ : Type} {c : Ctx φ} {K : Look} {k : FnKind} {N : OutNames} {env : Env φ} {st : St φ} {cst : CSt φ} {f : Nat}

/-- The state with the variable `i` and another payload. -/
def loopSt (cst : CSt φ) (j : Nat) (d : List Nat) : CSt φ :=
  { cst with loc := ("i".toList, .int .u8, some (.i ⟨.u8, (j : Nat)⟩)) :: cst.loc, dat := d }

theorem loopSt_i (j : Nat) (d : List Nat) : (loopSt cst j d).loc.lookup "i".toList = some (.int .u8, some (.i ⟨.u8, (j : Nat)⟩)) := by
  show (List.lookup _ (_ :: _)) = _
  rw [List.lookup_cons, beq_self_eq_true]

theorem Rel.loop (h : Rel c K k N st cst) (j : Nat) (d : List Nat) : Rel c K k N { st with dat := d } (loopSt cst j d) := by
  refine ⟨h.fld, h.flt, rfl, h.mon, h.outId, h.outDlc, h.outIde, h.calls, fun n hn => ?_, h.typed⟩
  show List.lookup n (_ :: _) = _
  have : (n == "i".toList) = false := by simpa using hn
  rw [List.lookup_cons, this]
  exact h.loc n hn

theorem litOf_wide {w : Str} {v : CVal} (h : litOf w = some v) : 32 ≤ v.ty.bits := by
  unfold litOf at h
  split at h
  · split at h
    · split at h
      · cases h
        exact Nat.le_refl 32
      · cases h
    · cases h
  · split at h
    · split at h
      · cases h
        exact Nat.le_refl 32
      · split at h
        · cases h
          exact (by decide : 32 ≤ 64)
        · cases h
    · cases h

theorem conv_small {t : CTy} {n : Nat} (ht : 32 ≤ t.bits) (h : n < 2 ^ 31) : t.conv (n : Int) = n := by
  refine CTy.conv_nat_lt (Nat.lt_of_lt_of_le h (Nat.pow_le_pow_right (by decide) (by omega)))

/-- `((dlc) <= (max)) ? (dlc) : (max)` -/
theorem evalE_valid (hl : Link c K k env) {dlc : Nat} (hd : dlc < 256) : ∃ v : CVal, 32 ≤ v.ty.bits ∧
    v.val = ((if dlc ≤ c.cfg.maxDlc then dlc else c.cfg.maxDlc : Nat) : Int) ∧ evalE env (validE (numU dlc) (.num K.maxW)) cst = some (.i v, cst) := by
  obtain ⟨hdot, w, hw, hv, hm⟩ := hl.max
  have hw32 := litOf_wide hw
  have ha := evalE_num (env := env) (st := cst) (decStrU_noDot dlc) (litOf_decStrU (by omega))
  have hb := evalE_num (env := env) (st := cst) hdot hw
  have hcb := CTy.common_bits .u32 w.ty
  have hcmp : evalE env (.bin ['<', '='] (numU dlc) (.num K.maxW)) cst = some (.i ⟨.i32, if decide (dlc ≤ c.cfg.maxDlc) then 1 else 0⟩, cst) := by
    unfold numU
    rw [evalE_bin (by decide), ha, Option.bind_some, hb]
    show some (V.i ⟨.i32, if decide ((CTy.common .u32 w.ty).conv (dlc : Nat) ≤ (CTy.common .u32 w.ty).conv w.val) then 1 else 0⟩, cst) = _
    rw [hv, conv_small hcb (by omega), conv_small hcb hm]
    simp only [Int.ofNat_le]
  refine ⟨(if decide (dlc ≤ c.cfg.maxDlc) then (⟨.u32, (dlc : Nat)⟩ : CVal) else w).cast (CTy.common .u32 w.ty), hcb, ?_, ?_⟩
  · show (CTy.common .u32 w.ty).conv _ = _
    by_cases h : dlc ≤ c.cfg.maxDlc
    · rw [decide_eq_true h, if_pos rfl, if_pos h, conv_small hcb (by omega)]
    · rw [decide_eq_false h, if_neg Bool.false_ne_true, if_neg h, hv, conv_small hcb hm]
  · have key : ∀ (C A B : PExpr) (vc va vb : V φ) (t : Bool) (v : V φ), evalE env C cst = some (vc, cst) → truth vc = some t → evalE env A cst = some (va, cst) →
        evalE env B cst = some (vb, cst) → condVal t va vb = some v → evalE env (.cond C A B) cst = some (v, cst) := by
      intro C A B vc va vb t v h1 h2 h3 h4 h5
      unfold evalE at h1 h3 h4 ⊢
      rw [go]
      cases g1 : go env C cst with
      | none => rw [g1] at h1; cases h1
      | some p =>
        obtain ⟨r1, s1⟩ := p
        rw [g1] at h1
        dsimp only at h1
        dsimp only [Option.bind_eq_bind, Option.bind_some]
        cases e1 : r1.get env s1 with
        | none => rw [e1] at h1; cases h1
        | some x1 =>
          rw [e1] at h1
          cases h1
          dsimp only [Option.bind_eq_bind, Option.bind_some]
          rw [h2]
          dsimp only [Option.bind_eq_bind, Option.bind_some]
          cases g2 : go env A cst with
          | none => rw [g2] at h3; cases h3
          | some p =>
            obtain ⟨r2, s2⟩ := p
            rw [g2] at h3
            dsimp only at h3
            dsimp only [Option.bind_eq_bind, Option.bind_some]
            cases e2 : r2.get env s2 with
            | none => rw [e2] at h3; cases h3
            | some x2 =>
              rw [e2] at h3
              cases h3
              dsimp only [Option.bind_eq_bind, Option.bind_some]
              cases g3 : go env B cst with
              | none => rw [g3] at h4; cases h4
              | some p =>
                obtain ⟨r3, s3⟩ := p
                rw [g3] at h4
                dsimp only at h4
                dsimp only [Option.bind_eq_bind, Option.bind_some]
                cases e3 : r3.get env s3 with
                | none => rw [e3] at h4; cases h4
                | some x3 =>
                  rw [e3] at h4
                  cases h4
                  dsimp only [Option.bind_eq_bind, Option.bind_some]
                  rw [h5]
                  cases t <;> rfl
    refine key _ _ _ _ _ _ (decide (dlc ≤ c.cfg.maxDlc)) _ hcmp ?_ ha hb rfl
    by_cases h : dlc ≤ c.cfg.maxDlc
    · rw [decide_eq_true h]
      rfl
    · rw [decide_eq_false h]
      rfl

/-- The test of the loop. -/
theorem evalE_test (hl : Link c K k env) {dlc : Nat} (hd : dlc < 256) {n : Nat} (hn : n = if dlc ≤ c.cfg.maxDlc then dlc else c.cfg.maxDlc) {j : Nat} (hj : j ≤ n)
    (d : List Nat) : evalE env (.bin ['<'] (.id "i".toList) (validE (numU dlc) (.num K.maxW))) (loopSt cst j d) =
      some (.i ⟨.i32, if decide (j < n) then 1 else 0⟩, loopSt cst j d) := by
  obtain ⟨v, hb, hv, he⟩ := evalE_valid (cst := loopSt cst j d) hl hd
  have hn2 : n < 256 := by
    rw [hn]
    split <;> omega
  rw [← hn] at hv
  rw [evalE_bin (by decide), evalE_id (loopSt_i j d), Option.bind_some, he]
  show some (V.i ⟨.i32, if decide ((CTy.common .u8 v.ty).conv (j : Nat) < (CTy.common .u8 v.ty).conv v.val) then 1 else 0⟩, _) = _
  have hcb := CTy.common_bits .u8 v.ty
  rw [hv, conv_small hcb (by omega), conv_small hcb (by omega)]
  simp only [Int.ofNat_lt]

theorem evalE_incr {a : PExpr} {l : LV} (ha : go env a cst = some (.place l, cst)) : evalE env (.incr a) cst =
    (readLV env cst l).bind fun v => (binOp env.F ['+'] v (.i ⟨.i32, 1⟩)).bind fun w => (writeLV env cst w l).map fun s => (v, s) := by
  unfold evalE
  rw [go, ha]
  dsimp only [Option.bind_eq_bind, Option.bind_some]
  cases readLV env cst l with
  | none => rfl
  | some v =>
    dsimp only [Option.bind_eq_bind, Option.bind_some]
    cases binOp env.F ['+'] v (.i ⟨.i32, 1⟩) with
    | none => rfl
    | some w =>
      dsimp only [Option.bind_eq_bind, Option.bind_some]
      cases writeLV env cst w l <;> rfl

theorem add_one_u8 {j : Nat} (hj : j < 255) : (⟨.u8, (j : Nat)⟩ : CVal).add ⟨.i32, 1⟩ = some ⟨.i32, ((j + 1 : Nat) : Int)⟩ := by
  unfold CVal.add
  dsimp only
  rw [show CTy.common .u8 .i32 = .i32 from rfl, show CTy.i32.conv 1 = 1 by decide, CTy.conv_inRange (i32_range (by omega) (by omega)),
    CVal.arith, if_pos (show CTy.i32.signed = true from rfl), if_pos (i32_range (by omega) (by omega)), Int.natCast_add]
  rfl

theorem binOp_plus (F : Flt φ) (a b : CVal) : binOp F ['+'] (.i a) (.i b) = (a.add b).map .i := rfl

theorem write_i (v : CVal) (j : Nat) (d : List Nat) : writeLV env (loopSt cst j d) (.i v) (.loc "i".toList) =
    some { loopSt cst j d with loc := ("i".toList, .int .u8, some (.i (v.cast .u8))) :: cst.loc } := by
  rw [writeLV, loopSt_i]
  rfl

/-- `i++` -/
theorem evalE_iincr {j : Nat} (hj : j < 255) (d : List Nat) :
    evalE env (.incr (.id "i".toList)) (loopSt cst j d) = some (.i ⟨.u8, (j : Nat)⟩, loopSt cst (j + 1) d) := by
  rw [evalE_incr (go_id (loopSt_i j d))]
  have hr : readLV env (loopSt cst j d) (.loc "i".toList) = some (.i ⟨.u8, (j : Nat)⟩) := by
    rw [readLV, loopSt_i]
  have e : CTy.u8.conv ((j + 1 : Nat) : Int) = ((j + 1 : Nat) : Int) := by
    rw [u8_conv]
    omega
  rw [hr, Option.bind_some, binOp_plus, add_one_u8 hj, Option.map_some, Option.bind_some, write_i, Option.map_some]
  unfold CVal.cast
  dsimp only
  rw [e]
  rfl

/-- One round. -/
theorem runE_fill (hl : Link c K k env) (h : Rel c K k N st cst) (hk : k ≠ .unpack) {j : Nat} (hj : j < 255) (d : List Nat) :
    runE env (.assign ['='] (.index (arrE K.frame) (.incr (.id "i".toList))) (.num K.initW)) (loopSt cst j d) =
      if j < d.length then some (loopSt cst (j + 1) (d.set j c.cfg.initByte)) else none := by
  obtain ⟨hdot, w, hw, hv⟩ := hl.init
  have hg : go env (.index (arrE K.frame) (.incr (.id "i".toList))) (loopSt cst j d) = some (.place (.byte j), loopSt cst (j + 1) d) :=
    go_byte (evalE_arr hl (h.loop j d) hk) (evalE_iincr hj d) (Int.natCast_nonneg j)
  rw [runE_assign hg, evalE_num hdot hw, Option.bind_some]
  show (if j < d.length then some { loopSt cst (j + 1) d with dat := d.set j (CTy.u8.conv w.val).toNat } else none) = _
  rw [hv]
  rfl

theorem fill_list (d : List Nat) (j r x : Nat) (h : j < d.length) :
    (d.set j x).take (j + 1) ++ (List.replicate r x ++ (d.set j x).drop (j + 1 + r)) = d.take j ++ (List.replicate (r + 1) x ++ d.drop (j + (r + 1))) := by
  have h1 : (d.set j x).take (j + 1) = d.take j ++ [x] := by
    rw [List.take_add_one, List.take_set_of_le (Nat.le_refl _), List.getElem?_set_self h]
    rfl
  have h2 : (d.set j x).drop (j + 1 + r) = d.drop (j + (r + 1)) := by
    rw [List.drop_set_of_lt (by omega), show j + 1 + r = j + (r + 1) by omega]
  rw [h1, h2, List.replicate_succ, List.append_assoc]
  rfl

/-- The rounds from `j` on. -/
theorem rounds_fill (hl : Link c K k env) (h : Rel c K k N st cst) (hk : k ≠ .unpack) {dlc : Nat} (hd : dlc < 256) {n : Nat}
    (hn : n = if dlc ≤ c.cfg.maxDlc then dlc else c.cfg.maxDlc)
    (C : CSt φ → Option (Bool × CSt φ)) (S : CSt φ → Option (CSt φ × Option (V φ)))
    (hC : ∀ s, C s = match evalE env (.bin ['<'] (.id "i".toList) (validE (numU dlc) (.num K.maxW))) s with
      | none => none
      | some (v, st) => (truth v).map fun t => (t, st))
    (hS : ∀ s, S s = (runE env (.assign ['='] (.index (arrE K.frame) (.incr (.id "i".toList))) (.num K.initW)) s).map fun st => (st, none)) (r : Nat) :
    ∀ j fuel d, n = j + r → r < fuel → j ≤ d.length → rounds C S fuel (loopSt cst j d) =
      if n ≤ d.length then some (loopSt cst n (d.take j ++ (List.replicate r c.cfg.initByte ++ d.drop n)), none) else none := by
  have hn2 : n < 256 := by
    rw [hn]
    split <;> omega
  induction r with
  | zero =>
    intro j fuel d hj hf hle
    obtain ⟨fuel, rfl⟩ : ∃ x, fuel = x + 1 := ⟨fuel - 1, by omega⟩
    have hj : n = j := hj
    rw [rounds, hC, evalE_test hl hd hn (by omega) d, decide_eq_false (by omega), if_neg Bool.false_ne_true, if_pos (by omega)]
    show some (loopSt cst j d, none) = _
    rw [hj]
    congr 3
    simp
  | succ r ih =>
    intro j fuel d hj hf hle
    obtain ⟨fuel, rfl⟩ : ∃ x, fuel = x + 1 := ⟨fuel - 1, by omega⟩
    rw [rounds, hC, evalE_test hl hd hn (by omega) d, decide_eq_true (by omega), if_pos rfl]
    show (match S (loopSt cst j d) with
      | none => none
      | some (st, some v) => some (st, some v)
      | some (st, none) => rounds C S fuel st) = _
    rw [hS, runE_fill hl h hk (by omega) d]
    by_cases hlt : j < d.length
    · rw [if_pos hlt]
      show rounds C S fuel (loopSt cst (j + 1) (d.set j c.cfg.initByte)) = _
      rw [ih (j + 1) fuel _ (by omega) (by omega) (by rw [List.length_set]; omega), List.length_set]
      have := fill_list d j r c.cfg.initByte hlt
      rw [show j + 1 + r = n by omega, show j + (r + 1) = n by omega] at this
      rw [this]
    · rw [if_neg hlt, if_neg (by omega)]
      rfl

theorem step_initLoop (hl : Link c K k env) (h : Rel c K k N st cst) {dlc : Nat} (hk : k ≠ .unpack) (hd : dlc < 256) (hf : 256 ≤ f) :
    Step c K k N f env (Verif.exec c st (.initLoop dlc)) (stmsOf K (.initLoop dlc)) cst := by
  have hn2 : (if dlc ≤ c.cfg.maxDlc then dlc else c.cfg.maxDlc) < 256 := by split <;> omega
  have hr := rounds_fill hl h hk hd rfl _ _ (fun _ => rfl) (fun _ => rfl) (if dlc ≤ c.cfg.maxDlc then dlc else c.cfg.maxDlc) 0 f cst.dat (by omega) (by omega) (by omega)
  have ex : Verif.exec c st (.initLoop dlc) = (fun n => if n ≤ st.dat.length then
      some { st with dat := List.replicate n c.cfg.initByte ++ st.dat.drop n } else none) (if dlc ≤ c.cfg.maxDlc then dlc else c.cfg.maxDlc) := rfl
  rw [ex]
  generalize (if dlc ≤ c.cfg.maxDlc then dlc else c.cfg.maxDlc) = n at *
  dsimp only
  rw [h.dat, List.take_zero, List.nil_append] at hr
  refine ⟨if n ≤ st.dat.length then some (loopSt cst n (List.replicate n c.cfg.initByte ++ st.dat.drop n)) else none, ?_, ?_⟩
  · by_cases hle : n ≤ st.dat.length
    · rw [if_pos hle, if_pos hle]
      exact h.loop n _
    · rw [if_neg hle, if_neg hle]
      trivial
  · intro s
    have ht : tyOf env.ext64 "uint8_t".toList = some (.int .u8) := by cases env.ext64 <;> rfl
    have h0 : litOf "0u".toList = some ⟨.u32, 0⟩ := by decide
    have hi : runE env (.assign ['='] (.id "i".toList) (.num "0u".toList)) { cst with loc := ("i".toList, .int .u8, none) :: cst.loc } = some (loopSt cst 0 st.dat) := by
      have hlk : List.lookup "i".toList (("i".toList, Ty.int .u8, (none : Option (V φ))) :: cst.loc) = some (.int .u8, none) := by
        rw [List.lookup_cons, beq_self_eq_true]
      rw [runE_assign (go_id hlk), evalE_num (by decide) h0, Option.bind_some]
      show writeLV env _ _ (.loc "i".toList) = _
      rw [writeLV]
      show (match List.lookup "i".toList (("i".toList, Ty.int .u8, (none : Option (V φ))) :: cst.loc) with
        | some (t, _) => _
        | none => none) = _
      rw [hlk, ← h.dat]
      rfl
    show Spec.exec f env (.seq (.decl _ _ none) (.seq (.loop _ _ _ .skip) s)) cst = _
    rw [Spec.exec, Spec.exec, ht]
    show Spec.exec f env (.seq (.loop _ _ _ .skip) s) _ = _
    rw [Spec.exec, Spec.exec, hi]
    dsimp only
    simp only [Spec.exec]
    generalize hX : rounds _ _ f (loopSt cst 0 st.dat) = X
    rw [hX.symm.trans hr]
    by_cases hle : n ≤ st.dat.length
    · rw [if_pos hle, if_pos hle]
      rfl
    · rw [if_neg hle, if_neg hle]
      rfl

end Verif
