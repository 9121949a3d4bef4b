import Verif.Proofs.StepRun
/-
One statement of a generated function: monitor, checksum, payload, outputs.
-/
namespace Verif
open Verif.Spec

variable {φ : Type} {c : Ctx φ} {K : Look} {k : FnKind} {N : OutNames} {env : Env φ} {st : St φ} {cst : CSt φ} {f : Nat}

/-! ### Ranges -/

theorem conv_range (t : CTy) (z : Int) : t.InRange (t.conv z) := by
  unfold CTy.conv
  cases hs : t.signed with
  | true =>
    rw [if_pos rfl]
    exact bmod_inRange hs (Nat.le_refl _) z
  | false =>
    rw [if_neg Bool.false_ne_true]
    have hp : (0 : Int) < (2 ^ t.bits : Nat) := by
      have := Nat.pow_pos (n := t.bits) (show 0 < 2 by decide)
      omega
    have h1 := Int.emod_nonneg z (Int.ne_of_gt hp)
    have h2 := Int.emod_lt_of_pos z hp
    unfold CTy.InRange CTy.minV CTy.maxV
    rw [hs, if_neg Bool.false_ne_true, if_neg Bool.false_ne_true]
    have : ((2 ^ t.bits : Nat) : Int) = 2 ^ t.bits := by simp
    omega

theorem promote_range (t : CTy) : t.promote.minV ≤ t.minV ∧ t.maxV ≤ t.promote.maxV := by
  cases t <;> decide

theorem conv_promote {t : CTy} {z : Int} (h : t.conv z = z) : t.promote.conv z = z := by
  have := conv_range t z
  rw [h] at this
  have hp := promote_range t
  exact CTy.conv_inRange ⟨Int.le_trans hp.1 this.1, Int.le_trans this.2 hp.2⟩

theorem common_self (t : CTy) : CTy.common t t = t.promote := by cases t <;> rfl
theorem common_u8 (t : CTy) : CTy.common .u8 t = t.promote := by cases t <;> rfl

theorem u32_conv (z : Int) : CTy.u32.conv z = z % 4294967296 := rfl
theorem u8_toU (z : Int) : CTy.toU .u8 z = (CTy.u8.conv z).toNat := rfl
theorem u8_conv (z : Int) : CTy.u8.conv z = z % 256 := rfl

/-- Storing a truth value into a flag of the monitor. -/
theorem store_flag (b : Bool) : storeInt .u32 (some 1) (CTy.u32.conv (if b then 1 else 0)) = ((if b then 1 else 0 : Nat) : Int) := by
  cases b <;> decide

/-! ### Monitor -/

theorem Rel.setMon (h : Rel c K k N st cst) {m : Mon} {g : Str → Int} (hm : MonRel m g) :
    Rel c K k N { st with mon := m } { cst with mon := g } :=
  ⟨h.fld, h.flt, h.dat, hm, h.outId, h.outDlc, h.outIde, h.calls, h.loc, h.typed⟩

theorem step_monDlc (hl : Link c K k env) (h : Rel c K k N st cst) {dlc : Nat} (hk : k = .unpack) (hf : c.cfg.flag .useMon = true) (hd : dlc < 2 ^ 32) :
    Step c K k N f env (Verif.exec c st (.monDlc dlc)) (stmsOf K (.monDlc dlc)) cst := by
  subst hk
  have ht := hl.mon hf
  refine Step.expr ?_
  rw [runE_setMon h.m ht (y := .u32) (w := some 1) (by rfl), evalE_bin (by decide), evalE_id h.dlcA, Option.bind_some]
  unfold numU
  rw [evalE_num (decStrU_noDot _) (litOf_decStrU hd)]
  show OptRel _ (some _) (some { cst with mon := updAt cst.mon "dlc_error".toList (storeInt .u32 (some 1)
    (CTy.u32.conv (if decide (CTy.u32.conv (c.dlcArg : Nat) < CTy.u32.conv (dlc : Nat)) then 1 else 0))) })
  have e : decide (CTy.u32.conv (c.dlcArg : Nat) < CTy.u32.conv (dlc : Nat)) = decide (c.dlcArg < dlc) := by
    have := hl.dlc
    rw [u32_conv, u32_conv, decide_eq_decide]
    omega
  rw [e, store_flag]
  refine h.setMon (h.mon.setDlc ?_)
  by_cases hlt : c.dlcArg < dlc
  · rw [decide_eq_true hlt, if_pos rfl, if_pos hlt]
  · rw [decide_eq_false hlt, if_neg Bool.false_ne_true, if_neg hlt]

theorem step_monTick (hl : Link c K k env) (h : Rel c K k N st cst) (hf : c.cfg.flag .useMon = true) :
    Step c K k N f env (Verif.exec c st .monTick) (stmsOf K .monTick) cst := by
  have ht := hl.mon hf
  refine Step.expr ?_
  have hv : ∃ v : CVal, evalE env (tickE K.tick) cst = some (.i v, cst) ∧ CTy.u32.conv v.val = (c.tick % 2 ^ 32 : Nat) := by
    have h2 := hl.tick
    cases hK : K.tick with
    | zero =>
      rw [hK] at h2
      refine ⟨⟨.u32, 0⟩, evalE_num (by decide) (by decide), ?_⟩
      have h2 : c.tick % 2 ^ 32 = 0 := h2
      rw [h2]
      rfl
    | call g =>
      rw [hK] at h2
      obtain ⟨u, hu, h3⟩ := h2
      obtain ⟨v, hv, h4⟩ := h3 cst.dat
      refine ⟨v, ?_, h4⟩
      show evalE env (.call0 (.id g)) cst = _
      rw [evalE_user0 hu, hv]
      rfl
  obtain ⟨v, hv, h4⟩ := hv
  rw [runE_setMon h.m ht (y := .u32) (w := none) (by rfl), hv]
  show OptRel _ (some _) (some { cst with mon := updAt cst.mon "last_cycle".toList (CTy.u32.conv (CTy.u32.conv v.val)) })
  refine h.setMon (h.mon.setLast ?_)
  rw [conv_self, h4]

theorem runE_incr {a : PExpr} {l : LV} (ha : go env a cst = some (.place l, cst)) : runE env (.incr a) cst =
    (readLV env cst l).bind fun v => (binOp env.F ['+'] v (.i ⟨.i32, 1⟩)).bind fun w => writeLV env cst w l := by
  unfold runE
  rw [go, ha]
  dsimp only [Option.bind_eq_bind, Option.bind_some]
  cases readLV env cst l with
  | none => rfl
  | some v =>
    dsimp only [Option.bind_eq_bind, Option.bind_some]
    cases binOp env.F ['+'] v (.i ⟨.i32, 1⟩) with
    | none => rfl
    | some w =>
      dsimp only [Option.bind_eq_bind, Option.bind_some]
      cases writeLV env cst w l <;> rfl

theorem step_monCnt (hl : Link c K k env) (h : Rel c K k N st cst) (hf : c.cfg.flag .useMon = true) :
    Step c K k N f env (Verif.exec c st .monCnt) (stmsOf K .monCnt) cst := by
  have ht := hl.mon hf
  refine Step.expr ?_
  have hm : monMembers.lookup "frame_cnt".toList = some (.u32, none) := by rfl
  rw [runE_incr (go_mon h.m ht), readLV, hm]
  show OptRel _ (some _) (Option.bind (some (V.i ⟨.u32, CTy.u32.conv (CTy.u32.conv (cst.mon "frame_cnt".toList) + CTy.u32.conv 1)⟩)) fun w =>
    writeLV env cst w (.monf "frame_cnt".toList))
  rw [Option.bind_some, writeLV, hm, h.mon.cnt]
  refine h.setMon (h.mon.setCnt ?_)
  show CTy.u32.conv (CTy.u32.conv (CTy.u32.conv (CTy.u32.conv _ + CTy.u32.conv 1))) = _
  rw [conv_self, conv_self, u32_conv, u32_conv, u32_conv]
  omega

theorem step_monRoll (hl : Link c K k env) (h : Rel c K k N st cst) {n : Str} (hf : c.cfg.flag .useMon = true)
    (hd : ∃ d, c.decl n = some d ∧ c.decl (exptName n) = some d) :
    Step c K k N f env (Verif.exec c st (.monRoll n)) (stmsOf K (.monRoll n)) cst := by
  have ht := hl.mon hf
  obtain ⟨d, h1, h2⟩ := hd
  obtain ⟨r1, r2⟩ := h.read hl h1
  obtain ⟨q1, q2⟩ := h.read hl h2
  refine Step.expr ?_
  rw [runE_setMon h.m ht (y := .u32) (w := some 1) (by rfl), evalE_bin (by decide), r2, Option.bind_some, q2, Option.bind_some, Verif.exec, r1, q1]
  show OptRel _ (some _) (some { cst with mon := updAt cst.mon "roll_error".toList (storeInt .u32 (some 1)
    (CTy.u32.conv (if decide ((CTy.common d.ty d.ty).conv (st.fld n) ≠ (CTy.common d.ty d.ty).conv (st.fld (exptName n))) then 1 else 0))) })
  rw [common_self, conv_promote (h.typed n d h1), conv_promote (h.typed _ d h2), store_flag]
  refine h.setMon (h.mon.setRoll ?_)
  by_cases he : st.fld n = st.fld (exptName n)
  · rw [decide_eq_false (by simpa using he), if_neg Bool.false_ne_true, if_pos he]
  · rw [decide_eq_true (by simpa using he), if_pos rfl, if_neg he]

theorem step_incr (hl : Link c K k env) (h : Rel c K k N st cst) {dst src : Str} {mask : Nat} (hd : ∃ d, c.decl dst = some d)
    (hs : ∃ d, c.decl src = some d) (hm : mask < 2 ^ 32) :
    Step c K k N f env (Verif.exec c st (.incr dst src mask)) (stmsOf K (.incr dst src mask)) cst := by
  obtain ⟨d, hd⟩ := hd
  obtain ⟨d2, hd2⟩ := hs
  obtain ⟨r1, r2⟩ := h.read hl hd2
  refine Step.expr ?_
  have hc : evalE env (.bin ['&'] (.bin ['+'] (fldE src) (.num "1".toList)) (.num (maskW mask))) cst =
      ((⟨d2.ty, st.fld src⟩ : CVal).add ⟨.i32, 1⟩).map fun w => (.i (w.land ⟨.u32, (mask : Nat)⟩), cst) := by
    have h1 : litOf "1".toList = some ⟨.i32, 1⟩ := by decide
    rw [evalE_bin (by decide), evalE_bin (by decide), r2, Option.bind_some, evalE_num (by decide) h1]
    show Option.bind (Option.map _ ((CVal.add _ _).map V.i)) _ = _
    cases (⟨d2.ty, st.fld src⟩ : CVal).add ⟨.i32, 1⟩ with
    | none => rfl
    | some w =>
      dsimp only [Option.map_some, Option.bind_some]
      rw [evalE_num (maskW_noDot _) (litOf_02X hm)]
      rfl
  rw [Verif.exec, r1]
  dsimp only [Option.bind_eq_bind, Option.bind_some]
  cases hx : (⟨d2.ty, st.fld src⟩ : CVal).add ⟨.i32, 1⟩ with
  | none =>
    rw [hx] at hc
    rw [runE_setInt_none hl h hd hc]
    trivial
  | some w =>
    rw [hx] at hc
    exact h.setInt hl hd hc

/-! ### Checksum -/

theorem lookup_notin {α : Type} {l : List (Str × α)} {n : Str} (h : n ∉ l.map (·.1)) : l.lookup n = none := by
  induction l with
  | nil => rfl
  | cons x l ih =>
    rw [List.map_cons, List.mem_cons, not_or] at h
    obtain ⟨a, b⟩ := x
    have : (n == a) = false := by simpa using h.1
    rw [List.lookup_cons, this]
    exact ih h.2

theorem evalE_hash (h : Rel c K k N st cst) {arr : PExpr} (ha : evalE env arr cst = some (.p .data, cst)) (hs : Single env arr cst) {dlc id op : Nat} {method : Str}
    (h1 : dlc < 2 ^ 32) (h2 : id < 2 ^ 32) (h3 : op < 2 ^ 31) (hh : HashRel c env K.hash dlc id method op) (hm : cst.loc.lookup method = none) :
    evalE env (u8E (hashE K.hash arr dlc id method op)) cst = some (.i ⟨.u8, (c.hash st.dat dlc id method op % 256 : Nat)⟩, cst) := by
  have ht : tyOf env.ext64 "uint8_t".toList = some (.int .u8) := by cases env.ext64 <;> rfl
  unfold u8E
  rw [evalE_cast, ht]
  cases hK : K.hash with
  | zero =>
    rw [hK] at hh
    have h0 : litOf "0u".toList = some ⟨.u32, 0⟩ := by decide
    show Option.bind (evalE env (.num "0u".toList) cst) _ = _
    rw [evalE_num (by decide) h0, (hh : ∀ d, _) st.dat]
    rfl
  | call g =>
    rw [hK] at hh
    obtain ⟨hd, z, u, hz, hu, hv⟩ := hh
    obtain ⟨v, hv, he⟩ := hv st.dat
    show Option.bind (evalE env (.call (.id g) _) cst) _ = _
    rw [evalE_user hd hu, goArgs_comma, goArgs_comma, goArgs_comma, goArgs_comma, goArgs_single hs, ha]
    dsimp only [Option.map_some, Option.bind_some]
    unfold numU idU
    rw [evalE_num (decStrU_noDot _) (litOf_decStrU h1)]
    dsimp only [Option.map_some, Option.bind_some]
    rw [evalE_num (altX_noDot _) (litOf_altX h2)]
    dsimp only [Option.map_some, Option.bind_some]
    rw [evalE_const hm hz]
    dsimp only [Option.map_some, Option.bind_some]
    rw [evalE_num (decStr_noDot _) (litOf_decStr h3)]
    dsimp only [Option.map_some, Option.bind_some, List.cons_append, List.nil_append]
    rw [h.dat, hv]
    show some (V.i ⟨.u8, CTy.u8.conv v.val⟩, cst) = _
    rw [he]

theorem step_monCsm (hl : Link c K k env) (h : Rel c K k N st cst) {dlc id op : Nat} {method n : Str} (hk : k = .unpack) (hf : c.cfg.flag .useMon = true)
    (hd : ∃ d, c.decl n = some d) (h1 : dlc < 2 ^ 32) (h2 : id < 2 ^ 32) (h3 : op < 2 ^ 31) (hh : HashRel c env K.hash dlc id method op)
    (hm : method ≠ "i".toList) (hm2 : method ∉ ["_m".toList, "_d".toList, "dlc_".toList]) :
    Step c K k N f env (Verif.exec c st (.monCsm dlc id method op n)) (stmsOf K (.monCsm dlc id method op n)) cst := by
  subst hk
  have ht := hl.mon hf
  obtain ⟨d, hd⟩ := hd
  obtain ⟨r1, r2⟩ := h.read hl hd
  have hdl := h.d nofun
  have hv := evalE_hash h (evalE_id (env := env) hdl) (.of (go_id hdl) nofun) h1 h2 h3 hh ((h.loc _ hm).trans (lookup_notin hm2))
  refine Step.expr ?_
  rw [runE_setMon h.m ht (y := .u32) (w := some 1) (by rfl), evalE_bin (by decide), hv, Option.bind_some, r2, Option.bind_some, Verif.exec, r1]
  show OptRel _ (some _) (some { cst with mon := updAt cst.mon "csm_error".toList (storeInt .u32 (some 1)
    (CTy.u32.conv (if decide ((CTy.common .u8 d.ty).conv ((c.hash st.dat dlc id method op % 256 : Nat) : Int) ≠ (CTy.common .u8 d.ty).conv (st.fld n)) then 1 else 0))) })
  have e : d.ty.promote.conv ((c.hash st.dat dlc id method op % 256 : Nat) : Int) = (c.hash st.dat dlc id method op % 256 : Nat) := by
    refine CTy.conv_nat_lt ?_
    have h32 := d.ty.promote_bits
    have : 2 ^ 8 ≤ 2 ^ (d.ty.promote.bits - 1) := Nat.pow_le_pow_right (by decide) (by omega)
    omega
  rw [common_u8, conv_promote (h.typed n d hd), e, store_flag]
  refine h.setMon (h.mon.setCsm ?_)
  by_cases he : ((c.hash st.dat dlc id method op % 256 : Nat) : Int) = st.fld n
  · rw [decide_eq_false (by simpa using he), if_neg Bool.false_ne_true, if_pos he]
  · rw [decide_eq_true (by simpa using he), if_pos rfl, if_neg he]

theorem step_setCsm (hl : Link c K k env) (h : Rel c K k N st cst) {dlc id op : Nat} {method n : Str} (hk : k ≠ .unpack)
    (hd : ∃ d, c.decl n = some d) (h1 : dlc < 2 ^ 32) (h2 : id < 2 ^ 32) (h3 : op < 2 ^ 31) (hh : HashRel c env K.hash dlc id method op)
    (hm : method ≠ "i".toList) (hm2 : method ∉ ["_m".toList, "_d".toList, "cframe".toList, "_len".toList, "_ide".toList]) :
    Step c K k N f env (Verif.exec c st (.setCsm n dlc id method op)) (stmsOf K (.setCsm n dlc id method op)) cst := by
  obtain ⟨d, hd⟩ := hd
  have hn : method ∉ (k.params (φ := φ) N.len N.ide c.dlcArg).map (·.1) := by
    intro hx
    refine hm2 ?_
    cases k with
    | unpack => exact absurd rfl hk
    | packS =>
      have hx : method ∈ ["_m".toList, "cframe".toList] := hx
      simp only [List.mem_cons, List.not_mem_nil, or_false] at hx ⊢
      rcases hx with hx | hx
      · exact .inl hx
      · exact .inr (.inr (.inl hx))
    | packA =>
      have hx : method ∈ ["_m".toList, "_d".toList, "_len".toList, "_ide".toList] := hx
      simp only [List.mem_cons, List.not_mem_nil, or_false] at hx ⊢
      rcases hx with hx | hx | hx | hx
      · exact .inl hx
      · exact .inr (.inl hx)
      · exact .inr (.inr (.inr (.inl hx)))
      · exact .inr (.inr (.inr (.inr hx)))
  have hv := evalE_hash h (evalE_arr hl h hk) (single_arr hl h hk) h1 h2 h3 hh ((h.loc _ hm).trans (lookup_notin hn))
  refine Step.expr ?_
  have := h.setInt hl hd hv
  exact this

theorem step_clear (hl : Link c K k env) (h : Rel c K k N st cst) {n : Str} {ty : CTy} (hd : ∃ d, c.decl n = some d) :
    Step c K k N f env (Verif.exec c st (.clear n ty)) (stmsOf K (.clear n ty)) cst := by
  obtain ⟨d, hd⟩ := hd
  have h0 : litOf "0".toList = some ⟨.i32, 0⟩ := by decide
  have hc : evalE env (.cast (ctyText ty) (.num "0".toList)) cst = some (.i ((⟨.i32, 0⟩ : CVal).cast ty), cst) := by
    rw [evalE_cast, evalE_num (by decide) h0, tyOf_cty]
    rfl
  have e : stmsOf K (.clear n ty) = [.expr (.assign ['='] (fldE n) (.cast (ctyText ty) (.num "0".toList)))] := rfl
  have e2 : Verif.exec c st (.clear n ty) = c.assign st n ((⟨.i32, 0⟩ : CVal).cast ty).val := rfl
  rw [e, e2]
  exact Step.expr (h.setInt hl hd hc)

/-! ### Monitor function -/

theorem step_fmon (hl : Link c K k env) (h : Rel c K k N st cst) {name : Str} {id : Nat} (hf : c.cfg.flag .useMon = true) (hi : id < 2 ^ 32)
    (h0 : env.defd (K.fmon name) = none) (h1 : env.user (K.fmon name) = none) (h2 : env.proto (K.fmon name) = true) :
    Step c K k N f env (Verif.exec c st (.fmon name id)) (stmsOf K (.fmon name id)) cst := by
  have ht := hl.mon hf
  have ha : go env (.addr (fldE "mon1".toList)) cst = some (.val (.p .mon), cst) := by
    rw [go, go_fld h.m ht]
    rfl
  refine Step.expr ?_
  rw [runE_proto h0 h1 h2, goArgs_comma, goArgs_single (.of ha nofun), evalE_go ha]
  show OptRel _ _ (Option.map _ (Option.bind (some ([V.p .mon], cst)) _))
  rw [Option.bind_some]
  unfold idU
  rw [evalE_num (altX_noDot _) (litOf_altX hi)]
  refine ⟨h.fld, h.flt, h.dat, h.mon, h.outId, h.outDlc, h.outIde, ?_, h.loc, h.typed⟩
  show cst.calls ++ [(K.fmon name, [V.p .mon] ++ [V.i ⟨.u32, (id : Nat)⟩])] = (st.calls ++ [(name, id)]).map (monCall K)
  rw [h.calls, List.map_append]
  rfl

/-! ### Payload -/

theorem step_orByte (hl : Link c K k env) (h : Rel c K k N st cst) {i : Nat} {e : CExpr} (hk : k ≠ .unpack) (hi : i < 2 ^ 31) (he : ExprOk c false e) :
    Step c K k N f env (Verif.exec c st (.orByte i (.expr e))) (stmsOf K (.orByte i (.expr e))) cst := by
  have hv := evalE_toP (h.memRel hl false nofun) e he.2 he.1
  have hg : go env (.index (arrE K.frame) (.num (decStr i))) cst = some (.place (.byte i), cst) :=
    go_byte (evalE_arr hl h hk) (evalE_num (decStr_noDot i) (litOf_decStr hi)) (Int.natCast_nonneg i)
  have ht : tyOf env.ext64 "uint8_t".toList = some (.int .u8) := by cases env.ext64 <;> rfl
  refine Step.expr ?_
  rw [runE_or hg]
  show OptRel _ (do let v ← e.eval (c.env st); let old ← st.dat[i]?
                    let r := (⟨.u8, (old : Nat)⟩ : CVal).lor (v.cast .u8)
                    some { st with dat := st.dat.set i (CTy.toU .u8 r.val) }) _
  unfold u8E
  rw [evalE_cast, hv, ht]
  cases e.eval (c.env st) with
  | none => trivial
  | some v =>
    dsimp only [Option.map_some, Option.bind_some, Option.bind_eq_bind, convTo]
    rw [readLV]
    show OptRel _ _ (Option.bind (Option.map _ cst.dat[i]?) _)
    rw [h.dat]
    cases hx : st.dat[i]? with
    | none => trivial
    | some old =>
      dsimp only [Option.map_some, Option.bind_some]
      show OptRel _ (some _) (writeLV env cst (.i ((⟨.u8, (old : Nat)⟩ : CVal).lor (v.cast .u8))) (.byte i))
      have hlt : i < st.dat.length := (List.getElem?_eq_some_iff.mp hx).1
      rw [writeLV, h.dat, if_pos hlt]
      refine ⟨h.fld, h.flt, ?_, h.mon, h.outId, h.outDlc, h.outIde, h.calls, h.loc, h.typed⟩
      generalize (⟨.u8, (old : Nat)⟩ : CVal).lor (v.cast .u8) = w
      show st.dat.set i (CTy.u8.conv w.val).toNat = st.dat.set i (CTy.toU .u8 w.val)
      rw [u8_toU]

/-! ### Outputs -/

theorem go_out (h : Rel c K .packS N st cst) {n : Str} (hn : n ≠ "Data".toList) : go env (.arrow (.id "cframe".toList) n) cst = some (.place (.out n), cst) := by
  rw [go, go_id h.frame]
  dsimp only [Option.bind_eq_bind, Option.bind_some, Option.map_some]
  rw [get_loc h.frame]
  dsimp only [Option.bind_eq_bind, Option.bind_some, Option.map_some]
  rw [if_neg hn]

theorem go_deref {n x : Str} {t : Ty} (h : cst.loc.lookup n = some (t, some (.p (.out x)))) : go env (.deref (.id n)) cst = some (.place (.out x), cst) := by
  rw [go, go_id h]
  dsimp only [Option.bind_eq_bind, Option.bind_some, Option.map_some]
  rw [get_loc h]
  rfl

theorem runE_out {a : PExpr} {x : Str} (hg : go env a cst = some (.place (.out x), cst)) {e : PExpr} {v : CVal} (he : evalE env e cst = some (.i v, cst)) :
    runE env (.assign ['='] a e) cst = some { cst with out := updAt cst.out x (some ((outType x).conv v.val)) } := by
  rw [runE_assign hg, he]
  rfl

theorem outType_u8 {n : Str} (h : n ≠ "MsgId".toList) : outType n = .u8 := if_neg h

theorem step_outId (h : Rel c K k N st cst) {id : Nat} (hk : k = .packS) (hi : id < 2 ^ 32) :
    Step c K k N f env (Verif.exec c st (.outId id)) (stmsOf K (.outId id)) cst := by
  subst hk
  have ht : tyOf env.ext64 "uint32_t".toList = some (.int .u32) := by cases env.ext64 <;> rfl
  have he : evalE env (.cast "uint32_t".toList (idU id)) cst = some (.i ((⟨.u32, (id : Nat)⟩ : CVal).cast .u32), cst) := by
    unfold idU
    rw [evalE_cast, evalE_num (altX_noDot _) (litOf_altX hi), ht]
    rfl
  refine Step.expr ?_
  rw [runE_out (go_out h (by decide)) he]
  refine ⟨h.fld, h.flt, h.dat, h.mon, ?_, ?_, ?_, h.calls, h.loc, h.typed⟩
  · have e : (outType "MsgId".toList).conv ((⟨.u32, (id : Nat)⟩ : CVal).cast .u32).val = Int.ofNat (id % 2 ^ 32) := by
      show CTy.u32.conv (CTy.u32.conv (id : Nat)) = _
      rw [conv_self, u32_conv]
      exact (Int.natCast_emod id 4294967296).symm
    have e2 := updAt_same cst.out "MsgId".toList (some (Int.ofNat (id % 2 ^ 32)))
    rw [e]
    exact e2
  · exact (updAt_other _ _ N.lenId).trans h.outDlc
  · exact (updAt_other _ _ N.ideId).trans h.outIde

theorem evalE_u8num (n : Nat) (h : n < 2 ^ 32) : evalE env (u8E (numU n)) cst = some (.i ((⟨.u32, (n : Nat)⟩ : CVal).cast .u8), cst) := by
  have ht : tyOf env.ext64 "uint8_t".toList = some (.int .u8) := by cases env.ext64 <;> rfl
  unfold numU u8E
  rw [evalE_cast, evalE_num (decStrU_noDot _) (litOf_decStrU h), ht]
  rfl

theorem step_outDlc (hl : Link c K k env) (hN : k = .packS → N.len = "DLC".toList ∧ N.ide = "IDE".toList) (h : Rel c K k N st cst) {dlc : Nat} (hk : k ≠ .unpack)
    (hi : dlc < 2 ^ 32) : Step c K k N f env (Verif.exec c st (.outDlc dlc)) (stmsOf K (.outDlc dlc)) cst := by
  have hg : go env (lenE K.frame) cst = some (.place (.out N.len), cst) := by
    cases hf : K.frame with
    | true =>
      have := (hl.frame hk).1 hf
      subst this
      rw [(hN rfl).1]
      exact go_out h (by decide)
    | false =>
      cases k with
      | unpack => exact absurd rfl hk
      | packS => rw [(hl.frame hk).2 rfl] at hf; cases hf
      | packA => exact go_deref h.len
  refine Step.expr ?_
  rw [runE_out hg (evalE_u8num dlc hi), outType_u8 N.lenId]
  refine ⟨h.fld, h.flt, h.dat, h.mon, ?_, ?_, ?_, h.calls, h.loc, h.typed⟩
  · exact (updAt_other _ _ (Ne.symm N.lenId)).trans h.outId
  · refine (updAt_same _ _ _).trans ?_
    rw [show CTy.u8.conv ((⟨.u32, (dlc : Nat)⟩ : CVal).cast .u8).val = Int.ofNat (dlc % 256) by
      show CTy.u8.conv (CTy.u8.conv (dlc : Nat)) = _
      rw [conv_self, u8_conv]
      exact (Int.natCast_emod dlc 256).symm]
    rfl
  · exact (updAt_other _ _ (Ne.symm N.ne)).trans h.outIde

theorem step_outIde (hl : Link c K k env) (hN : k = .packS → N.len = "DLC".toList ∧ N.ide = "IDE".toList) (h : Rel c K k N st cst) {ide : Nat} (hk : k ≠ .unpack)
    (hi : ide < 2 ^ 32) : Step c K k N f env (Verif.exec c st (.outIde ide)) (stmsOf K (.outIde ide)) cst := by
  have hg : go env (ideE K.frame) cst = some (.place (.out N.ide), cst) := by
    cases hf : K.frame with
    | true =>
      have := (hl.frame hk).1 hf
      subst this
      rw [(hN rfl).2]
      exact go_out h (by decide)
    | false =>
      cases k with
      | unpack => exact absurd rfl hk
      | packS => rw [(hl.frame hk).2 rfl] at hf; cases hf
      | packA => exact go_deref h.ide
  refine Step.expr ?_
  rw [runE_out hg (evalE_u8num ide hi), outType_u8 N.ideId]
  refine ⟨h.fld, h.flt, h.dat, h.mon, ?_, ?_, ?_, h.calls, h.loc, h.typed⟩
  · exact (updAt_other _ _ (Ne.symm N.ideId)).trans h.outId
  · exact (updAt_other _ _ N.ne).trans h.outDlc
  · refine (updAt_same _ _ _).trans ?_
    rw [show CTy.u8.conv ((⟨.u32, (ide : Nat)⟩ : CVal).cast .u8).val = Int.ofNat (ide % 256) by
      show CTy.u8.conv (CTy.u8.conv (ide : Nat)) = _
      rw [conv_self, u8_conv]
      exact (Int.natCast_emod ide 256).symm]
    rfl

end Verif
