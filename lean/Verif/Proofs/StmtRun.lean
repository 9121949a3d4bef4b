import Verif.Proofs.FuncRead
import Verif.Proofs.CIntLemmas
import Verif.Proofs.Macros
/-
Running the statements the generated functions are read as: each does what the model says.
-/
namespace Verif
open Verif.Spec

variable {φ : Type}

/-! ### Evaluation of expressions -/

section
variable {env : Env φ} {st st' : CSt φ}

theorem evalE_go {e : PExpr} {r : R φ} (h : go env e st = some (r, st')) : evalE env e st = (r.get env st').map fun v => (v, st') := by
  unfold evalE
  rw [h]

theorem evalE_bin {op : Str} (hop : op ≠ [',']) (a b : PExpr) : evalE env (.bin op a b) st =
    (evalE env a st).bind fun x => (evalE env b x.2).bind fun y => (binOp env.F op x.1 y.1).map fun v => (v, y.2) := by
  unfold evalE
  rw [go]
  cases ha : go env a st with
  | none => rfl
  | some p =>
    obtain ⟨ra, s1⟩ := p
    dsimp only [Option.bind_eq_bind, Option.bind_some, Option.map_some]
    rw [if_neg hop]
    cases hg : ra.get env s1 with
    | none => rfl
    | some va =>
      dsimp only [Option.bind_eq_bind, Option.bind_some, Option.map_some]
      cases hb : go env b s1 with
      | none => rfl
      | some p =>
        obtain ⟨rb, s2⟩ := p
        dsimp only [Option.bind_eq_bind, Option.bind_some, Option.map_some]
        cases hg2 : rb.get env s2 with
        | none => rfl
        | some vb =>
          dsimp only [Option.bind_eq_bind, Option.bind_some, Option.map_some]
          cases binOp env.F op va vb <;> rfl

theorem evalE_cast (t : Str) (a : PExpr) : evalE env (.cast t a) st =
    (evalE env a st).bind fun x => (tyOf env.ext64 t).bind fun ty => (convTo env.F ty x.1).map fun v => (v, x.2) := by
  unfold evalE
  rw [go]
  cases ha : go env a st with
  | none => rfl
  | some p =>
    obtain ⟨ra, s1⟩ := p
    dsimp only [Option.bind_eq_bind, Option.bind_some, Option.map_some]
    cases hg : ra.get env s1 with
    | none => rfl
    | some va =>
      dsimp only [Option.bind_eq_bind, Option.bind_some, Option.map_some]
      cases tyOf env.ext64 t with
      | none => rfl
      | some ty =>
        dsimp only [Option.bind_eq_bind, Option.bind_some, Option.map_some]
        cases convTo env.F ty va <;> rfl

theorem evalE_neg (a : PExpr) : evalE env (.neg a) st =
    (evalE env a st).bind fun x => match x.1 with
      | .i v => ((⟨.i32, 0⟩ : CVal).sub v).map fun w => (.i w, x.2)
      | .f y => some (.f (env.F.neg y), x.2)
      | _ => none := by
  unfold evalE
  rw [go]
  cases ha : go env a st with
  | none => rfl
  | some p =>
    obtain ⟨ra, s1⟩ := p
    dsimp only [Option.bind_eq_bind, Option.bind_some, Option.map_some]
    cases hg : ra.get env s1 with
    | none => rfl
    | some va =>
      dsimp only [Option.bind_eq_bind, Option.bind_some, Option.map_some]
      cases va with
      | i v =>
        dsimp only
        cases (⟨.i32, 0⟩ : CVal).sub v <;> rfl
      | _ => rfl

theorem evalE_num {w : Str} {v : CVal} (hw : w.contains '.' = false) (h : litOf w = some v) : evalE env (.num w) st = some (.i v, st) := by
  unfold evalE
  rw [go, hw, if_neg Bool.false_ne_true, h]
  rfl

theorem evalE_flit {w : Str} (hw : w.contains '.' = true) : evalE env (.num w) st = some (.f (env.F.lit w), st) := by
  unfold evalE
  rw [go, hw, if_pos rfl]
  rfl

/-- Assignment to a place. -/
theorem runE_assign {a : PExpr} {l : LV} (ha : go env a st = some (.place l, st')) (b : PExpr) :
    runE env (.assign ['='] a b) st = (evalE env b st').bind fun x => writeLV env x.2 x.1 l := by
  unfold runE evalE
  rw [go, ha]
  dsimp only [Option.bind_eq_bind, Option.bind_some, Option.map_some]
  cases hb : go env b st' with
  | none => rfl
  | some p =>
    obtain ⟨rb, s1⟩ := p
    dsimp only [Option.bind_eq_bind, Option.bind_some, Option.map_some]
    cases hg : rb.get env s1 with
    | none => rfl
    | some vb =>
      dsimp only [Option.bind_eq_bind, Option.bind_some, Option.map_some]
      rw [if_pos rfl]
      cases writeLV env s1 vb l <;> rfl

/-- `a |= b` -/
theorem runE_or {a : PExpr} {l : LV} (ha : go env a st = some (.place l, st')) (b : PExpr) :
    runE env (.assign ['|', '='] a b) st = (evalE env b st').bind fun x => (readLV env x.2 l).bind fun va =>
      (binOp env.F ['|'] va x.1).bind fun v => writeLV env x.2 v l := by
  unfold runE evalE
  rw [go, ha]
  dsimp only [Option.bind_eq_bind, Option.bind_some, Option.map_some]
  cases hb : go env b st' with
  | none => rfl
  | some p =>
    obtain ⟨rb, s1⟩ := p
    dsimp only [Option.bind_eq_bind, Option.bind_some, Option.map_some]
    cases hg : rb.get env s1 with
    | none => rfl
    | some vb =>
      dsimp only [Option.bind_eq_bind, Option.bind_some, Option.map_some]
      rw [if_neg (by decide), if_pos rfl]
      cases readLV env s1 l with
      | none => rfl
      | some va =>
        dsimp only [Option.bind_eq_bind, Option.bind_some, Option.map_some]
        cases binOp env.F ['|'] va vb with
        | none => rfl
        | some v =>
          dsimp only [Option.bind_eq_bind, Option.bind_some, Option.map_some]
          cases writeLV env s1 v l <;> rfl

theorem go_id {n : Str} {t : Ty} {v : Option (V φ)} (h : st.loc.lookup n = some (t, v)) : go env (.id n) st = some (.place (.loc n), st) := by
  rw [go, h]

theorem get_loc {n : Str} {t : Ty} {v : Option (V φ)} (h : st.loc.lookup n = some (t, v)) : R.get env st (.place (.loc n)) = v := by
  show readLV env st (.loc n) = v
  rw [readLV, h]

theorem evalE_id {n : Str} {t : Ty} {v : V φ} (h : st.loc.lookup n = some (t, some v)) : evalE env (.id n) st = some (v, st) := by
  rw [evalE_go (go_id h), get_loc h]
  rfl

theorem evalE_const {n : Str} {z : Int} (h : st.loc.lookup n = none) (hz : env.const n = some z) : evalE env (.id n) st = some (.i ⟨.i32, z⟩, st) := by
  unfold evalE
  rw [go, h, hz]
  rfl

/-- The place a member is. -/
def memPlace (n : Str) : MTy → R φ
  | .named t => .place (if t = "FrameMonitor_t".toList then .mon else .sub n)
  | _ => .place (.mem n)

/-- `_m->n` -/
theorem go_fld {n : Str} {t : Ty} {d : MTy} (h : st.loc.lookup "_m".toList = some (t, some (.p .msg))) (hd : env.mem.lookup n = some d) :
    go env (fldE n) st = some (memPlace n d, st) := by
  unfold fldE
  rw [go, go_id h]
  dsimp only [Option.bind_eq_bind, Option.bind_some, Option.map_some]
  rw [get_loc h]
  dsimp only [Option.bind_eq_bind, Option.bind_some, Option.map_some]
  rw [hd]
  cases d <;> rfl

theorem evalE_fld {n : Str} {t : Ty} {y : CTy} {w : Option Nat} (h : st.loc.lookup "_m".toList = some (t, some (.p .msg)))
    (hd : env.mem.lookup n = some (.int y w)) : evalE env (fldE n) st = some (.i ⟨y, st.fld n⟩, st) := by
  rw [evalE_go (go_fld h hd)]
  show (readLV env st (.mem n)).map _ = _
  rw [readLV, hd]
  rfl

theorem evalE_fltFld {n : Str} {t : Ty} (h : st.loc.lookup "_m".toList = some (t, some (.p .msg)))
    (hd : env.mem.lookup n = some .flt) : evalE env (fldE n) st = some (.f (st.flt n), st) := by
  rw [evalE_go (go_fld h hd)]
  show (readLV env st (.mem n)).map _ = _
  rw [readLV, hd]
  rfl

/-- `_m->mon1.f` -/
theorem go_mon {f : String} {t : Ty} (h : st.loc.lookup "_m".toList = some (t, some (.p .msg)))
    (hd : env.mem.lookup "mon1".toList = some (.named "FrameMonitor_t".toList)) : go env (monE f) st = some (.place (.monf f.toList), st) := by
  show go env (.dot (fldE "mon1".toList) f.toList) st = _
  rw [go, go_fld h hd]
  unfold memPlace
  dsimp only
  rw [if_pos rfl]
  rfl

/-- `_m->n = e` -/
theorem runE_setInt {n : Str} {t : Ty} {y : CTy} {w : Option Nat} (h : st.loc.lookup "_m".toList = some (t, some (.p .msg)))
    (hd : env.mem.lookup n = some (.int y w)) (e : PExpr) : runE env (.assign ['='] (fldE n) e) st =
      (evalE env e st).bind fun x => (intOf env.F y x.1).map fun z => { x.2 with fld := updAt x.2.fld n (storeInt y w z) } := by
  rw [runE_assign (go_fld h hd)]
  cases evalE env e st with
  | none => rfl
  | some x =>
    show writeLV env x.2 x.1 (.mem n) = _
    rw [writeLV, hd]
    rfl

theorem runE_setFlt {n : Str} {t : Ty} (h : st.loc.lookup "_m".toList = some (t, some (.p .msg)))
    (hd : env.mem.lookup n = some .flt) (e : PExpr) : runE env (.assign ['='] (fldE n) e) st =
      (evalE env e st).bind fun x => match convTo env.F .flt x.1 with
        | some (.f y) => some { x.2 with flt := updAt x.2.flt n y }
        | _ => none := by
  rw [runE_assign (go_fld h hd)]
  cases evalE env e st with
  | none => rfl
  | some x =>
    show writeLV env x.2 x.1 (.mem n) = _
    rw [writeLV, hd]
    rfl

/-- `_m->mon1.f = e` -/
theorem runE_setMon {f : String} {t : Ty} {y : CTy} {w : Option Nat} (h : st.loc.lookup "_m".toList = some (t, some (.p .msg)))
    (hd : env.mem.lookup "mon1".toList = some (.named "FrameMonitor_t".toList)) (hf : monMembers.lookup f.toList = some (y, w)) (e : PExpr) :
    runE env (.assign ['='] (monE f) e) st =
      (evalE env e st).bind fun x => (intOf env.F y x.1).map fun z => { x.2 with mon := updAt x.2.mon f.toList (storeInt y w z) } := by
  rw [runE_assign (go_mon h hd)]
  cases evalE env e st with
  | none => rfl
  | some x =>
    show writeLV env x.2 x.1 (.monf f.toList) = _
    rw [writeLV, hf]
    rfl

/-! ### Sequences -/

/-- The statements take the state to `o` (or have no meaning). -/
def Runs (f : Nat) (env : Env φ) (l : List CStm) (st : CSt φ) (o : Option (CSt φ)) : Prop :=
  ∀ k, Spec.exec f env (seqs l k) st = o.bind (Spec.exec f env k)

theorem Runs.nil {f : Nat} : Runs f env [] st (some st) := fun _ => rfl

theorem Runs.none_append {f : Nat} {k l : List CStm} (h : Runs f env k st none) : Runs f env (k ++ l) st none := by
  intro s
  rw [seqs_append]
  exact h _

theorem Runs.append {f : Nat} {k l : List CStm} {o : Option (CSt φ)} (h : Runs f env k st (some st')) (h2 : Runs f env l st' o) :
    Runs f env (k ++ l) st o := by
  intro s
  rw [seqs_append, h, Option.bind_some, h2]

theorem Runs.expr {f : Nat} (e : PExpr) : Runs f env [.expr e] st (runE env e st) := by
  intro k
  show Spec.exec f env (.seq (.expr e) k) st = _
  rw [Spec.exec, Spec.exec]
  cases runE env e st <;> rfl

end

/-! ### Constants and conversion macros -/

/-- The value of a printed constant. -/
def constF (F : Flt φ) (dbl : Bool) (d : Dec) : φ :=
  if dbl then (if d.num < 0 then F.neg (F.lit (decAbs d)) else F.lit (decAbs d)) else F.ofInt d.trunc

/-- The floating point operations of the model, from those of the target. -/
def fltOps (F : Flt φ) : FloatOps φ where
  fromS s z := F.add (F.mul (F.ofInt z) (constF F true s.factor)) (constF F true s.offset)
  toS s x := F.toInt s.typeRo (match convKind s with
    | .full => F.div (F.sub x (constF F s.isDouble s.offset)) (constF F s.isDouble s.factor)
    | .factor => F.div x (constF F s.isDouble s.factor)
    | .offset => F.sub x (constF F s.isDouble s.offset))
  ofInt := F.ofInt
  toInt := F.toInt

/-- Constants printed with `%d` fit `int`. -/
def IntConsts (s : Sig) : Prop := s.isDouble = false →
  -(2 ^ 31) ≤ s.factor.trunc ∧ s.factor.trunc < 2 ^ 31 ∧ -(2 ^ 31) ≤ s.offset.trunc ∧ s.offset.trunc < 2 ^ 31

theorem decStr_noDot (n : Nat) : (decStr n).contains '.' = false := noDot_word (numW_decStr n).2
theorem decStrU_noDot (n : Nat) : (decStr n ++ "U".toList).contains '.' = false := noDot_word (numW_decStrU n).2
theorem altX_noDot (n : Nat) : (fmtAltX n ++ "U".toList).contains '.' = false := noDot_word (numW_altX n).2
theorem maskW_noDot (n : Nat) : (maskW n).contains '.' = false := noDot_word (numW_02X n).2

theorem litOf_big {n : Nat} (h1 : 2 ^ 31 ≤ n) (h2 : n < 2 ^ 63) : litOf (decStr n) = some ⟨.i64, (n : Nat)⟩ := by
  have hl : ¬ ((decStr n).getLast? = some 'U' ∨ (decStr n).getLast? = some 'u') := by
    have hd := (decStr_spec n).2.1
    rintro (hh | hh)
    · exact absurd (hd _ (List.mem_of_getLast? hh)) (by decide)
    · exact absurd (hd _ (List.mem_of_getLast? hh)) (by decide)
  unfold litOf
  rw [if_neg hl, constVal_decStr]
  dsimp only
  rw [if_neg (by omega), if_pos h2]

section
variable {env : Env φ} {st : CSt φ}

theorem evalE_dblConst (d : Dec) : evalE env (constOf true d).e st = some (.f (constF env.F true d), st) := by
  have hd : (decAbs d).contains '.' = true := List.contains_iff_mem.mpr (prtDec_parts d).2.2.2
  show evalE env (if decide (d.num < 0) = true then .neg (.num (decAbs d)) else .num (decAbs d)) st = some (.f (if d.num < 0 then _ else _), st)
  by_cases h : d.num < 0
  · rw [if_pos (by simpa using h), if_pos h, evalE_neg, evalE_flit hd]
    rfl
  · rw [if_neg (by simpa using h), if_neg h, evalE_flit hd]

theorem i32_range {z : Int} (h1 : -2147483648 ≤ z) (h2 : z < 2147483648) : CTy.i32.InRange z := by
  have e1 : CTy.i32.minV = -2147483648 := by decide
  have e2 : CTy.i32.maxV = 2147483647 := by decide
  exact ⟨by rw [e1]; exact h1, by rw [e2]; omega⟩

theorem i64_range {z : Int} (h1 : -2147483648 ≤ z) (h2 : z < 4294967296) : CTy.i64.InRange z := by
  have e1 : CTy.i64.minV = -9223372036854775808 := by decide
  have e2 : CTy.i64.maxV = 9223372036854775807 := by decide
  exact ⟨by rw [e1]; omega, by rw [e2]; omega⟩

theorem neg_i32 {n : Nat} (h : n < 2147483648) : CVal.sub ⟨.i32, 0⟩ ⟨.i32, (n : Int)⟩ = some ⟨.i32, -(n : Int)⟩ := by
  unfold CVal.sub
  dsimp only
  rw [show CTy.common .i32 .i32 = .i32 from rfl, show CTy.i32.conv 0 = 0 from rfl, CTy.conv_inRange (i32_range (by omega) (by omega)),
    CVal.arith, if_pos (show CTy.i32.signed = true from rfl), if_pos (i32_range (by omega) (by omega)), Int.zero_sub]

theorem neg_i64 {n : Nat} (h : n < 4294967296) (h2 : n ≤ 2147483648) : CVal.sub ⟨.i32, 0⟩ ⟨.i64, (n : Int)⟩ = some ⟨.i64, -(n : Int)⟩ := by
  unfold CVal.sub
  dsimp only
  rw [show CTy.common .i32 .i64 = .i64 from rfl, show CTy.i64.conv 0 = 0 from rfl, CTy.conv_inRange (i64_range (by omega) (by omega)),
    CVal.arith, if_pos (show CTy.i64.signed = true from rfl), if_pos (i64_range (by omega) (by omega)), Int.zero_sub]

theorem litVal_min {z : Int} (h : z = -2147483648) : litVal z = ⟨.i64, z⟩ := if_pos h
theorem litVal_small {z : Int} (h : z ≠ -2147483648) : litVal z = ⟨.i32, z⟩ := if_neg h

theorem evalE_intStr {z : Int} (h1 : -2147483648 ≤ z) (h2 : z < 2147483648) :
    evalE env (if decide (z < 0) = true then .neg (.num (decStr z.natAbs)) else .num (decStr z.natAbs)) st = some (.i (litVal z), st) := by
  by_cases h : z < 0
  · rw [if_pos (by simpa using h), evalE_neg]
    by_cases hz : z = -2147483648
    · rw [evalE_num (decStr_noDot _) (litOf_big (by omega) (by omega)), Option.bind_some]
      dsimp only
      rw [neg_i64 (by omega) (by omega), litVal_min hz, show -((z.natAbs : Nat) : Int) = z by omega]
      rfl
    · rw [evalE_num (decStr_noDot _) (litOf_decStr (by omega)), Option.bind_some]
      dsimp only
      rw [neg_i32 (by omega), litVal_small hz, show -((z.natAbs : Nat) : Int) = z by omega]
      rfl
  · rw [if_neg (by simpa using h), evalE_num (decStr_noDot _) (litOf_decStr (by omega)), litVal_small (by omega),
      show ((z.natAbs : Nat) : Int) = z by omega]

theorem evalE_intConst {d : Dec} (h1 : -(2 ^ 31) ≤ d.trunc) (h2 : d.trunc < 2 ^ 31) : evalE env (constOf false d).e st = some (.i (litVal d.trunc), st) :=
  evalE_intStr (by omega) (by omega)

theorem tyOf_cty (b : Bool) (t : CTy) : tyOf b (ctyText t) = some (.int t) := by
  cases b <;> cases t <;> rfl

theorem litVal_val (z : Int) : (litVal z).val = z := by
  unfold litVal
  split <;> rfl

theorem conv_self (t : CTy) (z : Int) : t.conv (t.conv z) = t.conv z := CTy.conv_conv (Nat.le_refl _) z

/-- `DRV_x_fromS(_m->x)`, from integer constants. -/
theorem evalE_fromInt {s : Sig} (hd : s.isDouble = false) (hc : IntConsts s) {x : PExpr} {v : CVal} (hx : evalE env x st = some (.i v, st)) :
    evalE env (fromE s x) st = (macroFromS s v).map fun w => (.i w, st) := by
  obtain ⟨h1, h2, h3, h4⟩ := hc hd
  unfold fromE convKind macroFromS
  rw [hd]
  dsimp only
  rw [if_neg Bool.false_ne_true]
  have hf := evalE_intConst (env := env) (st := st) h1 h2
  have ho := evalE_intConst (env := env) (st := st) h3 h4
  by_cases h0 : s.offset.eqInt 0 = true
  · rw [if_pos h0, if_pos h0]
    dsimp only
    rw [evalE_bin (by decide), hx, Option.bind_some, hf, Option.bind_some]
    show Option.map _ ((v.mul _).map V.i) = _
    cases v.mul (litVal s.factor.trunc) <;> rfl
  · rw [if_neg h0, if_neg h0]
    by_cases h5 : s.factor.eqInt 1 = true
    · rw [if_pos h5, if_pos h5]
      dsimp only
      rw [evalE_bin (by decide), hx, Option.bind_some, ho, Option.bind_some]
      show Option.map _ ((v.add _).map V.i) = _
      cases v.add (litVal s.offset.trunc) <;> rfl
    · rw [if_neg h5, if_neg h5]
      dsimp only
      rw [evalE_bin (by decide), evalE_bin (by decide), hx, Option.bind_some, hf, Option.bind_some]
      show Option.bind (Option.map _ ((v.mul _).map V.i)) _ = _
      cases v.mul (litVal s.factor.trunc) with
      | none => rfl
      | some w =>
        dsimp only [Option.map_some, Option.bind_some]
        rw [ho, Option.bind_some]
        show Option.map _ ((w.add _).map V.i) = Option.map _ (w.add _)
        cases w.add (litVal s.offset.trunc) <;> rfl

theorem evalE_fromDbl {s : Sig} (hd : s.isDouble = true) {x : PExpr} {v : CVal} (hx : evalE env x st = some (.i v, st)) :
    evalE env (fromE s x) st = some (.f ((fltOps env.F).fromS s v.val), st) := by
  unfold fromE convKind
  rw [hd]
  dsimp only
  rw [if_pos rfl]
  dsimp only
  rw [evalE_bin (by decide), evalE_bin (by decide), hx, Option.bind_some, evalE_dblConst]
  show Option.bind (some (V.f _, st)) _ = _
  rw [Option.bind_some, evalE_dblConst]
  rfl

theorem evalE_toInt {s : Sig} (hd : s.isDouble = false) (hc : IntConsts s) {x : PExpr} {v : CVal} (hx : evalE env x st = some (.i v, st)) :
    evalE env (toE s x) st = (macroToS s v).map fun w => (.i w, st) := by
  obtain ⟨h1, h2, h3, h4⟩ := hc hd
  unfold toE convKind macroToS
  rw [hd]
  dsimp only
  rw [if_neg Bool.false_ne_true, evalE_cast, tyOf_cty]
  have hf := evalE_intConst (env := env) (st := st) h1 h2
  have ho := evalE_intConst (env := env) (st := st) h3 h4
  by_cases h0 : s.offset.eqInt 0 = true
  · rw [if_pos h0, if_pos h0]
    dsimp only
    rw [evalE_bin (by decide), hx, Option.bind_some, hf, Option.bind_some]
    show Option.bind (Option.map _ ((v.div _).map V.i)) _ = _
    cases v.div (litVal s.factor.trunc) <;> rfl
  · rw [if_neg h0, if_neg h0]
    by_cases h5 : s.factor.eqInt 1 = true
    · rw [if_pos h5, if_pos h5]
      dsimp only
      rw [evalE_bin (by decide), hx, Option.bind_some, ho, Option.bind_some]
      show Option.bind (Option.map _ ((v.sub _).map V.i)) _ = _
      cases v.sub (litVal s.offset.trunc) <;> rfl
    · rw [if_neg h5, if_neg h5]
      dsimp only
      rw [evalE_bin (by decide), evalE_bin (by decide), hx, Option.bind_some, ho, Option.bind_some]
      show Option.bind (Option.bind (Option.map _ ((v.sub _).map V.i)) _) _ = _
      cases v.sub (litVal s.offset.trunc) with
      | none => rfl
      | some w =>
        dsimp only [Option.map_some, Option.bind_some]
        rw [hf, Option.bind_some]
        show Option.bind (Option.map _ ((w.div _).map V.i)) _ = Option.map _ (Option.bind (w.div _) _)
        cases w.div (litVal s.factor.trunc) <;> rfl

/-- The value of the constant, if the other operand is a floating value. -/
theorem evalE_constAny {s : Sig} (hc : IntConsts s) (off : Bool) (op : Str) (hop : op = ['-'] ∨ op = ['/']) (x : φ) :
    (evalE env (constOf s.isDouble (if off then s.offset else s.factor)).e st).bind (fun y => (binOp env.F op (.f x) y.1).map fun v => (v, y.2)) =
      some (.f ((if op = ['-'] then env.F.sub else env.F.div) x (constF env.F s.isDouble (if off then s.offset else s.factor))), st) := by
  cases hd : s.isDouble with
  | true =>
    rw [evalE_dblConst, Option.bind_some]
    rcases hop with rfl | rfl <;> rfl
  | false =>
    obtain ⟨h1, h2, h3, h4⟩ := hc hd
    cases off with
    | true =>
      rw [if_pos rfl, evalE_intConst h3 h4, Option.bind_some]
      rcases hop with rfl | rfl
      · show some (V.f (env.F.sub x (env.F.ofInt (litVal _).val)), st) = _
        rw [litVal_val]
        rfl
      · show some (V.f (env.F.div x (env.F.ofInt (litVal _).val)), st) = _
        rw [litVal_val]
        rfl
    | false =>
      rw [if_neg Bool.false_ne_true, evalE_intConst h1 h2, Option.bind_some]
      rcases hop with rfl | rfl
      · show some (V.f (env.F.sub x (env.F.ofInt (litVal _).val)), st) = _
        rw [litVal_val]
        rfl
      · show some (V.f (env.F.div x (env.F.ofInt (litVal _).val)), st) = _
        rw [litVal_val]
        rfl

theorem evalE_toFlt {s : Sig} (hc : IntConsts s) {x : PExpr} {y : φ} (hx : evalE env x st = some (.f y, st)) :
    evalE env (toE s x) st = ((fltOps env.F).toS s y).map fun z => (.i ⟨s.typeRo, z⟩, st) := by
  have ho := fun (w : φ) => evalE_constAny (env := env) (st := st) hc true ['-'] (.inl rfl) w
  have hf := fun (w : φ) => evalE_constAny (env := env) (st := st) hc false ['/'] (.inr rfl) w
  unfold toE
  rw [evalE_cast, tyOf_cty]
  unfold fltOps
  dsimp only
  cases convKind s with
  | full =>
    dsimp only
    rw [evalE_bin (by decide), evalE_bin (by decide), hx, Option.bind_some]
    erw [ho, Option.bind_some, hf]
    show Option.map _ (Option.map _ _) = _
    rw [Option.map_map]
    rfl
  | factor =>
    dsimp only
    rw [evalE_bin (by decide), hx, Option.bind_some]
    erw [hf]
    show Option.map _ (Option.map _ _) = _
    rw [Option.map_map]
    rfl
  | offset =>
    dsimp only
    rw [evalE_bin (by decide), hx, Option.bind_some]
    erw [ho]
    show Option.map _ (Option.map _ _) = _
    rw [Option.map_map]
    rfl

/-- Conversion of an integer member with floating constants: the integer is converted first. -/
theorem evalE_toDbl {s : Sig} (hd : s.isDouble = true) {x : PExpr} {v : CVal} (hx : evalE env x st = some (.i v, st)) :
    evalE env (toE s x) st = ((fltOps env.F).toS s (env.F.ofInt v.val)).map fun z => (.i ⟨s.typeRo, z⟩, st) := by
  unfold toE fltOps
  rw [evalE_cast, tyOf_cty]
  dsimp only
  have : convKind s = .full := by
    unfold convKind
    rw [if_pos hd]
  rw [this, hd]
  dsimp only
  rw [evalE_bin (by decide), evalE_bin (by decide), hx, Option.bind_some, evalE_dblConst]
  show Option.bind (Option.bind (some (V.f _, st)) _) _ = _
  rw [Option.bind_some, evalE_dblConst]
  show Option.map _ (Option.map _ _) = _
  rw [Option.map_map]
  rfl

end
end Verif
