import Verif.Proofs.StepRun2
import Verif.Proofs.FuncRead
/-
The sign extension helper: its text as a C function, and what it computes.
-/
namespace Verif
open Spec

/-- `__ext_sig__` -/
def extFunc : Func :=
  ⟨"bitext_t".toList, "__ext_sig__".toList, [⟨"ubitext_t".toList, false, "val".toList⟩, ⟨"uint8_t".toList, false, "bits".toList⟩],
    seqs [.decl "ubitext_t".toList "m".toList (some (.cast "ubitext_t".toList (.bin ['<', '<'] (.num "1u".toList) (.bin ['-'] (.id "bits".toList) (.num "1u".toList))))),
      .ret (.bin ['-'] (.bin ['^'] (.id "val".toList) (.id "m".toList)) (.id "m".toList))] .skip⟩

variable {φ : Type} {f : Nat}

theorem sub_u32_nonneg {n k : Nat} {w : CVal} (h : (⟨.u8, (n : Nat)⟩ : CVal).sub ⟨.u32, (k : Nat)⟩ = some w) : 0 ≤ w.val := by
  have e : (⟨.u8, (n : Nat)⟩ : CVal).sub ⟨.u32, (k : Nat)⟩ = some ⟨.u32, CTy.u32.conv (CTy.u32.conv (n : Nat) - CTy.u32.conv (k : Nat))⟩ := rfl
  rw [e] at h
  cases h
  dsimp only
  rw [u32_conv]
  omega

/-- What the helper returns. -/
theorem ext_call (env : Env φ) (cst : CSt φ) (v : CVal) (bits : Nat) (hb : bits < 256) :
    (callFunc f env extFunc [.i v, .i ⟨.i32, (bits : Nat)⟩] cst).map (·.2) = (extSig env.ext64 v bits).map .i := by
  obtain ⟨ut, hut⟩ : ∃ ut : CTy, ut = if env.ext64 then .u64 else .u32 := ⟨_, rfl⟩
  obtain ⟨s, hst⟩ : ∃ s : CTy, s = if env.ext64 then .i64 else .i32 := ⟨_, rfl⟩
  have t1 : tyOf env.ext64 "ubitext_t".toList = some (.int ut) := by rw [hut]; cases env.ext64 <;> rfl
  have t2 : tyOf env.ext64 "bitext_t".toList = some (.int s) := by rw [hst]; cases env.ext64 <;> rfl
  have t3 : tyOf env.ext64 "uint8_t".toList = some (.int .u8) := by cases env.ext64 <;> rfl
  have b8 : CTy.u8.conv (bits : Nat) = (bits : Nat) := by rw [u8_conv]; omega
  have hbind : bindParams env extFunc.params [.i v, .i ⟨.i32, (bits : Nat)⟩] =
      some [("val".toList, .int ut, some (.i (v.cast ut))), ("bits".toList, .int .u8, some (.i ⟨.u8, (bits : Nat)⟩))] := by
    have e : bindParams env [⟨"uint8_t".toList, false, "bits".toList⟩] [.i ⟨.i32, (bits : Nat)⟩] = some [("bits".toList, .int .u8, some (.i ⟨.u8, (bits : Nat)⟩))] := by
      simp only [bindParams]
      rw [if_neg Bool.false_ne_true, t3]
      dsimp only [convTo]
      rw [CVal.cast]
      dsimp only
      rw [b8]
    unfold extFunc
    dsimp only
    rw [bindParams, if_neg Bool.false_ne_true, t1, e]
    rfl
  have h1 : litOf "1u".toList = some ⟨.u32, 1⟩ := by decide
  have n1 : "1u".toList.contains '.' = false := by decide
  unfold callFunc
  rw [hbind]
  dsimp only
  have hx : extSig env.ext64 v bits = ((⟨.u8, (bits : Nat)⟩ : CVal).sub ⟨.u32, 1⟩).bind fun n => ((⟨.u32, 1⟩ : CVal).shl n.val.toNat).bind fun m0 =>
      (((v.cast ut).lxor (m0.cast ut)).sub (m0.cast ut)).map fun r => r.cast s := by
    rw [hut, hst]
    unfold extSig
    cases (⟨.u8, (bits : Nat)⟩ : CVal).sub ⟨.u32, 1⟩ with
    | none => rfl
    | some n =>
      dsimp only [Option.bind_eq_bind, Option.bind_some]
      cases (⟨.u32, 1⟩ : CVal).shl n.val.toNat with
      | none => rfl
      | some m0 =>
        dsimp only [Option.bind_eq_bind, Option.bind_some]
        cases ((v.cast (if env.ext64 = true then CTy.u64 else CTy.u32)).lxor (m0.cast (if env.ext64 = true then CTy.u64 else CTy.u32))).sub
          (m0.cast (if env.ext64 = true then CTy.u64 else CTy.u32)) <;> rfl
  rw [hx]
  have hbody : extFunc.body = .seq (.decl "ubitext_t".toList "m".toList (some (.cast "ubitext_t".toList (.bin ['<', '<'] (.num "1u".toList)
      (.bin ['-'] (.id "bits".toList) (.num "1u".toList)))))) (.seq (.ret (.bin ['-'] (.bin ['^'] (.id "val".toList) (.id "m".toList)) (.id "m".toList))) .skip) := rfl
  have hret : extFunc.ret = "bitext_t".toList := rfl
  rw [hbody, hret, t2, Spec.exec, Spec.exec]
  generalize hc0 : ({ cst with loc := [("val".toList, .int ut, some (.i (v.cast ut))), ("bits".toList, .int .u8, some (.i ⟨.u8, (bits : Nat)⟩))] } : CSt φ) = c0
  have lb : c0.loc.lookup "bits".toList = some (.int .u8, some (.i ⟨.u8, (bits : Nat)⟩)) := by rw [← hc0]; rfl
  have lv : c0.loc.lookup "val".toList = some (.int ut, some (.i (v.cast ut))) := by rw [← hc0]; rfl
  rw [evalE_cast, evalE_bin (by decide), evalE_num n1 h1, Option.bind_some, evalE_bin (by decide), evalE_id lb, Option.bind_some, evalE_num n1 h1, Option.bind_some, t1]
  have e1 : binOp env.F ['-'] (.i ⟨.u8, (bits : Nat)⟩) (.i ⟨.u32, 1⟩) = ((⟨.u8, (bits : Nat)⟩ : CVal).sub ⟨.u32, 1⟩).map V.i := rfl
  dsimp only
  rw [e1]
  cases hs : (⟨.u8, (bits : Nat)⟩ : CVal).sub ⟨.u32, 1⟩ with
  | none => rfl
  | some n =>
    have hn := sub_u32_nonneg (k := 1) hs
    dsimp only [Option.map_some, Option.bind_some]
    have e2 : binOp env.F ['<', '<'] (.i ⟨.u32, 1⟩) (.i n) = ((⟨.u32, 1⟩ : CVal).shl n.val.toNat).map V.i := by
      show ((if 0 ≤ n.val then (⟨.u32, 1⟩ : CVal).shl n.val.toNat else none)).map V.i = _
      rw [if_pos hn]
    rw [e2]
    cases hm : (⟨.u32, 1⟩ : CVal).shl n.val.toNat with
    | none => rfl
    | some m0 =>
      dsimp only [Option.map_some, Option.bind_some, convTo]
      have e3 : (m0.cast ut).cast ut = m0.cast ut := by
        unfold CVal.cast
        dsimp only
        rw [conv_self]
      rw [e3, Spec.exec, Spec.exec]
      generalize hc1 : ({ c0 with loc := ("m".toList, .int ut, some (.i (m0.cast ut))) :: c0.loc } : CSt φ) = c1
      have lm : c1.loc.lookup "m".toList = some (.int ut, some (.i (m0.cast ut))) := by rw [← hc1]; rfl
      have lv1 : c1.loc.lookup "val".toList = some (.int ut, some (.i (v.cast ut))) := by rw [← hc1]; exact lv
      rw [evalE_bin (by decide), evalE_bin (by decide), evalE_id lv1, Option.bind_some, evalE_id lm, Option.bind_some]
      have e4 : binOp env.F ['^'] (.i (v.cast ut)) (.i (m0.cast ut)) = some (V.i ((v.cast ut).lxor (m0.cast ut))) := rfl
      rw [e4]
      dsimp only [Option.map_some, Option.bind_some]
      rw [evalE_id lm]
      dsimp only [Option.map_some, Option.bind_some]
      have e5 : binOp env.F ['-'] (.i ((v.cast ut).lxor (m0.cast ut))) (.i (m0.cast ut)) = (((v.cast ut).lxor (m0.cast ut)).sub (m0.cast ut)).map V.i := rfl
      rw [e5]
      cases ((v.cast ut).lxor (m0.cast ut)).sub (m0.cast ut) <;> rfl

end Verif
