import Verif.Proofs.UnpackEval
import Verif.Proofs.PackEval
import Verif.Model.GenBody
/- Values of unpacked signals: raw values, sign extension, stores. -/
namespace Verif
open Spec

theorem ofBits_lt (f : Nat → Bool) (n : Nat) : ofBits f n < 2 ^ n := by
  induction n with
  | zero => simp [ofBits]
  | succ n ih => simp only [ofBits]; rw [Nat.pow_succ]; split <;> omega

theorem testBit_ofBits (f : Nat → Bool) (n k : Nat) :
    (ofBits f n).testBit k = (decide (k < n) && f k) := by
  induction n with
  | zero => simp [ofBits]
  | succ n ih =>
    simp only [ofBits]
    have hlt := ofBits_lt f n
    have e : ofBits f n + (if f n then 2 ^ n else 0) = 2 ^ n * (if f n then 1 else 0) + ofBits f n := by
      split <;> omega
    rw [e, Nat.testBit_two_pow_mul_add _ hlt]
    by_cases h : k < n
    · have h' : k < n + 1 := by omega
      simp [h, h', ih]
    · by_cases h2 : k = n
      · subst h2; cases hf : f k <;> simp
      · have h3 : ¬ k < n + 1 := by omega
        have h4 : k - n ≠ 0 := by omega
        simp only [h, h3, if_false, decide_false, Bool.false_and]
        obtain ⟨j, hj⟩ := Nat.exists_eq_succ_of_ne_zero h4
        rw [hj]
        split <;> simp [Nat.testBit_succ]

theorem nat_eq_of_bits {a b n : Nat} (ha : a < 2 ^ n) (hb : b < 2 ^ n)
    (h : ∀ k, k < n → a.testBit k = b.testBit k) : a = b := by
  apply Nat.eq_of_testBit_eq
  intro k
  by_cases hk : k < n
  · exact h k hk
  · have : 2 ^ n ≤ 2 ^ k := Nat.pow_le_pow_right (by decide) (by omega)
    rw [Nat.testBit_lt_two_pow (by omega), Nat.testBit_lt_two_pow (by omega)]

theorem Sig.raw_lt (s : Sig) (d : List Nat) : s.raw d < 2 ^ s.lengthBit := ofBits_lt _ _

theorem Sig.testBit_raw (s : Sig) (d : List Nat) (k : Nat) :
    (s.raw d).testBit k = (decide (k < s.lengthBit) && payloadBit d (s.pos k)) := by
  unfold raw rawValue; rw [testBit_ofBits]; rfl

theorem orFrags_lt {s : Sig} (d : List Nat) (hl : 0 < s.lengthBit) (hl2 : s.lengthBit ≤ 64) :
    orFrags d (frags s) < 2 ^ s.lengthBit := by
  apply Nat.lt_pow_two_of_testBit
  intro i hi
  rw [testBit_unpack d hl hl2]
  have : ¬ i < s.lengthBit := by omega
  simp [this]

theorem lowBits_of_aligned {s : Sig} (h : s.pos 0 % 8 = 0) : lowBits s = 0 := by
  unfold lowBits; rw [h]

theorem orFrags_eq_raw {s : Sig} (d : List Nat) (hl : 0 < s.lengthBit) (hl2 : s.lengthBit ≤ 64)
    (h : s.aligned) : orFrags d (frags s) = s.raw d := by
  apply nat_eq_of_bits (orFrags_lt d hl hl2) (s.raw_lt d)
  intro k hk
  rw [testBit_unpack d hl hl2, s.testBit_raw]
  have : ¬ (32 ≤ k ∧ k < 32 + lowBits s) := by
    rcases h with h | h
    · omega
    · rw [lowBits_of_aligned h]; omega
  simp [this]

/-! ### Sign extension -/

theorem bmod_eq_self {z : Int} {n : Nat} (hn : 0 < n) (h1 : -(2 ^ (n - 1)) ≤ z) (h2 : z < 2 ^ (n - 1)) :
    Int.bmod z (2 ^ n) = z := by
  have e : (2:Int) ^ n = 2 * 2 ^ (n - 1) := by
    rw [← Int.pow_succ']; congr 1; omega
  have : ((2 ^ n : Nat) : Int) = 2 * 2 ^ (n - 1) := by push_cast; exact e
  exact Int.bmod_eq_of_le_mul_two (by rw [this]; omega) (by rw [this]; omega)

theorem conv_id {t : CTy} {z : Int} (h : t.InRange z) : t.conv z = z := CTy.conv_inRange h

theorem signedOf_range {n v : Nat} (hn : 0 < n) (hv : v < 2 ^ n) :
    -(2 ^ (n - 1)) ≤ signedOf n v ∧ signedOf n v < 2 ^ (n - 1) := by
  have e : (2:Int) ^ n = 2 * 2 ^ (n - 1) := by rw [← Int.pow_succ']; congr 1; omega
  have hp : (0:Int) < 2 ^ (n - 1) := by have := Nat.two_pow_pos (n - 1); exact_mod_cast this
  have hv' : (v : Int) < 2 ^ n := by exact_mod_cast hv
  unfold signedOf
  split
  next h => have : (v : Int) < 2 ^ (n - 1) := by exact_mod_cast h
            omega
  next h => have : (2:Int) ^ (n - 1) ≤ v := by exact_mod_cast (Nat.le_of_not_lt h)
            omega

theorem xor_two_pow_low {v n : Nat} (hv : v < 2 ^ n) : v ^^^ 2 ^ n = v + 2 ^ n := by
  apply Nat.eq_of_testBit_eq
  intro i
  rw [Nat.testBit_xor, Nat.testBit_two_pow]
  have e : v + 2 ^ n = 2 ^ n * 1 + v := by omega
  rw [e, Nat.testBit_two_pow_mul_add _ hv]
  by_cases h : i < n
  · have : n ≠ i := by omega
    simp [h, this]
  · have : v.testBit i = false :=
      Nat.testBit_lt_two_pow (Nat.lt_of_lt_of_le hv (Nat.pow_le_pow_right (by decide) (by omega)))
    simp only [this, Bool.false_xor, h, if_false]
    by_cases h2 : n = i
    · subst h2; simp
    · have : i - n ≠ 0 := by omega
      obtain ⟨j, hj⟩ := Nat.exists_eq_succ_of_ne_zero this
      simp [h2, hj, Nat.testBit_succ]

/-- `(v ^ m) - m` sign extends. -/
theorem xor_sub_eq {v n : Nat} (hn : 0 < n) (hv : v < 2 ^ n) :
    ((v ^^^ 2 ^ (n - 1) : Nat) : Int) - 2 ^ (n - 1) = signedOf n v := by
  have e : 2 ^ n = 2 * 2 ^ (n - 1) := by rw [← Nat.pow_succ']; congr 1; omega
  unfold signedOf
  split
  next h => rw [xor_two_pow_low h]; push_cast; omega
  next h =>
    have hw : v - 2 ^ (n - 1) < 2 ^ (n - 1) := by omega
    have h2 : v = (v - 2 ^ (n - 1)) ^^^ 2 ^ (n - 1) := by rw [xor_two_pow_low hw]; omega
    have h3 : v ^^^ 2 ^ (n - 1) = v - 2 ^ (n - 1) := by
      conv => lhs; rw [h2, Nat.xor_assoc, Nat.xor_self, Nat.xor_zero]
    rw [h3]
    have e' : (2:Int) ^ n = 2 * 2 ^ (n - 1) := by exact_mod_cast e
    rw [e']
    have : (2 ^ (n - 1) : Nat) ≤ v := by omega
    rw [Int.ofNat_sub this]
    push_cast
    clear h2 h3
    omega

theorem extSig_ok (ext64 : Bool) {t : CTy} {bits v : Nat} (h0 : 0 < bits) (h32 : bits ≤ 32)
    (hv : v < 2 ^ bits) :
    extSig ext64 ⟨t, (v : Nat)⟩ bits =
      some ⟨if ext64 then .i64 else .i32, signedOf bits v⟩ := by
  have hr := signedOf_range h0 hv
  have hm : 2 ^ (bits - 1) ≤ 2 ^ 31 := Nat.pow_le_pow_right (by decide) (by omega)
  have hv32 : v < 2 ^ 32 := Nat.lt_of_lt_of_le hv (Nat.pow_le_pow_right (by decide) h32)
  have hx : v ^^^ 2 ^ (bits - 1) < 2 ^ 32 :=
    Nat.xor_lt_two_pow hv32 (by omega)
  have hxs := xor_sub_eq h0 hv
  generalize hS : signedOf bits v = S at *
  have hM : ((2:Int) ^ (bits - 1)) = ((2 ^ (bits - 1) : Nat) : Int) := by push_cast; rfl
  have hb : (⟨.u8, (bits : Nat)⟩ : CVal).sub ⟨.u32, 1⟩ = some ⟨.u32, ((bits - 1 : Nat) : Int)⟩ := by
    unfold CVal.sub
    simp only [show CTy.common .u8 .u32 = .u32 by decide, CVal.arith, CTy.signed, CTy.conv, CTy.bits]
    simp
    omega
  have hshl : (⟨.u32, 1⟩ : CVal).shl (bits - 1) = some ⟨.u32, ((2 ^ (bits - 1) : Nat) : Int)⟩ := by
    show (if bits - 1 < 32 then some (⟨.u32, CTy.conv .u32 (1 * 2 ^ (bits - 1))⟩ : CVal) else none) = _
    rw [if_pos (by omega)]
    simp only [CTy.conv, CTy.signed, CTy.bits, Int.one_mul, hM]
    simp
    omega
  rw [hM] at hr hxs
  generalize 2 ^ (bits - 1) = M at *
  unfold extSig
  simp only [hb, Option.bind_eq_bind, Option.bind_some, Int.toNat_natCast, hshl]
  cases ext64
  · simp only [Bool.false_eq_true, if_false, CVal.cast, CTy.conv, CTy.signed, CTy.bits]
    have e1 : ((v : Int) % ((2 ^ 32 : Nat) : Int)) = v := by omega
    have e2 : ((M : Int) % ((2 ^ 32 : Nat) : Int)) = M := by omega
    rw [e1, e2]
    have e3 : CVal.lxor ⟨.u32, (v : Int)⟩ ⟨.u32, (M : Int)⟩ = ⟨.u32, ((v ^^^ M : Nat) : Int)⟩ := by
      unfold CVal.lxor CVal.bitop
      simp only [show CTy.common .u32 .u32 = .u32 by decide, CTy.toU, CTy.conv, CTy.signed, CTy.bits]
      rw [e1, e2]
      simp only [Int.toNat_natCast, Bool.false_eq_true, if_false]
      congr 1
      omega
    rw [e3]
    unfold CVal.sub
    simp only [show CTy.common .u32 .u32 = .u32 by decide, CVal.arith, CTy.conv, CTy.signed, CTy.bits,
      Bool.false_eq_true, if_false, Option.bind_some, if_true, pure]
    have e4 : ((v ^^^ M : Nat) : Int) % ((2 ^ 32 : Nat) : Int) = ((v ^^^ M : Nat) : Int) := by omega
    rw [e4, e2, hxs]
    congr 2
    rw [Int.emod_bmod]
    exact bmod_eq_self (n := 32) (by decide) (by simp; omega) (by simp; omega)
  · simp only [if_true, CVal.cast, CTy.conv, CTy.signed, CTy.bits]
    have e1 : ((v : Int) % ((2 ^ 64 : Nat) : Int)) = v := by omega
    have e2 : ((M : Int) % ((2 ^ 64 : Nat) : Int)) = M := by omega
    simp only [Bool.false_eq_true, if_false]
    rw [e1, e2]
    have e3 : CVal.lxor ⟨.u64, (v : Int)⟩ ⟨.u64, (M : Int)⟩ = ⟨.u64, ((v ^^^ M : Nat) : Int)⟩ := by
      unfold CVal.lxor CVal.bitop
      simp only [show CTy.common .u64 .u64 = .u64 by decide, CTy.toU, CTy.conv, CTy.signed, CTy.bits]
      rw [e1, e2]
      simp only [Int.toNat_natCast, Bool.false_eq_true, if_false]
      congr 1
      omega
    rw [e3]
    unfold CVal.sub
    simp only [show CTy.common .u64 .u64 = .u64 by decide, CVal.arith, CTy.conv, CTy.signed, CTy.bits,
      Bool.false_eq_true, if_false, Option.bind_some, pure]
    have e4 : ((v ^^^ M : Nat) : Int) % ((2 ^ 64 : Nat) : Int) = ((v ^^^ M : Nat) : Int) := by omega
    rw [e4, e2, hxs]
    congr 2
    rw [Int.emod_bmod]
    exact bmod_eq_self (n := 64) (by decide) (by simp; omega) (by simp; omega)

/-- Sign extension of more than 32 (or of 0) bits is undefined. -/
theorem extSig_undef (ext64 : Bool) (v : CVal) {bits : Nat} (h : bits = 0 ∨ 32 < bits) (h2 : bits < 256) :
    extSig ext64 v bits = none := by
  have hb : ∃ n : Nat, 32 ≤ n ∧ (⟨.u8, (bits : Nat)⟩ : CVal).sub ⟨.u32, 1⟩ = some ⟨.u32, (n : Int)⟩ := by
    refine ⟨if bits = 0 then 2 ^ 32 - 1 else bits - 1, by split <;> omega, ?_⟩
    unfold CVal.sub
    simp only [show CTy.common .u8 .u32 = .u32 by decide, CVal.arith, CTy.signed, CTy.conv, CTy.bits]
    simp
    split <;> omega
  obtain ⟨n, hn, hb⟩ := hb
  have hshl : (⟨.u32, 1⟩ : CVal).shl n = none := by
    show (if n < 32 then some (⟨.u32, CTy.conv .u32 (1 * 2 ^ n)⟩ : CVal) else none) = _
    rw [if_neg (by omega)]
  unfold extSig
  simp only [hb, Option.bind_eq_bind, Option.bind_some, Int.toNat_natCast, hshl, Option.bind_none]

/-! ### Stores -/

theorem conv_of_sigRange {s : Sig} (ht : s.TypeOk) (hl : 0 < s.lengthBit) {z : Int}
    (hz : InSigRange s.signed s.lengthBit z) : s.typeRo.conv z = z := by
  apply CTy.conv_inRange
  obtain ⟨h1, h2⟩ := ht
  unfold InSigRange at hz
  unfold CTy.InRange CTy.minV CTy.maxV
  rw [h1]
  cases hs : s.signed <;> simp only [hs, if_true, if_false, Bool.false_eq_true] at hz ⊢
  · have : (2:Int) ^ s.lengthBit ≤ 2 ^ s.typeRo.bits := by
      exact_mod_cast Nat.pow_le_pow_right (by decide) h2
    omega
  · have : (2:Int) ^ (s.lengthBit - 1) ≤ 2 ^ (s.typeRo.bits - 1) := by
      exact_mod_cast Nat.pow_le_pow_right (n := 2) (by decide) (by omega)
    omega

/-- Storing an in-range value into the member of a signal keeps it. -/
theorem store_of_sigRange {cfg : Cfg} {s : Sig} (ht : s.TypeOk) (hl : 0 < s.lengthBit) {z : Int}
    (hz : InSigRange s.signed s.lengthBit z) : (sigDecl cfg s).store z = z := by
  have hc := conv_of_sigRange ht hl hz
  unfold sigDecl FDecl.store
  dsimp only
  split
  next => exact hc
  next w hw =>
    split at hw
    · simp only [Option.some.injEq] at hw
      subst hw
      rw [hc]
      have h1 := ht.1
      unfold InSigRange at hz
      cases hs : s.signed <;> rw [hs] at hz h1 <;> simp only [h1, if_true, if_false, Bool.false_eq_true] at hz ⊢
      · have : ((2 ^ s.lengthBit : Nat) : Int) = 2 ^ s.lengthBit := by push_cast; rfl
        rw [this]
        exact Int.emod_eq_of_lt hz.1 hz.2
      · exact bmod_eq_self hl hz.1 hz.2
    · cases hw

theorem raw_inRange (s : Sig) (d : List Nat) (hl : 0 < s.lengthBit) :
    InSigRange s.signed s.lengthBit (if s.signed then signedOf s.lengthBit (s.raw d) else (s.raw d : Int)) := by
  have h := s.raw_lt d
  unfold InSigRange
  split
  · exact signedOf_range hl h
  · have : (s.raw d : Int) < 2 ^ s.lengthBit := by exact_mod_cast h
    omega

end Verif
