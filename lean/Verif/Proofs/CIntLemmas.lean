import Verif.Base.CInt
/- Lemmas about C integer operations. -/
namespace Verif

namespace CTy

theorem bits_pos (t : CTy) : 0 < t.bits := by cases t <;> decide
theorem bits_ge_8 (t : CTy) : 8 ≤ t.bits := by cases t <;> decide
theorem bits_le_64 (t : CTy) : t.bits ≤ 64 := by cases t <;> decide
theorem promote_bits (t : CTy) : 32 ≤ t.promote.bits := by cases t <;> decide
theorem bits_le_promote (t : CTy) : t.bits ≤ t.promote.bits := by cases t <;> decide
theorem common_bits (a b : CTy) : 32 ≤ (common a b).bits := by cases a <;> cases b <;> decide
theorem common_bits_left (a b : CTy) : a.bits ≤ (common a b).bits := by
  cases a <;> cases b <;> decide
theorem common_bits_right (a b : CTy) : b.bits ≤ (common a b).bits := by
  cases a <;> cases b <;> decide
theorem common_self_u32 : common u32 u32 = u32 := by decide
theorem promote_common (a b : CTy) : (common a b).promote = common a b := by
  cases a <;> cases b <;> decide
theorem promote_of_wide {t : CTy} (h : 32 ≤ t.bits) : t.promote = t := by
  cases t <;> simp_all [promote, bits]

theorem conv_nat_lt {t : CTy} {n : Nat} (h : n < 2 ^ (t.bits - 1)) : t.conv (n : Int) = n := by
  have h2 : 2 ^ t.bits = 2 * 2 ^ (t.bits - 1) := by
    rw [← Nat.pow_succ', Nat.succ_eq_add_one, Nat.sub_add_cancel t.bits_pos]
  unfold conv
  split
  · apply Int.bmod_eq_of_le <;> omega
  · rw [← Int.natCast_emod]; congr 1; apply Nat.mod_eq_of_lt; omega

theorem conv_nat_lt_unsigned {t : CTy} {n : Nat} (hu : t.signed = false) (h : n < 2 ^ t.bits) :
    t.conv (n : Int) = n := by
  unfold conv
  simp only [hu, Bool.false_eq_true, if_false]
  rw [← Int.natCast_emod]; congr 1; exact Nat.mod_eq_of_lt h

theorem toU_nat_lt {t : CTy} {n : Nat} (h : n < 2 ^ t.bits) : t.toU (n : Int) = n := by
  unfold toU
  rw [← Int.natCast_emod, Int.toNat_natCast]
  exact Nat.mod_eq_of_lt h

theorem conv_unsigned {t : CTy} (hu : t.signed = false) (z : Int) :
    t.conv z = z % (2 ^ t.bits : Nat) := by
  unfold conv; simp [hu]

/-- A conversion does not change a value that is in range. -/
theorem conv_inRange {t : CTy} {z : Int} (h : t.InRange z) : t.conv z = z := by
  have h2 : (2:Int) ^ t.bits = 2 * 2 ^ (t.bits - 1) := by
    rw [← Int.pow_succ', Nat.sub_add_cancel t.bits_pos]
  unfold InRange minV maxV at h
  unfold conv
  split
  next hs =>
    simp only [hs, if_true] at h
    have e1 : ((2 ^ t.bits : Nat) : Int) = 2 * 2 ^ (t.bits - 1) := by push_cast; exact h2
    apply Int.bmod_eq_of_le
    · rw [e1]; omega
    · rw [e1]; omega
  next hs =>
    simp only [hs, Bool.false_eq_true, if_false] at h
    apply Int.emod_eq_of_lt h.1
    push_cast; omega

end CTy

theorem pow_dvd_int {a b : Nat} (h : a ≤ b) : ((2:Int) ^ a) ∣ ((2 ^ b : Nat) : Int) := by
  push_cast
  exact ⟨2 ^ (b - a), by rw [← Int.pow_add, Nat.add_sub_cancel' h]⟩

theorem two_pow_le_256 {w : Nat} (hw : w ≤ 8) : 2 ^ w ≤ 256 :=
  Nat.pow_le_pow_right (by decide) hw (n := 2)

namespace CVal

/-- `x & mask` for a mask `2^w - 1`, `w ≤ 30`. -/
theorem land_mask30 (a : CVal) {w : Nat} (hw : w ≤ 30) :
    a.land ⟨.u32, 2 ^ w - 1⟩ =
      ⟨CTy.common a.ty .u32, ((a.val % 2 ^ w).toNat : Nat)⟩ := by
  have hb := CTy.common_bits a.ty .u32
  unfold land bitop
  dsimp only
  have hp : 2 ^ w ≤ 2 ^ 30 := Nat.pow_le_pow_right (by decide) hw
  have hpos : 0 < 2 ^ w := Nat.two_pow_pos w
  have hc : ((2:Int) ^ w - 1) = ((2 ^ w - 1 : Nat) : Int) := by
    rw [Int.natCast_sub hpos]; push_cast; rfl
  have h32 : 2 ^ 32 ≤ 2 ^ (CTy.common a.ty .u32).bits := Nat.pow_le_pow_right (by decide) hb
  have h31 : 2 ^ 31 ≤ 2 ^ ((CTy.common a.ty .u32).bits - 1) :=
    Nat.pow_le_pow_right (by decide) (by omega)
  have hlt : 2 ^ w - 1 < 2 ^ (CTy.common a.ty .u32).bits := by
    have : (2 ^ 30:Nat) ≤ 2 ^ 32 := by decide
    omega
  rw [hc, CTy.toU_nat_lt hlt, Nat.and_two_pow_sub_one_eq_mod]
  have hv : (CTy.common a.ty .u32).toU a.val % 2 ^ w = (a.val % 2 ^ w).toNat := by
    unfold CTy.toU
    have h0 : 0 ≤ a.val % ((2 ^ (CTy.common a.ty .u32).bits : Nat) : Int) :=
      Int.emod_nonneg _ (by have := Nat.two_pow_pos (CTy.common a.ty .u32).bits; omega)
    have h1 : ((a.val % ((2 ^ (CTy.common a.ty .u32).bits : Nat) : Int)) % ((2 ^ w : Nat) : Int)).toNat
        = (a.val % ((2 ^ (CTy.common a.ty .u32).bits : Nat) : Int)).toNat % 2 ^ w := by
      rw [Int.toNat_emod h0 (by omega), Int.toNat_natCast]
    rw [← h1, Int.emod_emod_of_dvd _ (by have := pow_dvd_int (show w ≤ (CTy.common a.ty .u32).bits by omega); push_cast at this ⊢; exact this)]
    push_cast; rfl
  rw [hv]
  have hlt2 : (a.val % 2 ^ w).toNat < 2 ^ w := by
    have hp' : (0:Int) < 2 ^ w := by have := hpos; exact_mod_cast this
    have h0 := Int.emod_nonneg a.val (b := (2:Int) ^ w) (by omega)
    have h1 := Int.emod_lt_of_pos a.val hp'
    have : ((a.val % 2 ^ w).toNat : Int) < ((2 ^ w : Nat) : Int) := by
      rw [Int.toNat_of_nonneg h0]; push_cast; exact h1
    exact_mod_cast this
  rw [CTy.conv_nat_lt]
  have : (2 ^ 30:Nat) ≤ 2 ^ 31 := by decide
  omega

/-- `x & mask` for a mask `2^w - 1`, `w ≤ 8`. -/
theorem land_mask (a : CVal) {w : Nat} (hw : w ≤ 8) :
    a.land ⟨.u32, 2 ^ w - 1⟩ =
      ⟨CTy.common a.ty .u32, ((a.val % 2 ^ w).toNat : Nat)⟩ := land_mask30 a (by omega)

/-- `a | b` of two natural numbers that fit in `B` bits. -/
theorem lor_nat {a b : CVal} {na nb B : Nat} (ha : a.val = na) (hb : b.val = nb)
    (hna : na < 2 ^ B) (hnb : nb < 2 ^ B)
    (hB : B < (CTy.common a.ty b.ty).bits ∨
      ((CTy.common a.ty b.ty).signed = false ∧ B ≤ (CTy.common a.ty b.ty).bits)) :
    a.lor b = ⟨CTy.common a.ty b.ty, (na ||| nb : Nat)⟩ := by
  have hle : 2 ^ B ≤ 2 ^ (CTy.common a.ty b.ty).bits :=
    Nat.pow_le_pow_right (by decide) (by omega)
  have hor := Nat.or_lt_two_pow hna hnb
  unfold lor bitop
  dsimp only
  rw [ha, hb, CTy.toU_nat_lt (by omega), CTy.toU_nat_lt (by omega)]
  rcases hB with hB | ⟨hu, hB⟩
  · rw [CTy.conv_nat_lt]
    have : 2 ^ B ≤ 2 ^ ((CTy.common a.ty b.ty).bits - 1) :=
      Nat.pow_le_pow_right (by decide) (by omega)
    omega
  · rw [CTy.conv_nat_lt_unsigned hu (by omega)]

/-- Left shift of a natural number that stays small. -/
theorem shl_nat {a : CVal} {n s B : Nat} (ha : a.val = n) (hn : n * 2 ^ s < 2 ^ B)
    (hs : s < a.ty.promote.bits) (hB : B < a.ty.promote.bits) :
    a.shl s = some ⟨a.ty.promote, (n * 2 ^ s : Nat)⟩ := by
  have hle : 2 ^ B ≤ 2 ^ (a.ty.promote.bits - 1) :=
    Nat.pow_le_pow_right (by decide) (by omega)
  unfold shl
  dsimp only
  rw [if_pos hs, ha]
  have hc : (n : Int) * 2 ^ s = ((n * 2 ^ s : Nat) : Int) := by push_cast; rfl
  rw [hc]
  split
  next hsg =>
    rw [if_pos]
    refine ⟨by omega, ?_⟩
    unfold CTy.InRange CTy.minV CTy.maxV
    simp only [hsg, if_true]
    have hle' : ((n * 2 ^ s : Nat) : Int) < ((2 ^ (a.ty.promote.bits - 1) : Nat) : Int) := by
      exact_mod_cast (by omega : n * 2 ^ s < 2 ^ (a.ty.promote.bits - 1))
    push_cast at hle' ⊢
    have : (0:Int) < 2 ^ (a.ty.promote.bits - 1) := by
      have := Nat.two_pow_pos (a.ty.promote.bits - 1); exact_mod_cast this
    have h0 : (0:Int) ≤ ↑n * 2 ^ s := by rw [hc]; omega
    omega
  next hsg => rw [CTy.conv_nat_lt (by omega)]

/-- Left shift in an unsigned type: modular. -/
theorem shl_unsigned {a : CVal} {n s : Nat} (ha : a.val = n) (hs : s < a.ty.promote.bits)
    (hu : a.ty.promote.signed = false) :
    a.shl s = some ⟨a.ty.promote, (n * 2 ^ s % 2 ^ a.ty.promote.bits : Nat)⟩ := by
  unfold shl
  dsimp only
  rw [if_pos hs, ha, CTy.conv_unsigned hu]
  simp [hu]

end CVal
end Verif
