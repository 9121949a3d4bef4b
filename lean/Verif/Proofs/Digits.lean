import Verif.Base.Str
import Verif.Spec.Text
/- Decimal numerals. -/
namespace Verif
open Spec

theorem digitChar_toNat {n : Nat} (h : n < 10) : (digitChar n).toNat = 48 + n := by
  have hv : (48 + n).isValidChar := Or.inl (by omega)
  rw [digitChar, Char.ofNat, dif_pos hv]; rfl

theorem digitChar_isDigit {n : Nat} (h : n < 10) : IsDigit (digitChar n) := by
  unfold IsDigit; rw [digitChar_toNat h]; omega

theorem digitChar_of_isDigit {c : Char} (h : IsDigit c) : c = digitChar (c.toNat - 48) := by
  unfold IsDigit at h
  apply Char.toNat_inj.mp
  rw [digitChar_toNat (by omega)]
  omega

theorem digitsVal_foldl (a : Nat) (s : Str) :
    s.foldl (fun a c => a * 10 + (c.toNat - 48)) a = a * 10 ^ s.length + digitsVal s := by
  induction s generalizing a with
  | nil => simp [digitsVal]
  | cons c s ih =>
    unfold digitsVal
    rw [List.foldl_cons, List.foldl_cons, ih, ih (0 * 10 + (c.toNat - 48)), List.length_cons, Nat.pow_succ,
      Nat.mul_comm (10 ^ s.length) 10, Nat.add_mul, Nat.mul_assoc]
    simp only [Nat.zero_mul, Nat.zero_add]
    omega

theorem digitsVal_append (a b : Str) : digitsVal (a ++ b) = digitsVal a * 10 ^ b.length + digitsVal b := by
  rw [digitsVal, List.foldl_append, digitsVal_foldl]
  rfl

theorem digitsVal_cons (c : Char) (s : Str) :
    digitsVal (c :: s) = (c.toNat - 48) * 10 ^ s.length + digitsVal s := by
  have := digitsVal_append [c] s
  simpa [digitsVal] using this

theorem digitsVal_lt {s : Str} (h : ∀ c ∈ s, IsDigit c) : digitsVal s < 10 ^ s.length := by
  induction s with
  | nil => simp [digitsVal]
  | cons c s ih =>
    rw [digitsVal_cons, List.length_cons, Nat.pow_succ]
    have h1 := h c (by simp)
    have h2 := ih (fun x hx => h x (by simp [hx]))
    unfold IsDigit at h1
    have : (c.toNat - 48) * 10 ^ s.length ≤ 9 * 10 ^ s.length := Nat.mul_le_mul_right _ (by omega)
    omega

theorem digitsVal_zeros {s : Str} (h : ∀ c ∈ s, c = '0') : digitsVal s = 0 := by
  induction s with
  | nil => rfl
  | cons c s ih =>
    rw [digitsVal_cons, ih (fun x hx => h x (by simp [hx])), h c (by simp)]
    simp

/-- Properties of the digit printer (base 10). -/
theorem digitsAux_spec (fuel n : Nat) (acc : Str) (hf : n < 2 ^ fuel) (hf0 : 0 < fuel) :
    ∃ ds : Str, digitsAux digitChar 10 fuel n acc = ds ++ acc ∧ ds ≠ [] ∧ (∀ c ∈ ds, IsDigit c) ∧ digitsVal ds = n ∧
      (∀ c rest, ds = c :: rest → c = '0' → n = 0 ∧ rest = []) := by
  induction fuel generalizing n acc with
  | zero => omega
  | succ fuel ih =>
    rw [digitsAux]
    by_cases h : n < 10
    · rw [if_pos h]
      refine ⟨[digitChar n], rfl, by simp, ?_, ?_, ?_⟩
      · intro c hc
        rw [List.mem_singleton.mp hc]
        exact digitChar_isDigit h
      · simp [digitsVal, digitChar_toNat h]
      · intro c rest e hc
        cases e
        refine ⟨?_, rfl⟩
        have := congrArg Char.toNat hc
        rw [digitChar_toNat h] at this
        have h0 : '0'.toNat = 48 := rfl
        omega
    · rw [if_neg h]
      have hpow : 2 ^ (fuel + 1) = 2 * 2 ^ fuel := by rw [Nat.pow_succ]; omega
      have hlt : n / 10 < 2 ^ fuel := by omega
      have hfu : 0 < fuel := by
        cases fuel with
        | zero => simp at hf; omega
        | succ f => omega
      obtain ⟨ds, e, hne, hd, hv, hz⟩ := ih (n / 10) (digitChar (n % 10) :: acc) hlt hfu
      refine ⟨ds ++ [digitChar (n % 10)], by rw [e]; simp, by simp, ?_, ?_, ?_⟩
      · intro c hc
        rcases List.mem_append.mp hc with hc | hc
        · exact hd c hc
        · rw [List.mem_singleton.mp hc]
          exact digitChar_isDigit (by omega)
      · rw [digitsVal_append, hv]
        simp only [List.length_singleton, Nat.pow_one]
        rw [digitsVal_cons, digitChar_toNat (by omega)]
        simp only [digitsVal, List.foldl_nil, List.length_nil]
        omega
      · intro c rest e' hc
        cases ds with
        | nil => exact absurd rfl hne
        | cons x xs =>
          rw [List.cons_append] at e'
          cases e'
          have := hz _ _ rfl hc
          omega

theorem lt_two_pow_log2 (n : Nat) : n < 2 ^ (Nat.log2 n + 1) := Nat.lt_log2_self

/-- `%u` prints the digits of the number without leading zeros. -/
theorem decStr_spec (n : Nat) :
    decStr n ≠ [] ∧ (∀ c ∈ decStr n, IsDigit c) ∧ digitsVal (decStr n) = n ∧
      (∀ c rest, decStr n = c :: rest → c = '0' → n = 0 ∧ rest = []) := by
  obtain ⟨ds, e, h⟩ := digitsAux_spec (Nat.log2 n + 1) n [] (lt_two_pow_log2 n) (by omega)
  rw [List.append_nil] at e
  unfold decStr
  rw [e]
  exact h

end Verif
