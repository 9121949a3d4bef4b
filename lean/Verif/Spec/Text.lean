import Verif.Base.Str
/-
Independent text notions: C identifiers, decimal numerals.
-/
namespace Verif.Spec

/-- A letter or underscore. -/
def IsLetter (c : Char) : Prop :=
  (97 ≤ c.toNat ∧ c.toNat ≤ 122) ∨ (65 ≤ c.toNat ∧ c.toNat ≤ 90) ∨ c.toNat = 95

/-- A decimal digit. -/
def IsDigit (c : Char) : Prop := 48 ≤ c.toNat ∧ c.toNat ≤ 57

/-- A C identifier (C11 6.4.2.1, basic characters). -/
def IsIdent : Str → Prop
  | [] => False
  | c :: rest => IsLetter c ∧ ∀ x ∈ rest, IsLetter x ∨ IsDigit x

/-- Value of a digit string. -/
def digitsVal (s : Str) : Nat := s.foldl (fun a c => a * 10 + (c.toNat - 48)) 0

instance (c : Char) : Decidable (IsLetter c) := by unfold IsLetter; infer_instance
instance (c : Char) : Decidable (IsDigit c) := by unfold IsDigit; infer_instance
instance : (s : Str) → Decidable (IsIdent s)
  | [] => isFalse (by simp [IsIdent])
  | c :: rest => inferInstanceAs (Decidable (IsLetter c ∧ ∀ x ∈ rest, IsLetter x ∨ IsDigit x))

end Verif.Spec
