/-
Byte strings and number printing used by the model.

`std::string` is modelled as `List Char`, one `Char` per byte (code points 0..255).
-/
namespace Verif

abbrev Str := List Char

/-- A decimal digit character. -/
def digitChar (n : Nat) : Char := Char.ofNat (48 + n)

/-- An upper-case hexadecimal digit character (`%X`). -/
def hexDigit (n : Nat) : Char := if n < 10 then Char.ofNat (48 + n) else Char.ofNat (55 + n)

/-- A lower-case hexadecimal digit character (`%x`). -/
def hexDigitL (n : Nat) : Char := if n < 10 then Char.ofNat (48 + n) else Char.ofNat (87 + n)

/-- Digits of `n` in base `b`, most significant first; `fuel` bounds the digit count. -/
def digitsAux (dig : Nat → Char) (b : Nat) : Nat → Nat → Str → Str
  | 0, _, acc => acc
  | fuel + 1, n, acc =>
      if n < b then dig n :: acc else digitsAux dig b fuel (n / b) (dig (n % b) :: acc)

/-- printf `%u` / `%d` of a non-negative number. -/
def decStr (n : Nat) : Str := digitsAux digitChar 10 (Nat.log2 n + 1) n []

/-- printf `%d` of a (possibly negative) number. -/
def intStr (z : Int) : Str :=
  if z < 0 then '-' :: decStr z.natAbs else decStr z.natAbs

/-- printf `%X`. -/
def hexStr (n : Nat) : Str := digitsAux hexDigit 16 (Nat.log2 n + 1) n []

/-- printf `%x`. -/
def hexStrL (n : Nat) : Str := digitsAux hexDigitL 16 (Nat.log2 n + 1) n []

end Verif
