/-
Specification of the DBC signal layout, independent of the generator.

A payload is a list of bytes; absolute bit position `p` is bit `p % 8` of byte `p / 8`.
`start` is the DBC start bit, `len` the number of bits; bit `k` of the raw value is counted from
the least significant bit (`k = 0`).

* Intel (little endian): the start bit is the least significant bit, more significant bits are at
  increasing positions.
* Motorola (big endian): the start bit is the most significant bit; the next less significant bit
  is one position down inside the byte, and after bit 0 of a byte comes bit 7 of the next byte.
-/
namespace Verif.Spec

/-- Position of the next less significant bit of a Motorola signal. -/
def motorolaNext (p : Nat) : Nat := if p % 8 = 0 then p + 15 else p - 1

/-- `n`-fold iteration. -/
def iter (f : Nat → Nat) : Nat → Nat → Nat
  | 0, x => x
  | n + 1, x => iter f n (f x)

/-- Absolute position of bit `k` of a signal. -/
def bitPos (intel : Bool) (start len k : Nat) : Nat :=
  if intel then start + k else iter motorolaNext (len - 1 - k) start

/-- All bits of the signal lie in the first `n` bytes. -/
def Fits (intel : Bool) (start len n : Nat) : Prop :=
  ∀ k, k < len → bitPos intel start len k < 8 * n

/-- Bit at absolute position `p` of a payload. -/
def payloadBit (d : List Nat) (p : Nat) : Bool := (d.getD (p / 8) 0).testBit (p % 8)

/-- The number with binary digits `f 0, f 1, ..., f (n-1)`, least significant first. -/
def ofBits (f : Nat → Bool) : Nat → Nat
  | 0 => 0
  | n + 1 => ofBits f n + (if f n then 2 ^ n else 0)

/-- Unsigned raw value of a signal in a payload. -/
def rawValue (intel : Bool) (start len : Nat) (d : List Nat) : Nat :=
  ofBits (fun k => payloadBit d (bitPos intel start len k)) len

/-- Two's complement reading of an `n`-bit number (`n ≥ 1`). -/
def signedOf (n : Nat) (v : Nat) : Int := if v < 2 ^ (n - 1) then v else (v : Int) - 2 ^ n

/-- Bit `k` of the two's complement representation of an integer. -/
def intBit (z : Int) (k : Nat) : Bool := decide ((z / 2 ^ k) % 2 = 1)

/-- A payload consists of bytes. -/
def IsPayload (d : List Nat) : Prop := ∀ b ∈ d, b < 256

/-- Value range of an `n`-bit signal. -/
def InSigRange (signed : Bool) (n : Nat) (z : Int) : Prop :=
  if signed then -(2 ^ (n - 1)) ≤ z ∧ z < 2 ^ (n - 1) else 0 ≤ z ∧ z < 2 ^ n

end Verif.Spec
