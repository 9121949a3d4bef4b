/-
C integer semantics used for the generated code and for the integer parts of the generator.

Modelled data model: 8-bit char, 16-bit short, 32-bit int, 64-bit long long (LP64/ILP32 targets),
two's complement, arithmetic right shift of negative values and modular conversion to signed types
(both implementation-defined in C, and so defined by every compiler the project supports).
Undefined behaviour is the distinct outcome `none`.
-/
namespace Verif

/-- The integer types that occur in generated code: `intN_t` and `uintN_t`. `int` is `i32`,
`unsigned int` is `u32`. (Models `enum class SigType`, src/types/message.h:23-33, in declaration
order, and the names in src/helpers/formatter.cpp:11-21.) -/
inductive CTy where
  | i8 | i16 | i32 | i64 | u8 | u16 | u32 | u64
  deriving DecidableEq, Repr, Inhabited

namespace CTy

/-- Width in bits. -/
def bits : CTy → Nat
  | i8 | u8 => 8
  | i16 | u16 => 16
  | i32 | u32 => 32
  | i64 | u64 => 64

/-- Signedness. -/
def signed : CTy → Bool
  | i8 | i16 | i32 | i64 => true
  | u8 | u16 | u32 | u64 => false

/-- Smallest value. -/
def minV (t : CTy) : Int := if t.signed then -(2 ^ (t.bits - 1)) else 0

/-- Largest value. -/
def maxV (t : CTy) : Int := if t.signed then 2 ^ (t.bits - 1) - 1 else 2 ^ t.bits - 1

/-- `z` is a value of type `t`. -/
def InRange (t : CTy) (z : Int) : Prop := t.minV ≤ z ∧ z ≤ t.maxV

instance (t : CTy) (z : Int) : Decidable (t.InRange z) := by unfold InRange; infer_instance

/-- Conversion of a mathematical integer to type `t` (modular). -/
def conv (t : CTy) (z : Int) : Int :=
  if t.signed then Int.bmod z (2 ^ t.bits) else z % (2 ^ t.bits : Nat)

/-- The object representation of `z` in `t`, as an unsigned number below `2^bits`. -/
def toU (t : CTy) (z : Int) : Nat := (z % (2 ^ t.bits : Nat)).toNat

/-- Integer promotion (everything narrower than `int` becomes `int`). -/
def promote (t : CTy) : CTy := if t.bits < 32 then i32 else t

/-- Usual arithmetic conversions, applied to already promoted types. -/
def usual (a b : CTy) : CTy :=
  if a = b then a
  else if a.bits < b.bits then b
  else if b.bits < a.bits then a
  else if a.signed then b else a

/-- Common type of a binary operator. -/
def common (a b : CTy) : CTy := usual a.promote b.promote

end CTy

/-- A typed C value. -/
structure CVal where
  ty : CTy
  val : Int
  deriving DecidableEq, Repr

namespace CVal

/-- Cast. -/
def cast (t : CTy) (a : CVal) : CVal := ⟨t, t.conv a.val⟩

/-- A bitwise operator on the common type. -/
def bitop (f : Nat → Nat → Nat) (a b : CVal) : CVal :=
  let t := CTy.common a.ty b.ty
  ⟨t, t.conv (f (t.toU a.val) (t.toU b.val) : Nat)⟩

/-- `a & b` -/
def land (a b : CVal) : CVal := bitop (· &&& ·) a b
/-- `a | b` -/
def lor (a b : CVal) : CVal := bitop (· ||| ·) a b
/-- `a ^ b` -/
def lxor (a b : CVal) : CVal := bitop (· ^^^ ·) a b

/-- An arithmetic result of mathematical value `z` at type `t`: unsigned wraps, signed overflow is
undefined. -/
def arith (t : CTy) (z : Int) : Option CVal :=
  if t.signed then (if t.InRange z then some ⟨t, z⟩ else none) else some ⟨t, t.conv z⟩

/-- `a + b` -/
def add (a b : CVal) : Option CVal :=
  let t := CTy.common a.ty b.ty; arith t (t.conv a.val + t.conv b.val)
/-- `a - b` -/
def sub (a b : CVal) : Option CVal :=
  let t := CTy.common a.ty b.ty; arith t (t.conv a.val - t.conv b.val)
/-- `a * b` -/
def mul (a b : CVal) : Option CVal :=
  let t := CTy.common a.ty b.ty; arith t (t.conv a.val * t.conv b.val)
/-- `a / b`: truncation towards zero, division by zero and overflow are undefined. -/
def div (a b : CVal) : Option CVal :=
  let t := CTy.common a.ty b.ty
  if t.conv b.val = 0 then none else arith t (Int.tdiv (t.conv a.val) (t.conv b.val))

/-- `a << n`: undefined when `n` is not below the width of the promoted left operand, and for
signed operands that are negative or overflow. -/
def shl (a : CVal) (n : Nat) : Option CVal :=
  let t := a.ty.promote
  if n < t.bits then
    if t.signed then
      (if 0 ≤ a.val ∧ t.InRange (a.val * 2 ^ n) then some ⟨t, a.val * 2 ^ n⟩ else none)
    else some ⟨t, t.conv (a.val * 2 ^ n)⟩
  else none

/-- `a >> n`: undefined when `n` is not below the width of the promoted left operand; arithmetic
for negative values. -/
def shr (a : CVal) (n : Nat) : Option CVal :=
  let t := a.ty.promote
  if n < t.bits then some ⟨t, a.val / 2 ^ n⟩ else none

end CVal
end Verif
