import Verif.Model.Types
/-
Abstract syntax of the C expressions the generator prints, their text, and their evaluation.
-/
namespace Verif

/-- Expressions of generated code. -/
inductive CExpr where
  /-- `_d[i]` : `uint8_t` -/
  | dat (i : Nat)
  /-- `_m->n` -/
  | fld (n : Str)
  /-- unsigned literal, printed as one of the mask strings -/
  | mask (w : Nat)
  /-- parenthesised binary `&` -/
  | band (a b : CExpr)
  /-- binary `|` -/
  | bor (a b : CExpr)
  /-- `a >> nU` -/
  | shr (a : CExpr) (n : Nat)
  /-- `a << nU` -/
  | shl (a : CExpr) (n : Nat)
  /-- `(T)a` -/
  | cast (t : CTy) (a : CExpr)
  deriving DecidableEq, Repr, Inhabited

/-- The memory generated code works on: payload bytes and struct fields.  A payload index outside
the array, or a missing field, is undefined behaviour. -/
structure CEnv where
  dat : List Nat
  fld : Str → Option CVal

/-- `msk[w]` as a number: `msk[0]` is the `int` literal `0`, `msk[1..8]` are the unsigned literals
`0x01U .. 0xFFU` (src/codegen/c-sigprinter.cpp:12).  Index above 8 is outside the table. -/
def maskVal (w : Nat) : Option CVal :=
  if w = 0 then some ⟨.i32, 0⟩ else if w ≤ 8 then some ⟨.u32, 2 ^ w - 1⟩ else none

/-- Evaluation of an expression; `none` is undefined behaviour. -/
def CExpr.eval (env : CEnv) : CExpr → Option CVal
  | .dat i => match env.dat[i]? with
    | some b => some ⟨.u8, (b : Nat)⟩
    | none => none
  | .fld n => env.fld n
  | .mask w => maskVal w
  | .band a b => do return (← a.eval env).land (← b.eval env)
  | .bor a b => do return (← a.eval env).lor (← b.eval env)
  | .shr a n => do (← a.eval env).shr n
  | .shl a n => do (← a.eval env).shl n
  | .cast t a => do return (← a.eval env).cast t

end Verif
