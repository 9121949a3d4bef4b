import Verif.Model.Types
/-
Type selection of the line parser: `DbcLineParser::GetSigType`, src/parser/dbclineparser.cpp:325-430.

The conversions from `double` to `int64_t` are undefined in C++ when the value does not fit.  Their
outcome is the parameter `Host.oob`: `none` is undefined behaviour as a distinct outcome, `some v`
is a platform on which the conversion yields `v` (x86-64: -2^63, AArch64: 2^63-1).
-/
namespace Verif

/-- The platform the generator runs on. -/
structure Host where
  /-- `CHAR_MAX`: 127 where `char` is signed, 255 where it is unsigned -/
  charMax : Nat
  /-- result of an out-of-range conversion of a `double` to `int64_t` -/
  oob : Option Int

/-- `(int64_t)x` for a `double` with truncated value `z`. -/
def castI64 (h : Host) (z : Int) : Option Int :=
  if -(2 ^ 63) ≤ z ∧ z < 2 ^ 63 then some z else h.oob

/-- A signed 64-bit arithmetic result; overflow is undefined. -/
def chk64 (z : Int) : Option Int := if -(2 ^ 63) ≤ z ∧ z < 2 ^ 63 then some z else none

/-- The truncated value of `std::pow(2, n) - 1` in binary64, dbclineparser.cpp:343, 358: exact up to
`n = 53`, rounded to `2^n` above; for `n = -1` it is `-0.5`, which truncates to 0. -/
def powM1 (n : Int) : Int :=
  if n < 0 then 0 else if n ≤ 53 then 2 ^ n.toNat - 1 else 2 ^ n.toNat

/-- Loop over `__maxsignedvals` (dbclineparser.cpp:346-354, 400-408): first type whose limit plus
`addon` is at least `v`, otherwise the last one. -/
def pickSigned (h : Host) (addon v : Nat) : CTy :=
  if v ≤ h.charMax + addon then .i8
  else if v ≤ 32767 + addon then .i16
  else if v ≤ 2147483647 + addon then .i32
  else .i64

/-- Loop over `__maxunsigvalues` (dbclineparser.cpp:361-369, 413-420). -/
def pickUnsigned (v : Nat) : CTy :=
  if v ≤ 255 then .u8
  else if v ≤ 65535 then .u16
  else if v ≤ 4294967295 then .u32
  else .u64

/-- `(int64_t)(Offset / Factor)`, dbclineparser.cpp:331: evaluated, but not used.  The quotient is
not finite for factor 0. -/
def rOffset (h : Host) (s : Sig) : Option Int :=
  if s.factor.num = 0 then h.oob
  else castI64 h (Int.tdiv (s.offset.num * 10 ^ s.factor.scale) (s.factor.num * 10 ^ s.offset.scale))

/-- Largest and smallest raw value and the raw type, dbclineparser.cpp:340-370. -/
def rawLimits (h : Host) (s : Sig) : Option (Int × Int × CTy) :=
  if s.signed then do
    let mx ← castI64 h (powM1 ((s.lengthBit : Int) - 1))
    let mx1 ← chk64 (mx + 1)
    let mn ← chk64 (mx1 * -1)
    return (mx, mn, pickSigned h 0 (CTy.toU .u64 mx))
  else do
    let mx ← castI64 h (powM1 s.lengthBit)
    return (mx, 0, pickUnsigned (CTy.toU .u64 mx))

/-- The integer physical type, dbclineparser.cpp:380-421. -/
def physType (h : Host) (s : Sig) (mx mn : Int) : Option CTy := do
  let io ← castI64 h s.offset.trunc
  let jf ← castI64 h s.factor.trunc
  let p ← chk64 (mx * jf)
  let p ← chk64 (p + io)
  let q ← chk64 (mn * jf)
  let q ← chk64 (q + io)
  if s.signed || decide (p < 0) || decide (q < 0) then do
    -- `std::abs` of the smallest `int64_t` is undefined
    let a ← chk64 p.natAbs
    let b ← chk64 q.natAbs
    if a.toNat + 1 < b.toNat then return pickSigned h 1 b.toNat
    else return pickSigned h 0 a.toNat
  else return pickUnsigned p.toNat

/-- `DbcLineParser::GetSigType`, dbclineparser.cpp:325-430.  `none`: undefined behaviour. -/
def getSigType (h : Host) (s : Sig) : Option Sig := do
  let _ ← rOffset h s
  let (mx, mn, ro) ← rawLimits h s
  if s.isSimple then return { s with typeRo := ro, typePhys := ro }
  else if !s.isDouble then do
    let ph ← physType h s mx mn
    return { s with typeRo := ro, typePhys := ph }
  else return { s with typeRo := ro }

end Verif
