import Verif.Model.CExpr
/-
src/codegen/c-sigprinter.cpp : the conversion expressions.

The strings `to_bytes[i]` and the returned to-signal string are modelled by syntax trees; see
`Verif/Model/SigPrinterText.lean` for the literal text and the proof that it is the rendering of
these trees.
-/
namespace Verif

/-- Content of one `to_bytes` slot: empty string, an expression, or text that starts with the
"Error in DBC file" message (which does not compile, whatever is appended to it). -/
inductive Slot where
  | empty
  | expr (e : CExpr)
  | err
  deriving DecidableEq, Repr, Inhabited

/-- `CSigPrinter::AppendToByteLine`, src/codegen/c-sigprinter.cpp:305-317. -/
def Slot.append : Slot → CExpr → Slot
  | .empty, e => .expr e
  | .expr a, e => .expr (.bor a e)
  | .err, _ => .err

/-- Result of the to-signal direction: an expression or the error text. -/
inductive SigText where
  | expr (e : CExpr)
  | err
  deriving DecidableEq, Repr, Inhabited

/-- Outcome of `PrintSignalExpr`: the returned string and the updated `to_bytes`, or an access
outside the `to_bytes` vector (undefined behaviour of the generator). -/
inductive PrintRes where
  | ok (s : SigText) (tb : List Slot)
  | oob
  deriving DecidableEq, Repr, Inhabited

/-- `ShiftByte`, src/codegen/c-sigprinter.cpp:14-17, with the `int32_t` result stored back into the
`uint32_t` variable `bn`. -/
def shiftByte (o : BitLayout) (bn : Nat) : Nat :=
  match o with
  | .intel => (bn + (2 ^ 32 - 1)) % 2 ^ 32
  | .motorolla => (bn + 1) % 2 ^ 32

/-- `AppendToByteLine(to_bytes[bn], e)`; `none` when `bn` is outside the vector. -/
def appendAt (tb : List Slot) (bn : Nat) (e : CExpr) : Option (List Slot) :=
  match tb[bn]? with
  | some s => some (tb.set bn (s.append e))
  | none => none

/-- State after the byte loop. -/
inductive LoopRes where
  | done (acc : CExpr) (tb : List Slot) (slen bn : Nat)
  | err (tb : List Slot)
  | oob
  deriving DecidableEq, Repr

/-- Optional `(uint64_t)` cast, src/codegen/c-sigprinter.cpp:235-238 and 276-279. -/
def t64 (slen : Nat) (e : CExpr) : CExpr := if slen > 31 then .cast .u64 e else e

/-- `to_bytes[0] = "Error ..."`, src/codegen/c-sigprinter.cpp:205,258 (only reached with a
non-empty vector). -/
def setErr (tb : List Slot) : List Slot := tb.set 0 .err

/-- The `while ((slen - 8) >= 0)` loop, src/codegen/c-sigprinter.cpp:246-287.  `fuel` is any bound
on the number of iterations (the caller passes `slen`). -/
def byteLoop (name : Str) (o : BitLayout) :
    Nat → CExpr → List Slot → Nat → Nat → LoopRes
  | 0, acc, tb, slen, bn => .done acc tb slen bn
  | fuel + 1, acc, tb, slen, bn =>
    if slen < 8 then .done acc tb slen bn
    else
      let slen := slen - 8
      let bn := shiftByte o bn
      if tb.length < bn then .err (setErr tb)
      else if slen = 0 then
        match appendAt tb bn (.band (.fld name) (.mask 8)) with
        | none => .oob
        | some tb => byteLoop name o fuel (.bor acc (.band (.dat bn) (.mask 8))) tb slen bn
      else
        match appendAt tb bn (.band (.shr (.fld name) slen) (.mask 8)) with
        | none => .oob
        | some tb =>
          byteLoop name o fuel
            (.bor acc (.shl (t64 slen (.band (.dat bn) (.mask 8))) slen)) tb slen bn

/-- `startb`, src/codegen/c-sigprinter.cpp:191-197: 32-bit unsigned arithmetic, conversion to
`uint16_t`, clamp to 511. -/
def startb (s : Sig) : Nat :=
  let v := (match s.order with
    | .intel => (s.startBit + s.lengthBit + (2 ^ 32 - 1)) % 2 ^ 32
    | .motorolla => s.startBit) % 2 ^ 16
  if v > 511 then 511 else v

/-- `CSigPrinter::PrintSignalExpr`, src/codegen/c-sigprinter.cpp:180-303. -/
def printSignalExpr (s : Sig) (tb : List Slot) : PrintRes :=
  if tb.length = 0 then .ok .err tb
  else
    let sb := startb s
    let bn := sb / 8
    if tb.length ≤ bn then .ok .err (setErr tb)
    else
      let bbc := sb % 8 + 1
      let slen := s.lengthBit
      if bbc > slen then
        match appendAt tb bn (.shl (.band (.fld s.name) (.mask slen)) (bbc - slen)) with
        | none => .oob
        | some tb => .ok (.expr (.band (.shr (.dat bn) (bbc - slen)) (.mask slen))) tb
      else if bbc = slen then
        match appendAt tb bn (.band (.fld s.name) (.mask slen)) with
        | none => .oob
        | some tb => .ok (.expr (.band (.dat bn) (.mask slen))) tb
      else
        let slen := slen - bbc
        match appendAt tb bn (.band (.shr (.fld s.name) slen) (.mask bbc)) with
        | none => .oob
        | some tb =>
          match byteLoop s.name s.order slen
              (.shl (t64 slen (.band (.dat bn) (.mask bbc))) slen) tb slen bn with
          | .oob => .oob
          | .err tb => .ok .err tb
          | .done acc tb slen bn =>
            if slen > 0 then
              let bn := shiftByte s.order bn
              match appendAt tb bn (.shl (.band (.fld s.name) (.mask slen)) (8 - slen)) with
              | none => .oob
              | some tb =>
                .ok (.expr (.bor acc (.band (.shr (.dat bn) (8 - slen)) (.mask slen)))) tb
            else .ok (.expr acc) tb

/-- Outcome of printing all signals of a message. -/
inductive BuildRes where
  | ok (toSignals : List SigText) (toBytes : List Slot)
  | oob
  deriving DecidableEq, Repr

/-- The signal loop of `CSigPrinter::BuildCConvertExprs`, src/codegen/c-sigprinter.cpp:139-158. -/
def buildLoop : List Sig → List SigText → List Slot → BuildRes
  | [], sx, tb => .ok sx tb
  | s :: rest, sx, tb =>
    match printSignalExpr s tb with
    | .oob => .oob
    | .ok x tb => buildLoop rest (sx ++ [x]) tb

/-- `CSigPrinter::BuildCConvertExprs` without the checksum part,
src/codegen/c-sigprinter.cpp:126-158: `to_bytes.resize(DLC)`. -/
def buildExprs (m : Msg) : BuildRes :=
  buildLoop m.signals [] (List.replicate m.dlc .empty)

end Verif
