import Verif.Model.SigPrinter
/-
src/codegen/c-sigprinter.cpp : the conversion expressions as the text that is printed.
`Verif/Model/SigPrinter.lean` has the same functions on syntax trees; `Verif/Props/ExprText.lean`
relates the two.

Simplification: `%s` prints the whole name (a NUL character inside a name would end it).
-/
namespace Verif

/-- `msk`, src/codegen/c-sigprinter.cpp:12.  An index above 8 is outside the table; the code only
uses lengths of at most 8. -/
def mskText (w : Nat) : Str :=
  match w with
  | 0 => "0".toList
  | 1 => "0x01U".toList
  | 2 => "0x03U".toList
  | 3 => "0x07U".toList
  | 4 => "0x0FU".toList
  | 5 => "0x1FU".toList
  | 6 => "0x3FU".toList
  | 7 => "0x7FU".toList
  | _ => "0xFFU".toList

/-- `snprintf(workbuff, WBUFF_LEN, ...)`, src/codegen/c-sigprinter.cpp:7-10: at most 2047
characters. -/
def workbuff (t : Str) : Str := t.take 2047

/-- `%d` with a `uint32_t` or non-negative `int` argument. -/
def fmtD (n : Nat) : Str := if n ≤ 2147483647 then decStr n else '-' :: decStr (4294967296 - n)

/-- The error text, src/codegen/c-sigprinter.cpp:188,205,258. -/
def errText : Str := "Error in DBC file !!!! Dlc of this message must be greater.".toList

/-- `CSigPrinter::AppendToByteLine`, src/codegen/c-sigprinter.cpp:305-317. -/
def appendToByteLine (expr str : Str) : Str :=
  if expr.length > 0 then expr ++ " | ".toList ++ str else str

/-- `AppendToByteLine(to_bytes[bn], str)`; `none` when `bn` is outside the vector. -/
def appendTextAt (tb : List Str) (bn : Nat) (str : Str) : Option (List Str) :=
  match tb[bn]? with
  | some e => some (tb.set bn (appendToByteLine e str))
  | none => none

/-- `"((_d[%d] >> %dU) & (%s))"`, src/codegen/c-sigprinter.cpp:215,294. -/
def txtDatShr (bn n : Nat) (m : Str) : Str :=
  "((_d[".toList ++ fmtD bn ++ "] >> ".toList ++ fmtD n ++ "U) & (".toList ++ m ++ "))".toList

/-- `"((_m->%s & (%s)) << %dU)"`, src/codegen/c-sigprinter.cpp:218,297. -/
def txtFldShl (name m : Str) (n : Nat) : Str :=
  "((_m->".toList ++ name ++ " & (".toList ++ m ++ ")) << ".toList ++ fmtD n ++ "U)".toList

/-- `"(_d[%d] & (%s))"`, src/codegen/c-sigprinter.cpp:224,267. -/
def txtDat (bn : Nat) (m : Str) : Str := "(_d[".toList ++ fmtD bn ++ "] & (".toList ++ m ++ "))".toList

/-- `"(_m->%s & (%s))"`, src/codegen/c-sigprinter.cpp:227,270. -/
def txtFld (name m : Str) : Str := "(_m->".toList ++ name ++ " & (".toList ++ m ++ "))".toList

/-- `"(%s(_d[%d] & (%s)) << %dU)"`, src/codegen/c-sigprinter.cpp:240,281. -/
def txtDatShl (t : Str) (bn : Nat) (m : Str) (n : Nat) : Str :=
  "(".toList ++ t ++ "(_d[".toList ++ fmtD bn ++ "] & (".toList ++ m ++ ")) << ".toList ++ fmtD n ++ "U)".toList

/-- `"((_m->%s >> %dU) & (%s))"`, src/codegen/c-sigprinter.cpp:243,284. -/
def txtFldShr (name : Str) (n : Nat) (m : Str) : Str :=
  "((_m->".toList ++ name ++ " >> ".toList ++ fmtD n ++ "U) & (".toList ++ m ++ "))".toList

/-- `t64`, src/codegen/c-sigprinter.cpp:232-238,276-279. -/
def t64Text (slen : Nat) : Str := if slen > 31 then "(uint64_t)".toList else []

/-- Outcome of the byte loop. -/
inductive LoopTxt where
  | done (acc : Str) (tb : List Str) (slen bn : Nat)
  | err (tb : List Str)
  | oob

/-- The `while ((slen - 8) >= 0)` loop, src/codegen/c-sigprinter.cpp:246-287.  `fuel` bounds the
number of iterations (the caller passes `slen`). -/
def byteLoopText (name : Str) (o : BitLayout) : Nat → Str → List Str → Nat → Nat → LoopTxt
  | 0, acc, tb, slen, bn => .done acc tb slen bn
  | fuel + 1, acc, tb, slen, bn =>
    if slen < 8 then .done acc tb slen bn
    else
      let slen := slen - 8
      let bn := shiftByte o bn
      if tb.length < bn then .err (tb.set 0 errText)
      else if slen = 0 then
        match appendTextAt tb bn (workbuff (txtFld name (mskText 8))) with
        | none => .oob
        | some tb => byteLoopText name o fuel (acc ++ " | ".toList ++ workbuff (txtDat bn (mskText 8))) tb slen bn
      else
        match appendTextAt tb bn (workbuff (txtFldShr name slen (mskText 8))) with
        | none => .oob
        | some tb =>
          byteLoopText name o fuel (acc ++ " | ".toList ++ workbuff (txtDatShl (t64Text slen) bn (mskText 8) slen)) tb slen bn

/-- `CSigPrinter::PrintSignalExpr`, src/codegen/c-sigprinter.cpp:180-303: the returned string and
the new contents of `to_bytes`; `none` when an index leaves the vector. -/
def printSignalText (s : Sig) (tb : List Str) : Option (Str × List Str) :=
  if tb.length = 0 then some (errText, tb)
  else
    let sb := startb s
    let bn := sb / 8
    if tb.length ≤ bn then some (errText, tb.set 0 errText)
    else
      let bbc := sb % 8 + 1
      let slen := s.lengthBit
      if bbc > slen then
        match appendTextAt tb bn (workbuff (txtFldShl s.name (mskText slen) (bbc - slen))) with
        | none => none
        | some tb => some (workbuff (txtDatShr bn (bbc - slen) (mskText slen)), tb)
      else if bbc = slen then
        match appendTextAt tb bn (workbuff (txtFld s.name (mskText slen))) with
        | none => none
        | some tb => some (workbuff (txtDat bn (mskText slen)), tb)
      else
        let slen := slen - bbc
        match appendTextAt tb bn (workbuff (txtFldShr s.name slen (mskText bbc))) with
        | none => none
        | some tb =>
          match byteLoopText s.name s.order slen (workbuff (txtDatShl (t64Text slen) bn (mskText bbc) slen)) tb slen bn with
          | .oob => none
          | .err tb => some (errText, tb)
          | .done acc tb slen bn =>
            if slen > 0 then
              let bn := shiftByte s.order bn
              match appendTextAt tb bn (workbuff (txtFldShl s.name (mskText slen) (8 - slen))) with
              | none => none
              | some tb => some (acc ++ workbuff (" | ".toList ++ txtDatShr bn (8 - slen) (mskText slen)), tb)
            else some (acc, tb)

/-- The signal loop of `CSigPrinter::BuildCConvertExprs`, src/codegen/c-sigprinter.cpp:139-158. -/
def buildTextLoop : List Sig → List Str → List Str → Option (List Str × List Str)
  | [], sx, tb => some (sx, tb)
  | s :: rest, sx, tb =>
    match printSignalText s tb with
    | none => none
    | some (x, tb) => buildTextLoop rest (sx ++ [x]) tb

/-- `to_signals` and `to_bytes` of `CSigPrinter::BuildCConvertExprs`,
src/codegen/c-sigprinter.cpp:126-158. -/
def buildText (m : Msg) : Option (List Str × List Str) :=
  buildTextLoop m.signals [] (List.replicate m.dlc [])

/-- `CsmByteNum` and `CsmToByteExpr`, src/codegen/c-sigprinter.cpp:160-175; `none` when printing goes
out of bounds, or when no slot is filled (then `CsmByteNum` is uninitialised). -/
def csmText (s : Sig) : Option (Nat × Str) :=
  match printSignalText s (List.replicate 8 []) with
  | none => none
  | some (_, tb) =>
    match tb.findIdx? (fun t => decide (t.length > 0)) with
    | some i => some (i, tb.getD i [])
    | none => none

end Verif
