import Verif.Model.Formatter
import Verif.Model.SigType
/-
Splitting and number reading of the line parser (src/parser/dbclineparser.cpp:12-34, 64-101).

`std::regex` is not modelled as such.  Each pattern the parser uses is a function that gives the
length of the (leftmost, greedy) match at the front of a text; none of the patterns matches the empty
text.  Characters are the bytes of the file; classes are those of the "C" locale.
-/
namespace Verif

/-- `\s` and `isspace` in the "C" locale. -/
def isWs (c : Char) : Bool := c == ' ' || (decide (9 ≤ c.toNat) && decide (c.toNat ≤ 13))

/-- `[0-9]`, `\d`. -/
def isDig (c : Char) : Bool := decide (48 ≤ c.toNat) && decide (c.toNat ≤ 57)

/-- `[A-Za-z]`. -/
def isAlpha (c : Char) : Bool :=
  (decide (65 ≤ c.toNat) && decide (c.toNat ≤ 90)) || (decide (97 ≤ c.toNat) && decide (c.toNat ≤ 122))

/-- `[A-Za-z0-9_]`. -/
def isWord (c : Char) : Bool := isAlpha c || isDig c || c == '_'

/-- A pattern that matches one character. -/
def mOne (p : Char → Bool) : Str → Option Nat
  | [] => none
  | c :: _ => if p c then some 1 else none

/-- A pattern `[...]+`. -/
def mRun (p : Char → Bool) (s : Str) : Option Nat :=
  if (s.takeWhile p).length = 0 then none else some (s.takeWhile p).length

/-- `regMessage`, dbclineparser.cpp:14. -/
def mMessage : Str → Option Nat := mOne fun c => !(isWord c || c == '.' || c == '-')
/-- `kRegSigReceivers`, dbclineparser.cpp:18. -/
def mReceivers : Str → Option Nat := mRun fun c => !(isWord c || c == '.' || c == '+' || c == '-')
/-- `kRegSigSplit1`, dbclineparser.cpp:20: blanks, colon, blanks. -/
def mColon (s : Str) : Option Nat :=
  let a := s.takeWhile isWs
  match s.drop a.length with
  | ':' :: r =>
    let b := r.takeWhile isWs
    if a.length = 0 ∨ b.length = 0 then none else some (a.length + 1 + b.length)
  | _ => none
/-- `kregSigSplit2` and `kRegCommMain`, dbclineparser.cpp:21, 24. -/
def mQuote : Str → Option Nat := mOne (· == '"')
/-- `kRegCommMeta`, dbclineparser.cpp:25. -/
def mBlanks : Str → Option Nat := mRun (· == ' ')
/-- `kRegAttrMain`, dbclineparser.cpp:28. -/
def mAttr : Str → Option Nat := mRun fun c => !(isWord c || c == '.')
/-- `kTransmittersList`, dbclineparser.cpp:29. -/
def mTrans : Str → Option Nat := mRun fun c => !isWord c
/-- `(\:)`, dbcscanner.cpp:215. -/
def mColonChar : Str → Option Nat := mOne (· == ':')

/-- Loop of `sregex_token_iterator` with submatch -1: the pieces between the matches.  `hit`: there
was a match before; `acc`: the current piece, reversed.  A last piece that is empty is left out
unless there was no match at all. -/
def splitGo (m : Str → Option Nat) : Nat → Bool → Str → Str → List Str
  | 0, _, acc, _ => [acc.reverse]
  | _ + 1, hit, acc, [] => if hit && acc.isEmpty then [] else [acc.reverse]
  | fuel + 1, hit, acc, c :: cs =>
    match m (c :: cs) with
    | some n => acc.reverse :: splitGo m fuel true [] ((c :: cs).drop n)
    | none => splitGo m fuel hit (c :: acc) cs

/-- `resplit(s, rgx, -1)`, dbclineparser.cpp:64-79. -/
def resplit (m : Str → Option Nat) (s : Str) : List Str := splitGo m (s.length + 1) false [] s

/-- Loop of `tokens`. -/
def tokGo : Nat → Str → List Str
  | 0, _ => []
  | _ + 1, [] => []
  | fuel + 1, c :: cs =>
    if c == '"' then
      match cs.findIdx? (· == '"') with
      | some k => (c :: cs.take (k + 1)) :: tokGo fuel (cs.drop (k + 1))
      | none => tokGo fuel cs
    else if isWs c then tokGo fuel cs
    else
      let t := (c :: cs).takeWhile fun x => !(isWs x || x == '"')
      t :: tokGo fuel ((c :: cs).drop t.length)

/-- `resplit(s, kRegValTable, 0)`, dbclineparser.cpp:37, 64-79: words and quoted texts (with the
quotes).  A quote without a partner matches nothing and is skipped. -/
def tokens (s : Str) : List Str := tokGo (s.length + 1) s

/-- `trim`, dbclineparser.cpp:81-96. -/
def trimWs (s : Str) : Str := ((s.reverse.dropWhile isWs).reverse).dropWhile isWs

/-! ### Numbers -/

/-- The platform the generator runs on, with what the C++ standard leaves open in the parser. -/
structure Platform extends Host where
  /-- result of `atoi` for numbers that are no `int` (undefined in C; some value on every platform) -/
  atoiOvf : Int → Int
  /-- result of `atoll` for numbers that are no `long long` -/
  atollOvf : Int → Int
  /-- `ULONG_MAX` -/
  ulongMax : Nat
  /-- initial value of `cmmnt.MsgId`, which is not initialised (dbcscanner.cpp:163) -/
  junk : Nat
  /-- `std::sort` by start bit (dbcscanner.cpp:293-297): some sorted rearrangement -/
  sortSigs : List Sig → List Sig

/-- Decimal value of a text of digits. -/
def decVal (s : Str) : Nat := s.foldl (fun a c => a * 10 + (c.toNat - 48)) 0

/-- The number that `atoi` and `atoll` see: blanks, a sign, digits. -/
def intPrefix (s : Str) : Int :=
  match s.dropWhile isWs with
  | '-' :: r => -(decVal (r.takeWhile isDig) : Int)
  | '+' :: r => decVal (r.takeWhile isDig)
  | r => decVal (r.takeWhile isDig)

/-- `atoi`, `int` of 32 bits. -/
def atoi (P : Platform) (s : Str) : Int :=
  if -(2 ^ 31) ≤ intPrefix s ∧ intPrefix s < 2 ^ 31 then intPrefix s else P.atoiOvf (intPrefix s)

/-- `atoll`. -/
def atoll (P : Platform) (s : Str) : Int :=
  if -(2 ^ 63) ≤ intPrefix s ∧ intPrefix s < 2 ^ 63 then intPrefix s else P.atollOvf (intPrefix s)

/-- Conversion to `uint32_t`. -/
def toU32 (z : Int) : Nat := (z % 2 ^ 32).toNat
/-- Conversion to `uint8_t`. -/
def toU8 (z : Int) : Nat := (z % 2 ^ 8).toNat

/-- `clear_msgid`, dbclineparser.cpp:98-101. -/
def clearMsgId (n : Nat) : Nat := n &&& 0x1FFFFFFF

/-- Exponent part of a decimal number: `e`, a sign, digits. -/
def expPart : Str → Int
  | c :: r =>
    if c == 'e' || c == 'E' then intPrefix (match r with | d :: _ => if isWs d then [] else r | [] => []) else 0
  | [] => 0

/-- Digits, fraction and exponent of `atof`. -/
def atofAbs (s : Str) : Dec :=
  let ip := s.takeWhile isDig
  let r := s.dropWhile isDig
  let fp := match r with | '.' :: t => t.takeWhile isDig | _ => []
  let r2 := match r with | '.' :: t => t.dropWhile isDig | _ => r
  if ip.length = 0 ∧ fp.length = 0 then ⟨0, 0⟩
  else
    let e := expPart r2
    if 0 ≤ e then ⟨decVal (ip ++ fp) * 10 ^ e.toNat, fp.length⟩
    else ⟨decVal (ip ++ fp), fp.length + (-e).toNat⟩

/-- `atof`.  Simplifications: the result is the exact decimal (no rounding to binary64, no overflow),
and `inf`, `nan` and hexadecimal numbers are read as 0. -/
def atof (s : Str) : Dec :=
  match s.dropWhile isWs with
  | '-' :: r => let d := atofAbs r; ⟨-d.num, d.scale⟩
  | '+' :: r => atofAbs r
  | r => atofAbs r

end Verif
