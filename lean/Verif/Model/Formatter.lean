import Verif.Model.Types
/-
src/helpers/formatter.cpp: text helpers.

`char` comparisons depend on the signedness of `char` on the host: the parameter `charMax` is
`CHAR_MAX`, 127 for signed and 255 for unsigned `char`; a byte above `CHAR_MAX` is negative.
-/
namespace Verif

/-- `c > ' '` for a `char`, formatter.cpp:90. -/
def gtBlank (charMax : Nat) (c : Char) : Bool := decide (32 < c.toNat) && decide (c.toNat ≤ charMax)

/-- `str_trim`, formatter.cpp:77-105. -/
def strTrim (charMax : Nat) (s : Str) : Str :=
  if s.isEmpty then s ++ ['\n']
  else
    let passed := (s.reverse.takeWhile fun c => !gtBlank charMax c).length
    if passed ≠ 0 then s.take (s.length - passed) else s

/-- `is_first_valid`, formatter.cpp:107-116. -/
def isFirstValid (c : Char) : Bool :=
  (decide ('a' ≤ c) && decide (c ≤ 'z')) || (decide ('A' ≤ c) && decide (c ≤ 'Z')) || c == '_'

/-- `is_nonfirst_valid`, formatter.cpp:118-121. -/
def isNonfirstValid (c : Char) : Bool := isFirstValid c || (decide ('0' ≤ c) && decide (c ≤ '9'))

/-- The loop of `make_c_name`, formatter.cpp:132-145. -/
def makeCNameLoop : Str → Str → Str
  | [], ret => ret
  | c :: rest, ret =>
    if (ret.length == 0 && isFirstValid c) || (decide (ret.length > 0) && isNonfirstValid c) then
      makeCNameLoop rest (ret ++ [c])
    else if c == ' ' then makeCNameLoop rest (ret ++ ['_'])
    else makeCNameLoop rest ret

/-- `make_c_name`, formatter.cpp:123-148. -/
def makeCName (s : Str) : Str := if s.length = 0 then [] else makeCNameLoop s []

/-- `n` digits of a number with leading zeros. -/
def padDigits : Nat → Nat → Str
  | 0, _ => []
  | n + 1, v => padDigits n (v / 10) ++ [digitChar (v % 10)]

/-- Text of `stream << std::fixed << std::setprecision(10) << value` for a value that is
`± q / 10^10` after rounding to ten digits, formatter.cpp:152-156.  (A negative value that rounds to
zero prints as `-0.0000000000`.) -/
def fixed10 (neg : Bool) (q : Nat) : Str :=
  (if neg then ['-'] else []) ++ decStr (q / 10 ^ 10) ++ '.' :: padDigits 10 (q % 10 ^ 10)

/-- `addtail` of `prt_double`, formatter.cpp:172-183: one more than the index of the last character
in `'1'..'9'` among the first characters after the dot. -/
def addTail : Str → Nat → Nat → Nat
  | [], _, acc => acc
  | c :: rest, j, acc => addTail rest (j + 1) (if '0' < c ∧ c ≤ '9' then j + 1 else acc)

/-- `prt_double` after the conversion to text, formatter.cpp:156-202. -/
def prtDoubleText (s : Str) (precision : Nat) (usedot : Bool) : Str :=
  match s.findIdx? (· == '.') with
  | none => if usedot then s ++ ".0".toList else s
  | some dotpos =>
    let tailsize := min (s.length - (dotpos + 1)) precision
    let addtail := addTail ((s.drop (dotpos + 1)).take tailsize) 0 0
    if addtail = 0 then
      if usedot then s.take dotpos ++ ".0".toList else s.take dotpos
    else s.take (dotpos + addtail + 1)

/-- `prt_double`, formatter.cpp:150-202, of `± q / 10^10`. -/
def prtDouble (neg : Bool) (q : Nat) (precision : Nat) (usedot : Bool) : Str :=
  prtDoubleText (fixed10 neg q) precision usedot

end Verif
