import Verif.Base.Str
import Verif.Base.CInt
/-
C as far as the generated files use it: tokens, expressions with C precedences, their meaning.
Independent of the generator.
-/
namespace Verif.Spec
open Verif

/-! ### Tokens -/

/-- A token: a word (identifier or number) or a punctuator. -/
inductive Tok where
  | word (w : Str)
  | p (s : Str)
  deriving DecidableEq, Repr

/-- Letters, digits, underscore. -/
def isWordCh (c : Char) : Bool :=
  (decide (97 ≤ c.toNat) && decide (c.toNat ≤ 122)) || (decide (65 ≤ c.toNat) && decide (c.toNat ≤ 90)) ||
  (decide (48 ≤ c.toNat) && decide (c.toNat ≤ 57)) || c == '_'

/-- A digit. -/
def isDigitCh (c : Char) : Bool := decide (48 ≤ c.toNat) && decide (c.toNat ≤ 57)

/-- White space inside a line. -/
def isBlankCh (c : Char) : Bool := c == ' ' || (decide (9 ≤ c.toNat) && decide (c.toNat ≤ 13))

/-- A number in progress (a dot belongs to it). -/
def inNumber (cur : Str) : Bool :=
  match cur with
  | c :: _ => isDigitCh c
  | [] => false

/-- Punctuators of two characters (C11 6.4.6, without digraphs). -/
def twoCh (c d : Char) : Bool :=
  [('-', '>'), ('+', '+'), ('-', '-'), ('<', '<'), ('>', '>'), ('<', '='), ('>', '='), ('=', '='), ('!', '='), ('&', '&'), ('|', '|'),
   ('*', '='), ('/', '='), ('%', '='), ('+', '='), ('-', '='), ('&', '='), ('^', '='), ('|', '='), ('#', '#')].contains (c, d)

/-- The word collected so far, if any. -/
def flushWord (cur : Str) (ts : List Tok) : List Tok := if cur = [] then ts else .word cur :: ts

/-- Tokens of a text without comments, string literals, exponents with a sign and punctuators of
three characters; `cur` is the word being read. -/
def lexGo : Str → Str → List Tok
  | [], cur => flushWord cur []
  | [c], cur =>
    if isWordCh c || (c == '.' && inNumber cur) then .word (cur ++ [c]) :: []
    else if isBlankCh c then flushWord cur []
    else flushWord cur [.p [c]]
  | c :: d :: r, cur =>
    if isWordCh c || (c == '.' && inNumber cur) then lexGo (d :: r) (cur ++ [c])
    else if isBlankCh c then flushWord cur (lexGo (d :: r) [])
    else if twoCh c d then flushWord cur (.p [c, d] :: lexGo r [])
    else flushWord cur (.p [c] :: lexGo (d :: r) [])

/-- Tokens of a text. -/
def lex (s : Str) : List Tok := lexGo s []

/-! ### Expressions -/

/-- Parsed expressions. -/
inductive PExpr where
  | id (n : Str)
  | num (w : Str)
  | index (a i : PExpr)
  | arrow (a : PExpr) (f : Str)
  | dot (a : PExpr) (f : Str)
  /-- arguments joined with the operator `,` -/
  | call (f args : PExpr)
  | call0 (f : PExpr)
  | neg (a : PExpr)
  | cast (t : Str) (a : PExpr)
  | bin (op : Str) (a b : PExpr)
  /-- `&a` -/
  | addr (a : PExpr)
  /-- `*a` -/
  | deref (a : PExpr)
  /-- `a++` -/
  | incr (a : PExpr)
  /-- `c ? a : b` -/
  | cond (c a b : PExpr)
  /-- `a = b`, `a |= b` -/
  | assign (op : Str) (a b : PExpr)
  deriving DecidableEq, Repr

/-- Type names; those without an integer type are not integer types, or defined by the user. -/
def typeNames : List (Str × Option CTy) :=
  [("int8_t".toList, some .i8), ("int16_t".toList, some .i16), ("int32_t".toList, some .i32), ("int64_t".toList, some .i64),
   ("uint8_t".toList, some .u8), ("uint16_t".toList, some .u16), ("uint32_t".toList, some .u32), ("uint64_t".toList, some .u64),
   ("sigfloat_t".toList, none), ("bitext_t".toList, none), ("ubitext_t".toList, none), ("void".toList, none)]

/-- The word is a type name. -/
def isType (w : Str) : Bool := (typeNames.lookup w).isSome

/-- Assignment operators that occur. -/
def isAssign (op : Str) : Bool := decide (op = ['='] ∨ op = ['|', '='])

/-- Level of an operator, tightest first (C11 6.5.5 to 6.5.17); the comma binds least. -/
def opLevel (op : Str) : Option Nat :=
  if op = ['*'] ∨ op = ['/'] then some 1
  else if op = ['+'] ∨ op = ['-'] then some 2
  else if op = ['<', '<'] ∨ op = ['>', '>'] then some 3
  else if op = ['<'] ∨ op = ['>'] ∨ op = ['<', '='] ∨ op = ['>', '='] then some 4
  else if op = ['=', '='] ∨ op = ['!', '='] then some 5
  else if op = ['&'] then some 6
  else if op = ['^'] then some 7
  else if op = ['|'] then some 8
  else if op = ['&', '&'] then some 9
  else if op = ['|', '|'] then some 10
  else if op = ['?'] then some 11
  else if isAssign op then some 12
  else if op = [','] then some 13
  else none

/-- The weakest level. -/
def topLevel : Nat := 13

/-- Where the parser is. -/
inductive PMode where
  /-- an expression of a level; level 0 is a cast expression -/
  | at (lv : Nat)
  /-- more operands of a level -/
  | more (lv : Nat) (acc : PExpr)
  /-- postfix operators -/
  | post (acc : PExpr)
  deriving Repr

/-- Recursive descent over the C expression grammar.  Binary operators associate to the left, the
conditional and assignments to the right; the left side of an assignment may be any conditional
expression (what is no lvalue has no meaning).  The first argument bounds the recursion. -/
def parseGo : Nat → PMode → List Tok → Option (PExpr × List Tok)
  | 0, _, _ => none
  | f + 1, .at 0, ts =>
    match ts with
    | .p ['('] :: .word w :: .p [')'] :: r =>
      if isType w then
        match parseGo f (.at 0) r with
        | some (a, r) => some (.cast w a, r)
        | none => none
      else parseGo f (.post (if inNumber w then .num w else .id w)) r
    | .p ['('] :: r =>
      match parseGo f (.at topLevel) r with
      | some (a, .p [')'] :: r) => parseGo f (.post a) r
      | _ => none
    | .p ['-'] :: r =>
      match parseGo f (.at 0) r with
      | some (a, r) => some (.neg a, r)
      | none => none
    | .p ['&'] :: r =>
      match parseGo f (.at 0) r with
      | some (a, r) => some (.addr a, r)
      | none => none
    | .p ['*'] :: r =>
      match parseGo f (.at 0) r with
      | some (a, r) => some (.deref a, r)
      | none => none
    | .word w :: r => parseGo f (.post (if inNumber w then .num w else .id w)) r
    | _ => none
  | f + 1, .at (lv + 1), ts =>
    match parseGo f (.at lv) ts with
    | some (a, r) => parseGo f (.more (lv + 1) a) r
    | none => none
  | f + 1, .more lv acc, ts =>
    match ts with
    | .p op :: r =>
      if opLevel op = some lv then
        if op = ['?'] then
          match parseGo f (.at topLevel) r with
          | some (b, .p [':'] :: r) =>
            match parseGo f (.at lv) r with
            | some (c, r) => some (.cond acc b c, r)
            | none => none
          | _ => none
        else if isAssign op then
          match parseGo f (.at lv) r with
          | some (b, r) => some (.assign op acc b, r)
          | none => none
        else
        match parseGo f (.at (lv - 1)) r with
        | some (b, r) => parseGo f (.more lv (.bin op acc b)) r
        | none => none
      else some (acc, ts)
    | _ => some (acc, ts)
  | f + 1, .post acc, ts =>
    match ts with
    | .p ['['] :: r =>
      match parseGo f (.at topLevel) r with
      | some (i, .p [']'] :: r) => parseGo f (.post (.index acc i)) r
      | _ => none
    | .p ['-', '>'] :: .word w :: r => parseGo f (.post (.arrow acc w)) r
    | .p ['.'] :: .word w :: r => parseGo f (.post (.dot acc w)) r
    | .p ['+', '+'] :: r => parseGo f (.post (.incr acc)) r
    | .p ['('] :: .p [')'] :: r => parseGo f (.post (.call0 acc)) r
    | .p ['('] :: r =>
      match parseGo f (.at topLevel) r with
      | some (a, .p [')'] :: r) => parseGo f (.post (.call acc a)) r
      | _ => none
    | _ => some (acc, ts)

/-- The tokens are exactly the expression `e`. -/
def ParsesTo (ts : List Tok) (e : PExpr) : Prop := ∃ f, parseGo f (.at topLevel) ts = some (e, [])

/-! ### Meaning -/

/-- Value of a hexadecimal digit. -/
def hexVal (c : Char) : Option Nat :=
  if 48 ≤ c.toNat ∧ c.toNat ≤ 57 then some (c.toNat - 48)
  else if 65 ≤ c.toNat ∧ c.toNat ≤ 70 then some (c.toNat - 55)
  else if 97 ≤ c.toNat ∧ c.toNat ≤ 102 then some (c.toNat - 87)
  else none

/-- Value of digits in a base. -/
def baseVal (b : Nat) (ds : Str) : Option Nat :=
  ds.foldl (fun a c => do
    let a ← a
    let d ← hexVal c
    if d < b then some (a * b + d) else none) (if ds = [] then none else some 0)

/-- Value of an integer constant without suffix: decimal, hexadecimal or octal. -/
def constVal : Str → Option Nat
  | '0' :: 'x' :: ds => baseVal 16 ds
  | '0' :: ds => baseVal 8 ('0' :: ds)
  | ds => baseVal 10 ds

/-- An integer constant, with suffix `U`, `u` or none.  A constant without suffix that fits `int`
has that type, a larger one is of a 64-bit type; one with suffix is `unsigned int`; still larger
constants and other suffixes have no meaning here. -/
def litOf (w : Str) : Option CVal :=
  if w.getLast? = some 'U' ∨ w.getLast? = some 'u' then
    match constVal w.dropLast with
    | some v => if v < 2 ^ 32 then some ⟨.u32, (v : Nat)⟩ else none
    | none => none
  else
    match constVal w with
    | some v => if v < 2 ^ 31 then some ⟨.i32, (v : Nat)⟩ else if v < 2 ^ 63 then some ⟨.i64, (v : Nat)⟩ else none
    | none => none

/-- What generated expressions can see: the payload bytes (under a name) and the members of the
message struct. -/
structure PEnv where
  /-- the array expression that stands for the payload -/
  arr : PExpr
  dat : List Nat
  fld : Str → Option CVal

/-- Meaning of an integer expression; `none` is undefined behaviour, or not meaningful. -/
def PExpr.eval (env : PEnv) : PExpr → Option CVal
  | .num w => litOf w
  | .index a i =>
    if a = env.arr then do
      let k ← i.eval env
      if 0 ≤ k.val then
        let b ← env.dat[k.val.toNat]?
        return ⟨.u8, (b : Nat)⟩
      else none
    else none
  | .arrow a f => if a = .id "_m".toList then env.fld f else none
  | .cast t a => do
    let v ← a.eval env
    let ty ← (typeNames.lookup t).join
    return v.cast ty
  | .bin op a b => do
    let x ← a.eval env
    let y ← b.eval env
    if op = ['&'] then return x.land y
    else if op = ['|'] then return x.lor y
    else if op = ['>', '>'] then (if 0 ≤ y.val then x.shr y.val.toNat else none)
    else if op = ['<', '<'] then (if 0 ≤ y.val then x.shl y.val.toNat else none)
    else if op = ['+'] then x.add y
    else if op = ['-'] then x.sub y
    else if op = ['*'] then x.mul y
    else if op = ['/'] then x.div y
    else none
  | _ => none

end Verif.Spec
