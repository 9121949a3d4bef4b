import Verif.Model.Types
import Verif.Spec.Text
/-
DBC syntax, written the way the tools write it, independent of the parser.
-/
namespace Verif.Spec
open Verif

/-- A non-empty word of letters, digits and underscores. -/
def IsWordStr (s : Str) : Prop := s ≠ [] ∧ ∀ c ∈ s, IsLetter c ∨ IsDigit c

/-- `BO_ id name: dlc transmitter` -/
def msgLine (id : Nat) (name : Str) (dlc : Nat) (tx : Str) : Str :=
  "BO_ ".toList ++ decStr id ++ " ".toList ++ name ++ ": ".toList ++ decStr dlc ++ " ".toList ++ tx

/-- A number followed by the separator, ... -/
def commaList : List Str → Str
  | [] => []
  | [a] => a
  | a :: rest => a ++ ',' :: commaList rest

/-- Multiplex mark of a signal line. -/
inductive Mux where
  | plain | master | muxed (n : Nat)
  deriving DecidableEq, Repr

/-- Text of the multiplex mark. -/
def Mux.text : Mux → Str
  | .plain => []
  | .master => " M".toList
  | .muxed n => " m".toList ++ decStr n

/-- A decimal number as it is written: sign, integer part, digits of the fraction. -/
structure Lit where
  neg : Bool := false
  ip : Nat
  frac : Str := []
  deriving DecidableEq, Repr

/-- Text of a decimal number. -/
def Lit.text (l : Lit) : Str :=
  (if l.neg then ['-'] else []) ++ (decStr l.ip ++ (if l.frac = [] then [] else '.' :: l.frac))

/-- Value of a decimal number. -/
def Lit.value (l : Lit) : Dec :=
  ⟨(if l.neg then -1 else 1) * ((l.ip * 10 ^ l.frac.length + digitsVal l.frac : Nat) : Int), l.frac.length⟩

/-- What a signal line says. -/
structure SigDesc where
  name : Str
  mux : Mux
  start : Nat
  len : Nat
  intel : Bool
  signed : Bool
  factor : Lit
  offset : Lit
  min : Lit
  max : Lit
  unit : Str
  recs : List Str
  deriving DecidableEq, Repr

/-- ` SG_ name M : start|len@order sign (factor,offset) [min|max] "unit" receivers` -/
def SigDesc.line (d : SigDesc) : Str :=
  " SG_ ".toList ++ d.name ++ d.mux.text ++ " : ".toList ++ decStr d.start ++ "|".toList ++ decStr d.len ++ "@".toList ++
  (if d.intel then "1".toList else "0".toList) ++ (if d.signed then "-".toList else "+".toList) ++
  " (".toList ++ d.factor.text ++ ",".toList ++ d.offset.text ++ ") [".toList ++ d.min.text ++ "|".toList ++
  d.max.text ++ "] \"".toList ++ d.unit ++ "\" ".toList ++ commaList d.recs

end Verif.Spec
