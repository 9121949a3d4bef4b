import Verif.Model.Scanner
/-
What a DBC file says about messages, line by line, without the state of the scanner.
-/
namespace Verif.Spec
open Verif

/-- Header line. -/
def IsHeader (l : Str) : Bool := "BO_ ".toList.isPrefixOf l

/-- Every header line with the lines up to the next one. -/
def sections : List Str → List (Str × List Str)
  | [] => []
  | l :: ls =>
    if IsHeader l then (l, ls.takeWhile fun x => !IsHeader x) :: sections ls else sections ls

/-- The lines up to the first one with `p`, including it. -/
def upTo (p : Str → Bool) : List Str → List Str
  | [] => []
  | l :: ls => l :: if p l then [] else upTo p ls

/-- A multi-transmitter line that takes effect. -/
def IsTx (P : Platform) (l : Str) : Bool := (parseMultiTrans P l).1 != 0

/-- The signals of a section: of its lines up to the first multi-transmitter line, those that are
well-formed signal lines. -/
def sectionSigs (P : Platform) (header : Str) (body : List Str) : List Sig :=
  ((upTo (IsTx P) (header :: body)).filter isSignalLine).filterMap fun l =>
    match parseSignalLine P l with
    | .ok r => r
    | _ => none

end Verif.Spec
