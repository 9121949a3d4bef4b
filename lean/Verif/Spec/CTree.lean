import Verif.Spec.CProg
/-
Compiling one source file of a directory of files: `#include` reads the named file, a file with
`#pragma once` is read once, a file that is missing is an error, a type must be declared before it is used.
Independent of the generator.

Simplifications: all files are in one directory, with the standard headers among them (as empty files: the
types of `<stdint.h>` are known); a type name inside a function body is not checked.
-/
namespace Verif.Spec
open Verif

/-- State of the preprocessor and the files that are not to be read again. -/
structure TS where
  pp : PP
  once : List Str := []
  deriving DecidableEq, Repr

/-- The line is `#pragma once`. -/
def isOnce (line : Str) : Bool :=
  match dropBlank line with
  | '#' :: r => decide ((wordOf r).1 = "pragma".toList ∧ (wordOf (wordOf r).2).1 = "once".toList)
  | _ => false

/-- The preprocessor on the text of the file `cur` of the directory `dir`. -/
def ppTree (f : Nat) (dir : List (Str × Str)) : Nat → Str → TS → Str → TS
  | 0, _, st, _ => { st with pp := { st.pp with fail := true } }
  | d + 1, cur, st, t =>
    let st' := (ppLines t).foldl (fun st l =>
      match includeOf l with
      | some name =>
        if st.pp.live then
          if st.once.contains name then st
          else match dir.lookup name with
            | some u => ppTree f dir d name st u
            | none => { st with pp := { st.pp with fail := true } }
        else st
      | none =>
        { pp := ppLine f st.pp l, once := if st.pp.live && isOnce l then cur :: st.once else st.once }) st
    if st'.pp.frames.length = st.pp.frames.length then st' else { st' with pp := { st'.pp with fail := true } }

/-- Types known without a declaration. -/
def baseTypes : List Str :=
  ["void", "float", "double", "uint8_t", "uint16_t", "uint32_t", "uint64_t", "int8_t", "int16_t", "int32_t", "int64_t"].map (·.toList)

/-- The type a member needs. -/
def MTy.needs : MTy → List Str
  | .int _ _ => []
  | .flt => ["sigfloat_t".toList]
  | .named t => [t]
  | .arr _ _ => []

/-- The types a declaration needs. -/
def Item.needs : Item → List Str
  | .struct _ ms => ms.flatMap fun m => m.2.needs
  | .proto ret _ ps => ret :: ps.map (·.ty)
  | .func f => f.ret :: f.params.map (·.ty)
  | .alias _ t => [t]
  | .enum _ _ => []
  | .var _ t _ => [t]

/-- The types a declaration declares. -/
def Item.types : Item → List Str
  | .struct n _ => [n]
  | .alias n _ => [n]
  | .enum n _ => [n]
  | _ => []

/-- Every type is declared before it is used. -/
def typesKnown : List Str → List Item → Bool
  | _, [] => true
  | ns, i :: r => i.needs.all (fun t => ns.contains t) && typesKnown (i.types ++ ns) r

/-- What a function declaration or definition says: name, type of the value, types of the parameters. -/
def Item.sig : Item → Option (Str × Str × List (Str × Bool))
  | .proto t n ps => some (n, t, ps.map fun p => (p.ty, p.ptr))
  | .func f => some (f.name, f.ret, f.params.map fun p => (p.ty, p.ptr))
  | _ => none

/-- Declarations and definitions of a function agree, and nothing else has its name. -/
def declsAgree (is : List Item) : Bool :=
  is.all fun a => is.all fun b =>
    match a.sig, b.sig with
    | some x, some y => decide (x.1 = y.1 → x = y)
    | some x, none => !b.defines.contains x.1
    | none, _ => true

/-- Compile the file `main` of a directory; `user` are macros of the command line. -/
def compileTree (f : Nat) (dir : List (Str × Str)) (user : Defs) (main : Str) : Option (List Item) :=
  (dir.lookup main).bind fun src =>
    let st := (ppTree f dir f main { pp := { defs := user } } src).pp
    if st.fail = true ∨ st.frames ≠ [] then none
    else (parseUnit f st.out).bind fun is => if (is.flatMap Item.defines).Nodup ∧ typesKnown baseTypes is = true ∧ declsAgree is = true then some is else none

end Verif.Spec
