import Verif.Spec.CSyntax
/-
The C preprocessor, as far as the generated files use it: translation phases 2 to 4 (C11 5.1.1.2).
Independent of the generator.

Simplifications: no trigraphs; no `#elif`, `#line`, `#` and `##` operators, variadic macros (a text that
uses them fails); the arguments of a macro call are on one line with the name; the replacement of a macro
is rescanned without the tokens behind the call.
-/
namespace Verif.Spec
open Verif

/-! ### Phases 2 and 3: line splicing and comments -/

/-- Phase 2: a backslash before a line end is deleted with the line end. -/
def unsplice : Str → Str
  | [] => []
  | [c] => [c]
  | c :: d :: r => if c = '\\' ∧ d = '\n' then unsplice r else c :: unsplice (d :: r)

/-- Where the removal of comments is. -/
inductive CMode where
  | code | line | block | str | chr
  deriving DecidableEq, Repr

/-- Phase 3: comments are replaced by a blank (C11 6.4.9); comment signs inside string literals and
character constants are none. -/
def uncomment : CMode → Str → Str
  | _, [] => []
  | .code, [c] => [c]
  | .code, c :: d :: r =>
    if c = '/' ∧ d = '/' then ' ' :: uncomment .line r
    else if c = '/' ∧ d = '*' then ' ' :: uncomment .block r
    else if c = '"' then c :: uncomment .str (d :: r)
    else if c = '\'' then c :: uncomment .chr (d :: r)
    else c :: uncomment .code (d :: r)
  | .line, c :: r => if c = '\n' then c :: uncomment .code r else uncomment .line r
  | .block, [_] => []
  | .block, c :: d :: r => if c = '*' ∧ d = '/' then uncomment .code r else uncomment .block (d :: r)
  | .str, c :: r => c :: if c = '"' ∨ c = '\n' then uncomment .code r else uncomment .str r
  | .chr, c :: r => c :: if c = '\'' ∨ c = '\n' then uncomment .code r else uncomment .chr r

/-- Lines of a text. -/
def linesGo : Str → Str → List Str
  | [], cur => [cur]
  | c :: r, cur => if c = '\n' then cur :: linesGo r [] else linesGo r (cur ++ [c])

/-- The lines of a text after phases 2 and 3. -/
def ppLines (t : Str) : List Str := linesGo (uncomment .code (unsplice t)) []

/-! ### Phase 4: directives and macros -/

/-- A macro: object-like or function-like. -/
inductive MDef where
  | obj (body : List Tok)
  | fn (params : List Str) (body : List Tok)
  deriving DecidableEq, Repr

/-- Macros in force. -/
abbrev Defs := List (Str × MDef)

/-- The text up to the `)` that closes the call, from behind its `(`; `d` counts open parentheses. -/
def closeArgs : Nat → List Tok → Option (List Tok × List Tok)
  | _, [] => none
  | d, t :: r =>
    if t = .p ['('] then (closeArgs (d + 1) r).map fun x => (t :: x.1, x.2)
    else if t = .p [')'] then
      if d = 0 then some ([], r) else (closeArgs (d - 1) r).map fun x => (t :: x.1, x.2)
    else (closeArgs d r).map fun x => (t :: x.1, x.2)

/-- Arguments: separated by commas that are not inside parentheses. -/
def splitArgs : Nat → List Tok → List Tok → List (List Tok)
  | _, [], cur => [cur]
  | d, t :: r, cur =>
    if t = .p [','] ∧ d = 0 then cur :: splitArgs d r []
    else if t = .p ['('] then splitArgs (d + 1) r (cur ++ [t])
    else if t = .p [')'] then splitArgs (d - 1) r (cur ++ [t])
    else splitArgs d r (cur ++ [t])

/-- Replacement of the parameters in a body. -/
def substArgs (ps : List (Str × List Tok)) (body : List Tok) : List Tok :=
  body.flatMap fun t => match t with
    | .word w => (ps.lookup w).getD [t]
    | t => [t]

/-- All results of a list, if all are there. -/
def optAll {α : Type} : List (Option α) → Option (List α)
  | [] => some []
  | none :: _ => none
  | some x :: r => (optAll r).map (x :: ·)

/-- Macro replacement (C11 6.10.3).  The first argument bounds the recursion; `hide` are the macros being
replaced, which are not replaced again. -/
def expand : Nat → Defs → List Str → List Tok → Option (List Tok)
  | 0, _, _, _ => none
  | _ + 1, _, _, [] => some []
  | f + 1, ds, hide, .p s :: r => (expand f ds hide r).map (.p s :: ·)
  | f + 1, ds, hide, .word w :: r =>
    match (if hide.contains w then none else ds.lookup w) with
    | none => (expand f ds hide r).map (.word w :: ·)
    | some (.obj body) =>
      match expand f ds (w :: hide) body, expand f ds hide r with
      | some a, some b => some (a ++ b)
      | _, _ => none
    | some (.fn ps body) =>
      match r with
      | .p ['('] :: r' =>
        match closeArgs 0 r' with
        | none => none
        | some (inside, rest) =>
          let args := if ps = [] ∧ inside = [] then [] else splitArgs 0 inside []
          if args.length = ps.length then
            match optAll (args.map (expand f ds hide)) with
            | none => none
            | some args' =>
              match expand f ds (w :: hide) (substArgs (ps.zip args') body), expand f ds hide rest with
              | some a, some b => some (a ++ b)
              | _, _ => none
          else none
      | _ => (expand f ds hide r).map (.word w :: ·)

/-- An open conditional: the group in which it stands is processed, a group of it has been taken, its
`#else` has been seen, its current group is processed. -/
structure Frame where
  outer : Bool
  taken : Bool
  els : Bool
  live : Bool
  deriving DecidableEq, Repr

/-- State of the preprocessor. -/
structure PP where
  frames : List Frame := []
  defs : Defs := []
  /-- tokens for the compiler -/
  out : List Tok := []
  /-- the text is not correct, or not understood -/
  fail : Bool := false
  deriving DecidableEq, Repr

/-- The current group is processed. -/
def PP.live (st : PP) : Bool := match st.frames with
  | [] => true
  | f :: _ => f.live

/-- The text without white space at the beginning. -/
def dropBlank (s : Str) : Str := s.dropWhile isBlankCh

/-- First word and rest of a text. -/
def wordOf (s : Str) : Str × Str := ((dropBlank s).takeWhile isWordCh, (dropBlank s).dropWhile isWordCh)

/-- Parameter names of a macro. -/
def paramNames : List Tok → Option (List Str)
  | [] => some []
  | [.word w] => some [w]
  | .word w :: .p [','] :: r => (paramNames r).map (w :: ·)
  | _ => none

/-- The definition behind `#define`: a `(` directly behind the name begins the parameters. -/
def defOf (s : Str) : Option (Str × MDef) :=
  let w := wordOf s
  if w.1 = [] ∨ inNumber w.1 then none
  else match w.2 with
    | '(' :: r =>
      match closeArgs 0 (lex r) with
      | none => none
      | some (inside, body) => (paramNames inside).map fun ps => (w.1, .fn ps body)
    | r => some (w.1, .obj (lex r))

/-- Value of a controlling expression; identifiers that are no macros are 0 (C11 6.10.1).  Constants
behave as `intmax_t` or `uintmax_t`; only what the generated files use. -/
def ppEval : PExpr → Option Int
  | .num w => (litOf w).map (·.val)
  | .id _ => some 0
  | .bin op a b =>
    match ppEval a, ppEval b with
    | some x, some y =>
      if op = ['=', '='] then some (if x = y then 1 else 0)
      else if op = ['!', '='] then some (if x = y then 0 else 1)
      else if op = ['&', '&'] then some (if x ≠ 0 ∧ y ≠ 0 then 1 else 0)
      else if op = ['|', '|'] then some (if x ≠ 0 ∨ y ≠ 0 then 1 else 0)
      else none
    | _, _ => none
  | _ => none

/-- Condition of `#if`. -/
def ifCond (f : Nat) (ds : Defs) (s : Str) : Option Bool :=
  match expand f ds [] (lex s) with
  | none => none
  | some ts =>
    match parseGo f (.at topLevel) ts with
    | some (e, []) => (ppEval e).map fun v => v ≠ 0
    | _ => none

/-- Begin of a conditional. -/
def PP.push (st : PP) (c : Bool) : PP :=
  { st with frames := ⟨st.live, c, false, st.live && c⟩ :: st.frames }

/-- A `#define`; another definition of the same name must be the same (C11 6.10.3). -/
def PP.define (st : PP) (s : Str) : PP :=
  match defOf s with
  | none => { st with fail := true }
  | some (n, m) =>
    match st.defs.lookup n with
    | none => { st with defs := st.defs ++ [(n, m)] }
    | some m' => if m' = m then st else { st with fail := true }

/-- One line.  `#include` is done by `ppText`. -/
def ppLine (f : Nat) (st : PP) (line : Str) : PP :=
  match dropBlank line with
  | '#' :: r =>
    let w := wordOf r
    let d := w.1
    if d = "ifdef".toList then st.push ((st.defs.lookup (wordOf w.2).1).isSome)
    else if d = "ifndef".toList then st.push (!(st.defs.lookup (wordOf w.2).1).isSome)
    else if d = "if".toList then
      if st.live then
        match ifCond f st.defs w.2 with
        | some c => st.push c
        | none => { st with fail := true }
      else st.push false
    else if d = "else".toList then
      match st.frames with
      | fr :: rest =>
        if fr.els then { st with fail := true }
        else { st with frames := ⟨fr.outer, true, true, fr.outer && !fr.taken⟩ :: rest }
      | [] => { st with fail := true }
    else if d = "endif".toList then
      match st.frames with
      | _ :: rest => { st with frames := rest }
      | [] => { st with fail := true }
    else if !st.live then st
    else if d = "define".toList then st.define w.2
    else if d = "undef".toList then { st with defs := st.defs.filter fun x => x.1 ≠ (wordOf w.2).1 }
    else if d = "pragma".toList ∨ d = [] then st
    else { st with fail := true }
  | _ =>
    if st.live then
      match expand f st.defs [] (lex line) with
      | some ts => { st with out := st.out ++ ts }
      | none => { st with fail := true }
    else st

/-- Name of the file of an `#include`, without quotation marks. -/
def includeOf (line : Str) : Option Str :=
  match dropBlank line with
  | '#' :: r => if (wordOf r).1 = "include".toList then some (((dropBlank (wordOf r).2).drop 1).dropLast) else none
  | _ => none

/-- The preprocessor on a text; `files` are the files known by name, others are taken as empty. -/
def ppText (f : Nat) (files : List (Str × Str)) : Nat → PP → Str → PP
  | 0, st, _ => { st with fail := true }
  | d + 1, st, t =>
    let st' := (ppLines t).foldl (fun st l =>
      match includeOf l with
      | some name =>
        if st.live then
          match files.lookup name with
          | some u => ppText f files d st u
          | none => st
        else st
      | none => ppLine f st l) st
    if st'.frames.length = st.frames.length then st' else { st' with fail := true }

end Verif.Spec
