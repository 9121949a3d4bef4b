import Verif.Spec.CProg
/-
What a macro stands for behind a text.
-/
namespace Verif.Spec

/-- The expression that the name `n`, written behind the text, is: the text is preprocessed, then the name is
replaced (C11 6.10.3), and the tokens are parsed. -/
def macroExpr (f : Nat) (files : List (Str × Str)) (user : Defs) (text n : Str) : Option PExpr :=
  let st := ppText f files f { defs := user } text
  if st.fail = true ∨ st.frames ≠ [] then none
  else (expand f st.defs [] [.word n]).bind fun ts =>
    match parseGo f (.at topLevel) ts with
    | some (e, []) => some e
    | _ => none

/-- An expression that is the same integer in every state of every program. -/
def IsConst (e : PExpr) (v : CVal) : Prop := ∀ (φ : Type) (env : Env φ) (st : CSt φ), evalE env e st = some (.i v, st)

/-- Behind the text, the name is an integer constant. -/
def MacroIs (files : List (Str × Str)) (user : Defs) (text n : Str) (v : CVal) : Prop :=
  ∃ F e, IsConst e v ∧ ∀ f, F ≤ f → macroExpr f files user text n = some e

/-- Behind the text, the name is a macro. -/
def MacroDefined (files : List (Str × Str)) (user : Defs) (text n : Str) : Prop :=
  ∃ F, ∀ f, F ≤ f → (ppText f files f { defs := user } text).fail = false ∧ ((ppText f files f { defs := user } text).defs.lookup n).isSome = true

end Verif.Spec
