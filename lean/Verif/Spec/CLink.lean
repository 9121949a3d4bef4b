import Verif.Spec.CTree
/-
Linking translation units: what one unit declares some unit defines, once, with the same type.
Independent of the generator.

Simplification: a `static` function counts as visible to other units, which asks for more than C does.
-/
namespace Verif.Spec
open Verif

/-- A function (with the types of its parameters) or a variable: name and type. -/
abbrev Sym := Str × Str × Option (List (Str × Bool))

/-- What a unit defines for others. -/
def Item.gives : Item → Option Sym
  | .func f => some (f.name, f.ret, some (f.params.map fun p => (p.ty, p.ptr)))
  | .var false t n => some (n, t, none)
  | _ => none

/-- What a unit declares. -/
def Item.wants : Item → Option Sym
  | .proto t n ps => some (n, t, some (ps.map fun p => (p.ty, p.ptr)))
  | .var true t n => some (n, t, none)
  | _ => none

/-- Units link: no name is defined twice and everything that is declared is defined, with the same type. -/
def links (us : List (List Item)) : Bool :=
  decide ((us.flatten.filterMap Item.gives).map (·.1)).Nodup && (us.flatten.filterMap Item.wants).all fun s => (us.flatten.filterMap Item.gives).contains s

/-- A call of a function without a value: it must end without `return`. -/
def runVoid {φ : Type} (f : Nat) (env : Env φ) (g : Func) (vs : List (V φ)) (st : CSt φ) : Option (CSt φ) :=
  if g.ret = "void".toList then
    (bindParams env g.params vs).bind fun l =>
      match exec f env g.body { st with loc := l } with
      | some (s, none) => some { s with loc := st.loc }
      | _ => none
  else none

/-! ### Running a linked program

Memory of a node: the structs of the messages are members of one struct, and `mem` gives for the name of a member the state of this struct
(with its monitor).  Calls from one unit into another are run in the unit that defines the function.

Simplifications: a function that calls functions of other units with a value makes at most one such call, and does not read the structs
after it, so the call may be run after the caller has ended; functions without a value are run when the function that calls
them has ended, with the pointers of the caller. -/

variable {φ : Type}

/-- The unit that defines a function. -/
def unitOf (us : List (List Item)) (n : Str) : Option (List Item) := us.find? fun u => (funcOf u n).isSome

/-- The environment of a function without struct of a message. -/
def voidEnv (f : Nat) (T : Target φ) (is : List Item) : Env φ :=
  { F := T.F, ext64 := T.ext64, mem := [], const := T.const, user := T.user, defd := helper f T is, proto := isProto is, ret := T.ret }

/-- Calls of functions without a value, one after the other. -/
def voidCalls (f : Nat) (T : Target φ) (us : List (List Item)) : List (Str × List (V φ)) → CSt φ → Option (CSt φ)
  | [], st => some st
  | (n, vs) :: cs, st =>
    (unitOf us n).bind fun u => (funcOf u n).bind fun g => (runVoid f (voidEnv f T u) g vs st).bind fun s => voidCalls f T us cs s

/-- A call of a function of the program that gets a pointer to the struct of one message; what it calls has no value.  Outputs and the
record of calls are dropped. -/
def callLeaf (f : Nat) (T : Target φ) (us : List (List Item)) (n : Str) (vs : List (V φ)) (st : CSt φ) : Option (CSt φ × V φ) :=
  (unitOf us n).bind fun u => (callUnit f T u n vs st).bind fun r =>
    (voidCalls f T us r.1.calls r.1).map fun s => ({ s with out := fun _ => none, calls := [] }, r.2)

/-- The struct a call gets a pointer to. -/
def subOf (vs : List (V φ)) : Option Str := vs.findSome? fun
  | .p (.sub n) => some n
  | _ => none

/-- The parameters as the called function sees them. -/
def asMsg : V φ → V φ
  | .p (.sub _) => .p .msg
  | v => v

/-- The answer to a call, for a given memory. -/
def answer (f : Nat) (T : Target φ) (us : List (List Item)) (mem : Str → CSt φ) (dat : List Nat) (n : Str) (vs : List (V φ)) : V φ :=
  match (subOf vs).bind fun s => callLeaf f T us n (vs.map asMsg) { mem s with dat := dat } with
  | some r => r.2
  | none => .unit

/-- A call of a function of the program that gets a pointer to all structs and the bytes `dat`: memory afterwards and value. -/
def runProg (f : Nat) (T : Target φ) (us : List (List Item)) (n : Str) (vs : List (V φ)) (mem : Str → CSt φ) (dat : List Nat) : Option ((Str → CSt φ) × V φ) :=
  (unitOf us n).bind fun u =>
    (callUnit f { T with ret := answer f T us mem dat } u n vs { fld := fun _ => 0, flt := fun _ => T.F.ofInt 0, mon := fun _ => 0, dat := dat }).bind fun r =>
      match r.1.calls with
      | [] => some (mem, r.2)
      | [(k, ws)] => (subOf ws).bind fun s => (callLeaf f T us k (ws.map asMsg) { mem s with dat := dat }).map fun q => (fun x => if x = s then q.1 else mem x, r.2)
      | _ => none

end Verif.Spec
