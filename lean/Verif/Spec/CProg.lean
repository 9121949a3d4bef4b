import Verif.Spec.CPre
/-
C programs as far as the generated files use them: translation units of struct types, prototypes and
functions; statements; their meaning.  Independent of the generator.

Objects a function can see: one message struct (behind a parameter), its monitor member, addresses of its
members that are structs, one payload buffer, one frame struct, single bytes for outputs, and its own parameters and variables.

Simplifications: operands are evaluated from left to right (no expression here has an unsequenced side
effect on an object it also reads); both branches of `?:` and both operands of `&&` must have a value; a call of a function without
a definition is recorded with its arguments; `const` is not checked; `sigfloat_t` is `double` (as the
generated `dbccodeconf.h` proposes).
-/
namespace Verif.Spec
open Verif

/-! ### Statements -/

/-- Statements. -/
inductive CStm where
  | skip
  | seq (a b : CStm)
  | expr (e : PExpr)
  /-- declaration of a variable -/
  | decl (ty name : Str) (init : Option PExpr)
  | ret (e : PExpr)
  /-- `for (a; b; c) s` -/
  | loop (a b c : PExpr) (s : CStm)
  | ifs (c : PExpr) (a b : CStm)
  deriving DecidableEq, Repr

/-- An expression and the punctuator behind it. -/
def exprThen (f : Nat) (p : Str) (ts : List Tok) : Option (PExpr × List Tok) :=
  match parseGo f (.at topLevel) ts with
  | some (e, .p q :: r) => if q = p then some (e, r) else none
  | _ => none

/-- A declaration: type (with `const` behind it or not), name, value. -/
def parseDecl (f : Nat) : List Tok → Option (CStm × List Tok)
  | .word t :: .word n :: .p [';'] :: r => some (.decl t n none, r)
  | .word t :: .word n :: .p ['='] :: r => (exprThen f [';'] r).map fun x => (.decl t n (some x.1), x.2)
  | .word t :: .word _ :: .word n :: .p ['='] :: r => (exprThen f [';'] r).map fun x => (.decl t n (some x.1), x.2)
  | _ => none

/-- One statement, or (`many`) statements up to and with a closing brace. -/
def parseStm : Nat → Bool → List Tok → Option (CStm × List Tok)
  | 0, _, _ => none
  | f + 1, true, ts =>
    match ts with
    | .p ['}'] :: r => some (.skip, r)
    | _ =>
      match parseStm f false ts with
      | some (a, r) => (parseStm f true r).map fun x => (.seq a x.1, x.2)
      | none => none
  | f + 1, false, ts =>
    match ts with
    | .p ['{'] :: r => parseStm f true r
    | .p [';'] :: r => some (.skip, r)
    | .word w :: r =>
      if w = "return".toList then (exprThen f [';'] r).map fun x => (.ret x.1, x.2)
      else if w = "for".toList then
        match r with
        | .p ['('] :: r =>
          match exprThen f [';'] r with
          | some (a, r) =>
            match exprThen f [';'] r with
            | some (b, r) =>
              match exprThen f [')'] r with
              | some (c, r) => (parseStm f false r).map fun x => (.loop a b c x.1, x.2)
              | none => none
            | none => none
          | none => none
        | _ => none
      else if w = "if".toList then
        match r with
        | .p ['('] :: r =>
          match exprThen f [')'] r with
          | some (c, r) =>
            match parseStm f false r with
            | some (a, .word v :: r) =>
              if v = "else".toList then (parseStm f false r).map fun x => (.ifs c a x.1, x.2)
              else some (.ifs c a .skip, .word v :: r)
            | some (a, r) => some (.ifs c a .skip, r)
            | none => none
          | none => none
        | _ => none
      else if isType w then parseDecl f (.word w :: r)
      else (exprThen f [';'] (.word w :: r)).map fun x => (.expr x.1, x.2)
    | ts => (exprThen f [';'] ts).map fun x => (.expr x.1, x.2)

/-! ### Translation units -/

/-- Type of a struct member. -/
inductive MTy where
  /-- integer, with the width of a bit-field -/
  | int (t : CTy) (w : Option Nat)
  /-- `sigfloat_t` -/
  | flt
  /-- another type, by name -/
  | named (t : Str)
  /-- array of integers -/
  | arr (t : CTy) (n : Nat)
  deriving DecidableEq, Repr

/-- Members of a struct.  The width of a bit-field is from 1 to the width of its type. -/
def parseMembers : List Tok → Option (List (Str × MTy))
  | [] => some []
  | .word t :: .word n :: .p [';'] :: r =>
    match parseMembers r with
    | none => none
    | some ms =>
      match typeNames.lookup t with
      | some (some ty) => some ((n, .int ty none) :: ms)
      | some none => if t = "sigfloat_t".toList then some ((n, .flt) :: ms) else none
      | none => some ((n, .named t) :: ms)
  | .word t :: .word n :: .p [':'] :: .word w :: .p [';'] :: r =>
    match parseMembers r with
    | none => none
    | some ms =>
      match typeNames.lookup t, litOf w with
      | some (some ty), some v =>
        if 1 ≤ v.val ∧ v.val ≤ ty.bits then some ((n, .int ty (some v.val.toNat)) :: ms) else none
      | _, _ => none
  | .word t :: .word n :: .p ['['] :: .word w :: .p [']'] :: .p [';'] :: r =>
    match parseMembers r with
    | none => none
    | some ms =>
      match typeNames.lookup t, litOf w with
      | some (some ty), some v => if 1 ≤ v.val then some ((n, .arr ty v.val.toNat) :: ms) else none
      | _, _ => none
  | _ => none

/-- A parameter: base type, pointer or not, name. -/
structure Param where
  ty : Str
  ptr : Bool
  name : Str
  deriving DecidableEq, Repr

/-- One parameter. -/
def parseParam : List Tok → Option Param
  | [.word t, .word n] => some ⟨t, false, n⟩
  | [.word t, .p ['*'], .word n] => some ⟨t, true, n⟩
  | [.word c, .word t, .p ['*'], .word n] => if c = "const".toList then some ⟨t, true, n⟩ else none
  | _ => none

/-- A function definition. -/
structure Func where
  ret : Str
  name : Str
  params : List Param
  body : CStm
  deriving DecidableEq, Repr

/-- What a translation unit declares. -/
inductive Item where
  | struct (name : Str) (members : List (Str × MTy))
  | proto (ret name : Str) (params : List Param)
  | func (f : Func)
  /-- `typedef t n;` -/
  | alias (name ty : Str)
  /-- an enumeration type with its constants -/
  | enum (name : Str) (consts : List Str)
  /-- a variable of the translation unit, or (`ext`) its declaration only -/
  | var (ext : Bool) (ty name : Str)
  deriving DecidableEq, Repr

/-- The tokens up to the `}` that closes the block, from behind its `{`. -/
def closeBlock : Nat → List Tok → Option (List Tok × List Tok)
  | _, [] => none
  | d, t :: r =>
    if t = .p ['{'] then (closeBlock (d + 1) r).map fun x => (t :: x.1, x.2)
    else if t = .p ['}'] then
      if d = 0 then some ([], r) else (closeBlock (d - 1) r).map fun x => (t :: x.1, x.2)
    else (closeBlock d r).map fun x => (t :: x.1, x.2)

/-- A function or prototype behind its return type and name and `(`. -/
def parseFunc (f : Nat) (ret name : Str) (r : List Tok) : Option (Item × List Tok) :=
  match closeArgs 0 r with
  | none => none
  | some (inside, r) =>
    match optAll ((splitArgs 0 inside []).map parseParam) with
    | none => none
    | some ps =>
      match r with
      | .p [';'] :: r => some (.proto ret name ps, r)
      | .p ['{'] :: r => (parseStm f true r).map fun x => (.func ⟨ret, name, ps, x.1⟩, x.2)
      | _ => none

/-- An enumeration constant without a value. -/
def parseConst : List Tok → Option Str
  | [.word w] => some w
  | _ => none

/-- One declaration. -/
def parseItem (f : Nat) : List Tok → Option (Item × List Tok)
  | .word a :: .word b :: .p ['{'] :: r =>
    if a = "typedef".toList ∧ b = "struct".toList then
      match closeBlock 0 r with
      | some (inside, .word n :: .p [';'] :: r) =>
        (parseMembers inside).bind fun ms => if (ms.map (·.1)).Nodup then some (.struct n ms, r) else none
      | _ => none
    else if a = "typedef".toList ∧ b = "enum".toList then
      match closeBlock 0 r with
      | some (inside, .word n :: .p [';'] :: r) =>
        (optAll ((splitArgs 0 inside []).map parseConst)).map fun cs => (.enum n cs, r)
      | _ => none
    else none
  | .word t :: .word n :: .p [';'] :: r => some (.var false t n, r)
  | .word s :: .word t :: .word n :: .p [';'] :: r =>
    if s = "extern".toList then some (.var true t n, r) else if s = "typedef".toList then some (.alias n t, r) else none
  | .word t :: .word n :: .p ['('] :: r => parseFunc f t n r
  | .word s :: .word t :: .word n :: .p ['('] :: r => if s = "static".toList then parseFunc f t n r else none
  | _ => none

/-- All declarations; the first argument bounds the recursion. -/
def parseUnit : Nat → List Tok → Option (List Item)
  | 0, _ => none
  | _ + 1, [] => some []
  | f + 1, ts =>
    match parseItem f ts with
    | none => none
    | some (i, r) => (parseUnit f r).map (i :: ·)

/-- The names an item defines (a prototype defines nothing). -/
def Item.defines : Item → List Str
  | .struct n _ => [n]
  | .proto _ _ _ => []
  | .func f => [f.name]
  | .alias n _ => [n]
  | .enum n cs => n :: cs
  | .var ext _ n => if ext then [] else [n]

/-- Preprocess and parse a source file.  Nothing may be defined twice. -/
def compile (f : Nat) (files : List (Str × Str)) (user : Defs) (src : Str) : Option (List Item) :=
  let st := ppText f files f { defs := user } src
  if st.fail = true ∨ st.frames ≠ [] then none
  else (parseUnit f st.out).bind fun is => if (is.flatMap Item.defines).Nodup then some is else none

/-- Members of a struct type. -/
def structOf (is : List Item) (n : Str) : Option (List (Str × MTy)) :=
  is.findSome? fun i => match i with
    | .struct k ms => if k = n then some ms else none
    | _ => none

/-- Definition of a function. -/
def funcOf (is : List Item) (n : Str) : Option Func :=
  is.findSome? fun i => match i with
    | .func f => if f.name = n then some f else none
    | _ => none

/-- The function is declared. -/
def isProto (is : List Item) (n : Str) : Bool :=
  is.any fun i => match i with
    | .proto _ k _ => k = n
    | _ => false

/-! ### Values and state -/

variable {φ : Type}

/-- Floating point arithmetic of the target; conversion to an integer type is undefined out of range. -/
structure Flt (φ : Type) where
  lit : Str → φ
  neg : φ → φ
  add : φ → φ → φ
  sub : φ → φ → φ
  mul : φ → φ → φ
  div : φ → φ → φ
  ofInt : Int → φ
  toInt : CTy → φ → Option Int

/-- What a pointer points to. -/
inductive Ptr where
  | msg | data | mon | frame
  /-- a single output byte -/
  | out (n : Str)
  /-- a member of the message struct that is a struct itself -/
  | sub (n : Str)
  deriving DecidableEq, Repr

/-- Values. -/
inductive V (φ : Type) where
  | i (v : CVal)
  | f (x : φ)
  | p (p : Ptr)
  | unit

/-- Types of variables and casts. -/
inductive Ty where
  | int (t : CTy)
  | flt
  | void
  | ptr
  deriving DecidableEq, Repr

/-- Conversion as by assignment or cast. -/
def convTo (F : Flt φ) : Ty → V φ → Option (V φ)
  | .int t, .i v => some (.i (v.cast t))
  | .int t, .f x => (F.toInt t x).map fun z => .i ⟨t, z⟩
  | .flt, .i v => some (.f (F.ofInt v.val))
  | .flt, .f x => some (.f x)
  | .void, _ => some .unit
  | .ptr, .p q => some (.p q)
  | _, _ => none

/-- Storing an integer into a member: conversion, and reduction to the width of a bit-field. -/
def storeInt (t : CTy) (w : Option Nat) (z : Int) : Int :=
  match w with
  | none => t.conv z
  | some n => if t.signed then Int.bmod (t.conv z) (2 ^ n) else t.conv z % (2 ^ n : Nat)

/-- State of a call. -/
structure CSt (φ : Type) where
  /-- integer members of the message struct -/
  fld : Str → Int
  /-- floating members -/
  flt : Str → φ
  /-- members of the monitor -/
  mon : Str → Int
  dat : List Nat
  /-- members of the frame struct and output bytes that have been written -/
  out : Str → Option Int := fun _ => none
  /-- parameters and variables -/
  loc : List (Str × Ty × Option (V φ)) := []
  /-- calls of functions without a definition -/
  calls : List (Str × List (V φ)) := []

/-- What code is run in. -/
structure Env (φ : Type) where
  F : Flt φ
  /-- `bitext_t` and `ubitext_t` are 64-bit types -/
  ext64 : Bool
  /-- members of the message struct -/
  mem : List (Str × MTy)
  /-- enumeration constants -/
  const : Str → Option Int
  /-- functions of the user: of their arguments and the payload -/
  user : Str → Option (List (V φ) → List Nat → Option (V φ))
  /-- functions defined in the translation unit -/
  defd : Str → Option (List (V φ) → Option (V φ))
  /-- declared functions -/
  proto : Str → Bool
  /-- what functions without a definition return -/
  ret : Str → List (V φ) → V φ := fun _ _ => .unit

/-- Members of `FrameMonitor_t`. -/
def monMembers : List (Str × CTy × Option Nat) :=
  [("last_cycle".toList, .u32, none), ("timeout_cycle".toList, .u32, none), ("frame_cnt".toList, .u32, none),
   ("roll_error".toList, .u32, some 1), ("csm_error".toList, .u32, some 1), ("cycle_error".toList, .u32, some 1),
   ("dlc_error".toList, .u32, some 1)]

/-- Types of the members of the frame struct and of the output bytes. -/
def outType (n : Str) : CTy := if n = "MsgId".toList then .u32 else .u8

/-- Type names. -/
def tyOf (ext64 : Bool) (t : Str) : Option Ty :=
  if t = "bitext_t".toList then some (.int (if ext64 then .i64 else .i32))
  else if t = "ubitext_t".toList then some (.int (if ext64 then .u64 else .u32))
  else if t = "sigfloat_t".toList then some .flt
  else if t = "void".toList then some .void
  else (typeNames.lookup t).join.map .int

/-- Places. -/
inductive LV where
  | mem (f : Str)
  | mon
  | monf (f : Str)
  | byte (k : Nat)
  | out (n : Str)
  | loc (n : Str)
  | sub (n : Str)
  deriving DecidableEq, Repr

/-- Reading a place. -/
def readLV (env : Env φ) (st : CSt φ) : LV → Option (V φ)
  | .mem f =>
    match env.mem.lookup f with
    | some (.int t _) => some (.i ⟨t, st.fld f⟩)
    | some .flt => some (.f (st.flt f))
    | _ => none
  | .mon => none
  | .monf f => (monMembers.lookup f).map fun d => .i ⟨d.1, st.mon f⟩
  | .byte k => st.dat[k]?.map fun b => .i ⟨.u8, (b : Nat)⟩
  | .out n => (st.out n).map fun z => .i ⟨outType n, z⟩
  | .loc n =>
    match st.loc.lookup n with
    | some (_, v) => v
    | none => none
  | .sub _ => none

/-- Replacement of a variable's value. -/
def setLoc (n : Str) (v : V φ) : List (Str × Ty × Option (V φ)) → List (Str × Ty × Option (V φ))
  | [] => []
  | x :: r => if x.1 = n then (x.1, x.2.1, some v) :: r else x :: setLoc n v r

/-- Update of a function at one name. -/
def updAt {α : Type} (g : Str → α) (n : Str) (a : α) : Str → α := fun x => if x = n then a else g x

/-- The integer a value converts to. -/
def intOf (F : Flt φ) (t : CTy) (v : V φ) : Option Int :=
  match convTo F (.int t) v with
  | some (.i w) => some w.val
  | _ => none

/-- Writing a place. -/
def writeLV (env : Env φ) (st : CSt φ) (v : V φ) : LV → Option (CSt φ)
  | .mem f =>
    match env.mem.lookup f with
    | some (.int t w) => (intOf env.F t v).map fun z => { st with fld := updAt st.fld f (storeInt t w z) }
    | some .flt =>
      match convTo env.F .flt v with
      | some (.f x) => some { st with flt := updAt st.flt f x }
      | _ => none
    | _ => none
  | .mon => none
  | .monf f =>
    match monMembers.lookup f with
    | some (t, w) => (intOf env.F t v).map fun z => { st with mon := updAt st.mon f (storeInt t w z) }
    | none => none
  | .byte k =>
    if k < st.dat.length then (intOf env.F .u8 v).map fun z => { st with dat := st.dat.set k z.toNat } else none
  | .out n => (intOf env.F (outType n) v).map fun z => { st with out := updAt st.out n (some z) }
  | .loc n =>
    match st.loc.lookup n with
    | some (t, _) => (convTo env.F t v).map fun x => { st with loc := setLoc n x st.loc }
    | none => none
  | .sub _ => none

/-! ### Expressions -/

/-- A comparison, after the usual arithmetic conversions. -/
def cmpInt (r : Int → Int → Bool) (a b : CVal) : CVal :=
  ⟨.i32, if r ((CTy.common a.ty b.ty).conv a.val) ((CTy.common a.ty b.ty).conv b.val) then 1 else 0⟩

/-- Binary operators on integers. -/
def intOp (op : Str) (a b : CVal) : Option CVal :=
  if op = ['&'] then some (a.land b)
  else if op = ['|'] then some (a.lor b)
  else if op = ['^'] then some (a.lxor b)
  else if op = ['>', '>'] then (if 0 ≤ b.val then a.shr b.val.toNat else none)
  else if op = ['<', '<'] then (if 0 ≤ b.val then a.shl b.val.toNat else none)
  else if op = ['+'] then a.add b
  else if op = ['-'] then a.sub b
  else if op = ['*'] then a.mul b
  else if op = ['/'] then a.div b
  else if op = ['<'] then some (cmpInt (fun x y => decide (x < y)) a b)
  else if op = ['<', '='] then some (cmpInt (fun x y => decide (x ≤ y)) a b)
  else if op = ['>', '='] then some (cmpInt (fun x y => decide (x ≥ y)) a b)
  else if op = ['=', '='] then some (cmpInt (fun x y => decide (x = y)) a b)
  else if op = ['!', '='] then some (cmpInt (fun x y => decide (x ≠ y)) a b)
  else if op = ['&', '&'] then some ⟨.i32, if a.val ≠ 0 ∧ b.val ≠ 0 then 1 else 0⟩
  else none

/-- Binary operators on floating values. -/
def fltOp (F : Flt φ) (op : Str) (a b : φ) : Option φ :=
  if op = ['+'] then some (F.add a b)
  else if op = ['-'] then some (F.sub a b)
  else if op = ['*'] then some (F.mul a b)
  else if op = ['/'] then some (F.div a b)
  else none

/-- Binary operators. -/
def binOp (F : Flt φ) (op : Str) : V φ → V φ → Option (V φ)
  | .i a, .i b => (intOp op a b).map .i
  | .f a, .f b => (fltOp F op a b).map .f
  | .i a, .f b => (fltOp F op (F.ofInt a.val) b).map .f
  | .f a, .i b => (fltOp F op a (F.ofInt b.val)).map .f
  | _, _ => none

/-- What an expression denotes: a place, a value, or a list of arguments. -/
inductive R (φ : Type) where
  | place (l : LV)
  | val (v : V φ)
  | args (l : List (V φ))

/-- The value of what an expression denotes. -/
def R.get (env : Env φ) (st : CSt φ) : R φ → Option (V φ)
  | .place l => readLV env st l
  | .val v => some v
  | .args l => l.getLast?

/-- The arguments an expression denotes. -/
def R.list (env : Env φ) (st : CSt φ) : R φ → Option (List (V φ))
  | .args l => some l
  | r => (r.get env st).map fun v => [v]

/-- The truth of a value. -/
def truth : V φ → Option Bool
  | .i v => some (decide (v.val ≠ 0))
  | _ => none

/-- Both values of a conditional expression at their common type. -/
def condVal (c : Bool) : V φ → V φ → Option (V φ)
  | .i a, .i b => some (.i ((if c then a else b).cast (CTy.common a.ty b.ty)))
  | _, _ => none

/-- Evaluation. `none` is undefined behaviour, or not meaningful. -/
def go (env : Env φ) : PExpr → CSt φ → Option (R φ × CSt φ)
  | .num w, st =>
    if w.contains '.' then some (.val (.f (env.F.lit w)), st)
    else (litOf w).map fun v => (.val (.i v), st)
  | .id n, st =>
    match st.loc.lookup n with
    | some _ => some (.place (.loc n), st)
    | none => (env.const n).map fun z => (.val (.i ⟨.i32, z⟩), st)
  | .index a i, st => do
    let (ra, st) ← go env a st
    let va ← ra.get env st
    let (ri, st) ← go env i st
    let vi ← ri.get env st
    match va, vi with
    | .p .data, .i k => if 0 ≤ k.val then some (.place (.byte k.val.toNat), st) else none
    | _, _ => none
  | .arrow a f, st => do
    let (ra, st) ← go env a st
    let va ← ra.get env st
    match va with
    | .p .msg =>
      match env.mem.lookup f with
      | some (.named t) => some (.place (if t = "FrameMonitor_t".toList then .mon else .sub f), st)
      | some _ => some (.place (.mem f), st)
      | none => none
    | .p .frame => if f = "Data".toList then some (.val (.p .data), st) else some (.place (.out f), st)
    | _ => none
  | .dot a f, st => do
    let (ra, st) ← go env a st
    match ra with
    | .place .mon => some (.place (.monf f), st)
    | _ => none
  | .call f a, st => do
    let (ra, st) ← go env a st
    let vs ← ra.list env st
    match f with
    | .id n =>
      match env.defd n with
      | some g => (g vs).map fun v => (.val v, st)
      | none =>
        match env.user n with
        | some g => (g vs st.dat).map fun v => (.val v, st)
        | none => if env.proto n then some (.val (env.ret n vs), { st with calls := st.calls ++ [(n, vs)] }) else none
    | _ => none
  | .call0 f, st =>
    match f with
    | .id n =>
      match env.user n with
      | some g => (g [] st.dat).map fun v => (.val v, st)
      | none => none
    | _ => none
  | .neg a, st => do
    let (ra, st) ← go env a st
    let va ← ra.get env st
    match va with
    | .i v => ((⟨.i32, 0⟩ : CVal).sub v).map fun w => (.val (.i w), st)
    | .f x => some (.val (.f (env.F.neg x)), st)
    | _ => none
  | .cast t a, st => do
    let (ra, st) ← go env a st
    let va ← ra.get env st
    let ty ← tyOf env.ext64 t
    let v ← convTo env.F ty va
    some (.val v, st)
  | .addr a, st => do
    let (ra, st) ← go env a st
    match ra with
    | .place .mon => some (.val (.p .mon), st)
    | .place (.sub f) => some (.val (.p (.sub f)), st)
    | _ => none
  | .deref a, st => do
    let (ra, st) ← go env a st
    let va ← ra.get env st
    match va with
    | .p (.out n) => some (.place (.out n), st)
    | _ => none
  | .incr a, st => do
    let (ra, st) ← go env a st
    match ra with
    | .place l => do
      let v ← readLV env st l
      let w ← binOp env.F ['+'] v (.i ⟨.i32, 1⟩)
      let st ← writeLV env st w l
      some (.val v, st)
    | _ => none
  | .cond c a b, st => do
    let (rc, st) ← go env c st
    let vc ← rc.get env st
    let t ← truth vc
    let (ra, st1) ← go env a st
    let va ← ra.get env st1
    let (rb, st2) ← go env b st
    let vb ← rb.get env st2
    let v ← condVal t va vb
    some (.val v, if t then st1 else st2)
  | .assign op a b, st => do
    let (ra, st) ← go env a st
    let (rb, st) ← go env b st
    let vb ← rb.get env st
    match ra with
    | .place l =>
      if op = ['='] then do
        let st ← writeLV env st vb l
        some (.place l, st)
      else if op = ['|', '='] then do
        let va ← readLV env st l
        let v ← binOp env.F ['|'] va vb
        let st ← writeLV env st v l
        some (.place l, st)
      else none
    | _ => none
  | .bin op a b, st => do
    let (ra, st) ← go env a st
    if op = [','] then do
      let l ← ra.list env st
      let (rb, st) ← go env b st
      let vb ← rb.get env st
      some (.args (l ++ [vb]), st)
    else do
      let va ← ra.get env st
      let (rb, st) ← go env b st
      let vb ← rb.get env st
      let v ← binOp env.F op va vb
      some (.val v, st)

/-- Value of an expression. -/
def evalE (env : Env φ) (e : PExpr) (st : CSt φ) : Option (V φ × CSt φ) :=
  match go env e st with
  | none => none
  | some (r, st) => (r.get env st).map fun v => (v, st)

/-- An expression for its effects. -/
def runE (env : Env φ) (e : PExpr) (st : CSt φ) : Option (CSt φ) := (go env e st).map (·.2)

/-! ### Execution -/

/-- At most `n` rounds of a loop; not finished then is no meaning. -/
def rounds (c : CSt φ → Option (Bool × CSt φ)) (s : CSt φ → Option (CSt φ × Option (V φ))) :
    Nat → CSt φ → Option (CSt φ × Option (V φ))
  | 0, _ => none
  | n + 1, st =>
    match c st with
    | none => none
    | some (false, st) => some (st, none)
    | some (true, st) =>
      match s st with
      | none => none
      | some (st, some v) => some (st, some v)
      | some (st, none) => rounds c s n st

/-- Execution: the state and the returned value, if the function has returned.  The first argument
bounds the rounds of a loop. -/
def exec (f : Nat) (env : Env φ) : CStm → CSt φ → Option (CSt φ × Option (V φ))
  | .skip, st => some (st, none)
  | .seq a b, st =>
    match exec f env a st with
    | none => none
    | some (st, some v) => some (st, some v)
    | some (st, none) => exec f env b st
  | .expr e, st => (runE env e st).map fun st => (st, none)
  | .decl t n none, st => (tyOf env.ext64 t).map fun ty => ({ st with loc := (n, ty, none) :: st.loc }, none)
  | .decl t n (some e), st =>
    match evalE env e st with
    | none => none
    | some (v, st) =>
      (tyOf env.ext64 t).bind fun ty => (convTo env.F ty v).map fun x => ({ st with loc := (n, ty, some x) :: st.loc }, none)
  | .ret e, st => (evalE env e st).map fun x => (x.2, some x.1)
  | .loop a b c s, st =>
    match runE env a st with
    | none => none
    | some st =>
      rounds (fun st => match evalE env b st with
          | none => none
          | some (v, st) => (truth v).map fun t => (t, st))
        (fun st => match exec f env s st with
          | none => none
          | some (st, some v) => some (st, some v)
          | some (st, none) => (runE env c st).map fun st => (st, none)) f st
  | .ifs c a b, st =>
    match evalE env c st with
    | none => none
    | some (v, st) =>
      match truth v with
      | none => none
      | some true => exec f env a st
      | some false => exec f env b st

/-- Parameters with their arguments. -/
def bindParams (env : Env φ) : List Param → List (V φ) → Option (List (Str × Ty × Option (V φ)))
  | [], [] => some []
  | p :: ps, v :: vs =>
    match (if p.ptr then some Ty.ptr else tyOf env.ext64 p.ty) with
    | none => none
    | some ty =>
      match convTo env.F ty v, bindParams env ps vs with
      | some x, some l => some ((p.name, ty, some x) :: l)
      | _, _ => none
  | _, _ => none

/-- A call of a defined function; the value is converted to the return type. -/
def callFunc (f : Nat) (env : Env φ) (g : Func) (vs : List (V φ)) (st : CSt φ) : Option (CSt φ × V φ) :=
  match bindParams env g.params vs with
  | none => none
  | some l =>
    match exec f env g.body { st with loc := l } with
    | some (st, some v) =>
      (tyOf env.ext64 g.ret).bind fun ty => (convTo env.F ty v).map fun x => (st, x)
    | _ => none

/-- What the user of the generated code provides. -/
structure Target (φ : Type) where
  F : Flt φ
  ext64 : Bool
  const : Str → Option Int
  user : Str → Option (List (V φ) → List Nat → Option (V φ))
  /-- what functions defined elsewhere return -/
  ret : Str → List (V φ) → V φ := fun _ _ => .unit

/-- Helper functions of a translation unit: they see only their parameters, and call no other helper. -/
def helper (f : Nat) (T : Target φ) (is : List Item) (n : Str) : Option (List (V φ) → Option (V φ)) :=
  (funcOf is n).map fun g vs =>
    (callFunc f { F := T.F, ext64 := T.ext64, mem := [], const := fun _ => none, user := fun _ => none,
                  defd := fun _ => none, proto := fun _ => false } g vs
      { fld := fun _ => 0, flt := fun _ => T.F.ofInt 0, mon := fun _ => 0, dat := [] }).map (·.2)

/-- The struct type of the parameter that points to the message. -/
def msgType (ps : List Param) (vs : List (V φ)) : Option Str :=
  (ps.zip vs).findSome? fun x => match x.2 with
    | .p .msg => some x.1.ty
    | _ => none

/-- A call of a function of a translation unit. -/
def callUnit (f : Nat) (T : Target φ) (is : List Item) (n : Str) (vs : List (V φ)) (st : CSt φ) :
    Option (CSt φ × V φ) :=
  match funcOf is n with
  | none => none
  | some g =>
    match (msgType g.params vs).bind (structOf is) with
    | none => none
    | some mem =>
      callFunc f { F := T.F, ext64 := T.ext64, mem := mem, const := T.const, user := T.user,
                   defd := helper f T is, proto := isProto is, ret := T.ret } g vs st

end Verif.Spec
