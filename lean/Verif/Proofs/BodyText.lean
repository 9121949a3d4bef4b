import Verif.Proofs.Gen
import Verif.Proofs.Stms
import Verif.Proofs.NumText
/-
The printed statements of the generated functions, read as C.
-/
namespace Verif
open Verif.Spec

/-! ### Statements from lines -/

/-- The printed lines are the statements `l`. -/
def GenS (files : List (Str × Str)) (D : Defs) (ops : List WOp) (l : List CStm) : Prop := ∃ us, Gen files ops D D us ∧ PSeq us l

variable {files : List (Str × Str)} {D : Defs} {a b : List WOp} {k l : List CStm}

theorem GenS.nil : GenS files D [] [] := ⟨[], Gen.nil, PSeq.nil⟩

theorem GenS.append (h1 : GenS files D a k) (h2 : GenS files D b l) : GenS files D (a ++ b) (k ++ l) := by
  obtain ⟨us, g1, p1⟩ := h1
  obtain ⟨vs, g2, p2⟩ := h2
  exact ⟨us ++ vs, g1.append g2, p1.append p2⟩

theorem GenS.cons {x : WOp} (h1 : GenS files D [x] k) (h2 : GenS files D b l) : GenS files D (x :: b) (k ++ l) := h1.append h2

theorem GenS.silent (h : Gen files a D D []) : GenS files D a [] := ⟨[], h, PSeq.nil⟩

theorem GenS.skip (h : GenS files D a k) : GSkip files a := by
  obtain ⟨us, h, -⟩ := h
  exact h.skip

theorem GenS.ifdef {n : Str} {y : WOp} (h : IsWord n) (hn : n.length ≤ 9000) (hy : CloseOp files y) (ha : GenS files D a k) :
    GenS files D ([opIfdef n] ++ a ++ [y]) (if (D.lookup n).isSome then k else []) := by
  obtain ⟨us, g1, p1⟩ := ha
  refine ⟨_, Gen.ifdef h hn hy g1, ?_⟩
  split
  · exact p1
  · exact PSeq.nil

theorem GenS.flatMap {α : Type} (xs : List α) (f : α → List WOp) (F : α → List CStm) (h : ∀ x ∈ xs, GenS files D (f x) (F x)) :
    GenS files D (xs.flatMap f) (xs.flatMap F) := by
  induction xs with
  | nil => exact GenS.nil
  | cons x xs ih => exact (h x (by simp)).append (ih fun y hy => h y (by simp [hy]))

/-- A line that is one statement. -/
theorem GenS.stmt {t : Str} {s : CStm} {us vs : List Tok} (l : List Seg) (hL : t = segText l) (hw : SegsW l) (ht : TextsPlain l) (hlen : t.length ≤ 9999)
    (hx : ExpP D [] (segToks l) us) (hs : PStm vs s) (e : us = vs)
    (hp : litsPlain l = true := by rfl) (hb : segsB l = true := by rfl) (hh : noHash l = true := by rfl) (hn : notBrace vs = true := by rfl) :
    GenS files D [.appendF t] [s] := by
  subst e
  exact ⟨us, Gen.line l hL hw ht hlen hx hp hb hh, PSeq.one hn hs⟩

/-! ### Words that are no macros -/

/-- Words of the fixed parts of the generated functions. -/
def codeWords : List Str :=
  ["_m", "_d", "mon1", "dlc_error", "dlc_", "last_cycle", "frame_cnt", "roll_error", "csm_error", "int8_t", "int16_t", "int32_t", "int64_t",
   "uint8_t", "uint16_t", "uint32_t", "uint64_t", "sigfloat_t", "bitext_t", "ubitext_t", "void", "return", "for", "i", "cframe", "Data", "MsgId", "DLC", "IDE",
   "_len", "_ide", "__ext_sig__", "val", "bits", "m", "const", "static", "typedef", "struct", "FrameMonitor_t", "__CoderDbcCanFrame_t__", "_mon", "msgid"].map
    String.toList

/-- Numbers and fixed words are no macros. -/
structure Base (D : Defs) : Prop where
  num : ∀ w, inNumber w = true → D.lookup w = none
  code : ∀ w ∈ codeWords, D.lookup w = none

/-- The words of a text are numbers or fixed words. -/
def codeText (ts : List Tok) : Bool := (tokWords ts).all fun w => inNumber w || codeWords.contains w

theorem Base.words (hB : Base D) {ts : List Tok} (h : codeText ts = true) : ∀ w ∈ tokWords ts, D.lookup w = none := by
  intro w hw
  have := List.all_eq_true.mp h w hw
  rcases Bool.or_eq_true_iff.mp this with h | h
  · exact hB.num w h
  · exact hB.code w (List.contains_iff_mem.mp h)

theorem Base.lit (hB : Base D) (hide : List Str) (s : String) (h : codeText (lex s.toList) = true := by decide +kernel) :
    ExpP D hide (lex s.toList) (lex s.toList) := ExpP.plain fun w hw => .inr (hB.words h w hw)

theorem ExpP.name {hide : List Str} {w : Str} (h : D.lookup w = none) : ExpP D hide [.word w] [.word w] := ExpP.word (.inr h)

/-- Tokens in parentheses. -/
def par (ts : List Tok) : List Tok := .p ['('] :: (ts ++ [.p [')']])

/-- A macro whose replacement is a number in parentheses. -/
theorem ExpP.numObj (hB : Base D) {n w : Str} (hd : D.lookup n = some (.obj (par [.word w]))) (hw : inNumber w = true) :
    ExpP D [] [.word n] (par [.word w]) :=
  ExpP.obj rfl hd (Exp.plain fun x hx => .inr (by
    have : x = w := by simpa [par, tokWords] using hx
    rw [this]
    exact hB.num w hw))

/-! ### Assignments to members -/

/-- `_m->n` -/
def fldE (n : Str) : PExpr := .arrow (.id "_m".toList) n
/-- `_m->mon1.f` -/
def monE (f : String) : PExpr := .dot (.arrow (.id "_m".toList) "mon1".toList) f.toList
/-- `_m->n = e;` -/
def setFld (n : Str) (e : PExpr) : CStm := .expr (.assign ['='] (fldE n) e)
/-- `_m->mon1.f = e;` -/
def setMon (f : String) (e : PExpr) : CStm := .expr (.assign ['='] (monE f) e)

/-- Tokens of `_m->n`. -/
def fldT (n : Str) : List Tok := [.word "_m".toList, .p ['-', '>'], .word n]
/-- Tokens of `_m->mon1.f`. -/
def monT (f : String) : List Tok := fldT "mon1".toList ++ [.p ['.'], .word f.toList]

theorem pFld (n : Str) : PPst (fldT n) (fldE n) := (PPst.word "_m".toList).arrow n
theorem pMon (f : String) : PPst (monT f) (monE f) := (pFld _).dot f.toList

theorem PStm.setFld {n : Str} {ts : List Tok} {e : PExpr} (h : PA 12 ts e) : PStm (fldT n ++ (.p ['='] :: ts) ++ [.p [';']]) (setFld n e) :=
  PStm.expr rfl ((PA.assign (by decide) ((pFld n).at0.mono (by decide)) h).mono (by decide))

theorem PStm.setMon {f : String} {ts : List Tok} {e : PExpr} (h : PA 12 ts e) : PStm (monT f ++ (.p ['='] :: ts) ++ [.p [';']]) (setMon f e) :=
  PStm.expr rfl ((PA.assign (by decide) ((pMon f).at0.mono (by decide)) h).mono (by decide))

theorem atom_of_num {w : Str} (h : inNumber w = true) : atom w = .num w := if_pos h
theorem atom_of_ident {w : Str} (h : IsIdent w) : atom w = .id w := by
  unfold atom
  rw [(ident_words h).2.2]
  rfl

theorem pNumPar {w : Str} (h : inNumber w = true) : PPst (par [.word w]) (.num w) := by
  have := PPst.parenWord (w := w) (isType_num h)
  rwa [atom_of_num h] at this

theorem pNum {w : Str} (h : inNumber w = true) : PPst [.word w] (.num w) := by
  have := PPst.word w
  rwa [atom_of_num h] at this

theorem pIdent {w : Str} (h : IsIdent w) : PPst [.word w] (.id w) := by
  have := PPst.word w
  rwa [atom_of_ident h] at this

/-! ### Conversion macros -/

/-- Sign and digits of a printed constant. -/
structure Const where
  neg : Bool
  w : Str
  deriving DecidableEq, Repr

def Const.toks (c : Const) : List Tok := if c.neg then [.p ['-'], .word c.w] else [.word c.w]
def Const.e (c : Const) : PExpr := if c.neg then .neg (.num c.w) else .num c.w

/-- A number printed by `prt_double`, or by `%d`. -/
def constOf (dbl : Bool) (d : Dec) : Const :=
  if dbl then ⟨decide (d.num < 0), decAbs d⟩ else ⟨decide (d.trunc < 0), decStr d.trunc.natAbs⟩

/-- The forms of the conversion macros. -/
inductive ConvKind where
  | full | factor | offset
  deriving DecidableEq, Repr

def convKind (s : Sig) : ConvKind :=
  if s.isDouble then .full else if s.offset.eqInt 0 then .factor else if s.factor.eqInt 1 then .offset else .full

/-- `( (((x) * (f)) + (o)) )` and its short forms. -/
def fromToks (s : Sig) (x : List Tok) : List Tok :=
  let f := par (constOf s.isDouble s.factor).toks
  let o := par (constOf s.isDouble s.offset).toks
  match convKind s with
  | .full => par (par (par (par x ++ .p ['*'] :: f) ++ .p ['+'] :: o))
  | .factor => par (par (par x ++ .p ['*'] :: f))
  | .offset => par (par (par x ++ .p ['+'] :: o))

def fromE (s : Sig) (x : PExpr) : PExpr :=
  let f := (constOf s.isDouble s.factor).e
  let o := (constOf s.isDouble s.offset).e
  match convKind s with
  | .full => .bin ['+'] (.bin ['*'] x f) o
  | .factor => .bin ['*'] x f
  | .offset => .bin ['+'] x o

/-- `( (T) (((x) - (o)) / (f)) )` and its short forms. -/
def toToks (s : Sig) (x : List Tok) : List Tok :=
  let f := par (constOf s.isDouble s.factor).toks
  let o := par (constOf s.isDouble s.offset).toks
  match convKind s with
  | .full => par (.p ['('] :: .word (ctyText s.typeRo) :: .p [')'] :: par (par (par x ++ .p ['-'] :: o) ++ .p ['/'] :: f))
  | .factor => par (.p ['('] :: .word (ctyText s.typeRo) :: .p [')'] :: par (par x ++ .p ['/'] :: f))
  | .offset => par (.p ['('] :: .word (ctyText s.typeRo) :: .p [')'] :: par (par x ++ .p ['-'] :: o))

def toE (s : Sig) (x : PExpr) : PExpr :=
  let f := (constOf s.isDouble s.factor).e
  let o := (constOf s.isDouble s.offset).e
  .cast (ctyText s.typeRo) (match convKind s with
  | .full => .bin ['/'] (.bin ['-'] x o) f
  | .factor => .bin ['/'] x f
  | .offset => .bin ['-'] x o)

theorem constOf_num (dbl : Bool) (d : Dec) : inNumber (constOf dbl d).w = true := by
  unfold constOf
  split
  · exact (prtDec_parts d).2.1
  · exact (numW_decStr _).1

theorem Const.pPar {c : Const} (h : inNumber c.w = true) : PPst (par c.toks) c.e := by
  unfold Const.toks Const.e
  split
  · exact PPst.paren (ts := [.p ['-'], .word c.w]) rfl ((PA.neg (pNum h).at0).mono (by decide))
  · exact pNumPar h

theorem fldT_notSingle (n : Str) : notSingle (fldT n) = true := rfl

theorem pPar {ts : List Tok} {e : PExpr} {k : Nat} (hs : notSingle ts = true) (h : PA k ts e) (hk : k ≤ topLevel := by decide) : PPst (par ts) e :=
  PPst.paren hs (h.mono hk)

theorem pFrom (s : Sig) {x : List Tok} {e : PExpr} (hx : notSingle x = true) (h : PA topLevel x e) : PPst (fromToks s x) (fromE s e) := by
  have hf := ((constOf s.isDouble s.factor).pPar (constOf_num _ _)).at0
  have ho := ((constOf s.isDouble s.offset).pPar (constOf_num _ _)).at0
  have hp := (PPst.paren hx h).at0
  unfold fromToks fromE
  cases convKind s with
  | full =>
    have h1 := PA.bin (k := 0) (op := ['*']) (by decide) (by decide) hp hf
    have h2 := (pPar rfl h1).at0
    have h3 := PA.bin (k := 1) (op := ['+']) (by decide) (by decide) (h2.mono (by decide)) (ho.mono (by decide))
    exact pPar rfl (pPar rfl h3).at0
  | factor =>
    have h1 := PA.bin (k := 0) (op := ['*']) (by decide) (by decide) hp hf
    exact pPar rfl (pPar rfl h1).at0
  | offset =>
    have h3 := PA.bin (k := 1) (op := ['+']) (by decide) (by decide) (hp.mono (by decide)) (ho.mono (by decide))
    exact pPar rfl (pPar rfl h3).at0

theorem pTo (s : Sig) {x : List Tok} {e : PExpr} (hx : notSingle x = true) (h : PA topLevel x e) : PPst (toToks s x) (toE s e) := by
  have hf := ((constOf s.isDouble s.factor).pPar (constOf_num _ _)).at0
  have ho := ((constOf s.isDouble s.offset).pPar (constOf_num _ _)).at0
  have hp := (PPst.paren hx h).at0
  have ht := (ctyText_words s.typeRo).2.2.1
  unfold toToks toE
  cases convKind s with
  | full =>
    have h1 := PA.bin (k := 1) (op := ['-']) (by decide) (by decide) (hp.mono (by decide)) (ho.mono (by decide))
    have h2 := (pPar rfl h1).at0
    have h3 := PA.bin (k := 0) (op := ['/']) (by decide) (by decide) h2 hf
    exact pPar rfl (PA.cast ht (pPar rfl h3).at0)
  | factor =>
    have h3 := PA.bin (k := 0) (op := ['/']) (by decide) (by decide) hp hf
    exact pPar rfl (PA.cast ht (pPar rfl h3).at0)
  | offset =>
    have h3 := PA.bin (k := 1) (op := ['-']) (by decide) (by decide) (hp.mono (by decide)) (ho.mono (by decide))
    exact pPar rfl (PA.cast ht (pPar rfl h3).at0)

theorem substArgs_append (ps : List (Str × List Tok)) (a b : List Tok) : substArgs ps (a ++ b) = substArgs ps a ++ substArgs ps b := by
  simp [substArgs]

theorem substArgs_p (ps : List (Str × List Tok)) (s : Str) (r : List Tok) : substArgs ps (.p s :: r) = .p s :: substArgs ps r := rfl

theorem substArgs_word (ps : List (Str × List Tok)) (w : Str) (r : List Tok) :
    substArgs ps (.word w :: r) = (ps.lookup w).getD [.word w] ++ substArgs ps r := rfl

theorem substArgs_par (ps : List (Str × List Tok)) (ts : List Tok) : substArgs ps (par ts) = par (substArgs ps ts) := by
  unfold par
  rw [substArgs_p, substArgs_append]
  rfl

/-- The argument for the parameter `x`. -/
def argX (x : List Tok) : List (Str × List Tok) := [("x".toList, x)]

theorem argX_other {x : List Tok} {w : Str} (h : w ≠ "x".toList) : (argX x).lookup w = none := by
  unfold argX
  rw [List.lookup_cons]
  have : (w == "x".toList) = false := by simpa using h
  rw [this]
  rfl

theorem substArgs_const {c : Const} (h : inNumber c.w = true) (x : List Tok) : substArgs (argX x) c.toks = c.toks := by
  have hw : c.w ≠ "x".toList := by
    intro e
    rw [e] at h
    revert h
    decide
  unfold Const.toks
  split
  · rw [substArgs_p, substArgs_word, argX_other hw]
    rfl
  · rw [substArgs_word, argX_other hw]
    rfl

theorem substArgs_x (x : List Tok) : substArgs (argX x) [.word "x".toList] = x := by
  rw [substArgs_word]
  show x ++ [] = x
  simp

theorem substArgs_ty (t : CTy) (x r : List Tok) : substArgs (argX x) (.word (ctyText t) :: r) = .word (ctyText t) :: substArgs (argX x) r := by
  rw [substArgs_word, argX_other (by cases t <;> decide)]
  rfl

theorem substArgs_from (s : Sig) (x : List Tok) : substArgs (argX x) (fromToks s [.word "x".toList]) = fromToks s x := by
  have hf := substArgs_const (constOf_num s.isDouble s.factor) x
  have ho := substArgs_const (constOf_num s.isDouble s.offset) x
  unfold fromToks
  cases convKind s <;> simp only [substArgs_par, substArgs_append, substArgs_p, substArgs_x, hf, ho]

theorem substArgs_to (s : Sig) (x : List Tok) : substArgs (argX x) (toToks s [.word "x".toList]) = toToks s x := by
  have hf := substArgs_const (constOf_num s.isDouble s.factor) x
  have ho := substArgs_const (constOf_num s.isDouble s.offset) x
  unfold toToks
  cases convKind s <;> simp only [substArgs_par, substArgs_append, substArgs_p, substArgs_ty, substArgs_x, hf, ho]

theorem tokWords_p (s : Str) (r : List Tok) : tokWords (.p s :: r) = tokWords r := rfl
theorem tokWords_w (w : Str) (r : List Tok) : tokWords (.word w :: r) = w :: tokWords r := rfl
theorem tokWords_par (ts : List Tok) : tokWords (par ts) = tokWords ts := by
  unfold par
  rw [tokWords_p, tokWords_append]
  show tokWords ts ++ [] = _
  simp

theorem Const.words (c : Const) : tokWords c.toks = [c.w] := by
  unfold Const.toks
  split <;> rfl

theorem codeWords_cty (t : CTy) : ctyText t ∈ codeWords := by
  cases t <;> decide +kernel

theorem fromToks_words (hB : Base D) (s : Sig) {x : List Tok} (hx : ∀ w ∈ tokWords x, D.lookup w = none) :
    ∀ w ∈ tokWords (fromToks s x), D.lookup w = none := by
  have hf := hB.num _ (constOf_num s.isDouble s.factor)
  have ho := hB.num _ (constOf_num s.isDouble s.offset)
  intro w hw
  unfold fromToks at hw
  cases hk : convKind s <;> rw [hk] at hw <;>
    simp only [tokWords_par, tokWords_append, tokWords_p, Const.words, List.mem_append, List.mem_singleton] at hw
  · rcases hw with (hw | rfl) | rfl
    · exact hx w hw
    · exact hf
    · exact ho
  · rcases hw with hw | rfl
    · exact hx w hw
    · exact hf
  · rcases hw with hw | rfl
    · exact hx w hw
    · exact ho

theorem toToks_words (hB : Base D) (s : Sig) {x : List Tok} (hx : ∀ w ∈ tokWords x, D.lookup w = none) :
    ∀ w ∈ tokWords (toToks s x), D.lookup w = none := by
  have hf := hB.num _ (constOf_num s.isDouble s.factor)
  have ho := hB.num _ (constOf_num s.isDouble s.offset)
  have ht := hB.code _ (codeWords_cty s.typeRo)
  intro w hw
  unfold toToks at hw
  cases hk : convKind s <;> rw [hk] at hw <;>
    simp only [tokWords_par, tokWords_append, tokWords_p, tokWords_w, Const.words, List.mem_append, List.mem_cons] at hw
  · rcases hw with rfl | (hw | rfl | h) | rfl | h
    · exact ht
    · exact hx w hw
    · exact ho
    · cases h
    · exact hf
    · cases h
  · rcases hw with rfl | hw | rfl | h
    · exact ht
    · exact hx w hw
    · exact hf
    · cases h
  · rcases hw with rfl | hw | rfl | h
    · exact ht
    · exact hx w hw
    · exact ho
    · cases h

end Verif
