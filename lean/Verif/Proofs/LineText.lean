import Verif.Proofs.Shape
import Verif.Proofs.Preproc
/-
Each printed line of the generated functions is the statement it is meant to be.
-/
namespace Verif
open Verif.Spec

/-! ### What the macros stand for -/

/-- A function of the user behind a macro, or the default `(0u)`. -/
inductive Hook where
  | zero
  | call (f : Str)
  deriving DecidableEq, Repr

/-- What the statements depend on: macros after replacement. -/
structure Look where
  /-- Pack with a frame struct -/
  frame : Bool
  tick : Hook
  hash : Hook
  /-- name of the monitor function of a message -/
  fmon : Str → Str
  /-- signal a conversion macro is printed from -/
  mac : Str → Option Sig
  /-- number of the largest payload -/
  maxW : Str
  /-- number of the initial byte -/
  initW : Str

/-- `_d` or `cframe->Data` -/
def arrE (frame : Bool) : PExpr := if frame then .arrow (.id "cframe".toList) "Data".toList else .id "_d".toList
/-- Tokens of `_d` or `cframe->Data`. -/
def arrT (frame : Bool) : List Tok := if frame then [.word "cframe".toList, .p ['-', '>'], .word "Data".toList] else [.word "_d".toList]

def numU (n : Nat) : PExpr := .num (decStr n ++ "U".toList)
def idU (n : Nat) : PExpr := .num (fmtAltX n ++ "U".toList)
def u8E (e : PExpr) : PExpr := .cast "uint8_t".toList e
def commaE (a b : PExpr) : PExpr := .bin [','] a b
def maskW (n : Nat) : Str := "0x".toList ++ fmt02X n ++ "U".toList

def tickE : Hook → PExpr
  | .zero => .num "0u".toList
  | .call f => .call0 (.id f)

def hashE (h : Hook) (arr : PExpr) (dlc id : Nat) (method : Str) (op : Nat) : PExpr :=
  match h with
  | .zero => .num "0u".toList
  | .call f => .call (.id f) (commaE (commaE (commaE (commaE arr (numU dlc)) (idU id)) (.id method)) (.num (decStr op)))

/-- `(((n) <= (max)) ? (n) : (max))` -/
def validE (n max : PExpr) : PExpr := .cond (.bin ['<', '='] n max) n max

/-- `a = e;` -/
def setE (a e : PExpr) : CStm := .expr (.assign ['='] a e)

/-- Where the length is written. -/
def lenE (frame : Bool) : PExpr := if frame then .arrow (.id "cframe".toList) "DLC".toList else .deref (.id "_len".toList)
/-- Where the frame type is written. -/
def ideE (frame : Bool) : PExpr := if frame then .arrow (.id "cframe".toList) "IDE".toList else .deref (.id "_ide".toList)

/-- The statement as a tree, macros replaced. -/
def stmsOf (K : Look) : CStmt → List CStm
  | .setSig dst ty (.expr e) => [setFld dst (.cast (ctyText ty) (toP e))]
  | .setSig _ _ .err => []
  | .setSigExt dst ty (.expr e) bits =>
    [setFld dst (.cast (ctyText ty) (.call (.id "__ext_sig__".toList) (commaE (toP e) (.num (decStr bits)))))]
  | .setSigExt _ _ .err _ => []
  | .fromSFloat dst mac => match K.mac mac with
    | some s => [setFld dst (.cast "sigfloat_t".toList (fromE s (fldE mac)))]
    | none => []
  | .fromSInt dst ty mac => match K.mac mac with
    | some s => [setFld dst (.cast (ctyText ty) (fromE s (fldE mac)))]
    | none => []
  | .toS dst ty src => match K.mac dst with
    | some s => [setFld dst (.cast (ctyText ty) (toE s (fldE src)))]
    | none => []
  | .monDlc dlc => [setMon "dlc_error" (.bin ['<'] (.id "dlc_".toList) (numU dlc))]
  | .monTick => [setMon "last_cycle" (tickE K.tick)]
  | .monCnt => [.expr (.incr (monE "frame_cnt"))]
  | .monRoll n => [setMon "roll_error" (.bin ['!', '='] (fldE n) (fldE (exptName n)))]
  | .incr dst src mask => [setFld dst (.bin ['&'] (.bin ['+'] (fldE src) (.num "1".toList)) (.num (maskW mask)))]
  | .monCsm dlc id method op n =>
    [setMon "csm_error" (.bin ['!', '='] (u8E (hashE K.hash (.id "_d".toList) dlc id method op)) (fldE n))]
  | .fmon name id => [.expr (.call (.id (K.fmon name)) (commaE (.addr (fldE "mon1".toList)) (idU id)))]
  | .initLoop dlc =>
    [.decl "uint8_t".toList "i".toList none,
     .loop (.assign ['='] (.id "i".toList) (.num "0u".toList)) (.bin ['<'] (.id "i".toList) (validE (numU dlc) (.num K.maxW)))
       (.assign ['='] (.index (arrE K.frame) (.incr (.id "i".toList))) (.num K.initW)) .skip]
  | .clear n ty => [setFld n (.cast (ctyText ty) (.num "0".toList))]
  | .orByte i (.expr e) => [.expr (.assign ['|', '='] (.index (arrE K.frame) (.num (decStr i))) (u8E (toP e)))]
  | .orByte _ _ => []
  | .setCsm n dlc id method op => [setFld n (u8E (hashE K.hash (arrE K.frame) dlc id method op))]
  | .outId id => [setE (.arrow (.id "cframe".toList) "MsgId".toList) (.cast "uint32_t".toList (idU id))]
  | .outDlc dlc => [setE (lenE K.frame) (u8E (numU dlc))]
  | .outIde ide => [setE (ideE K.frame) (u8E (numU ide))]
  | .ret id => [.ret (idU id)]

/-- A macro that is a number, in parentheses or not. -/
def NumDef (d : MDef) (w : Str) : Prop := inNumber w = true ∧ (d = .obj [.word w] ∨ d = .obj (par [.word w]))

/-- `GetSystemTick()` -/
def tickBody : Hook → List Tok
  | .zero => par [.word "0u".toList]
  | .call f => [.word f, .p ['('], .p [')']]

/-- The five parameters of `GetFrameHash`. -/
def hashParams : List Str := ["a".toList, "b".toList, "c".toList, "d".toList, "e".toList]

/-- `GetFrameHash(a,b,c,d,e)` with five arguments. -/
def hashToks : Hook → List (List Tok) → List Tok
  | .zero, _ => par [.word "0u".toList]
  | .call f, as => .word f :: par (joinArgs as)

/-- The function behind a macro is itself no macro, and a name. -/
def HookOk (D : Defs) : Hook → Prop
  | .zero => True
  | .call f => IsIdent f ∧ D.lookup f = none ∧ f ∉ hashParams

def flagName (g : GenDesc) : Flag → Str
  | .useBits => g.usebits
  | .useCanStruct => g.usestruct
  | .useSigFloat => g.usesigfloat
  | .useMon => g.usemon
  | .autoRoll => g.useroll
  | .autoCsm => g.usecsm

/-- A name of at most `k` characters that is no macro. -/
structure Nm (D : Defs) (k : Nat) (n : Str) : Prop where
  id : IsIdent n
  len : n.length ≤ k
  mac : D.lookup n = none

/-- The macros and names the functions of message `m` are read with. -/
structure Src (g : GenDesc) (m : Msg) (cfg : Cfg) (K : Look) (D : Defs) : Prop where
  base : Base D
  flag : ∀ f, (D.lookup (flagName g f)).isSome = cfg.flag f
  flagW : ∀ f, IsWord (flagName g f) ∧ (flagName g f).length ≤ 1100
  drvUp : IsIdent g.drvUp ∧ g.drvUp.length ≤ 500
  drvLow : IsIdent g.drvLow ∧ g.drvLow.length ≤ 500
  name : IsIdent m.name ∧ m.name.length ≤ 500
  dlc : D.lookup (m.name ++ "_DLC".toList) = some (.obj (par [.word (decStr m.dlc ++ "U".toList)]))
  canid : D.lookup (m.name ++ "_CANID".toList) = some (.obj (par [.word (fmtAltX m.msgId ++ "U".toList)]))
  ide : D.lookup (m.name ++ "_IDE".toList) = some (.obj (par [.word (decStr m.ide ++ "U".toList)]))
  sig : ∀ s ∈ m.signals, Nm D 500 s.name ∧ (s.isSimple = false → Nm D 600 s.nameFloat) ∧ D.lookup (exptName s.name) = none
  conv : ∀ s ∈ m.signals, s.isSimple = false → ∃ o, K.mac s.name = some o ∧
    D.lookup (g.drvUp ++ "_".toList ++ s.name ++ "_fromS".toList) = some (.fn ["x".toList] (fromToks o [.word "x".toList])) ∧
    D.lookup (g.drvUp ++ "_".toList ++ s.name ++ "_toS".toList) = some (.fn ["x".toList] (toToks o [.word "x".toList]))
  tick : D.lookup "GetSystemTick".toList = some (.fn [] (tickBody K.tick)) ∧ HookOk D K.tick
  hash : D.lookup "GetFrameHash".toList = some (.fn hashParams (hashToks K.hash (hashParams.map fun p => [.word p]))) ∧ HookOk D K.hash
  csm : ∀ c, m.sigAt m.csmSig = some c → Nm D 500 m.csmMethod ∧ m.csmOp < 2 ^ 31
  fmon : cfg.flag .useMon = true → D.lookup ("FMon_".toList ++ m.name ++ "_".toList ++ g.drvLow) =
    some (.fn ["x".toList, "y".toList] (.word (K.fmon m.name) :: par (par [.word "x".toList] ++ .p [','] :: par [.word "y".toList]))) ∧
    IsIdent (K.fmon m.name) ∧ K.fmon m.name ≠ "x".toList ∧ K.fmon m.name ≠ "y".toList ∧ D.lookup (K.fmon m.name) = none ∧
    exprHead [.word (K.fmon m.name)] = true
  valid : D.lookup (validateName g) = some (.fn ["msgDlc".toList]
    (par (par (par [.word "msgDlc".toList] ++ .p ['<', '='] :: par [.word (maxDlcName g)]) ++ .p ['?'] :: (par [.word "msgDlc".toList] ++
      .p [':'] :: par [.word (maxDlcName g)]))))
  max : ∃ d, D.lookup (maxDlcName g) = some d ∧ NumDef d K.maxW
  init : ∃ d, D.lookup (initByteName g) = some d ∧ NumDef d K.initW

/-! ### Names -/

theorem sigAt_mem {m : Msg} {i : Option Nat} {s : Sig} (h : m.sigAt i = some s) : s ∈ m.signals := by
  unfold Msg.sigAt at h
  cases i with
  | none => cases h
  | some k => exact List.mem_of_getElem? h

theorem identAppend {a b : Str} (h : IsIdent a) (hb : ∀ c ∈ b, isWordCh c = true) : IsWord (a ++ b) := by
  have := ident_words h
  refine ⟨by simp [this.1], fun c hc => ?_⟩
  rcases List.mem_append.mp hc with hc | hc
  · exact this.2.1 c hc
  · exact hb c hc

/-- `_d` or `cframe->Data` -/
def arrText (frame : Bool) : Str := if frame then "cframe->Data".toList else "_d".toList

/-- Lines from pieces with names of at most 1100 characters. -/
theorem GenS.stmtS {files : List (Str × Str)} {D : Defs} {t : Str} {s : CStm} {us vs : List Tok} (l : List Seg) (hL : t = segText l) (hw : SegsW l)
    (ht : TextsPlain l) (hS : SegsShort 1100 l) (hlen : segLen 1100 l ≤ 9999)
    (hx : ExpP D [] (segToks l) us) (hs : PStm vs s) (e : us = vs)
    (hp : litsPlain l = true := by rfl) (hb : segsB l = true := by rfl) (hh : noHash l = true := by rfl) (hn : notBrace vs = true := by rfl) :
    GenS files D [.appendF t] [s] :=
  GenS.stmt l hL hw ht (by rw [hL]; exact Nat.le_trans (length_segs hS) hlen) hx hs e hp hb hh hn

/-- The same with the tokens of the line given separately. -/
theorem GenS.stmtT {files : List (Str × Str)} {D : Defs} {t : Str} {s : CStm} {ts us vs : List Tok} (l : List Seg) (hL : t = segText l) (hw : SegsW l)
    (ht : TextsPlain l) (hS : SegsShort 1100 l) (hlen : segLen 1100 l ≤ 9999)
    (hx : ExpP D [] ts us) (hs : PStm vs s) (et : segToks l = ts) (e : us = vs)
    (hp : litsPlain l = true := by rfl) (hb : segsB l = true := by rfl) (hh : noHash l = true := by rfl) (hn : notBrace vs = true := by rfl) :
    GenS files D [.appendF t] [s] :=
  GenS.stmtS l hL hw ht hS hlen (et ▸ hx) hs e hp hb hh hn

macro "seg_eqc" : tactic => `(tactic| (simp only [segText, Seg.text, String.reduceToList, List.append_assoc, List.cons_append, List.nil_append,
  List.append_nil]))
macro "seg_eq" : tactic => `(tactic| (simp only [segText, Seg.text, List.append_assoc, List.append_nil] <;> rfl))
macro "tok_eq" : tactic => `(tactic| (simp only [segToks, Seg.toks, par, fldT, monT, fldT, List.append_assoc, List.cons_append, List.nil_append, List.append_nil] <;> rfl))
macro "seg_len" : tactic => `(tactic| (simp only [segLen, String.reduceToList, List.length_cons, List.length_nil]; omega))

section Lines
variable {files : List (Str × Str)} {g : GenDesc} {m : Msg} {cfg : Cfg} {K : Look} {D : Defs}

theorem Src.expDlc (h : Src g m cfg K D) : ExpP D [] [.word (m.name ++ "_DLC".toList)] (par [.word (decStr m.dlc ++ "U".toList)]) :=
  ExpP.numObj h.base h.dlc (numW_decStrU _).1
theorem Src.expId (h : Src g m cfg K D) : ExpP D [] [.word (m.name ++ "_CANID".toList)] (par [.word (fmtAltX m.msgId ++ "U".toList)]) :=
  ExpP.numObj h.base h.canid (numW_altX _).1
theorem Src.expIde (h : Src g m cfg K D) : ExpP D [] [.word (m.name ++ "_IDE".toList)] (par [.word (decStr m.ide ++ "U".toList)]) :=
  ExpP.numObj h.base h.ide (numW_decStrU _).1

theorem Src.dlcW (h : Src g m cfg K D) : IsWord (m.name ++ "_DLC".toList) ∧ (m.name ++ "_DLC".toList).length ≤ 1100 :=
  ⟨identAppend h.name.1 (by decide), by have := h.name.2; simp only [List.length_append, String.reduceToList, List.length_cons, List.length_nil]; omega⟩
theorem Src.idW (h : Src g m cfg K D) : IsWord (m.name ++ "_CANID".toList) ∧ (m.name ++ "_CANID".toList).length ≤ 1100 :=
  ⟨identAppend h.name.1 (by decide), by have := h.name.2; simp only [List.length_append, String.reduceToList, List.length_cons, List.length_nil]; omega⟩
theorem Src.ideW (h : Src g m cfg K D) : IsWord (m.name ++ "_IDE".toList) ∧ (m.name ++ "_IDE".toList).length ≤ 1100 :=
  ⟨identAppend h.name.1 (by decide), by have := h.name.2; simp only [List.length_append, String.reduceToList, List.length_cons, List.length_nil]; omega⟩

theorem pNumU (n : Nat) : PPst (par [.word (decStr n ++ "U".toList)]) (numU n) := pNumPar (numW_decStrU n).1
theorem pIdU (n : Nat) : PPst (par [.word (fmtAltX n ++ "U".toList)]) (idU n) := pNumPar (numW_altX n).1

set_option maxRecDepth 4000

theorem PPst.pa {ts : List Tok} {e : PExpr} (h : PPst ts e) (k : Nat := by exact 12) : PA k ts e := h.at0.mono (Nat.zero_le k)

theorem line_monDlc (h : Src g m cfg K D) :
    GenS files D [.appendF ("  _m->mon1.dlc_error = (dlc_ < ".toList ++ m.name ++ "_DLC);".toList)] (stmsOf K (.monDlc m.dlc)) := by
  have hb := PA.bin (k := 3) (op := ['<']) rfl rfl ((PPst.word "dlc_".toList).pa 3) ((pNumU m.dlc).pa 3)
  have hs := PStm.setMon (f := "dlc_error") ((pPar rfl hb).pa 12)
  exact GenS.stmtS [.l "  _m->mon1.dlc_error = (dlc_ < ", .w (m.name ++ "_DLC".toList), .l ");"] (by seg_eq) ⟨h.dlcW.1, trivial⟩ trivial
    ⟨h.dlcW.2, trivial⟩ (by seg_len)
    ((h.base.lit [] _).append (h.expDlc.append ((h.base.lit [] _).append ExpP.nil))) hs rfl

theorem lexChain {e : CExpr} (h : Chain e) : ∀ x, SepHead x → lex (render e ++ x) = toks e ++ lex x := fun x hx => lex_chain e h x hx

theorem pChainPar {e : CExpr} (h : Chain e) : PPst (par (toks e)) (toP e) := by
  have := toks_notSingle h []
  rw [List.append_nil] at this
  exact PPst.paren this (PA.chain h)

theorem line_sig (hB : Base D) {n : Str} (hn : Nm D 600 n) (ty : CTy) {e : CExpr} (hc : Chain e)
    (hsh : Shape true (fun n => D.lookup n = none) e) (hl : (render e).length ≤ 6000) :
    GenS files D [.appendF ("  _m->".toList ++ n ++ " = (".toList ++ ctyText ty ++ ") ( ".toList ++ render e ++ " );".toList)]
      (stmsOf K (.setSig n ty (.expr e))) := by
  have hs := PStm.setFld (n := n) ((PA.cast (ctyText_words ty).2.2.1 (pChainPar hc).at0).mono (Nat.zero_le 12))
  have hn' := hn.len
  have ht : (ctyText ty).length ≤ 1100 := by cases ty <;> decide
  exact GenS.stmtS [.l "  _m->", .w n, .l " = (", .w (ctyText ty), .l ") ( ", .e (render e) (toks e), .l " );"] (by seg_eq)
    ⟨words_of_ident hn.id, cty_word ty, lexChain hc, trivial⟩ ⟨plain_chain hc, trivial⟩ ⟨by omega, ht, trivial⟩ (by seg_len)
    ((hB.lit [] _).append ((ExpP.name hn.mac).append ((hB.lit [] _).append ((ExpP.name (hB.code _ (codeWords_cty ty))).append ((hB.lit [] _).append
      ((expToks hB hsh).append ((hB.lit [] _).append ExpP.nil))))))) hs (by tok_eq)

theorem line_sigExt (hB : Base D) {n : Str} (hn : Nm D 600 n) (ty : CTy) {e : CExpr} (hc : Chain e) (bits : Nat)
    (hsh : Shape true (fun n => D.lookup n = none) e) (hl : (render e).length ≤ 6000) (hbt : (decStr bits).length ≤ 1100) :
    GenS files D [.appendF ("  _m->".toList ++ n ++ " = (".toList ++ ctyText ty ++ ") __ext_sig__(( ".toList ++ render e ++ " ), ".toList ++
        decStr bits ++ ");".toList)] (stmsOf K (.setSigExt n ty (.expr e) bits)) := by
  have ha := PA.bin (k := 12) (op := [',']) rfl rfl ((pChainPar hc).pa 12) ((pNum (numW_decStr bits).1).pa 12)
  have hcall := PPst.call (PPst.word "__ext_sig__".toList) rfl ha
  have hs := PStm.setFld (n := n) ((PA.cast (ctyText_words ty).2.2.1 hcall.at0).mono (Nat.zero_le 12))
  have hn' := hn.len
  have ht : (ctyText ty).length ≤ 1100 := by cases ty <;> decide
  exact GenS.stmtS [.l "  _m->", .w n, .l " = (", .w (ctyText ty), .l ") __ext_sig__(( ", .e (render e) (toks e), .l " ), ", .w (decStr bits), .l ");"]
    (by seg_eq)
    ⟨words_of_ident hn.id, cty_word ty, lexChain hc, (numW_decStr bits).word, trivial⟩ ⟨plain_chain hc, trivial⟩
    ⟨by omega, ht, hbt, trivial⟩ (by seg_len)
    ((hB.lit [] _).append ((ExpP.name hn.mac).append ((hB.lit [] _).append ((ExpP.name (hB.code _ (codeWords_cty ty))).append ((hB.lit [] _).append
      ((expToks hB hsh).append ((hB.lit [] _).append ((ExpP.name (hB.num _ (numW_decStr bits).1)).append ((hB.lit [] _).append ExpP.nil))))))))) hs
    (by tok_eq)

theorem balanced_fld (n : Str) : Balanced (fldT n) :=
  (Balanced.tok (by decide) (by decide)).append ((Balanced.tok (by decide) (by decide) : Balanced [.p ['-', '>']]).append
    (Balanced.tok (by intro e; cases e) (by intro e; cases e)))

theorem argTok_fld (n : Str) : ArgTok (fldT n) :=
  (ArgTok.tok (by decide) (by decide) (by decide)).append ((ArgTok.tok (by decide) (by decide) (by decide) : ArgTok [.p ['-', '>']]).append
    (ArgTok.tok (by intro e; cases e) (by intro e; cases e) (by intro e; cases e)))

theorem fldT_words (hB : Base D) {n : Str} (hn : D.lookup n = none) : ∀ w ∈ tokWords (fldT n), D.lookup w = none := by
  intro w hw
  simp only [fldT, tokWords_w, tokWords_p, List.mem_cons] at hw
  rcases hw with rfl | rfl | hw
  · exact hB.code _ (by decide)
  · exact hn
  · cases hw

theorem expFld (hB : Base D) {n : Str} (hn : D.lookup n = none) : Exp D [] (fldT n) (fldT n) := Exp.plain fun w hw => .inr (fldT_words hB hn w hw)

theorem expFrom (hB : Base D) {w n : Str} {s : Sig} (hd : D.lookup w = some (.fn ["x".toList] (fromToks s [.word "x".toList]))) (hn : D.lookup n = none) :
    ExpP D [] (.word w :: .p ['('] :: (fldT n ++ [.p [')']])) (fromToks s (fldT n)) := by
  refine ExpP.fnCall (as := [fldT n]) (as' := [fldT n]) rfl hd (by simp) rfl (by simpa using balanced_fld n) (by simpa using argTok_fld n)
    ⟨expFld hB hn, trivial⟩ ?_
  show Exp D [w] (substArgs (argX (fldT n)) _) _
  rw [substArgs_from]
  exact Exp.plain fun x hx => .inr (fromToks_words hB s (fldT_words hB hn) x hx)

theorem expTo (hB : Base D) {w n : Str} {s : Sig} (hd : D.lookup w = some (.fn ["x".toList] (toToks s [.word "x".toList]))) (hn : D.lookup n = none) :
    ExpP D [] (.word w :: .p ['('] :: (fldT n ++ [.p [')']])) (toToks s (fldT n)) := by
  refine ExpP.fnCall (as := [fldT n]) (as' := [fldT n]) rfl hd (by simp) rfl (by simpa using balanced_fld n) (by simpa using argTok_fld n)
    ⟨expFld hB hn, trivial⟩ ?_
  show Exp D [w] (substArgs (argX (fldT n)) _) _
  rw [substArgs_to]
  exact Exp.plain fun x hx => .inr (toToks_words hB s (fldT_words hB hn) x hx)

/-- Names of conversion macros. -/
theorem Src.convW (h : Src g m cfg K D) {n sfx : Str} (hn : Nm D 500 n) (hs : ∀ c ∈ sfx, isWordCh c = true) (hl : sfx.length ≤ 10) :
    IsWord (g.drvUp ++ "_".toList ++ n ++ sfx) ∧ (g.drvUp ++ "_".toList ++ n ++ sfx).length ≤ 1100 := by
  have h1 := h.drvUp.2
  have h2 := hn.len
  constructor
  · rw [List.append_assoc, List.append_assoc]
    refine identAppend h.drvUp.1 fun c hc => ?_
    simp only [List.mem_append] at hc
    rcases hc with hc | hc | hc
    · revert c; decide
    · exact (ident_words hn.id).2.1 c hc
    · exact hs c hc
  · simp only [List.length_append, String.reduceToList, List.length_cons, List.length_nil]
    omega

theorem line_fromSFloat (h : Src g m cfg K D) {n f : Str} (hn : Nm D 500 n) (hf : Nm D 600 f) {s : Sig} (hK : K.mac n = some s)
    (hd : D.lookup (g.drvUp ++ "_".toList ++ n ++ "_fromS".toList) = some (.fn ["x".toList] (fromToks s [.word "x".toList]))) :
    GenS files D [.appendF ("  _m->".toList ++ f ++ " = (sigfloat_t)(".toList ++ g.drvUp ++ "_".toList ++ n ++ "_fromS(_m->".toList ++ n ++ "));".toList)]
      (stmsOf K (.fromSFloat f n)) := by
  have hw := h.convW (sfx := "_fromS".toList) hn (by decide) (by decide)
  have hp := pFrom s (fldT_notSingle n) ((pFld n).pa topLevel)
  have hq : PPst (par (fromToks s (fldT n))) (fromE s (fldE n)) := pPar (by unfold fromToks; cases convKind s <;> rfl) hp.at0
  have hs := PStm.setFld (n := f) ((PA.cast (w := "sigfloat_t".toList) rfl hq.at0).mono (Nat.zero_le 12))
  have e : stmsOf K (.fromSFloat f n) = [setFld f (.cast "sigfloat_t".toList (fromE s (fldE n)))] := by
    simp only [stmsOf, hK]
  rw [e]
  have hn' := hn.len
  have hf' := hf.len
  refine GenS.stmtS (us := _) [.l "  _m->", .w f, .l " = (sigfloat_t)(", .w (g.drvUp ++ "_".toList ++ n ++ "_fromS".toList), .l "(_m->", .w n, .l "));"]
    (by seg_eq) ⟨words_of_ident hf.id, hw.1, words_of_ident hn.id, trivial⟩ trivial ⟨by omega, hw.2, by omega, trivial⟩ (by seg_len)
    ((h.base.lit [] _).append ((ExpP.name hf.mac).append ((h.base.lit [] _).append ((expFrom h.base hd hn.mac).append (h.base.lit [] ");"))))) hs ?_
  tok_eq

theorem line_fromSInt (h : Src g m cfg K D) {n f : Str} (hn : Nm D 500 n) (hf : Nm D 600 f) (ty : CTy) {s : Sig} (hK : K.mac n = some s)
    (hd : D.lookup (g.drvUp ++ "_".toList ++ n ++ "_fromS".toList) = some (.fn ["x".toList] (fromToks s [.word "x".toList]))) :
    GenS files D [.appendF ("  _m->".toList ++ f ++ " = (".toList ++ ctyText ty ++ ") ".toList ++ g.drvUp ++ "_".toList ++ n ++
      "_fromS(_m->".toList ++ n ++ ");".toList)] (stmsOf K (.fromSInt f ty n)) := by
  have hw := h.convW (sfx := "_fromS".toList) hn (by decide) (by decide)
  have hp := pFrom s (fldT_notSingle n) ((pFld n).pa topLevel)
  have hs := PStm.setFld (n := f) ((PA.cast (ctyText_words ty).2.2.1 hp.at0).mono (Nat.zero_le 12))
  have e : stmsOf K (.fromSInt f ty n) = [setFld f (.cast (ctyText ty) (fromE s (fldE n)))] := by
    simp only [stmsOf, hK]
  rw [e]
  have hn' := hn.len
  have hf' := hf.len
  have ht : (ctyText ty).length ≤ 1100 := by cases ty <;> decide
  refine GenS.stmtS [.l "  _m->", .w f, .l " = (", .w (ctyText ty), .l ") ", .w (g.drvUp ++ "_".toList ++ n ++ "_fromS".toList), .l "(_m->", .w n, .l ");"]
    (by seg_eq) ⟨words_of_ident hf.id, cty_word ty, hw.1, words_of_ident hn.id, trivial⟩ trivial ⟨by omega, ht, hw.2, by omega, trivial⟩ (by seg_len)
    ((h.base.lit [] _).append ((ExpP.name hf.mac).append ((h.base.lit [] _).append ((ExpP.name (h.base.code _ (codeWords_cty ty))).append
      ((h.base.lit [] _).append ((expFrom h.base hd hn.mac).append (h.base.lit [] ";"))))))) hs ?_
  tok_eq

theorem line_toS (h : Src g m cfg K D) {n f : Str} (hn : Nm D 500 n) (hf : Nm D 600 f) (ty : CTy) {s : Sig} (hK : K.mac n = some s)
    (hd : D.lookup (g.drvUp ++ "_".toList ++ n ++ "_toS".toList) = some (.fn ["x".toList] (toToks s [.word "x".toList]))) :
    GenS files D [.appendF ("  _m->".toList ++ n ++ " = (".toList ++ ctyText ty ++ ") ".toList ++ g.drvUp ++ "_".toList ++ n ++
      "_toS(_m->".toList ++ f ++ ");".toList)] (stmsOf K (.toS n ty f)) := by
  have hw := h.convW (sfx := "_toS".toList) hn (by decide) (by decide)
  have hp := pTo s (fldT_notSingle f) ((pFld f).pa topLevel)
  have hs := PStm.setFld (n := n) ((PA.cast (ctyText_words ty).2.2.1 hp.at0).mono (Nat.zero_le 12))
  have e : stmsOf K (.toS n ty f) = [setFld n (.cast (ctyText ty) (toE s (fldE f)))] := by
    simp only [stmsOf, hK]
  rw [e]
  have hn' := hn.len
  have hf' := hf.len
  have ht : (ctyText ty).length ≤ 1100 := by cases ty <;> decide
  refine GenS.stmtS [.l "  _m->", .w n, .l " = (", .w (ctyText ty), .l ") ", .w (g.drvUp ++ "_".toList ++ n ++ "_toS".toList), .l "(_m->", .w f, .l ");"]
    (by seg_eq) ⟨words_of_ident hn.id, cty_word ty, hw.1, words_of_ident hf.id, trivial⟩ trivial ⟨by omega, ht, hw.2, by omega, trivial⟩ (by seg_len)
    ((h.base.lit [] _).append ((ExpP.name hn.mac).append ((h.base.lit [] _).append ((ExpP.name (h.base.code _ (codeWords_cty ty))).append
      ((h.base.lit [] _).append ((expTo h.base hd hf.mac).append (h.base.lit [] ";"))))))) hs ?_
  tok_eq

theorem line_monTick (h : Src g m cfg K D) : GenS files D [opLine "  _m->mon1.last_cycle = GetSystemTick();"] (stmsOf K .monTick) := by
  have hx : ExpP D [] (.word "GetSystemTick".toList :: .p ['('] :: [.p [')']]) (tickBody K.tick) := by
    refine ExpP.fnCall0 rfl h.tick.1 ?_
    have h2 := h.tick.2
    generalize K.tick = t at h2 ⊢
    cases t with
    | zero => exact Exp.plain (fun x hx => .inr (h.base.words (by decide +kernel) x hx))
    | call f =>
      refine Exp.plain (ts := [.word f, .p ['('], .p [')']]) fun x hx => .inr ?_
      have : x = f := by simpa [tokWords] using hx
      rw [this]
      exact h2.2.1
  have hp : PPst (tickBody K.tick) (tickE K.tick) := by
    have h2 := h.tick.2
    generalize K.tick = t at h2 ⊢
    cases t with
    | zero => exact pNumPar (by decide)
    | call f => exact (pIdent h2.1).call0
  have hs := PStm.setMon (f := "last_cycle") (hp.pa 12)
  refine GenS.stmtS [.l "  _m->mon1.last_cycle = ", .w "GetSystemTick".toList, .l "();"] (by rfl) ⟨⟨by decide, by decide⟩, trivial⟩ trivial
    ⟨by decide, trivial⟩ (by seg_len) ((h.base.lit [] _).append (hx.append (h.base.lit [] ";"))) hs ?_
  tok_eq

theorem line_monCnt (hB : Base D) : GenS files D [opLine "  _m->mon1.frame_cnt++;"] (stmsOf K .monCnt) := by
  have hs := PStm.expr (ts := monT "frame_cnt" ++ [.p ['+', '+']]) rfl ((pMon "frame_cnt").incr.pa topLevel)
  exact GenS.stmtS [.l "  _m->mon1.frame_cnt++;"] (by rfl) trivial trivial trivial (by seg_len) ((hB.lit [] _).append ExpP.nil) hs rfl

theorem exptW {n : Str} (hn : Nm D 500 n) : IsWord (exptName n) ∧ (exptName n).length ≤ 1100 :=
  ⟨identAppend hn.id (by decide), by
    have := hn.len
    unfold exptName
    simp only [List.length_append, String.reduceToList, List.length_cons, List.length_nil]
    omega⟩

theorem line_monRoll (hB : Base D) {n : Str} (hn : Nm D 500 n) (he : D.lookup (exptName n) = none) :
    GenS files D [.appendF ("  _m->mon1.roll_error = (_m->".toList ++ n ++ " != _m->".toList ++ n ++ "_expt);".toList)] (stmsOf K (.monRoll n)) := by
  have hb := PA.bin (k := 4) (op := ['!', '=']) rfl rfl ((pFld n).pa 4) ((pFld (exptName n)).pa 4)
  have hs := PStm.setMon (f := "roll_error") ((pPar rfl hb).pa 12)
  have hw := exptW hn
  have hn' := hn.len
  exact GenS.stmtS [.l "  _m->mon1.roll_error = (_m->", .w n, .l " != _m->", .w (exptName n), .l ");"] (by unfold exptName; seg_eq)
    ⟨words_of_ident hn.id, hw.1, trivial⟩ trivial ⟨by omega, hw.2, trivial⟩ (by seg_len)
    ((hB.lit [] _).append ((ExpP.name hn.mac).append ((hB.lit [] _).append ((ExpP.name he).append ((hB.lit [] _).append ExpP.nil))))) hs rfl

theorem line_incr (hB : Base D) {dst src : Str} (hw : IsWord dst ∧ dst.length ≤ 1100) (hd : D.lookup dst = none) (hn : Nm D 500 src) {mask : Nat}
    (hm : mask < 2 ^ 32) :
    GenS files D [.appendF ("  _m->".toList ++ dst ++ " = (_m->".toList ++ src ++ " + 1) & (".toList ++ maskW mask ++ ");".toList)]
      (stmsOf K (.incr dst src mask)) := by
  have hb := PA.bin (k := 1) (op := ['+']) rfl rfl ((pFld src).pa 1) ((PPst.word "1".toList).pa 1)
  have hc := PA.bin (k := 5) (op := ['&']) rfl rfl ((pPar rfl hb).pa 5) ((pNumPar (numW_02X mask).1).pa 5)
  have hs := PStm.setFld (n := dst) (hc.mono (l := 12) (by decide))
  have hn' := hn.len
  have hl : (maskW mask).length ≤ 1100 := by
    have := fmt02X_length hm
    unfold maskW
    simp only [List.length_append, String.reduceToList, List.length_cons, List.length_nil]
    omega
  exact GenS.stmtS [.l "  _m->", .w dst, .l " = (_m->", .w src, .l " + 1) & (", .w (maskW mask), .l ");"] (by seg_eq)
    ⟨hw.1, words_of_ident hn.id, (numW_02X mask).word, trivial⟩ trivial ⟨hw.2, by omega, hl, trivial⟩ (by seg_len)
    ((hB.lit [] _).append ((ExpP.name hd).append ((hB.lit [] _).append ((ExpP.name hn.mac).append ((hB.lit [] _).append
      ((ExpP.name (hB.num _ (numW_02X mask).1)).append ((hB.lit [] _).append ExpP.nil))))))) hs rfl

/-! Hash -/

/-- Arguments of the hash after replacement. -/
def hashArgs (frame : Bool) (dlc id : Nat) (method : Str) (op : Nat) : List (List Tok) :=
  [arrT frame, par [.word (decStr dlc ++ "U".toList)], par [.word (fmtAltX id ++ "U".toList)], [.word method], [.word (decStr op)]]

theorem substArgs_hash (h : Hook) (hk : ∀ f, h = .call f → f ∉ hashParams) (a b c d e : List Tok) :
    substArgs (hashParams.zip [a, b, c, d, e]) (hashToks h (hashParams.map fun p => [.word p])) = hashToks h [a, b, c, d, e] := by
  cases h with
  | zero => rfl
  | call f =>
    have hf : (hashParams.zip [a, b, c, d, e]).lookup f = none := by
      rw [List.lookup_eq_none_iff]
      intro p hp
      have : p.1 ∈ hashParams := (List.of_mem_zip hp).1
      have h1 : f ≠ p.1 := fun e => hk f rfl (e ▸ this)
      simpa using h1
    show substArgs _ (.word f :: _) = _
    rw [substArgs_word, hf]
    simp only [hashToks, substArgs_par]
    have ea : joinArgs (hashParams.map fun p => [Tok.word p]) =
      [.word "a".toList, .p [','], .word "b".toList, .p [','], .word "c".toList, .p [','], .word "d".toList, .p [','], .word "e".toList] := rfl
    have l1 : (hashParams.zip [a, b, c, d, e]).lookup "a".toList = some a := rfl
    have l2 : (hashParams.zip [a, b, c, d, e]).lookup "b".toList = some b := rfl
    have l3 : (hashParams.zip [a, b, c, d, e]).lookup "c".toList = some c := rfl
    have l4 : (hashParams.zip [a, b, c, d, e]).lookup "d".toList = some d := rfl
    have l5 : (hashParams.zip [a, b, c, d, e]).lookup "e".toList = some e := rfl
    rw [ea]
    simp only [substArgs_word, substArgs_p, l1, l2, l3, l4, l5, Option.getD_some]
    simp [joinArgs, substArgs, par]

theorem arrT_words (frame : Bool) : codeText (arrT frame) = true := by
  cases frame <;> decide +kernel

theorem balanced_arr (frame : Bool) : Balanced (arrT frame) := by
  cases frame
  · exact Balanced.tok (by decide) (by decide)
  · exact (Balanced.tok (by decide) (by decide)).append ((Balanced.tok (by decide) (by decide) : Balanced [.p ['-', '>']]).append
      (Balanced.tok (by decide) (by decide)))

theorem argTok_arr (frame : Bool) : ArgTok (arrT frame) := by
  cases frame
  · exact ArgTok.tok (by decide) (by decide) (by decide)
  · exact (ArgTok.tok (by decide) (by decide) (by decide)).append ((ArgTok.tok (by decide) (by decide) (by decide) : ArgTok [.p ['-', '>']]).append
      (ArgTok.tok (by decide) (by decide) (by decide)))

theorem balanced_word (w : Str) : Balanced [.word w] := Balanced.tok (by intro e; cases e) (by intro e; cases e)
theorem argTok_word (w : Str) : ArgTok [.word w] := ArgTok.tok (by intro e; cases e) (by intro e; cases e) (by intro e; cases e)

theorem expHash (h : Src g m cfg K D) (frame : Bool) {method : Str} (hm : D.lookup method = none) (op : Nat) :
    ExpP D [] (.word "GetFrameHash".toList :: .p ['('] :: (joinArgs [arrT frame, [.word (m.name ++ "_DLC".toList)], [.word (m.name ++ "_CANID".toList)],
      [.word method], [.word (decStr op)]] ++ [.p [')']])) (hashToks K.hash (hashArgs frame m.dlc m.msgId method op)) := by
  refine ExpP.fnCall (as' := hashArgs frame m.dlc m.msgId method op) rfl h.hash.1 (by simp) rfl ?_ ?_ ?_ ?_
  · intro a ha
    simp only [List.mem_cons, List.not_mem_nil, or_false] at ha
    rcases ha with rfl | rfl | rfl | rfl | rfl
    · exact balanced_arr frame
    all_goals exact balanced_word _
  · intro a ha
    simp only [List.mem_cons, List.not_mem_nil, or_false] at ha
    rcases ha with rfl | rfl | rfl | rfl | rfl
    · exact argTok_arr frame
    all_goals exact argTok_word _
  · exact ⟨Exp.plain fun x hx => .inr (h.base.words (arrT_words frame) x hx), h.expDlc.exp, h.expId.exp, (ExpP.name hm).exp,
      (ExpP.name (h.base.num _ (numW_decStr op).1)).exp, trivial⟩
  · have h2 := h.hash.2
    unfold hashArgs
    rw [substArgs_hash _ (fun f e => by rw [e] at h2; exact h2.2.2)]
    refine Exp.plain fun x hx => .inr ?_
    generalize K.hash = t at h2 hx
    cases t with
    | zero => exact h.base.words (ts := par [.word "0u".toList]) (by decide +kernel) x hx
    | call f =>
      simp only [hashToks, tokWords_w, tokWords_par, joinArgs, tokWords_append, tokWords_p, List.mem_cons, List.mem_append] at hx
      rcases hx with rfl | hx | (rfl | hx) | (rfl | hx) | (rfl | hx) | (rfl | hx)
      · exact h2.2.1
      · exact h.base.words (arrT_words frame) x hx
      · exact h.base.num _ (numW_decStrU _).1
      · cases hx
      · exact h.base.num _ (numW_altX _).1
      · cases hx
      · exact hm
      · cases hx
      · exact h.base.num _ (numW_decStr _).1
      · cases hx

theorem pArr (frame : Bool) : PPst (arrT frame) (arrE frame) := by
  cases frame
  · exact PPst.word "_d".toList
  · exact (PPst.word "cframe".toList).arrow "Data".toList

theorem pHash (hk : HookOk D K.hash) (frame : Bool) (dlc id : Nat) {method : Str} (hm : IsIdent method) (op : Nat) :
    PPst (hashToks K.hash (hashArgs frame dlc id method op)) (hashE K.hash (arrE frame) dlc id method op) := by
  generalize K.hash = t at hk ⊢
  cases t with
  | zero => exact pNumPar (by decide)
  | call f =>
    have h1 := PL.bin (k := 12) (op := [',']) rfl rfl ((pArr frame).pa 12).toPL ((pNumU dlc).pa 12)
    have h2 := PL.bin (k := 12) (op := [',']) rfl rfl h1 ((pIdU id).pa 12)
    have h3 := PL.bin (k := 12) (op := [',']) rfl rfl h2 ((pIdent hm).pa 12)
    have h4 := (PL.bin (k := 12) (op := [',']) rfl rfl h3 ((pNum (numW_decStr op).1).pa 12)).toPA
    have h5 := PPst.call (pIdent hk.1) (by cases frame <;> rfl) h4
    have e : hashToks (.call f) (hashArgs frame dlc id method op) = [.word f] ++ (.p ['('] :: (arrT frame ++ .p [','] :: par [.word (decStr dlc ++ "U".toList)] ++
        .p [','] :: par [.word (fmtAltX id ++ "U".toList)] ++ .p [','] :: [.word method] ++ .p [','] :: [.word (decStr op)] ++ [.p [')']])) := by
      simp [hashToks, hashArgs, joinArgs, par]
    rw [e]
    exact h5

theorem hashToks_notSingle (h : Hook) (as : List (List Tok)) : notSingle (hashToks h as) = true := by
  cases h <;> rfl

theorem u8Type : isType "uint8_t".toList = true := by decide

theorem line_monCsm (h : Src g m cfg K D) {n method : Str} (hn : Nm D 500 n) (hm : Nm D 500 method) {op : Nat} (ho : op < 2 ^ 31) :
    GenS files D [.appendF ("  _m->mon1.csm_error = (((uint8_t)GetFrameHash(_d, ".toList ++ m.name ++ "_DLC, ".toList ++ m.name ++ "_CANID, ".toList ++
        method ++ ", ".toList ++ fmtD op ++ ")) != (_m->".toList ++ n ++ "));".toList)] (stmsOf K (.monCsm m.dlc m.msgId method op n)) := by
  rw [fmtD_small ho]
  have hp := pHash h.hash.2 false m.dlc m.msgId hm.id op
  have h1 := pPar (ts := .p ['('] :: .word "uint8_t".toList :: .p [')'] :: hashToks K.hash (hashArgs false m.dlc m.msgId method op)) rfl (PA.cast u8Type hp.at0)
  have h2 := PA.bin (k := 4) (op := ['!', '=']) rfl rfl (h1.pa 4) ((pPar (fldT_notSingle n) (pFld n).at0).pa 4)
  have hs := PStm.setMon (f := "csm_error") ((pPar rfl h2).pa 12)
  have hn' := hn.len
  have hm' := hm.len
  have hl := decStr_length (n := op) (k := 10) (by omega)
  refine GenS.stmtT [.l "  _m->mon1.csm_error = (((uint8_t)", .w "GetFrameHash".toList, .l "(_d, ", .w (m.name ++ "_DLC".toList), .l ", ",
      .w (m.name ++ "_CANID".toList), .l ", ", .w method, .l ", ", .w (decStr op), .l ")) != (_m->", .w n, .l "));"] (by seg_eqc)
    ⟨⟨by decide, by decide⟩, h.dlcW.1, h.idW.1, words_of_ident hm.id, (numW_decStr op).word, words_of_ident hn.id, trivial⟩ trivial
    ⟨by decide, h.dlcW.2, h.idW.2, by omega, by omega, by omega, trivial⟩ (by seg_len)
    ((h.base.lit [] "  _m->mon1.csm_error = (((uint8_t)").append ((expHash h false hm.mac op).append ((h.base.lit [] ") != (_m->").append ((ExpP.name hn.mac).append (h.base.lit [] "));"))))) hs ?_ ?_
  · tok_eq
  · tok_eq

end Lines

end Verif
