import Verif.Proofs.LineText
/-
Each printed line of the generated functions is the statement it is meant to be: monitor call, output, payload.
-/
namespace Verif
open Verif.Spec

section Lines
variable {files : List (Str × Str)} {g : GenDesc} {m : Msg} {cfg : Cfg} {K : Look} {D : Defs}

set_option maxRecDepth 4000

theorem line_ret (h : Src g m cfg K D) : GenS files D [.appendF ("  return ".toList ++ m.name ++ "_CANID;".toList)] (stmsOf K (.ret m.msgId)) := by
  have hs := PStm.ret ((pIdU m.msgId).pa topLevel)
  exact GenS.stmtS [.l "  return ", .w (m.name ++ "_CANID".toList), .l ";"] (by seg_eq) ⟨h.idW.1, trivial⟩ trivial
    ⟨h.idW.2, trivial⟩ (by seg_len) ((h.base.lit [] _).append (h.expId.append ((h.base.lit [] _).append ExpP.nil))) hs rfl

theorem line_clear (hB : Base D) {n : Str} (hn : Nm D 500 n) (ty : CTy) :
    GenS files D [.appendF ("  _m->".toList ++ n ++ " = (".toList ++ ctyText ty ++ ") 0;".toList)] (stmsOf K (.clear n ty)) := by
  have hs := PStm.setFld (n := n) ((PA.cast (ctyText_words ty).2.2.1 (pNum (w := "0".toList) (by decide)).at0).mono (Nat.zero_le 12))
  have hn' := hn.len
  have ht : (ctyText ty).length ≤ 1100 := by cases ty <;> decide
  exact GenS.stmtS [.l "  _m->", .w n, .l " = (", .w (ctyText ty), .l ") 0;"] (by seg_eq)
    ⟨words_of_ident hn.id, cty_word ty, trivial⟩ trivial ⟨by omega, ht, trivial⟩ (by seg_len)
    ((hB.lit [] _).append ((ExpP.name hn.mac).append ((hB.lit [] _).append ((ExpP.name (hB.code _ (codeWords_cty ty))).append ((hB.lit [] _).append
      ExpP.nil))))) hs rfl

theorem PStm.set {ts us : List Tok} {a e : PExpr} (hh : exprHead (ts ++ .p ['='] :: us) = true) (ha : PA 0 ts a) (h : PA 12 us e) :
    PStm (ts ++ (.p ['='] :: us) ++ [.p [';']]) (setE a e) :=
  PStm.expr hh ((PA.assign (by decide) (ha.mono (by decide)) h).mono (by decide))

theorem u32Type : isType "uint32_t".toList = true := by decide

theorem line_outId (h : Src g m cfg K D) : GenS files D [.appendF ("  cframe->MsgId = (uint32_t) ".toList ++ m.name ++ "_CANID;".toList)]
    (stmsOf K (.outId m.msgId)) := by
  have hs := PStm.set rfl ((PPst.word "cframe".toList).arrow "MsgId".toList).at0 ((PA.cast u32Type (pIdU m.msgId).at0).mono (Nat.zero_le 12))
  exact GenS.stmtS [.l "  cframe->MsgId = (uint32_t) ", .w (m.name ++ "_CANID".toList), .l ";"] (by seg_eq) ⟨h.idW.1, trivial⟩ trivial
    ⟨h.idW.2, trivial⟩ (by seg_len) ((h.base.lit [] _).append (h.expId.append ((h.base.lit [] _).append ExpP.nil))) hs rfl

theorem line_outDlcS (h : Src g m cfg K D) (hk : K.frame = true) :
    GenS files D [.appendF ("  cframe->DLC = (uint8_t) ".toList ++ m.name ++ "_DLC;".toList)] (stmsOf K (.outDlc m.dlc)) := by
  have hs := PStm.set rfl ((PPst.word "cframe".toList).arrow "DLC".toList).at0 ((PA.cast u8Type (pNumU m.dlc).at0).mono (Nat.zero_le 12))
  simp only [stmsOf, lenE, hk, if_true]
  exact GenS.stmtS [.l "  cframe->DLC = (uint8_t) ", .w (m.name ++ "_DLC".toList), .l ";"] (by seg_eq) ⟨h.dlcW.1, trivial⟩ trivial
    ⟨h.dlcW.2, trivial⟩ (by seg_len) ((h.base.lit [] _).append (h.expDlc.append ((h.base.lit [] _).append ExpP.nil))) hs rfl

theorem line_outIdeS (h : Src g m cfg K D) (hk : K.frame = true) :
    GenS files D [.appendF ("  cframe->IDE = (uint8_t) ".toList ++ m.name ++ "_IDE;".toList)] (stmsOf K (.outIde m.ide)) := by
  have hs := PStm.set rfl ((PPst.word "cframe".toList).arrow "IDE".toList).at0 ((PA.cast u8Type (pNumU m.ide).at0).mono (Nat.zero_le 12))
  simp only [stmsOf, ideE, hk, if_true]
  exact GenS.stmtS [.l "  cframe->IDE = (uint8_t) ", .w (m.name ++ "_IDE".toList), .l ";"] (by seg_eq) ⟨h.ideW.1, trivial⟩ trivial
    ⟨h.ideW.2, trivial⟩ (by seg_len) ((h.base.lit [] _).append (h.expIde.append ((h.base.lit [] _).append ExpP.nil))) hs rfl

theorem line_outDlcA (h : Src g m cfg K D) (hk : K.frame = false) :
    GenS files D [.appendF ("  *_len = (uint8_t) ".toList ++ m.name ++ "_DLC;".toList)] (stmsOf K (.outDlc m.dlc)) := by
  have hs := PStm.set rfl (PA.deref (PPst.word "_len".toList).at0) ((PA.cast u8Type (pNumU m.dlc).at0).mono (Nat.zero_le 12))
  simp only [stmsOf, lenE, hk, Bool.false_eq_true, if_false]
  exact GenS.stmtS [.l "  *_len = (uint8_t) ", .w (m.name ++ "_DLC".toList), .l ";"] (by seg_eq) ⟨h.dlcW.1, trivial⟩ trivial
    ⟨h.dlcW.2, trivial⟩ (by seg_len) ((h.base.lit [] _).append (h.expDlc.append ((h.base.lit [] _).append ExpP.nil))) hs rfl

theorem line_outIdeA (h : Src g m cfg K D) (hk : K.frame = false) :
    GenS files D [.appendF ("  *_ide = (uint8_t) ".toList ++ m.name ++ "_IDE;".toList)] (stmsOf K (.outIde m.ide)) := by
  have hs := PStm.set rfl (PA.deref (PPst.word "_ide".toList).at0) ((PA.cast u8Type (pNumU m.ide).at0).mono (Nat.zero_le 12))
  simp only [stmsOf, ideE, hk, Bool.false_eq_true, if_false]
  exact GenS.stmtS [.l "  *_ide = (uint8_t) ", .w (m.name ++ "_IDE".toList), .l ";"] (by seg_eq) ⟨h.ideW.1, trivial⟩ trivial
    ⟨h.ideW.2, trivial⟩ (by seg_len) ((h.base.lit [] _).append (h.expIde.append ((h.base.lit [] _).append ExpP.nil))) hs rfl

theorem pIndex (frame : Bool) (i : Nat) : PPst (arrT frame ++ (.p ['['] :: ([.word (decStr i)] ++ [.p [']']]))) (.index (arrE frame) (.num (decStr i))) :=
  PPst.index (pArr frame) ((pNum (numW_decStr i).1).pa topLevel)

theorem line_orByte (hB : Base D) {i : Nat} (hi : i < 2 ^ 31) {e : CExpr} (hc : Chain e)
    (hsh : Shape false (fun n => D.lookup n = none) e) (hl : (render e).length ≤ 6000) :
    GenS files D [.appendF ("  ".toList ++ arrText K.frame ++ "[".toList ++ fmtD i ++ "] |= (uint8_t) ( ".toList ++ render e ++ " );".toList)]
      (stmsOf K (.orByte i (.expr e))) := by
  rw [fmtD_small hi]
  have hs : PStm (arrT K.frame ++ (.p ['['] :: ([.word (decStr i)] ++ [.p [']']])) ++ (.p ['|', '='] :: (.p ['('] :: .word "uint8_t".toList :: .p [')'] :: par (toks e))) ++ [.p [';']])
      (.expr (.assign ['|', '='] (.index (arrE K.frame) (.num (decStr i))) (u8E (toP e)))) :=
    PStm.expr (by cases K.frame <;> rfl) ((PA.assign (by decide) ((pIndex K.frame i).at0.mono (by decide))
      ((PA.cast u8Type (pChainPar hc).at0).mono (Nat.zero_le 12))).mono (by decide))
  have hlen := decStr_length (n := i) (k := 10) (by omega)
  cases hk : K.frame with
  | false =>
    rw [hk] at hs
    simp only [stmsOf, hk]
    exact GenS.stmtS [.l "  _d[", .w (decStr i), .l "] |= (uint8_t) ( ", .e (render e) (toks e), .l " );"] (by seg_eqc; rfl)
      ⟨(numW_decStr i).word, lexChain hc, trivial⟩ ⟨plain_chain hc, trivial⟩ ⟨by omega, trivial⟩ (by seg_len)
      ((hB.lit [] _).append ((ExpP.name (hB.num _ (numW_decStr i).1)).append ((hB.lit [] _).append ((expToks hB hsh).append ((hB.lit [] _).append ExpP.nil)))))
      hs (by tok_eq)
  | true =>
    rw [hk] at hs
    simp only [stmsOf, hk]
    exact GenS.stmtS [.l "  cframe->Data[", .w (decStr i), .l "] |= (uint8_t) ( ", .e (render e) (toks e), .l " );"] (by seg_eqc; rfl)
      ⟨(numW_decStr i).word, lexChain hc, trivial⟩ ⟨plain_chain hc, trivial⟩ ⟨by omega, trivial⟩ (by seg_len)
      ((hB.lit [] _).append ((ExpP.name (hB.num _ (numW_decStr i).1)).append ((hB.lit [] _).append ((expToks hB hsh).append ((hB.lit [] _).append ExpP.nil)))))
      hs (by tok_eq)

theorem line_setCsm (h : Src g m cfg K D) {n method : Str} (hn : Nm D 500 n) (hm : Nm D 500 method) {op : Nat} (ho : op < 2 ^ 31) :
    GenS files D [.appendF ("  _m->".toList ++ n ++ " = ((uint8_t)GetFrameHash(".toList ++ arrText K.frame ++ ", ".toList ++ m.name ++ "_DLC, ".toList ++
        m.name ++ "_CANID, ".toList ++ method ++ ", ".toList ++ fmtD op ++ "));".toList)] (stmsOf K (.setCsm n m.dlc m.msgId method op)) := by
  rw [fmtD_small ho]
  have hp := pHash h.hash.2 K.frame m.dlc m.msgId hm.id op
  have h1 := pPar (ts := .p ['('] :: .word "uint8_t".toList :: .p [')'] :: hashToks K.hash (hashArgs K.frame m.dlc m.msgId method op)) rfl
    (PA.cast u8Type hp.at0)
  have hs := PStm.setFld (n := n) (h1.pa 12)
  have hn' := hn.len
  have hm' := hm.len
  have hl := decStr_length (n := op) (k := 10) (by omega)
  cases hk : K.frame with
  | false =>
    rw [hk] at hs
    simp only [stmsOf, hk]
    refine GenS.stmtT [.l "  _m->", .w n, .l " = ((uint8_t)", .w "GetFrameHash".toList, .l "(_d, ", .w (m.name ++ "_DLC".toList), .l ", ",
        .w (m.name ++ "_CANID".toList), .l ", ", .w method, .l ", ", .w (decStr op), .l "));"] (by seg_eqc; rfl)
      ⟨words_of_ident hn.id, ⟨by decide, by decide⟩, h.dlcW.1, h.idW.1, words_of_ident hm.id, (numW_decStr op).word, trivial⟩ trivial
      ⟨by omega, by decide, h.dlcW.2, h.idW.2, by omega, by omega, trivial⟩ (by seg_len)
      ((h.base.lit [] "  _m->").append ((ExpP.name hn.mac).append ((h.base.lit [] " = ((uint8_t)").append ((expHash h false hm.mac op).append (h.base.lit [] ");"))))) hs ?_ ?_
    · tok_eq
    · tok_eq
  | true =>
    rw [hk] at hs
    simp only [stmsOf, hk]
    refine GenS.stmtT [.l "  _m->", .w n, .l " = ((uint8_t)", .w "GetFrameHash".toList, .l "(cframe->Data, ", .w (m.name ++ "_DLC".toList), .l ", ",
        .w (m.name ++ "_CANID".toList), .l ", ", .w method, .l ", ", .w (decStr op), .l "));"] (by seg_eqc; rfl)
      ⟨words_of_ident hn.id, ⟨by decide, by decide⟩, h.dlcW.1, h.idW.1, words_of_ident hm.id, (numW_decStr op).word, trivial⟩ trivial
      ⟨by omega, by decide, h.dlcW.2, h.idW.2, by omega, by omega, trivial⟩ (by seg_len)
      ((h.base.lit [] "  _m->").append ((ExpP.name hn.mac).append ((h.base.lit [] " = ((uint8_t)").append ((expHash h true hm.mac op).append (h.base.lit [] ");"))))) hs ?_ ?_
    · tok_eq
    · tok_eq

/-! Monitor function -/

/-- Name of the monitor macro of a message. -/
def fmonName (g : GenDesc) (m : Msg) : Str := "FMon_".toList ++ m.name ++ "_".toList ++ g.drvLow

theorem Src.fmonW (h : Src g m cfg K D) : IsWord (fmonName g m) ∧ (fmonName g m).length ≤ 1100 := by
  have h1 := ident_words h.name.1
  have h2 := ident_words h.drvLow.1
  have l1 := h.name.2
  have l2 := h.drvLow.2
  refine ⟨⟨by simp [fmonName], ?_⟩, ?_⟩
  · intro c hc
    unfold fmonName at hc
    simp only [List.mem_append] at hc
    rcases hc with ((hc | hc) | hc) | hc
    · revert c; decide
    · exact h1.2.1 c hc
    · revert c; decide
    · exact h2.2.1 c hc
  · unfold fmonName
    simp only [List.length_append, String.reduceToList, List.length_cons, List.length_nil]
    omega

/-- `&_m->mon1` -/
def monAddr : List Tok := .p ['&'] :: fldT "mon1".toList

theorem balanced_monAddr : Balanced monAddr := (Balanced.tok (t := .p ['&']) (by decide) (by decide)).append (balanced_fld _)
theorem argTok_monAddr : ArgTok monAddr := (ArgTok.tok (t := .p ['&']) (by decide) (by decide) (by decide)).append (argTok_fld _)

theorem substArgs_xy {f : Str} (h1 : f ≠ "x".toList) (h2 : f ≠ "y".toList) (a b : List Tok) :
    substArgs ((["x".toList, "y".toList] : List Str).zip [a, b])
      (.word f :: par (par [.word "x".toList] ++ .p [','] :: par [.word "y".toList])) = .word f :: par (par a ++ .p [','] :: par b) := by
  have l0 : ((["x".toList, "y".toList] : List Str).zip [a, b]).lookup f = none := by
    rw [List.lookup_eq_none_iff]
    intro p hp
    have : p.1 ∈ (["x".toList, "y".toList] : List Str) := (List.of_mem_zip hp).1
    simp only [List.mem_cons, List.not_mem_nil, or_false] at this
    rcases this with e | e <;> rw [e]
    · simpa using h1
    · simpa using h2
  have l1 : ((["x".toList, "y".toList] : List Str).zip [a, b]).lookup "x".toList = some a := rfl
  have l2 : ((["x".toList, "y".toList] : List Str).zip [a, b]).lookup "y".toList = some b := rfl
  rw [substArgs_word, l0]
  simp only [substArgs_par, substArgs_append, substArgs_p, substArgs_word, l1, l2, Option.getD_some, Option.getD_none]
  simp [substArgs]

theorem monAddr_words (hB : Base D) : ∀ w ∈ tokWords monAddr, D.lookup w = none := hB.words (by decide +kernel)

theorem expFmon (h : Src g m cfg K D) (hu : cfg.flag .useMon = true) :
    ExpP D [] (.word (fmonName g m) :: .p ['('] :: (joinArgs [monAddr, [.word (m.name ++ "_CANID".toList)]] ++ [.p [')']]))
      (.word (K.fmon m.name) :: par (par monAddr ++ .p [','] :: par (par [.word (fmtAltX m.msgId ++ "U".toList)]))) := by
  obtain ⟨hd, hi, hx, hy, hn, -⟩ := h.fmon hu
  refine ExpP.fnCall (as' := [monAddr, par [.word (fmtAltX m.msgId ++ "U".toList)]]) rfl hd (by simp) rfl ?_ ?_ ?_ ?_
  · intro a ha
    simp only [List.mem_cons, List.not_mem_nil, or_false] at ha
    rcases ha with rfl | rfl
    · exact balanced_monAddr
    · exact balanced_word _
  · intro a ha
    simp only [List.mem_cons, List.not_mem_nil, or_false] at ha
    rcases ha with rfl | rfl
    · exact argTok_monAddr
    · exact argTok_word _
  · exact ⟨Exp.plain fun x hx => .inr (monAddr_words h.base x hx), h.expId.exp, trivial⟩
  · rw [substArgs_xy hx hy]
    refine Exp.plain fun x hx => .inr ?_
    simp only [tokWords_w, tokWords_par, tokWords_append, tokWords_p, List.mem_cons, List.mem_append] at hx
    rcases hx with rfl | hx | rfl | hx
    · exact hn
    · exact monAddr_words h.base x hx
    · exact h.base.num _ (numW_altX _).1
    · cases hx

theorem line_fmon (h : Src g m cfg K D) (hu : cfg.flag .useMon = true) :
    GenS files D [.appendF ("  FMon_".toList ++ m.name ++ "_".toList ++ g.drvLow ++ "(&_m->mon1, ".toList ++ m.name ++ "_CANID);".toList)]
      (stmsOf K (.fmon m.name m.msgId)) := by
  obtain ⟨hd, hi, hx, hy, hn, hh⟩ := h.fmon hu
  have h1 : PPst (par monAddr) (.addr (fldE "mon1".toList)) := pPar rfl ((PA.addr (pFld _).at0))
  have h2 : PPst (par (par [.word (fmtAltX m.msgId ++ "U".toList)])) (idU m.msgId) := pPar rfl (pIdU m.msgId).at0
  have ha := PA.bin (k := 12) (op := [',']) rfl rfl (h1.pa 12) (h2.pa 12)
  have hc := PPst.call (pIdent hi) rfl ha
  have hh' : exprHead ([.word (K.fmon m.name)] ++ .p ['('] :: (par monAddr ++ .p [','] :: par (par [.word (fmtAltX m.msgId ++ "U".toList)]) ++ [.p [')']])) = true := hh
  have hs := PStm.expr hh' (hc.pa topLevel)
  have hw := h.fmonW
  refine GenS.stmtT [.l "  ", .w (fmonName g m), .l "(&_m->mon1, ", .w (m.name ++ "_CANID".toList), .l ");"] (by unfold fmonName; seg_eqc)
    ⟨hw.1, h.idW.1, trivial⟩ trivial ⟨hw.2, h.idW.2, trivial⟩ (by seg_len)
    ((h.base.lit [] "  ").append ((expFmon h hu).append (h.base.lit [] ";"))) hs ?_ ?_
  · tok_eq
  · tok_eq

/-! Loop -/

theorem Gen.lineT {t : Str} {ts us vs : List Tok} (l : List Seg) (hL : t = segText l) (hw : SegsW l)
    (ht : TextsPlain l) (hS : SegsShort 1100 l) (hlen : segLen 1100 l ≤ 9999) (hx : ExpP D [] ts us) (et : segToks l = ts) (e : us = vs)
    (hp : litsPlain l = true := by rfl) (hb : segsB l = true := by rfl) (hh : noHash l = true := by rfl) : Gen files [.appendF t] D D vs :=
  (Gen.line l hL hw ht (by rw [hL]; exact Nat.le_trans (length_segs hS) hlen) (et ▸ hx) hp hb hh).eq e

theorem ExpP.par {hide : List Str} {a b : List Tok} (h : ExpP D hide a b) : ExpP D hide (par a) (par b) :=
  (ExpP.punct ['(']).append (h.append (ExpP.punct [')']))

/-- The number of a macro, in parentheses or not. -/
def numToks (p : Bool) (w : Str) : List Tok := if p then par [.word w] else [.word w]

theorem NumDef.toks {d : MDef} {w : Str} (h : NumDef d w) : inNumber w = true ∧ ∃ p, d = .obj (numToks p w) := by
  refine ⟨h.1, ?_⟩
  rcases h.2 with e | e
  · exact ⟨false, e⟩
  · exact ⟨true, e⟩

theorem expNum (hB : Base D) {hide : List Str} {n w : Str} {p : Bool} (hn : hide.contains n = false) (hd : D.lookup n = some (.obj (numToks p w)))
    (hw : inNumber w = true) : ExpP D hide [.word n] (numToks p w) :=
  ExpP.obj hn hd (Exp.plain fun x hx => .inr (by
    have : x = w := by cases p <;> simpa [numToks, Verif.par, tokWords] using hx
    rw [this]
    exact hB.num w hw))

theorem pNumToks {w : Str} (hw : inNumber w = true) (p : Bool) : PPst (numToks p w) (.num w) := by
  cases p with
  | false => exact pNum hw
  | true => exact pNumPar hw

theorem pNumToksPar {w : Str} (hw : inNumber w = true) (p : Bool) : PPst (par (numToks p w)) (.num w) := by
  cases p with
  | false => exact pNumPar hw
  | true => exact pPar rfl (pNumPar hw).at0

/-- `(((n) <= (M)) ? (n) : (M))` -/
def validT (n k : List Tok) : List Tok := par (par (par n ++ .p ['<', '='] :: par k) ++ .p ['?'] :: (par n ++ .p [':'] :: par k))

theorem drvName_ne (h : Src g m cfg K D) {s : String} (hs : 6 ≤ s.toList.length) : g.drvUp ++ s.toList ≠ "msgDlc".toList := by
  intro e
  have h1 := congrArg List.length e
  have h2 : g.drvUp ≠ [] := (ident_words h.drvUp.1).1
  have h3 : 0 < g.drvUp.length := List.length_pos_iff.mpr h2
  have h4 : "msgDlc".toList.length = 6 := rfl
  rw [List.length_append, h4] at h1
  omega

theorem expValid (h : Src g m cfg K D) {p : Bool} (hd : D.lookup (maxDlcName g) = some (.obj (numToks p K.maxW))) (hw : inNumber K.maxW = true) :
    ExpP D [] (.word (validateName g) :: .p ['('] :: ([.word (m.name ++ "_DLC".toList)] ++ [.p [')']]))
      (validT (par [.word (decStr m.dlc ++ "U".toList)]) (numToks p K.maxW)) := by
  refine ExpP.fnCall (as := [[.word (m.name ++ "_DLC".toList)]]) (as' := [par [.word (decStr m.dlc ++ "U".toList)]]) rfl h.valid (by simp) rfl
    (by simpa using balanced_word _) (by simpa using argTok_word _) ⟨h.expDlc.exp, trivial⟩ ?_
  have hne := drvName_ne h (s := "_MAX_DLC_VALUE") (by decide)
  have l1 : ((["msgDlc".toList] : List Str).zip [par [.word (decStr m.dlc ++ "U".toList)]]).lookup (maxDlcName g) = none := by
    unfold maxDlcName
    rw [List.zip_cons_cons, List.lookup_cons]
    have : (g.drvUp ++ "_MAX_DLC_VALUE".toList == "msgDlc".toList) = false := by simpa using hne
    rw [this]
    rfl
  have l2 : ((["msgDlc".toList] : List Str).zip [par [.word (decStr m.dlc ++ "U".toList)]]).lookup "msgDlc".toList =
    some (par [.word (decStr m.dlc ++ "U".toList)]) := rfl
  have e0 : ∀ ps, substArgs ps [] = [] := fun _ => rfl
  simp only [substArgs_par, substArgs_append, substArgs_p, substArgs_word, l1, l2, Option.getD_some, Option.getD_none, e0, List.append_nil]
  have hv : ([validateName g] : List Str).contains (maxDlcName g) = false := by
    have : maxDlcName g ≠ validateName g := by
      intro e
      have := congrArg List.length e
      unfold maxDlcName validateName at this
      simp only [List.length_append, String.reduceToList, List.length_cons, List.length_nil] at this
      omega
    simpa using this
  have hM := expNum h.base hv hd hw
  have hN : ExpP D [validateName g] (par [.word (decStr m.dlc ++ "U".toList)]) (par [.word (decStr m.dlc ++ "U".toList)]) :=
    ExpP.par (ExpP.name (h.base.num _ (numW_decStrU _).1))
  exact (ExpP.par ((ExpP.par (hN.par.append ((ExpP.punct ['<', '=']).append hM.par))).append ((ExpP.punct ['?']).append (hN.par.append ((ExpP.punct [':']).append hM.par))))).exp

theorem pValid {n k : List Tok} {e f : PExpr} (h1 : PPst (par n) e) (h2 : PPst (par k) f) : PPst (validT n k) (validE e f) := by
  have a := PA.bin (k := 3) (op := ['<', '=']) rfl rfl (h1.pa 3) (h2.pa 3)
  have b := PA.cond ((pPar rfl a).pa 10) (h1.pa topLevel) (h2.pa 11)
  exact pPar rfl b

theorem Src.validW (h : Src g m cfg K D) : IsWord (validateName g) ∧ (validateName g).length ≤ 1100 :=
  ⟨identAppend h.drvUp.1 (by decide), by
    have := h.drvUp.2
    unfold validateName
    simp only [List.length_append, String.reduceToList, List.length_cons, List.length_nil]
    omega⟩
theorem Src.initW (h : Src g m cfg K D) : IsWord (initByteName g) ∧ (initByteName g).length ≤ 1100 :=
  ⟨identAppend h.drvUp.1 (by decide), by
    have := h.drvUp.2
    unfold initByteName
    simp only [List.length_append, String.reduceToList, List.length_cons, List.length_nil]
    omega⟩

/-- `arr[i++]` -/
theorem pNext (frame : Bool) : PPst (arrT frame ++ (.p ['['] :: (([.word "i".toList] ++ [.p ['+', '+']]) ++ [.p [']']])))
    (.index (arrE frame) (.incr (.id "i".toList))) := PPst.index (pArr frame) (((PPst.word "i".toList).incr).pa topLevel)

theorem line_initLoop (h : Src g m cfg K D) : GenS files D [.appendF (initLoopText g (arrText K.frame) m)] (stmsOf K (.initLoop m.dlc)) := by
  obtain ⟨dm, hm, nm⟩ := h.max
  obtain ⟨di, hi, ni⟩ := h.init
  obtain ⟨hmw, p, rfl⟩ := nm.toks
  obtain ⟨hiw, q, rfl⟩ := ni.toks
  have hv := expValid h hm hmw
  have hI := expNum (hide := []) h.base rfl hi hiw
  have a1 := PA.assign (op := ['=']) (by decide) ((PPst.word "i".toList).pa 11) ((pNum (w := "0u".toList) (by decide)).pa 12)
  have pv := pValid (pPar (ts := par [.word (decStr m.dlc ++ "U".toList)]) rfl (pNumU m.dlc).at0) (pNumToksPar hmw p)
  have a2 := PA.bin (k := 3) (op := ['<']) rfl rfl ((PPst.word "i".toList).pa 3) (pv.pa 3)
  have a3 := PA.assign (op := ['=']) (by decide) ((pNext K.frame).pa 11) ((pNumToks hiw q).pa 12)
  have hs := PStm.loop (a1.mono (l := topLevel) (by decide)) (a2.mono (by decide)) (a3.mono (by decide))
  have hd := PStm.decl0 (t := "uint8_t".toList) (n := "i".toList) (by decide)
  have hseq := (PSeq.one rfl hd).append (PSeq.one rfl hs)
  have w1 := h.validW
  have w2 := h.initW
  cases hk : K.frame with
  | false =>
    rw [hk] at hseq
    have hx := (h.base.lit [] "  uint8_t i; for (i = 0u; i < ").append (hv.append ((h.base.lit [] "; _d[i++] = ").append (hI.append (h.base.lit [] ");"))))
    simp only [stmsOf, hk]
    refine ⟨_, Gen.lineT [.l "  uint8_t i; for (i = 0u; i < ", .w (validateName g), .l "(", .w (m.name ++ "_DLC".toList), .l "); _d[i++] = ", .w (initByteName g), .l ");"]
      (by unfold initLoopText; seg_eqc; rfl) ⟨w1.1, h.dlcW.1, w2.1, trivial⟩ trivial ⟨w1.2, h.dlcW.2, w2.2, trivial⟩ (by seg_len) hx ?_ ?_, hseq⟩
    · tok_eq
    · tok_eq
  | true =>
    rw [hk] at hseq
    have hx := (h.base.lit [] "  uint8_t i; for (i = 0u; i < ").append (hv.append ((h.base.lit [] "; cframe->Data[i++] = ").append (hI.append (h.base.lit [] ");"))))
    simp only [stmsOf, hk]
    refine ⟨_, Gen.lineT [.l "  uint8_t i; for (i = 0u; i < ", .w (validateName g), .l "(", .w (m.name ++ "_DLC".toList), .l "); cframe->Data[i++] = ", .w (initByteName g), .l ");"]
      (by unfold initLoopText; seg_eqc; rfl) ⟨w1.1, h.dlcW.1, w2.1, trivial⟩ trivial ⟨w1.2, h.dlcW.2, w2.2, trivial⟩ (by seg_len) hx ?_ ?_, hseq⟩
    · tok_eq
    · tok_eq

end Lines

end Verif
