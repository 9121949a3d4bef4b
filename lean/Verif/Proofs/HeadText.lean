import Verif.Proofs.DefTable
/-
The beginning of the generated header, read by the preprocessor.
-/
namespace Verif
open Spec

variable {files : List (Str × Str)} {D0 E : Defs} {g : GenDesc}

/-! ### Definitions of constants -/

theorem isIdent_word {a b : Str} (h : IsIdent a) (hb : ∀ c ∈ b, isWordCh c = true) : IsIdent (a ++ b) := by
  cases a with
  | nil => exact h.elim
  | cons c a =>
    refine ⟨h.1, fun x hx => ?_⟩
    rcases List.mem_append.1 hx with hx | hx
    · exact h.2 x hx
    · have := hb x hx
      unfold isWordCh at this
      simp only [Bool.or_eq_true, Bool.and_eq_true, decide_eq_true_eq, beq_iff_eq] at this
      unfold IsLetter IsDigit
      rcases this with this | rfl
      · omega
      · decide

theorem isWord_ident {n : Str} (h : IsIdent n) : ∀ c ∈ n, isWordCh c = true := (ident_words h).2.1

/-- The text behind the name of a macro without parameters: a blank and the value. -/
theorem HP.obj {n r t : Str} (hn : IsIdent n) (hl : n.length ≤ 4000) (hr : PlainT r) (hrl : r.length ≤ 4000)
    (e : t = "#define ".toList ++ (n ++ ' ' :: r)) : HP files D0 E [.appendF t] [⟨false, n, .obj (lex (' ' :: r))⟩] [] := by
  subst e
  have hp : PlainT (n ++ ' ' :: r) := (plainT_word (isWord_ident hn)).append (PlainT.append (a := [' ']) (by decide) hr)
  refine HP.define (t := n ++ ' ' :: r) (ol_plain ((plain_lit (by decide)).append hp) ?_) (defOf_obj hn ?_)
  · simp only [List.length_append, List.length_cons, String.reduceToList, List.length_nil]
    omega
  · intro c q e
    injection e with e1 e2
    subst e1
    decide

theorem lex_parWord {w : Str} (hw : IsWord w) : lex (" (".toList ++ w ++ ")".toList) = par [.word w] := by
  have := lex_segs [.l " (", .w w, .l ")"] rfl ⟨hw, trivial⟩
  simp only [segText, Seg.text, List.append_nil] at this
  rw [List.append_assoc, this]
  rfl

/-- `#define N (w)` -/
theorem HP.num {n w t : Str} (hn : IsIdent n) (hl : n.length ≤ 4000) (hw : IsWord w) (hwl : w.length ≤ 1000)
    (e : t = "#define ".toList ++ (n ++ (" (".toList ++ w ++ ")".toList))) : HP files D0 E [.appendF t] [⟨false, n, .obj (par [.word w])⟩] [] := by
  have := HP.obj (files := files) (D0 := D0) (E := E) (r := "(".toList ++ w ++ ")".toList) (t := t) hn hl
    (((plain_lit (by decide)).append (plainT_word hw.2)).append (plain_lit (by decide)))
    (by simp only [List.length_append, String.reduceToList, List.length_cons, List.length_nil]; omega) e
  rw [← lex_parWord hw]
  exact this

/-! ### Includes -/

theorem includeOf_quote (n : Str) : includeOf ("#include \"".toList ++ n ++ "\"".toList) = some n := by
  have e : "#include \"".toList ++ n ++ "\"".toList = '#' :: 'i' :: 'n' :: 'c' :: 'l' :: 'u' :: 'd' :: 'e' :: ' ' :: '"' :: (n ++ ['"']) := by
    simp
  rw [e]
  have e2 : includeOf ('#' :: 'i' :: 'n' :: 'c' :: 'l' :: 'u' :: 'd' :: 'e' :: ' ' :: '"' :: (n ++ ['"'])) = some ((n ++ ['"']).dropLast) := rfl
  rw [e2, List.dropLast_concat]

theorem ol_include {n : Str} (hn : PlainT n) (hl : n.length ≤ 4000) : OL [.appendF ("#include \"".toList ++ n ++ "\"".toList)] ["#include \"".toList ++ n ++ "\"".toList] := by
  have e : "#include \"".toList ++ n ++ "\"".toList = "#include ".toList ++ '"' :: (n ++ ['"']) := by simp
  have hnl : '\n' ∉ "#include ".toList ++ '"' :: (n ++ ['"']) := by
    have := hn.parts.1
    simp [this]
  refine ⟨_, emits_line (t := "#include \"".toList ++ n ++ "\"".toList) ?_ ?_, ?_⟩
  · simp only [List.length_append, String.reduceToList, List.length_cons, List.length_nil]
    omega
  · rw [e]; exact hnl
  · rw [e]
    exact PPL.quote (plain_lit (by decide)) hn

/-- `#include` of a file that is not known. -/
theorem gen_include {n : Str} (hn : PlainT n) (hl : n.length ≤ 4000) (hf : files.lookup n = none) (D : Defs) :
    Gen files [.appendF ("#include \"".toList ++ n ++ "\"".toList)] D D [] :=
  Gen.silent (ol_include hn hl) fun c => Run.includeUnknown c (includeOf_quote n) hf

theorem gen_stdint (hf : files.lookup "stdint.h".toList = none) (D : Defs) : Gen files [opLine "#include <stdint.h>"] D D [] :=
  Gen.silent (ol_plain (plain_lit (by decide)) (by decide)) fun c => Run.includeUnknown c (n := "stdint.h".toList) (by rfl) hf

theorem gen_pragma (D : Defs) : Gen files [opLine "#pragma once"] D D [] :=
  Gen.silent (ol_plain (plain_lit (by decide)) (by decide)) fun c => Run.pragma c (rest := " once".toList) ⟨"pragma once".toList, rfl, rfl⟩

/-! ### C++ -/

theorem cpp_skip {l : Str} (hl : Skips files [l]) {D : Defs} (h : D.lookup "__cplusplus".toList = none) (out : List Tok) :
    Run files ["#ifdef __cplusplus".toList, l, "#endif".toList] ⟨D, out, false⟩ ⟨D, out, false⟩ := by
  have hi := ifLine_ifdef (files := files) (isDir_ifdef "__cplusplus".toList) ⟨D, out, false⟩
  rw [wordOf_ident' ⟨by decide, by decide⟩] at hi
  dsimp only at hi
  rw [h] at hi
  exact Run.ifSkip (a := [l]) hi endLine_plain hl

theorem notDir_extern : NotDir "extern \"C\" {".toList := by
  intro r h
  have e : dropBlank "extern \"C\" {".toList = "extern \"C\" {".toList := rfl
  rw [e] at h
  exact absurd (List.cons.inj h).1 (by decide)

theorem notDir_close : NotDir "}".toList := by
  intro r h
  have e : dropBlank "}".toList = "}".toList := rfl
  rw [e] at h
  exact absurd (List.cons.inj h).1 (by decide)

theorem ol_extern : OL [opLine "extern \"C\" {"] ["extern \"C\" {".toList] := by
  refine ⟨_, emits_line (t := "extern \"C\" {".toList) (by decide) (by decide), ?_⟩
  exact PPL.line (by decide) (by decide) (by decide) fun r => by
    have e : "extern \"C\" {".toList ++ '\n' :: r = "extern ".toList ++ ('"' :: ("C".toList ++ '"' :: (" {".toList ++ '\n' :: r))) := rfl
    rw [e, uncomment_plain _ _ (plain_lit (by decide)), uncomment_quote _ (by simp), uncomment_str _ _ (by decide),
      uncomment_plain _ _ (plain_lit (by decide)), uncomment_nl]
    rfl

theorem gen_cppOpen {D : Defs} (h : D.lookup "__cplusplus".toList = none) : Gen files [opLine "#ifdef __cplusplus\nextern \"C\" {\n#endif"] D D [] := by
  refine ⟨["#ifdef __cplusplus".toList, "extern \"C\" {".toList, "#endif".toList], ?_, fun out => ?_⟩
  · have h1 : OL [.appendF "#ifdef __cplusplus".toList] ["#ifdef __cplusplus".toList] := ol_plain (plain_lit (by decide)) (by decide)
    exact h1.nl (OL.nl ol_extern ol_endif (by decide) (by decide) (by decide)) (by decide) (by decide) (by decide)
  · rw [List.append_nil]
    exact cpp_skip (Skips.text notDir_extern) h out

theorem gen_cppClose {D : Defs} (h : D.lookup "__cplusplus".toList = none) : Gen files [opLine "#ifdef __cplusplus\n}\n#endif"] D D [] := by
  refine ⟨["#ifdef __cplusplus".toList, "}".toList, "#endif".toList], ?_, fun out => ?_⟩
  · have h1 : OL [.appendF "#ifdef __cplusplus".toList] ["#ifdef __cplusplus".toList] := ol_plain (plain_lit (by decide)) (by decide)
    have h2 : OL [.appendF "}".toList] ["}".toList] := ol_plain (plain_lit (by decide)) (by decide)
    exact h1.nl (OL.nl h2 ol_endif (by decide) (by decide) (by decide)) (by decide) (by decide) (by decide)
  · rw [List.append_nil]
    exact cpp_skip (Skips.text notDir_close) h out

/-! ### The beginning -/

/-- What is needed to read the header and the files it belongs to. -/
structure HeadOk (g : GenDesc) (files : List (Str × Str)) (D0 E : Defs) : Prop where
  base : Base E
  common : CommentText g.commonInfo
  driver : CommentText g.driverInfo
  drvUp : IsIdent g.drvUp ∧ g.drvUp.length ≤ 500
  drvLow : IsIdent g.drvLow ∧ g.drvLow.length ≤ 500
  drvOrig : IsIdent g.drvOrig ∧ g.drvOrig.length ≤ 500
  verhigh : IsIdent g.verhigh ∧ g.verhigh.length ≤ 1100
  verlow : IsIdent g.verlow ∧ g.verlow.length ≤ 1100
  ver : g.hiver < 2 ^ 64 ∧ g.lowver < 2 ^ 64
  flag : ∀ f, (D0.lookup (flagName g f)).isSome = true ∨ E.lookup (flagName g f) = none
  flagW : ∀ f, IsWord (flagName g f) ∧ (flagName g f).length ≤ 1100
  mono : (D0.lookup (g.drvUp ++ "_USE_MONO_FMON".toList)).isSome = true ∨ E.lookup (g.drvUp ++ "_USE_MONO_FMON".toList) = none
  cpp : E.lookup "__cplusplus".toList = none
  stdint : files.lookup "stdint.h".toList = none
  config : files.lookup (g.drvLow ++ "-config.h".toList) = none
  monutil : (E.lookup g.usemon).isSome = true → files.lookup "canmonitorutil.h".toList = none

/-- A comment line with fixed text. -/
theorem gen_cmt (s : String) (h : (match s.toList with | '/' :: '/' :: c => decide (c.length ≤ 9997 ∧ '\n' ∉ c ∧ c.getLast? ≠ some '\\') | _ => false) = true) (D : Defs) :
    Gen files [opLine s] D D [] := by
  unfold opLine
  split at h
  · rename_i c e
    rw [e]
    have := of_decide_eq_true h
    exact Gen.comment this.1 this.2.1 this.2.2
  · cases h

/-- The text that includes canmonitorutil.h. -/
def monIncOp : WOp := opLine "// This file must define:\n// base monitor struct\n#include \"canmonitorutil.h\"\n\n"

theorem ol_cmt (s : String) (h : (match s.toList with | '/' :: '/' :: c => decide (c.length ≤ 9997 ∧ '\n' ∉ c ∧ c.getLast? ≠ some '\\') | _ => false) = true) :
    OL [opLine s] [[' ']] := by
  unfold opLine
  split at h
  · rename_i c e
    rw [e]
    have := of_decide_eq_true h
    exact ⟨_, emits_line (by simpa using this.1) (by simpa using this.2.1), PPL.comment (a := []) plainT_nil this.2.1 this.2.2⟩
  · cases h

theorem ol_monInclude : OL [monIncOp] ([[' ']] ++ ([[' ']] ++ (["#include \"canmonitorutil.h\"".toList] ++ [[]]))) := by
  have h1 := ol_cmt "// This file must define:" (by decide)
  have h2 := ol_cmt "// base monitor struct" (by decide)
  have h3 : OL [.appendF "#include \"canmonitorutil.h\"".toList] ["#include \"canmonitorutil.h\"".toList] :=
    ol_include (n := "canmonitorutil.h".toList) (by decide) (by decide)
  have h4 : OL [.appendF ([] ++ ['\n'])] [[]] := OL.nlEnd (a := []) ⟨_, emits_appendF [], PPL.blank⟩ (by decide) (by decide)
  exact OL.nl h1 (OL.nl h2 (OL.nl h3 h4 (by decide) (by decide) (by decide)) (by decide) (by decide) (by decide)) (by decide) (by decide) (by decide)

theorem gen_monInclude (hf : files.lookup "canmonitorutil.h".toList = none) (D : Defs) : Gen files [monIncOp] D D [] := by
  refine Gen.silent ol_monInclude fun c => ?_
  exact (Run.space c).append ((Run.space c).append ((Run.includeUnknown c (includeOf_quote "canmonitorutil.h".toList) hf).append (Run.empty c)))

theorem skip_monInclude : GSkip files [monIncOp] := by
  refine ⟨_, ol_monInclude, ?_⟩
  have hs : Skips files ["#include \"canmonitorutil.h\"".toList] := by
    intro f d st hl
    rw [List.foldl_cons, List.foldl_nil]
    unfold ppStep
    rw [show includeOf "#include \"canmonitorutil.h\"".toList = some "canmonitorutil.h".toList from includeOf_quote "canmonitorutil.h".toList]
    simp [hl]
  exact (Run.space ⟨[], [], false⟩).1.append ((Run.space ⟨[], [], false⟩).1.append (hs.append (Run.empty ⟨[], [], false⟩).1))

/-- `(((msgDlc) <= (MAX)) ? (msgDlc) : (MAX))` -/
def validBody (g : GenDesc) : List Tok :=
  par (par (par [.word "msgDlc".toList] ++ .p ['<', '='] :: par [.word (maxDlcName g)]) ++ .p ['?'] :: (par [.word "msgDlc".toList] ++
      .p [':'] :: par [.word (maxDlcName g)]))

/-- Macros of the beginning of the header. -/
def startDefs (g : GenDesc) (maxDlc : Nat) : List DefE :=
  [⟨false, g.verhigh, .obj (par [.word (decStr g.hiver ++ "U".toList)])⟩,
   ⟨false, g.verlow, .obj (par [.word (decStr g.lowver ++ "U".toList)])⟩,
   ⟨true, maxDlcName g, .obj [.word (decStr maxDlc ++ "U".toList)]⟩,
   ⟨false, validateName g, .fn ["msgDlc".toList] (validBody g)⟩,
   ⟨true, initByteName g, .obj [.word "0U".toList]⟩]

theorem drvWord (h : IsIdent g.drvUp ∧ g.drvUp.length ≤ 500) (s : String) (hs : ∀ c ∈ s.toList, isWordCh c = true) (hl : s.toList.length ≤ 500) :
    IsIdent (g.drvUp ++ s.toList) ∧ (g.drvUp ++ s.toList).length ≤ 1000 :=
  ⟨isIdent_word h.1 hs, by rw [List.length_append]; omega⟩

theorem decStr_len64 {n : Nat} (h : n < 2 ^ 64) : (decStr n ++ "U".toList).length ≤ 1000 := by
  have := decStr_length (n := n) (k := 20) (by omega)
  rw [List.length_append]
  simp only [String.reduceToList, List.length_cons, List.length_nil]
  omega

theorem hp_validate (hd : IsIdent g.drvUp ∧ g.drvUp.length ≤ 500) : HP files D0 E
    [.appendF ("#define ".toList ++ validateName g ++ "(msgDlc) (((msgDlc) <= (".toList ++ maxDlcName g ++ ")) ? (msgDlc) : (".toList ++
     maxDlcName g ++ "))".toList)] [⟨false, validateName g, .fn ["msgDlc".toList] (validBody g)⟩] [] := by
  have h1 := drvWord hd "_VALIDATE_DLC" (by decide) (by decide)
  have h2 := drvWord hd "_MAX_DLC_VALUE" (by decide) (by decide)
  have l1 : (validateName g).length ≤ 1000 := h1.2
  have l2 : (maxDlcName g).length ≤ 1000 := h2.2
  have w2 : IsWord (maxDlcName g) := words_of_ident h2.1
  let l : List Seg := [.l "msgDlc) (((msgDlc) <= (", .w (maxDlcName g), .l ")) ? (msgDlc) : (", .w (maxDlcName g), .l "))"]
  have hw : SegsW l := ⟨w2, w2, trivial⟩
  have et : validateName g ++ '(' :: segText l = validateName g ++ "(msgDlc) (((msgDlc) <= (".toList ++ maxDlcName g ++ ")) ? (msgDlc) : (".toList ++
     maxDlcName g ++ "))".toList := by
    simp only [l, segText, Seg.text, String.reduceToList, List.append_assoc, List.cons_append, List.nil_append, List.append_nil]
  have hp : PlainT (validateName g ++ '(' :: segText l) :=
    (plainT_word (isWord_ident h1.1)).append (PlainT.append (a := ['(']) (by decide) (plain_segs rfl hw trivial))
  have hlen : (validateName g ++ '(' :: segText l).length ≤ 9000 := by
    have hs : SegsShort 1000 l := ⟨l2, l2, trivial⟩
    have := length_segs hs
    have e : segLen 1000 l ≤ 3000 := by
      simp only [l]
      seg_len
    simp only [List.length_append, List.length_cons]
    omega
  have hd : defOf (' ' :: (validateName g ++ '(' :: segText l)) = some (validateName g, .fn ["msgDlc".toList] (validBody g)) := by
    refine defOf_fn (inside := [.word "msgDlc".toList]) h1.1 ?_ rfl
    rw [lex_segs l rfl hw]
    rfl
  have := HP.define (files := files) (D0 := D0) (E := E) (a := [.appendF ("#define ".toList ++ (validateName g ++ '(' :: segText l))])
    (ol_plain ((plain_lit (by decide)).append hp) (length_lit_append _ (by decide) hlen (by omega))) hd
  rw [et] at this
  simpa only [List.append_assoc] using this

theorem ol_numDef {n w : Str} (hn : IsIdent n) (hl : n.length ≤ 4000) (hw : IsWord w) (hwl : w.length ≤ 1000) :
    OL [.appendF ("#define ".toList ++ (n ++ ' ' :: w))] ["#define ".toList ++ (n ++ ' ' :: w)] ∧ defOf (' ' :: (n ++ ' ' :: w)) = some (n, .obj [.word w]) := by
  have hp : PlainT (n ++ ' ' :: w) := (plainT_word (isWord_ident hn)).append (PlainT.append (a := [' ']) (by decide) (plainT_word hw.2))
  refine ⟨ol_plain ((plain_lit (by decide)).append hp) ?_, ?_⟩
  · simp only [List.length_append, List.length_cons, String.reduceToList, List.length_nil]
    omega
  · have := defOf_obj (r := ' ' :: w) hn (by intro c q e; injection e with e1 e2; subst e1; decide)
    rw [this]
    have e := lex_segs [.l " ", .w w] rfl ⟨hw, trivial⟩
    simp only [segText, Seg.text, List.append_nil] at e
    have e2 : ' ' :: w = " ".toList ++ w := rfl
    rw [e2, e]
    rfl

theorem hp_maxDlc (hd : IsIdent g.drvUp ∧ g.drvUp.length ≤ 500) {maxDlc : Nat} (hm : maxDlc < 2 ^ 64) : HP files D0 E
    [opIfndef (maxDlcName g), opLine "// The value which was found out by generator (real max value)",
     .appendF ("#define ".toList ++ maxDlcName g ++ " ".toList ++ decStr maxDlc ++ "U".toList), opLine "#endif"]
    [⟨true, maxDlcName g, .obj [.word (decStr maxDlc ++ "U".toList)]⟩] [] := by
  have h2 : IsIdent (maxDlcName g) ∧ (maxDlcName g).length ≤ 1000 := drvWord hd "_MAX_DLC_VALUE" (by decide) (by decide)
  obtain ⟨o, d⟩ := ol_numDef (n := maxDlcName g) (w := decStr maxDlc ++ "U".toList) h2.1 (by omega) (numW_decStrU _).word (decStr_len64 hm)
  have := HP.guarded (files := files) (D0 := D0) (E := E) (words_of_ident h2.1) (by omega) (gen_cmt "// The value which was found out by generator (real max value)" (by decide))
    o d closeOp_plain
  have e : "#define ".toList ++ maxDlcName g ++ " ".toList ++ decStr maxDlc ++ "U".toList =
      "#define ".toList ++ (maxDlcName g ++ ' ' :: (decStr maxDlc ++ "U".toList)) := by
    simp only [List.append_assoc]
    rfl
  rw [e]
  exact this

theorem hp_initByte (hd : IsIdent g.drvUp ∧ g.drvUp.length ≤ 500) : HP files D0 E
    [opIfndef (initByteName g), .appendF ("#define ".toList ++ initByteName g ++ " 0U".toList), opLine "#endif"]
    [⟨true, initByteName g, .obj [.word "0U".toList]⟩] [] := by
  have h2 : IsIdent (initByteName g) ∧ (initByteName g).length ≤ 1000 := drvWord hd "_INITIAL_BYTE_VALUE" (by decide) (by decide)
  obtain ⟨o, d⟩ := ol_numDef (n := initByteName g) (w := "0U".toList) h2.1 (by omega) ⟨by decide, by decide⟩ (by decide)
  have := HP.guarded (files := files) (D0 := D0) (E := E) (c := []) (words_of_ident h2.1) (by omega) (fun _ => Gen.nil) o d closeOp_plain
  have e : "#define ".toList ++ initByteName g ++ " 0U".toList = "#define ".toList ++ (initByteName g ++ ' ' :: "0U".toList) := by
    simp only [List.append_assoc]
    rfl
  rw [e]
  exact this

/-- `#ifdef` of a flag of the configuration around lines without an effect. -/
theorem HP.flagQuiet (h : HeadOk g files D0 E) (f : Flag) {a : List WOp} {y : WOp} (hy : CloseOp files y) (ha : ∀ D, Gen files a D D []) :
    HP files D0 E ([opIfdef (flagName g f)] ++ a ++ [y]) [] [] := by
  have hw := h.flagW f
  refine HP.quiet fun D _ _ => ?_
  have := Gen.ifdef hw.1 (by omega) hy (ha D)
  cases hd : (D.lookup (flagName g f)).isSome <;> rw [hd] at this <;> exact this

theorem plain_low (h : HeadOk g files D0 E) {s : String} (hs : s.toList.all plainCh = true) (hl : s.toList.length ≤ 100) :
    PlainT (g.drvLow ++ s.toList) ∧ (g.drvLow ++ s.toList).length ≤ 4000 :=
  ⟨(plainT_word (isWord_ident h.drvLow.1)).append (plain_lit hs), by have := h.drvLow.2; rw [List.length_append]; omega⟩

/-- The include line of the configuration. -/
def configIncOp (g : GenDesc) : WOp := .appendF ("#include \"".toList ++ g.drvLow ++ "-config.h\"".toList)

theorem configIncOp_eq : configIncOp g = .appendF ("#include \"".toList ++ (g.drvLow ++ "-config.h".toList) ++ "\"".toList) := by
  unfold configIncOp
  simp only [List.append_assoc]
  rfl

/-- The header up to the configuration. -/
def headA (g : GenDesc) : List WOp :=
  .appendText g.commonInfo :: .appendText g.driverInfo :: opLine "#pragma once" :: opEmpty ::
    ([opLine "#ifdef __cplusplus\nextern \"C\" {\n#endif"] ++ (opEmpty :: opLine "#include <stdint.h>" :: opEmpty :: opLine "// DBC file version" ::
    ([.appendF ("#define ".toList ++ g.verhigh ++ " (".toList ++ decStr g.hiver ++ "U)".toList)] ++
    ([.appendF ("#define ".toList ++ g.verlow ++ " (".toList ++ decStr g.lowver ++ "U)".toList)] ++
    [opEmpty, opLine "// include current dbc-driver compilation config"]))))

/-- The monitor struct in the header. -/
def headMon (g : GenDesc) : List WOp := [opIfdef g.usemon] ++ [monIncOp] ++ [opEndif g.usemon]

/-- The header between the monitor struct and the messages. -/
def headB (g : GenDesc) (maxDlc : Nat) : List WOp :=
    (.lines 2 :: opLine "// DLC maximum value which is used as the limit for frame's data buffer size." ::
    opLine "// Client can set its own value (not sure why) in driver-config" ::
    opLine "// or can test it on some limit specified by application" ::
    opLine "// e.g.: static_assert(TESTDB_MAX_DLC_VALUE <= APPLICATION_FRAME_DATA_SIZE, \"Max DLC value in the driver is too big\")" ::
    ([opIfndef (maxDlcName g), opLine "// The value which was found out by generator (real max value)",
     .appendF ("#define ".toList ++ maxDlcName g ++ " ".toList ++ decStr maxDlc ++ "U".toList), opLine "#endif"] ++
    (opEmpty :: opLine "// The limit is used for setting frame's data bytes" ::
    ([.appendF ("#define ".toList ++ validateName g ++ "(msgDlc) (((msgDlc) <= (".toList ++ maxDlcName g ++ ")) ? (msgDlc) : (".toList ++
     maxDlcName g ++ "))".toList)] ++
    (opEmpty :: opLine "// Initial byte value to be filles in data bytes of the frame before pack signals" ::
    opLine "// User can define its own custom value in driver-config file" ::
    ([opIfndef (initByteName g), .appendF ("#define ".toList ++ initByteName g ++ " 0U".toList), opLine "#endif"] ++ [.lines 2]))))))

theorem headerStart_eq (maxDlc : Nat) : headerStartOps g maxDlc = headA g ++ (configIncOp g :: opEmpty :: (headMon g ++ headB g maxDlc)) := rfl

/-- The version macros. -/
def verDefs (g : GenDesc) : List DefE :=
  [⟨false, g.verhigh, .obj (par [.word (decStr g.hiver ++ "U".toList)])⟩, ⟨false, g.verlow, .obj (par [.word (decStr g.lowver ++ "U".toList)])⟩]

/-- The macros behind the configuration. -/
def limitDefs (g : GenDesc) (maxDlc : Nat) : List DefE :=
  [⟨true, maxDlcName g, .obj [.word (decStr maxDlc ++ "U".toList)]⟩, ⟨false, validateName g, .fn ["msgDlc".toList] (validBody g)⟩,
   ⟨true, initByteName g, .obj [.word "0U".toList]⟩]

theorem headA_read {D1 : Defs} {files1 : List (Str × Str)} (h : HeadOk g files1 D1 E) (hs : files.lookup "stdint.h".toList = none) : HP files D0 E (headA g) (verDefs g) [] := by
  have h1 : HP files D0 E [.appendF ("#define ".toList ++ g.verhigh ++ " (".toList ++ decStr g.hiver ++ "U)".toList)]
      [⟨false, g.verhigh, .obj (par [.word (decStr g.hiver ++ "U".toList)])⟩] [] :=
    HP.num h.verhigh.1 (by have := h.verhigh.2; omega) (numW_decStrU _).word (decStr_len64 h.ver.1) (by simp only [List.append_assoc]; rfl)
  have h2 : HP files D0 E [.appendF ("#define ".toList ++ g.verlow ++ " (".toList ++ decStr g.lowver ++ "U)".toList)]
      [⟨false, g.verlow, .obj (par [.word (decStr g.lowver ++ "U".toList)])⟩] [] :=
    HP.num h.verlow.1 (by have := h.verlow.2; omega) (numW_decStrU _).word (decStr_len64 h.ver.2) (by simp only [List.append_assoc]; rfl)
  have hcpp : HP files D0 E [opLine "#ifdef __cplusplus\nextern \"C\" {\n#endif"] [] [] := HP.quiet fun D _ s => gen_cppOpen (s.none h.cpp)
  have hend : HP files D0 E [opEmpty, opLine "// include current dbc-driver compilation config"] [] [] :=
    HP.pre (fun D => Gen.empty) <| HP.pre (gen_cmt _ (by decide)) HP.nil
  unfold headA
  refine HP.pre (fun D => Gen.commentText h.common) <| HP.pre (fun D => Gen.commentText h.driver) <| HP.pre gen_pragma <| HP.pre (fun D => Gen.empty) ?_
  refine hcpp.append <| HP.pre (fun D => Gen.empty) <| HP.pre (gen_stdint hs) <| HP.pre (fun D => Gen.empty) <| HP.pre (gen_cmt _ (by decide)) ?_
  exact h1.append <| h2.append hend

theorem configInc_read (h : HeadOk g files D0 E) (D : Defs) : Gen files [configIncOp g] D D [] := by
  have hp := plain_low h (s := "-config.h") (by decide) (by decide)
  rw [configIncOp_eq]
  exact gen_include hp.1 hp.2 h.config D

theorem headMon_read (h : HeadOk g files D0 E) : HP files D0 E (headMon g) [] [] := by
  have hw : IsWord g.usemon ∧ g.usemon.length ≤ 1100 := h.flagW .useMon
  cases hm : E.lookup g.usemon with
  | none => exact HP.ifdefF hw.1 (by have := hw.2; omega) hm (closeOp_comment hw.1 (by have := hw.2; omega)) skip_monInclude
  | some d => exact HP.flagQuiet h .useMon (closeOp_comment hw.1 (by have := hw.2; omega)) (gen_monInclude (h.monutil (by rw [hm]; rfl)))

theorem headB_read (h : HeadOk g files D0 E) {maxDlc : Nat} (hm : maxDlc < 2 ^ 64) : HP files D0 E (headB g maxDlc) (limitDefs g maxDlc) [] := by
  have hend : HP files D0 E [.lines 2] [] [] := HP.quiet fun D _ _ => Gen.lines 2
  unfold headB
  refine HP.pre (fun D => Gen.lines 2) <| HP.pre (gen_cmt _ (by decide)) <| HP.pre (gen_cmt _ (by decide)) <|
    HP.pre (gen_cmt _ (by decide)) <| HP.pre (gen_cmt _ (by decide +kernel)) ?_
  refine (hp_maxDlc h.drvUp hm).append <| HP.pre (fun D => Gen.empty) <| HP.pre (gen_cmt _ (by decide)) ?_
  refine (hp_validate h.drvUp).append <| HP.pre (fun D => Gen.empty) <| HP.pre (gen_cmt _ (by decide)) <| HP.pre (gen_cmt _ (by decide)) ?_
  exact (hp_initByte h.drvUp).append hend

theorem headerStart_read (h : HeadOk g files D0 E) {maxDlc : Nat} (hm : maxDlc < 2 ^ 64) : HP files D0 E (headerStartOps g maxDlc) (startDefs g maxDlc) [] := by
  rw [headerStart_eq]
  exact (headA_read h h.stdint).append <| HP.pre (configInc_read h) <| HP.pre (fun D => Gen.empty) <| (headMon_read h).append (headB_read h hm)

end Verif
