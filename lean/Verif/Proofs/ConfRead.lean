import Verif.Proofs.DirRead
import Verif.Model.ConfText
/-
The configuration headers, read by the preprocessor and the C parser.
-/
namespace Verif
open Spec

variable {files : List (Str × Str)} {D D0 E : Defs} {g : GenDesc}

/-! ### Comments over several lines -/

/-- No comment ends inside the text. -/
def starOk (t : Str) : Bool := (t.zip t.tail).all fun p => !(p.1 == '*' && p.2 == '/')

theorem starOk_append {a b : Str} (ha : starOk a = true) (hb : starOk b = true) (hl : a.getLast? ≠ some '*') : starOk (a ++ b) = true := by
  induction a with
  | nil => exact hb
  | cons c a ih =>
    cases a with
    | nil =>
      cases b with
      | nil => rfl
      | cons d b =>
        have hc : c ≠ '*' := fun e => hl (by rw [e]; rfl)
        have hc : (c == '*') = false := by simpa using hc
        have hb : ((d :: b).zip b).all (fun p => !(p.1 == '*' && p.2 == '/')) = true := hb
        show ((c :: d :: b).zip (d :: b)).all (fun p => !(p.1 == '*' && p.2 == '/')) = true
        rw [List.zip_cons_cons, List.all_cons, hb, hc]
        rfl
    | cons d a =>
      have h1 : (!(c == '*' && d == '/')) = true ∧ starOk (d :: a) = true := by
        unfold starOk at ha ⊢
        simpa only [List.tail_cons, List.zip_cons_cons, List.all_cons, Bool.and_eq_true] using ha
      have h2 := ih h1.2 (by simpa using hl)
      show ((c :: d :: (a ++ b)).zip (d :: (a ++ b))).all (fun p => !(p.1 == '*' && p.2 == '/')) = true
      rw [List.zip_cons_cons, List.all_cons, h1.1]
      exact h2

theorem starOk_word {w : Str} (h : ∀ c ∈ w, isWordCh c = true) : starOk w = true := by
  unfold starOk
  rw [List.all_eq_true]
  intro p hp
  have := h p.1 (List.of_mem_zip hp).1
  have e : (p.1 == '*') = false := by
    rw [beq_eq_false_iff_ne]
    intro e
    rw [e] at this
    revert this
    decide
  rw [e]
  rfl

theorem word_last {w : Str} (h : ∀ c ∈ w, isWordCh c = true) : w.getLast? ≠ some '*' := by
  intro e
  have := h '*' (List.mem_of_getLast? e)
  revert this
  decide

theorem word_back {w : Str} (h : ∀ c ∈ w, isWordCh c = true) : '\\' ∉ w := by
  intro e
  have := h _ e
  revert this
  decide

/-- Lines, each ended. -/
def endLines (ls : List Str) : Str := ls.flatMap (· ++ ['\n'])

theorem emits_lineList {ls : List Str} (h : ∀ l ∈ ls, l.length ≤ 9999 ∧ '\n' ∉ l) : Emits (ls.map WOp.appendF) (endLines ls) := by
  induction ls with
  | nil => exact Emits.nil
  | cons l r ih => exact Emits.append (a := [_]) (emits_line (h l (by simp)).1 (h l (by simp)).2) (ih fun x hx => h x (by simp [hx]))

theorem gen_cmtBlock {ls : List Str} {t : Str} (hl : ∀ l ∈ ls, l.length ≤ 9999 ∧ '\n' ∉ l) (e : endLines ls = '/' :: '*' :: (t ++ "*/\n".toList)) (hb : '\\' ∉ t)
    (hs : starOk t = true) (hx : t.getLast? ≠ some '*') (D : Defs) : Gen files (ls.map WOp.appendF) D D [] :=
  Gen.silent ⟨_, emits_lineList hl, e ▸ PPL.blockComment hb hs hx⟩ Run.space

/-- The lines are a comment. -/
def cmtB (ls : List Str) : Bool :=
  let u := endLines ls
  let t := (u.drop 2).take (u.length - 5)
  ls.all (fun l => decide (l.length ≤ 9999 ∧ '\n' ∉ l)) && decide (u = '/' :: '*' :: (t ++ "*/\n".toList) ∧ '\\' ∉ t ∧ starOk t = true ∧ t.getLast? ≠ some '*')

theorem gen_cmtB {ls : List Str} (h : cmtB ls = true) (D : Defs) : Gen files (ls.map WOp.appendF) D D [] := by
  unfold cmtB at h
  rw [Bool.and_eq_true] at h
  obtain ⟨h1, h2⟩ := h
  obtain ⟨e, q1, q2, q3⟩ := of_decide_eq_true h2
  exact gen_cmtBlock (fun l hl => of_decide_eq_true (List.all_eq_true.1 h1 l hl)) e q1 q2 q3 D

/-- A comment with a word in its second line. -/
theorem gen_cmtWord {a x y : Str} {r : List Str} {w p q : Str} (hw : ∀ c ∈ w, isWordCh c = true) (hwl : w.length ≤ 1100)
    (h : (a.length ≤ 9999 ∧ '\n' ∉ a) ∧ (x.length ≤ 4000 ∧ '\n' ∉ x) ∧ (y.length ≤ 4000 ∧ '\n' ∉ y) ∧ ∀ l ∈ r, l.length ≤ 9999 ∧ '\n' ∉ l)
    (e1 : a ++ '\n' :: x = '/' :: '*' :: p) (e2 : y ++ '\n' :: endLines r = q ++ "*/\n".toList)
    (hp : '\\' ∉ p ∧ starOk p = true ∧ p.getLast? ≠ some '*') (hq : '\\' ∉ q ∧ starOk q = true ∧ q.getLast? ≠ some '*' ∧ q ≠ []) (D : Defs) :
    Gen files ((a :: (x ++ w ++ y) :: r).map WOp.appendF) D D [] := by
  obtain ⟨ha, hx, hy, hr⟩ := h
  refine gen_cmtBlock (t := p ++ (w ++ q)) ?_ ?_ ?_ ?_ ?_ D
  · intro l hl
    rcases List.mem_cons.1 hl with rfl | hl
    · exact ha
    · rcases List.mem_cons.1 hl with rfl | hl
      · refine ⟨by simp only [List.length_append]; omega, fun e => ?_⟩
        rcases List.mem_append.1 e with e | e
        · rcases List.mem_append.1 e with e | e
          · exact hx.2 e
          · have := hw _ e
            revert this
            decide
        · exact hy.2 e
      · exact hr l hl
  · have : endLines (a :: (x ++ w ++ y) :: r) = (a ++ '\n' :: x) ++ (w ++ (y ++ '\n' :: endLines r)) := by
      unfold endLines
      simp
    rw [this, e1, e2]
    simp
  · intro e
    rcases List.mem_append.1 e with e | e
    · exact hp.1 e
    · rcases List.mem_append.1 e with e | e
      · exact word_back hw e
      · exact hq.1 e
  · exact starOk_append hp.2.1 (starOk_append (starOk_word hw) hq.2.1 (word_last hw)) hp.2.2
  · rw [← List.append_assoc, List.getLast?_append]
    cases hh : q.getLast? with
    | none => exact absurd (List.getLast?_eq_none_iff.1 hh) hq.2.2.2
    | some c =>
      rw [hh] at hq
      exact hq.2.2.1

/-! ### The switches -/

/-- The line of a switch when the user has switched on `on`: the signs of the comment are taken away. -/
def switchLine (on : List Str) (n : Str) : WOp := if n ∈ on then .appendF ("#define ".toList ++ n) else switchOff n

/-- The macro of a switch. -/
def switchDef (on : List Str) (n : Str) : List DefE := if n ∈ on then [⟨false, n, .obj []⟩] else []

theorem gen_switchOff {n : Str} (h : ∀ c ∈ n, isWordCh c = true) (hl : n.length ≤ 1100) (D : Defs) : Gen files [switchOff n] D D [] := by
  refine Gen.silent (ls := [[' ']]) ⟨'/' :: '*' :: ((" #define ".toList ++ n ++ [' ']) ++ "*/\n".toList), ?_, PPL.blockComment ?_ ?_ ?_⟩ Run.space
  · have := emits_line (t := "/* #define ".toList ++ n ++ " */".toList) (by simp only [List.length_append, String.reduceToList, List.length_cons, List.length_nil]; omega) (by
      intro e
      rcases List.mem_append.1 e with e | e
      · rcases List.mem_append.1 e with e | e
        · revert e; decide
        · have := h _ e
          revert this
          decide
      · revert e; decide)
    have e : "/* #define ".toList ++ n ++ " */".toList ++ ['\n'] = '/' :: '*' :: ((" #define ".toList ++ n ++ [' ']) ++ "*/\n".toList) := by simp
    rw [e] at this
    exact this
  · intro e
    rcases List.mem_append.1 e with e | e
    · rcases List.mem_append.1 e with e | e
      · revert e; decide
      · exact word_back h e
    · revert e; decide
  · exact starOk_append (starOk_append (by decide) (starOk_word h) (by decide)) (by decide) (by
      rw [List.getLast?_append]
      cases hh : n.getLast? with
      | none => decide
      | some c =>
        have := word_last h
        rw [hh] at this
        exact this)
  · rw [List.getLast?_concat]
    decide

theorem hp_switch {n : Str} (on : List Str) (h : IsIdent n ∧ n.length ≤ 1100) : HP files D0 E [switchLine on n] (switchDef on n) [] := by
  unfold switchLine switchDef
  by_cases hn : n ∈ on
  · rw [if_pos hn, if_pos hn]
    have hw := isWord_ident h.1
    refine HP.define (t := n) (ol_plain ((plain_lit (by decide)).append (plainT_word hw)) (length_lit_append (k := 1100) _ (by decide) h.2 (by omega))) ?_
    have := defOf_obj (r := []) h.1 (by intro c q e; cases e)
    rw [List.append_nil] at this
    exact this
  · rw [if_neg hn, if_neg hn]
    exact HP.quiet fun D _ _ => gen_switchOff (isWord_ident h.1) h.2 D

/-! ### The configuration of the driver -/

/-- Comment 1 of the configuration. -/
def confCmt1 : List Str :=
  ["/* ------------------------------------------------------------------------- *".toList,
   "  This define enables using CAN message structs with bit-fielded signals".toList,
   "  layout.".toList,
   [],
   "  Note(!): bit-feild was not tested properly. */".toList]

/-- Comment 2 of the configuration. -/
def confCmt2 : List Str :=
  ["/* ------------------------------------------------------------------------- *".toList,
   "  This macro enables using CAN message descriptive struct packing functions".toList,
   "  (by default signature of pack function intakes a few simple typed params".toList,
   "  for loading data, len, etc). To compile you need to define the struct".toList,
   "  __CoderDbcCanFrame_t__ which must have fields:".toList,
   [],
   "    u32 MsgId (CAN Frame message ID)".toList,
   "    u8 DLC (CAN Frame payload length field)".toList,
   "    u8 Data[8] (CAN Frame payload data)".toList,
   "    u8 IDE (CAN Frame Extended (1) / Standard (0) ID type)".toList,
   [],
   "  This struct definition have to be placed (or be included) in dbccodeconf.h */".toList]

/-- Comment 3 of the configuration. -/
def confCmt3 : List Str :=
  ["/* ------------------------------------------------------------------------- *".toList,
   "  All the signals which have values of factor != 1 or offset != 0".toList,
   "  will be named in message struct with posfix '_ro'. Pack to payload".toList,
   "  operations will be made on this signal value as well as unpack from payload.".toList,
   [],
   "  USE_SIGFLOAT macro makes some difference:".toList,
   [],
   "  1. All the '_ro' fields will have a pair field with '_phys' postfix.".toList,
   "  If only offset != 0 is true then the type of '_phys' signal is the same".toList,
   "  as '_ro' signal. In other case the type will be @sigfloat_t which".toList,
   "  have to be defined in user dbccodeconf.h".toList,
   [],
   "  2. In pack function '_ro' signal will be rewritten by '_phys' signal, which".toList,
   "  requires from user to use ONLY '_phys' signal for packing frame".toList,
   [],
   "  3. In unpack function '_phys' signal will be written by '_ro' signal.".toList,
   "  User have to use '_phys' signal to read physical value. */".toList]

/-- Comment 4 of the configuration. -/
def confCmt4 : List Str :=
  ["/* ------------------------------------------------------------------------- *".toList,
   "  Note(!) that the \"canmonitorutil.h\" must be accessed in include path:".toList,
   [],
   "  This macro adds:".toList,
   [],
   "  - monitor field @mon1 to message struct".toList,
   [],
   "  - capture system tick in unpack function and save value to mon1 field".toList,
   "  to provide to user better missing frame detection code. For this case".toList,
   "  user must provide function declared in canmonitorutil.h - GetSysTick()".toList,
   "  which may return 1ms uptime.".toList,
   [],
   "  - calling function FMon_***  (from 'fmon' driver) inside unpack function".toList,
   "  which is empty by default and have to be filled by user if".toList,
   "  tests for DLC, rolling, checksum are necessary */".toList]

/-- Comment 5 of the configuration. -/
def confCmt5 (g : GenDesc) : List Str :=
  ["/* ------------------------------------------------------------------------- *".toList,
   "  When monitor using is enabled (".toList ++ g.usemon ++ ") and define below".toList,
   "  uncommented, additional signal will be added to message struct. ***_expt:".toList,
   "  expected rolling counter, to perform monitoring rolling counter sequence".toList,
   "  automatically (result may be tested in dedicated Fmon_*** function) */".toList]

/-- Comment 6 of the configuration. -/
def confCmt6 (g : GenDesc) : List Str :=
  ["/* ------------------------------------------------------------------------- *".toList,
   "  When monitor using is enabled (".toList ++ g.usemon ++ ") and define below".toList,
   "  uncommented, frame checksum signal may be handled automatically.".toList,
   [],
   "  The signal which may be marked as checksum signal must have substring".toList,
   "  with next format:".toList,
   "    <Checksum:XOR8:3>".toList,
   [],
   "  where:".toList,
   [],
   "  - \"Checksum\": constant marker word".toList,
   [],
   "  - \"XOR8\": type of method, this text will be passed to GetFrameHash".toList,
   "  (canmonitorutil.h) function as is, the best use case is to define 'enum".toList,
   "  DbcCanCrcMethods' in canmonitorutil.h file with all possible".toList,
   "  checksum algorithms (e.g. XOR8, XOR4 etc)".toList,
   [],
   "  - \"3\": optional value that will be passed to GetFrameHash as integer value".toList,
   [],
   "  Function GetFrameHash have to be implemented by user".toList,
   [],
   "  In pack function checksum signal will be calculated automatically".toList,
   "  and loaded to payload".toList,
   [],
   "  In unpack function checksum signal is checked with calculated.".toList,
   "  (result may be tested in dedicated Fmon_*** function). */".toList]

/-- Comment 7 of the configuration. -/
def confCmt7 : List Str :=
  ["/* ------------------------------------------------------------------------- *".toList,
   "  FMon handling model can be build in two ways: ".toList,
   [],
   "  1 - Default. In this case when specific frame unpack is called the ".toList,
   "  specific FMon_{Frame name}_{driver name} functoin will be called.".toList,
   "  User's code scope has to define each of these functions. Each function is".toList,
   "  responsible for the error handling of one frame".toList,
   [],
   "  2 - MONO. In this case there is only one function to perform any frame ".toList,
   "  monitoring. This function has to be implemented in the user's code scope.".toList,
   "  This function is named as FMon_MONO_{driver name}. It takes frame id".toList,
   "  which can be used for selection of the logic for a frame monitoring.".toList,
   "  This mode costs a bit more in runtime but when you often edit you DBC and you ".toList,
   "  have more than one project it could be more maintanable (there is".toList,
   "  no necessity to replace source code)".toList,
   [],
   "  For using MONO way uncomment line below */".toList]

/-- The configuration behind the common configuration. -/
def confTail (sw : Str → WOp) (g : GenDesc) : List WOp :=
  [.appendF [], .appendF []] ++ 
  (((confCmt1).map WOp.appendF) ++ ([.appendF []] ++ ([sw g.usebits] ++ ([.lines 2] ++ (((confCmt2).map WOp.appendF) ++ ([.appendF []] ++ ([sw g.usestruct] ++ ([.lines 2] ++ (((confCmt3).map WOp.appendF) ++ ([.appendF []] ++ ([sw g.usesigfloat] ++ ([.lines 2] ++ (((confCmt4).map WOp.appendF) ++ ([.appendF []] ++ ([sw g.usemon] ++ ([.lines 2] ++ (((confCmt5 g).map WOp.appendF) ++ ([.appendF []] ++ ([sw g.useroll] ++ ([.lines 2] ++ (((confCmt6 g).map WOp.appendF) ++ ([.appendF []] ++ ([sw g.usecsm] ++ ([.lines 2] ++ (((confCmt7).map WOp.appendF) ++ [sw g.usemono])))))))))))))))))))))))))

/-- The configuration up to the common configuration. -/
def confHead : List WOp := [.appendF [], opLine "/* include common dbccode configurations */"]

set_option maxRecDepth 8000 in
theorem fillConfig_eq (sw : Str → WOp) : fillConfigWith sw g = opLine "#pragma once" :: (confHead ++ (opLine "#include \"dbccodeconf.h\"" :: confTail sw g)) := rfl

/-- All switches. -/
def switches (g : GenDesc) : List Str := [g.usebits, g.usestruct, g.usesigfloat, g.usemon, g.useroll, g.usecsm, g.usemono]

/-- The macros of the switches that are on. -/
def confDefs (g : GenDesc) (on : List Str) : List DefE := (switches g).flatMap (switchDef on)

theorem cmt1 (D : Defs) : Gen files (confCmt1.map WOp.appendF) D D [] := gen_cmtB (by decide +kernel) D
theorem cmt2 (D : Defs) : Gen files (confCmt2.map WOp.appendF) D D [] := gen_cmtB (by decide +kernel) D
theorem cmt3 (D : Defs) : Gen files (confCmt3.map WOp.appendF) D D [] := gen_cmtB (by decide +kernel) D
theorem cmt4 (D : Defs) : Gen files (confCmt4.map WOp.appendF) D D [] := gen_cmtB (by decide +kernel) D
theorem cmt7 (D : Defs) : Gen files (confCmt7.map WOp.appendF) D D [] := gen_cmtB (by decide +kernel) D

/-- Comment 5 of the configuration behind its second line. -/
def confRest5 : List Str :=
  ["  uncommented, additional signal will be added to message struct. ***_expt:".toList,
   "  expected rolling counter, to perform monitoring rolling counter sequence".toList,
   "  automatically (result may be tested in dedicated Fmon_*** function) */".toList]

theorem cmt5 (hw : ∀ c ∈ g.usemon, isWordCh c = true) (hl : g.usemon.length ≤ 1100) (D : Defs) : Gen files ((confCmt5 g).map WOp.appendF) D D [] :=
  gen_cmtWord (a := "/* ------------------------------------------------------------------------- *".toList) (x := "  When monitor using is enabled (".toList) (y := ") and define below".toList) (r := confRest5) (w := g.usemon)
    (p := ("/* ------------------------------------------------------------------------- *".toList ++ '\n' :: "  When monitor using is enabled (".toList).drop 2)
    (q := (") and define below".toList ++ '\n' :: endLines confRest5).take ((") and define below".toList ++ '\n' :: endLines confRest5).length - 3))
    hw hl (by decide +kernel) (by decide +kernel) (by decide +kernel) (by decide +kernel) (by decide +kernel) D

/-- Comment 6 of the configuration behind its second line. -/
def confRest6 : List Str :=
  ["  uncommented, frame checksum signal may be handled automatically.".toList,
   [],
   "  The signal which may be marked as checksum signal must have substring".toList,
   "  with next format:".toList,
   "    <Checksum:XOR8:3>".toList,
   [],
   "  where:".toList,
   [],
   "  - \"Checksum\": constant marker word".toList,
   [],
   "  - \"XOR8\": type of method, this text will be passed to GetFrameHash".toList,
   "  (canmonitorutil.h) function as is, the best use case is to define 'enum".toList,
   "  DbcCanCrcMethods' in canmonitorutil.h file with all possible".toList,
   "  checksum algorithms (e.g. XOR8, XOR4 etc)".toList,
   [],
   "  - \"3\": optional value that will be passed to GetFrameHash as integer value".toList,
   [],
   "  Function GetFrameHash have to be implemented by user".toList,
   [],
   "  In pack function checksum signal will be calculated automatically".toList,
   "  and loaded to payload".toList,
   [],
   "  In unpack function checksum signal is checked with calculated.".toList,
   "  (result may be tested in dedicated Fmon_*** function). */".toList]

theorem cmt6 (hw : ∀ c ∈ g.usemon, isWordCh c = true) (hl : g.usemon.length ≤ 1100) (D : Defs) : Gen files ((confCmt6 g).map WOp.appendF) D D [] :=
  gen_cmtWord (a := "/* ------------------------------------------------------------------------- *".toList) (x := "  When monitor using is enabled (".toList) (y := ") and define below".toList) (r := confRest6) (w := g.usemon)
    (p := ("/* ------------------------------------------------------------------------- *".toList ++ '\n' :: "  When monitor using is enabled (".toList).drop 2)
    (q := (") and define below".toList ++ '\n' :: endLines confRest6).take ((") and define below".toList ++ '\n' :: endLines confRest6).length - 3))
    hw hl (by decide +kernel) (by decide +kernel) (by decide +kernel) (by decide +kernel) (by decide +kernel) D

/-- What the names of the switches need. -/
def SwitchOk (g : GenDesc) : Prop := ∀ n ∈ switches g, IsIdent n ∧ n.length ≤ 1100

theorem confTail_read (on : List Str) (h : SwitchOk g) : HP files D0 E (confTail (switchLine on) g) (confDefs g on) [] := by
  have hm : ∀ c ∈ g.usemon, isWordCh c = true := isWord_ident (h g.usemon (by simp [switches])).1
  have hl : g.usemon.length ≤ 1100 := (h g.usemon (by simp [switches])).2
  have s : ∀ n ∈ switches g, HP files D0 E [switchLine on n] (switchDef on n) [] := fun n hn => hp_switch on (h n hn)
  have n0 : ∀ D, Gen files [WOp.appendF []] D D [] := fun D => Gen.appendNil
  have l2 : ∀ D, Gen files [WOp.lines 2] D D [] := fun D => Gen.lines 2
  have := HP.pres (a := [.appendF [], .appendF []]) (fun D => Gen.append (a := [_]) (n0 D) (n0 D)) <| HP.pres cmt1 <| HP.pres n0 <| (s g.usebits (by simp [switches])).append <| HP.pres l2 <|
    HP.pres cmt2 <| HP.pres n0 <| (s g.usestruct (by simp [switches])).append <| HP.pres l2 <|
    HP.pres cmt3 <| HP.pres n0 <| (s g.usesigfloat (by simp [switches])).append <| HP.pres l2 <|
    HP.pres cmt4 <| HP.pres n0 <| (s g.usemon (by simp [switches])).append <| HP.pres l2 <|
    HP.pres (cmt5 hm hl) <| HP.pres n0 <| (s g.useroll (by simp [switches])).append <| HP.pres l2 <|
    HP.pres (cmt6 hm hl) <| HP.pres n0 <| (s g.usecsm (by simp [switches])).append <| HP.pres l2 <|
    HP.pres cmt7 (s g.usemono (by simp [switches]))
  refine (this.eqD ?_).eqO rfl
  unfold confDefs switches
  simp only [List.flatMap_cons, List.flatMap_nil, List.append_nil]

theorem confHead_read (D : Defs) : Gen files confHead D D [] :=
  Gen.cons Gen.appendNil (gen_blockOk (s := "/* include common dbccode configurations */") (by decide +kernel) D)

end Verif
