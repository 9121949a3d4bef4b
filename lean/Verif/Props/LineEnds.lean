import Verif.Props.StmtOrder
import Verif.Props.FileLines
/-
C80: line ends, white space at the end of lines and blank lines of the DBC file.
-/
namespace Verif
open Spec

/-- Of the lines (trimmed), one begins a statement and none from there on ends one. -/
def Spec.StillOpen (k : Kw) (ls : List Str) : Prop := ∃ a l b, ls = a ++ l :: b ∧ k.text <+: l ∧ ∀ x ∈ l :: b, x.getLast? ≠ some ';'

/-- A line that consists of white space (of a file; the trimmed line is empty or a line feed). -/
def Spec.BlankLine (P : Platform) (l : Str) : Prop := ∀ c ∈ l, gtBlank P.charMax c = false

/-- Two files with the same lines up to what `strTrim` removes at their ends, and up to blank lines that do not stand inside a statement. -/
inductive Spec.SameLines (P : Platform) : List Str → List Str → Prop
  | nil : SameLines P [] []
  | line {a b : List Str} {l l' : Str} : SameLines P a b → strTrim P.charMax l = strTrim P.charMax l' → SameLines P (a ++ [l]) (b ++ [l'])
  | left {a b : List Str} {l : Str} : SameLines P a b → BlankLine P l → (∀ k, ¬ StillOpen k (a.map (strTrim P.charMax))) → SameLines P (a ++ [l]) b
  | right {a b : List Str} {l : Str} : SameLines P a b → BlankLine P l → (∀ k, ¬ StillOpen k (a.map (strTrim P.charMax))) → SameLines P a (b ++ [l])

/-- The text with the line ends of Windows. -/
def Spec.withCr (text : Str) : Str := text.flatMap fun c => if c = '\n' then ['\r', '\n'] else [c]

/-! ### Blank lines -/

theorem takeWhile_whole {p : Char → Bool} {l : Str} (h : ∀ x ∈ l, p x = true) : l.takeWhile p = l := by
  induction l with
  | nil => rfl
  | cons c l ih => rw [List.takeWhile_cons_of_pos (h c List.mem_cons_self), ih fun x hx => h x (List.mem_cons_of_mem _ hx)]

theorem trim_blank {P : Platform} {l : Str} (h : BlankLine P l) : strTrim P.charMax l = [] ∨ strTrim P.charMax l = ['\n'] := by
  unfold strTrim
  cases l with
  | nil => exact .inr rfl
  | cons c t =>
    refine .inl ?_
    have e : (c :: t).reverse.takeWhile (fun x => !gtBlank P.charMax x) = (c :: t).reverse :=
      takeWhile_whole fun x hx => by rw [h x (List.mem_reverse.1 hx)]; rfl
    dsimp only
    rw [e, List.length_reverse, if_neg (by simp), if_pos (by simp), Nat.sub_self, List.take_zero]

theorem blank_inert {P : Platform} {l : Str} (h : BlankLine P l) : Inert P (strTrim P.charMax l) := by
  rcases trim_blank h with e | e <;> rw [e] <;> exact ⟨by rfl, by rfl, by rfl, fun q => nomatch q⟩

theorem blank_kw {P : Platform} {l : Str} (h : BlankLine P l) (k : Kw) : ¬ k.text <+: strTrim P.charMax l := by
  rcases trim_blank h with e | e <;> rw [e] <;> cases k <;> decide

theorem blank_end {P : Platform} {l : Str} (h : BlankLine P l) : (strTrim P.charMax l).getLast? ≠ some ';' := by
  rcases trim_blank h with e | e <;> rw [e] <;> decide

/-! ### Open statements -/

theorem open_snoc {k : Kw} {ls : List Str} {x : Str} (h : StillOpen k ls) (hx : x.getLast? ≠ some ';') : StillOpen k (ls ++ [x]) := by
  obtain ⟨a, l, b, rfl, h1, h2⟩ := h
  refine ⟨a, l, b ++ [x], by simp, h1, fun y hy => ?_⟩
  rw [← List.cons_append, List.mem_append] at hy
  rcases hy with hy | hy
  · exact h2 y hy
  · exact List.mem_singleton.1 hy ▸ hx

theorem open_of_snoc {k : Kw} {ls : List Str} {x : Str} (hx : ¬ k.text <+: x) (h : StillOpen k (ls ++ [x])) : StillOpen k ls := by
  obtain ⟨a, l, b, e, h1, h2⟩ := h
  rcases List.eq_nil_or_concat b with rfl | ⟨b, y, rfl⟩
  · have := (List.append_inj' e rfl).2
    cases this
    exact absurd h1 hx
  · rw [List.concat_eq_append] at *
    rw [show a ++ l :: (b ++ [y]) = (a ++ l :: b) ++ [y] by simp] at e
    refine ⟨a, l, b, (List.append_inj' e rfl).1, h1, fun z hz => h2 z ?_⟩
    rw [← List.cons_append]
    exact List.mem_append_left _ hz

/-- What is collected belongs to an open statement. -/
theorem collect_kept {start sep acc l : Str} (h : (collect start sep acc l).1 ≠ []) : l.getLast? ≠ some ';' ∧ (start <+: l ∨ acc ≠ []) := by
  unfold collect at h
  split at h
  · rename_i q
    rw [List.length_eq_zero_iff.1 q]
    exact ⟨by decide, .inr h⟩
  · dsimp only at h
    by_cases hs : start <+: l
    · rw [if_pos (List.isPrefixOf_iff_prefix.2 hs)] at h
      refine ⟨fun e => ?_, .inl hs⟩
      rename_i q
      rw [if_pos ⟨Nat.pos_of_ne_zero q, e⟩] at h
      exact h rfl
    · rw [if_neg (fun q => hs (List.isPrefixOf_iff_prefix.1 q))] at h
      cases acc with
      | nil => exact absurd rfl h
      | cons c acc =>
        refine ⟨fun e => ?_, .inr (List.cons_ne_nil _ _)⟩
        rw [if_pos (by simp : 0 < (c :: acc).length), if_pos ⟨by simp, e⟩] at h
        exact h rfl

/-- The collected text of a kind. -/
def lineOf (s : Scan2) : Kw → Str
  | .comment => s.commentline
  | .attr => s.attribline
  | .value => s.valueline

theorem lineOf_step (P : Platform) (s : Scan2) (l : Str) (k : Kw) : ∃ sep, lineOf (scanLine2 P s l) k = (collect k.text sep (lineOf s k) l).1 := by
  have hc : (commentStep P s l).commentline = (collect "CM_".toList ['\n'] s.commentline l).1 ∧ (commentStep P s l).attribline = s.attribline ∧
      (commentStep P s l).valueline = s.valueline := by
    unfold commentStep parseCommentLine
    cases collect "CM_".toList ['\n'] s.commentline l with
    | mk acc o =>
      cases o with
      | none => exact ⟨rfl, rfl, rfl⟩
      | some t =>
        dsimp only
        cases finishComment P s.cm t with
        | mk cm b => cases b <;> exact ⟨rfl, rfl, rfl⟩
  have hv : ∀ s : Scan2, (valueStep P s l).valueline = (collect "VAL_ ".toList [] s.valueline l).1 ∧ (valueStep P s l).attribline = s.attribline ∧
      (valueStep P s l).commentline = s.commentline := by
    intro s
    unfold valueStep parseValTableLine
    cases collect "VAL_ ".toList [] s.valueline l with
    | mk acc o =>
      cases o with
      | none => exact ⟨rfl, rfl, rfl⟩
      | some t =>
        dsimp only
        cases finishVal P t <;> exact ⟨rfl, rfl, rfl⟩
  have ha : ∀ s : Scan2, (attribStep P s l).attribline = (collect "BA_ ".toList [] s.attribline l).1 ∧ (attribStep P s l).valueline = s.valueline ∧
      (attribStep P s l).commentline = s.commentline := by
    intro s
    unfold attribStep parseAttributeLine
    cases collect "BA_ ".toList [] s.attribline l with
    | mk acc o =>
      cases o with
      | none => exact ⟨rfl, rfl, rfl⟩
      | some t =>
        dsimp only
        cases finishAttr P t <;> exact ⟨rfl, rfl, rfl⟩
  unfold scanLine2
  cases k with
  | comment => exact ⟨['\n'], ((ha _).2.2.trans (hv _).2.2).trans hc.1⟩
  | attr => exact ⟨[], by show (attribStep P _ l).attribline = _; rw [(ha _).1, (hv _).2.1, hc.2.1]; rfl⟩
  | value => exact ⟨[], by show (attribStep P _ l).valueline = _; rw [(ha _).2.1, (hv _).1, hc.2.2]; rfl⟩

theorem collected_open (P : Platform) (k : Kw) {ls : List Str} {s : Scan2} {pre : List Str} (hs : lineOf s k ≠ [] → StillOpen k pre)
    (h : lineOf (parseOtherInfo P s ls) k ≠ []) : StillOpen k (pre ++ ls.map (strTrim P.charMax)) := by
  unfold parseOtherInfo at h
  induction ls generalizing s pre with
  | nil => rw [List.map_nil, List.append_nil]; exact hs h
  | cons l ls ih =>
    rw [List.foldl_cons] at h
    rw [List.map_cons, show pre ++ strTrim P.charMax l :: ls.map (strTrim P.charMax) = (pre ++ [strTrim P.charMax l]) ++ ls.map (strTrim P.charMax) by simp]
    refine ih (fun q => ?_) h
    obtain ⟨sep, e⟩ := lineOf_step P s (strTrim P.charMax l) k
    rw [e] at q
    obtain ⟨h1, h2⟩ := collect_kept q
    rcases h2 with h2 | h2
    · exact ⟨pre, _, [], rfl, h2, fun x hx => List.mem_singleton.1 hx ▸ h1⟩
    · exact open_snoc (hs h2) h1

/-- A blank line outside statements does nothing in the second pass. -/
theorem blank_step {P : Platform} {s : Scan2} (h0 : ∀ k, lineOf s k = []) {a : List Str} (ha : ∀ k, ¬ StillOpen k (a.map (strTrim P.charMax))) {l : Str} (hl : BlankLine P l) :
    parseOtherInfo P s (a ++ [l]) = parseOtherInfo P s a := by
  have hc : ∀ k, lineOf (parseOtherInfo P s a) k = [] := fun k => Classical.not_not.1 fun q => ha k (by
    have := collected_open P k (pre := []) (fun q' => absurd (h0 k) q') q
    exact this)
  rw [parseOtherInfo_append]
  generalize parseOtherInfo P s a = t at hc
  show scanLine2 P t _ = t
  unfold scanLine2
  rw [commentStep_other P (hc .comment) (blank_kw hl .comment), valueStep_other P (hc .value) (blank_kw hl .value), attribStep_other P (hc .attr) (blank_kw hl .attr)]

/-! ### Files -/

theorem sameLines_scan {P : Platform} {a b : List Str} (h : SameLines P a b) (st : Scan) : scanLines P st a = scanLines P st b := by
  induction h with
  | nil => rfl
  | line _ e ih =>
    rw [scanLines_append, scanLines_append, ih]
    cases scanLines P st _ with
    | ok s => dsimp only; unfold scanLines; rw [e]
    | ub => rfl
    | throws => rfl
  | left _ hl _ ih =>
    rw [scanLines_append, ih]
    cases scanLines P st _ with
    | ok s => exact scan_inert (fun x hx => List.mem_singleton.1 hx ▸ blank_inert hl) s
    | ub => rfl
    | throws => rfl
  | right _ hl _ ih =>
    rw [scanLines_append, ih]
    cases scanLines P st _ with
    | ok s => exact (scan_inert (fun x hx => List.mem_singleton.1 hx ▸ blank_inert hl) s).symm
    | ub => rfl
    | throws => rfl

theorem sameLines_other {P : Platform} {a b : List Str} (h : SameLines P a b) {s : Scan2} (h0 : ∀ k, lineOf s k = []) : parseOtherInfo P s a = parseOtherInfo P s b := by
  induction h with
  | nil => rfl
  | line _ e ih =>
    rw [parseOtherInfo_append, parseOtherInfo_append, ih]
    show scanLine2 P _ _ = scanLine2 P _ _
    rw [e]
  | left _ hl ho ih => rw [blank_step h0 ho hl, ih]
  | @right a b l _ hl ho ih =>
    rw [← blank_step h0 ho hl, parseOtherInfo_append, ih, ← parseOtherInfo_append]

/-- The scanner returns the same list for both files, or fails in the same way. -/
theorem C80_scanner_partial (P : Platform) (text text' : Str) (h : SameLines P (getLines text) (getLines text')) : trimDbcText P text' = trimDbcText P text := by
  unfold trimDbcText parseMessageInfo
  rw [sameLines_scan h]
  cases scanLines P { list := {} } (getLines text') with
  | ok st =>
    dsimp only
    rw [sameLines_other h fun k => by cases k <;> rfl]
  | ub => rfl
  | throws => rfl

/-- **C80**, except for blank lines inside a statement: for every command line the run on the second file ends the same way and writes the same files in the same order. -/
theorem C80_run_partial (H : RunHost) (dbc' : Str → Option (Option Str)) (args : List Str) (path text text' : Str) (ha : Asks args path)
    (h1 : H.dbc path = some (some text)) (h2 : dbc' path = some (some text')) (h : SameLines H.plat (getLines text) (getLines text')) :
    runApp { H with dbc := dbc' } args = runApp H args := by
  rw [runApp_read ha h1, runApp_read (H := { H with dbc := dbc' }) ha h2, C80_scanner_partial H.plat text text' h]
  rfl

/-! ### Line ends of Windows -/

theorem trim_cr (P : Platform) {l : Str} (h : l ≠ []) : strTrim P.charMax (l ++ ['\r']) = strTrim P.charMax l := by
  unfold strTrim
  have hn : gtBlank P.charMax '\r' = false := rfl
  have e : (l ++ ['\r']).reverse.takeWhile (fun c => !gtBlank P.charMax c) = '\r' :: l.reverse.takeWhile (fun c => !gtBlank P.charMax c) := by
    rw [List.reverse_append, List.reverse_singleton, List.singleton_append, List.takeWhile_cons_of_pos (by rw [hn]; rfl)]
  have h1 : l.isEmpty = false := by cases l with
    | nil => exact absurd rfl h
    | cons _ _ => rfl
  have h2 : (l ++ ['\r']).isEmpty = false := by cases l <;> rfl
  rw [h1, h2]
  dsimp only
  rw [e, if_neg (c := false = true) (by decide), if_neg (c := false = true) (by decide), List.length_cons, if_pos (Nat.succ_ne_zero _), List.length_append, List.length_singleton]
  have hle : (l.reverse.takeWhile fun c => !gtBlank P.charMax c).length ≤ l.length := by
    rw [← List.length_reverse (as := l)]
    exact (List.takeWhile_sublist _).length_le
  generalize (l.reverse.takeWhile fun c => !gtBlank P.charMax c).length = n at *
  rw [show l.length + 1 - (n + 1) = l.length - n by omega, List.take_append_of_le_length (by omega)]
  split
  · rfl
  · rename_i q
    have : n = 0 := Classical.not_not.1 q
    rw [this, Nat.sub_zero, List.take_length]

theorem withCr_line {l : Str} (h : '\n' ∉ l) : withCr l = l := by
  unfold withCr
  induction l with
  | nil => rfl
  | cons c l ih =>
    rw [List.flatMap_cons, if_neg (fun q : c = '\n' => h (q ▸ List.mem_cons_self)), ih fun q => h (List.mem_cons_of_mem _ q)]
    rfl

theorem withCr_append (a b : Str) : withCr (a ++ b) = withCr a ++ withCr b := List.flatMap_append

theorem withCr_lines (ls : List Str) (h : ∀ l ∈ ls, '\n' ∉ l) (last : Str) (hl : '\n' ∉ last) :
    withCr (ls.flatMap (fun l => l ++ ['\n']) ++ last) = (ls.map (· ++ ['\r'])).flatMap (fun l => l ++ ['\n']) ++ last := by
  rw [withCr_append, withCr_line hl]
  refine congrArg (· ++ last) ?_
  induction ls with
  | nil => rfl
  | cons l ls ih =>
    rw [List.flatMap_cons, withCr_append, withCr_append, withCr_line (h l List.mem_cons_self), ih fun x hx => h x (List.mem_cons_of_mem _ hx), List.map_cons, List.flatMap_cons]
    rw [show withCr ['\n'] = ['\r'] ++ ['\n'] from rfl]
    simp

theorem sameLines_cr (P : Platform) {ls r : List Str} (h : ∀ a b, ls = a ++ [] :: b → ∀ k, ¬ StillOpen k ((r ++ a).map (strTrim P.charMax))) {r' : List Str} (hr : SameLines P r r') :
    SameLines P (r ++ ls) (r' ++ ls.map (· ++ ['\r'])) := by
  induction ls generalizing r r' with
  | nil => rw [List.map_nil, List.append_nil, List.append_nil]; exact hr
  | cons l ls ih =>
    rw [List.map_cons, show r ++ l :: ls = (r ++ [l]) ++ ls by simp, show r' ++ (l ++ ['\r']) :: ls.map (· ++ ['\r']) = (r' ++ [l ++ ['\r']]) ++ ls.map (· ++ ['\r']) by simp]
    refine ih (fun a b e k => ?_) ?_
    · rw [show r ++ [l] ++ a = r ++ (l :: a) by simp]
      exact h (l :: a) b (by rw [e]; rfl) k
    · by_cases hl : l = []
      · subst hl
        have ho : ∀ k, ¬ StillOpen k (r.map (strTrim P.charMax)) := fun k => by
          have := h [] ls rfl k
          rwa [List.append_nil] at this
        have hb : BlankLine P [] := fun c hc => nomatch hc
        refine .right (.left hr hb ho) (fun c hc => ?_) fun k q => ho k ?_
        · rw [List.mem_singleton.1 hc]
          rfl
        · rw [List.map_append] at q
          exact open_of_snoc (blank_kw hb k) q
      · exact .line hr (trim_cr P hl).symm

/-- **C80**, line ends: a file with the line ends of Windows, if no empty line stands inside a statement. -/
theorem C80_crlf_partial (H : RunHost) (dbc' : Str → Option (Option Str)) (args : List Str) (path text : Str) (ha : Asks args path)
    (h1 : H.dbc path = some (some text)) (h2 : dbc' path = some (some (withCr text)))
    (h : ∀ a b, getLines text = a ++ [] :: b → ∀ k, ¬ StillOpen k (a.map (strTrim H.plat.charMax))) :
    runApp { H with dbc := dbc' } args = runApp H args := by
  refine C80_run_partial H dbc' args path text (withCr text) ha h1 h2 ?_
  obtain ⟨ls, last, q1, q2, rfl⟩ := C27_lines_all text
  have q1' : ∀ l ∈ ls.map (· ++ ['\r']), '\n' ∉ l := by
    intro l hl
    obtain ⟨x, hx, rfl⟩ := List.mem_map.1 hl
    intro q
    rcases List.mem_append.1 q with q | q
    · exact q1 x hx q
    · exact absurd (List.mem_singleton.1 q) (by decide)
  rw [withCr_lines ls q1 last q2]
  by_cases hl : last = []
  · subst hl
    rw [List.append_nil] at h ⊢
    rw [List.append_nil, (C27_lines _ q1).1, (C27_lines _ q1').1]
    rw [(C27_lines _ q1).1] at h
    have := sameLines_cr H.plat (ls := ls) (r := []) (fun a b e k => h a b e k) .nil
    exact this
  · rw [(C27_lines _ q1).2 last q2 hl, (C27_lines _ q1').2 last q2 hl]
    rw [(C27_lines _ q1).2 last q2 hl] at h
    have := sameLines_cr H.plat (ls := ls) (r := []) (fun a b e k => h a (b ++ [last]) (by rw [e]; simp) k) .nil
    exact .line this rfl

/-! ### Examples -/

/-- A check for `StillOpen`. -/
def openB (k : Kw) (ls : List Str) : Bool := (ls.reverse.takeWhile fun x => x.getLast? != some ';').any fun x => k.text.isPrefixOf x

theorem openB_of {k : Kw} {ls : List Str} (h : StillOpen k ls) : openB k ls = true := by
  obtain ⟨a, l, b, rfl, h1, h2⟩ := h
  unfold openB
  rw [List.any_eq_true]
  refine ⟨l, ?_, List.isPrefixOf_iff_prefix.2 h1⟩
  rw [show (a ++ l :: b).reverse = (l :: b).reverse ++ a.reverse by simp, List.takeWhile_append_of_pos]
  · exact List.mem_append_left _ (List.mem_reverse.2 List.mem_cons_self)
  · intro x hx
    exact bne_iff_ne.2 (h2 x (List.mem_reverse.1 hx))

/-- No empty line inside a statement. -/
def closedB (P : Platform) (ls : List Str) : Bool :=
  (List.range ls.length).all fun i => ls.getD i [' '] != [] || [Kw.comment, .attr, .value].all fun k => !openB k ((ls.take i).map (strTrim P.charMax))

theorem closedB_of {P : Platform} {ls : List Str} (h : closedB P ls = true) : ∀ a b, ls = a ++ [] :: b → ∀ k, ¬ StillOpen k (a.map (strTrim P.charMax)) := by
  rintro a b rfl k ho
  have h := List.all_eq_true.1 h a.length (List.mem_range.2 (by simp))
  rw [List.take_left' rfl, Bool.or_eq_true] at h
  rcases h with h | h
  · simp at h
  · have := List.all_eq_true.1 h k (by cases k <;> decide)
    rw [openB_of ho] at this
    cases this

namespace Fix

/-- A comment with an empty line. -/
def crText : Str := "BO_ 5 Y: 8 B\n SG_ T : 0|4@1+ (1,0) [0|0] \"\" B\nCM_ SG_ 5 T \"one\n\ntwo\";\n".toList

end Fix

/-- A file with two messages, empty lines and statements, one of them over two lines. -/
example : runApp (Fix.openHost (withCr Fix.talkText)) Fix.dirArgs = runApp (Fix.openHost Fix.talkText) Fix.dirArgs :=
  C80_crlf_partial (Fix.openHost Fix.talkText) (Fix.otherDbc (withCr Fix.talkText)) Fix.dirArgs "in/my.dbc".toList Fix.talkText ((asks_iff _ _).2 (by decide +kernel)) rfl rfl
    (closedB_of (by decide +kernel))

/-- The empty lines of that file. -/
example : ((getLines Fix.talkText).filter (· == [])).length = 4 ∧ (getLines (withCr Fix.talkText)).all (fun l => l.getLast? == some '\r') = true := by decide +kernel

/-- Blank lines are put between statements and removed. -/
example : SameLines platIns (["BO_ 5 Y: 8 B", "", "CM_ BO_ 5 \"y\";"].map String.toList) (["BO_ 5 Y: 8 B ", "CM_ BO_ 5 \"y\";\r", " \t"].map String.toList) := by
  have hb : ∀ l ∈ [[], " \t".toList], BlankLine platIns l := by unfold BlankLine; decide +kernel
  have hno : ∀ (ls : List Str), ([Kw.comment, .attr, .value].all fun k => !openB k (ls.map (strTrim platIns.charMax))) = true → ∀ k, ¬ StillOpen k (ls.map (strTrim platIns.charMax)) := by
    intro ls h k ho
    have := List.all_eq_true.1 h k (by cases k <;> decide)
    rw [openB_of ho] at this
    cases this
  have h1 : SameLines platIns ["BO_ 5 Y: 8 B".toList] ["BO_ 5 Y: 8 B ".toList] := .line .nil (by decide +kernel)
  have h2 := SameLines.left h1 (hb [] (by decide)) (hno _ (by decide +kernel))
  have h3 := SameLines.line (l := "CM_ BO_ 5 \"y\";".toList) (l' := "CM_ BO_ 5 \"y\";\r".toList) h2 (by decide +kernel)
  exact .right h3 (hb " \t".toList (by decide)) (hno _ (by decide +kernel))

/-- **C80** is false in full: an empty line of a comment is kept with the line ends of Unix and lost with those of Windows. -/
theorem C80_refuted : ∃ (H : RunHost) (dbc' : Str → Option (Option Str)) (args : List Str) (path text : Str) (files files' : List (Str × Str)) (p : Str),
    SortsByStart H.plat ∧ (∀ l, SortedBy (H.sort l) l) ∧ (∀ p, H.canOpen p = true) ∧ H.dbc path = some (some text) ∧ dbc' path = some (some (withCr text)) ∧ Asks args path ∧
    runApp H args = .done files ∧ runApp { H with dbc := dbc' } args = .done files' ∧ onDisk files' p ≠ onDisk files p := by
  have h : Fix.differ "gen/lib/drv.h".toList (runApp (Fix.openHost Fix.crText) Fix.dirArgs) (runApp (Fix.openHost (withCr Fix.crText)) Fix.dirArgs) = true := by decide +kernel
  cases h1 : runApp (Fix.openHost Fix.crText) Fix.dirArgs with
  | done files =>
    cases h2 : runApp (Fix.openHost (withCr Fix.crText)) Fix.dirArgs with
    | done files' =>
      rw [h1, h2] at h
      exact ⟨Fix.openHost Fix.crText, Fix.otherDbc (withCr Fix.crText), Fix.dirArgs, "in/my.dbc".toList, Fix.crText, files, files', "gen/lib/drv.h".toList, platIns_sorts, Fix.insSort_ok,
        fun _ => rfl, rfl, rfl, (asks_iff _ _).2 (by decide +kernel), h1, h2, Ne.symm (bne_iff_ne.1 ((Bool.and_eq_true _ _).mp h).2)⟩
    | _ => rw [h1, h2] at h; cases h
  | _ => rw [h1] at h; cases h

end Verif
