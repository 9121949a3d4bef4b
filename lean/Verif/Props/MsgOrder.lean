import Verif.Proofs.MsgOrder
/-
C76: the order of the messages in the DBC file.
-/
namespace Verif
open Spec

/-- The second file has the sections of the first in another order.  `pre` are the lines before these sections; from the line `last` on, the header
of a message, the files are the same.  No statement of an attribute or a value table begins before `last`, and none ends there; if there is a line
with `CM_` before (the list `NS_` of most files has one), a comment begins after `last` before any statement ends. -/
structure Spec.Reordered (P : Platform) (text text' : Str) : Prop where
  split : ∃ (pre : List Str) (secs secs' : List (List Str)) (last : Str) (rest : List Str),
    getLines text = pre ++ secs.flatten ++ last :: rest ∧ getLines text' = pre ++ secs'.flatten ++ last :: rest ∧
    secs.Perm secs' ∧ (∀ b ∈ secs, MsgSection P b) ∧
    IsHeader (strTrim P.charMax last) = true ∧ (parseMessageLine P (strTrim P.charMax last)).isSome = true ∧
    (∀ l ∈ pre ++ secs.flatten, Plain (strTrim P.charMax l)) ∧
    ((∀ l ∈ pre ++ secs.flatten, ¬ "CM_".toList <+: strTrim P.charMax l) ∨ CommentFirst ((last :: rest).map (strTrim P.charMax)))

/-- The scanner reads the same messages, versions and largest DLC. -/
theorem trim_reordered {P : Platform} {text text' : Str} (hr : Reordered P text text') {out : DbcList} (h : trimDbcText P text = .ok out) (hd : IdsDistinct out.msgs) :
    ∃ out', trimDbcText P text' = .ok out' ∧ SameLast out.msgs out'.msgs ∧ out'.maxDlc = out.maxDlc ∧ out'.verHi = out.verHi ∧ out'.verLow = out.verLow := by
  obtain ⟨pre, secs, secs', last, rest, e, e', hp, hs, hh, hm, hl, hc⟩ := hr.split
  unfold trimDbcText at h ⊢
  rw [e] at h
  rw [e']
  cases h1 : parseMessageInfo P {} (pre ++ secs.flatten ++ last :: rest) with
  | ub => rw [h1] at h; cases h
  | throws => rw [h1] at h; cases h
  | ok L =>
    rw [h1] at h
    cases h
    have hL : IdsDistinct L.msgs := distinct_of_core (core_parseOtherInfo P { msgs := L.msgs, cm := { msgId := P.junk } } _) hd
    obtain ⟨L', a1, a2, a3, a4, a5⟩ := parseMessageInfo_perm hs hp hh hm h1 hL
    rw [a1]
    have hpf : ∀ l ∈ pre ++ secs'.flatten, l ∈ pre ++ secs.flatten := fun l hx =>
      (List.mem_append.1 hx).elim (List.mem_append_left _) fun q => List.mem_append_right _ (hp.flatten.mem_iff.2 q)
    refine ⟨_, rfl, parseOtherInfo_perm hl (fun l hx => hl l (hpf l hx)) (hc.imp (fun q l hx => ?_) id) a2 hL _, a3, a4, a5⟩
    exact (List.mem_append.1 hx).elim (q l) fun hx => q l (hpf l hx)

theorem onDisk_none {files : List (Str × Str)} {p : Str} (h : p ∉ files.map (·.1)) : onDisk files p = none := by
  unfold onDisk
  rw [List.find?_eq_none.2]
  · rfl
  · intro x hx q
    exact h (List.mem_map.2 ⟨x, List.mem_reverse.1 hx, beq_iff_eq.1 q⟩)

theorem onDisk_perm {files files' : List (Str × Str)} (h : files.Perm files') (hn : (files.map (·.1)).Nodup) (p : Str) : onDisk files' p = onDisk files p := by
  by_cases hp : p ∈ files.map (·.1)
  · obtain ⟨x, hx, rfl⟩ := List.mem_map.1 hp
    rw [onDisk_of_nodup hn hx, onDisk_of_nodup ((h.map _).nodup hn) (h.mem_iff.1 hx)]
  · rw [onDisk_none hp, onDisk_none fun q => hp ((h.map _).mem_iff.2 q)]

/-- **C76**, for files whose last message stays last (and with the other conditions of `Reordered`), with distinct message ids, when every file opens: the
run on the second file writes the same files with the same texts, only the order in which the files of the nodes are written may differ.  When no two
nodes have names that differ in case only, every path of the disk has the same text after both runs. -/
theorem C76_order_partial (H : RunHost) (hsort : ∀ l, SortedBy (H.sort l) l) (hopen : ∀ p, H.canOpen p = true) (dbc' : Str → Option (Option Str)) (args : List Str)
    (path text text' : Str) (ha : Asks args path) (h1 : H.dbc path = some (some text)) (h2 : dbc' path = some (some text')) (hr : Reordered H.plat text text')
    (out : DbcList) (ho : trimDbcText H.plat text = .ok out) (hd : IdsDistinct out.msgs) (files : List (Str × Str)) (h : runApp H args = .done files) :
    ∃ files', runApp { H with dbc := dbc' } args = .done files' ∧ files.Perm files' ∧
      (((getOptions args).isNodeutils = true → NodesApart out.msgs) → ∀ p, onDisk files' p = onDisk files p) := by
  obtain ⟨out', ho', b1, b2, b3, b4⟩ := trim_reordered hr ho hd
  rw [runApp_read ha h1, ho] at h
  dsimp only at h
  obtain ⟨files', c1, c2⟩ := generate_perm hsort hopen b1.perm hd b3 b4 b2 h
  refine ⟨files', ?_, c2, fun hn p => onDisk_perm c2 ?_ p⟩
  · rw [runApp_read (H := { H with dbc := dbc' }) ha h2, ho']
    exact c1
  · have hrun : runApp H args = .done files := by
      rw [runApp_read ha h1, ho]
      exact h
    obtain ⟨path2, text2, out2, d1, d2, d3, d4, -⟩ := C75_once_partial H hsort args files hrun
    have e1 : path2 = path := ((asks_iff args path2).1 d1).2.symm.trans ((asks_iff args path).1 ha).2
    subst e1
    rw [h1] at d2
    cases d2
    rw [ho] at d3
    cases d3
    exact (d4 hn).1

/-- **C76** for the generators alone, without any condition on the DBC text: code generation does not depend on the order of the messages in the list of the scanner. -/
theorem C76_generate (H : RunHost) (hsort : ∀ l, SortedBy (H.sort l) l) (hopen : ∀ p, H.canOpen p = true) (o : GenOptions) (out out' : DbcList)
    (hp : out.msgs.Perm out'.msgs) (hd : IdsDistinct out.msgs) (h1 : out'.verHi = out.verHi) (h2 : out'.verLow = out.verLow) (h3 : out'.maxDlc = out.maxDlc)
    (files : List (Str × Str)) (h : generate H o out = .done files) : ∃ files', generate H o out' = .done files' ∧ files.Perm files' :=
  generate_perm hsort hopen hp hd h1 h2 h3 h

/-! ### Examples -/

namespace Fix

def ordPre : List Str := ["VERSION \"1.2\"", "NS_ :", "\tCM_", "\tBA_", "", "BU_: A B"].map String.toList
def ordA : List Str := ["BO_ 7 X: 8 A", " SG_ S : 0|8@1+ (1,0) [0|0] \"\" B", ""].map String.toList
def ordB : List Str := ["BO_ 5 Y: 4 B", " SG_ T : 0|8@1+ (1,0) [0|0] \"\" A", " SG_ U : 8|4@1+ (1,0) [0|0] \"\" A", ""].map String.toList
def ordLast : Str := "BO_ 9 Z: 2 A".toList
def ordRest : List Str := [" SG_ V : 0|8@1+ (1,0) [0|0] \"\" B", "CM_ BO_ 7 \"first\";", "BA_ \"GenMsgCycleTime\" BO_ 5 100;", "VAL_ 5 T 0 \"off\" 1 \"on\" ;"].map String.toList

/-- Lines as a text. -/
def unlines (ls : List Str) : Str := ls.flatMap fun l => l ++ ['\n']

def ordText : Str := unlines (ordPre ++ [ordA, ordB].flatten ++ ordLast :: ordRest)
def ordText' : Str := unlines (ordPre ++ [ordB, ordA].flatten ++ ordLast :: ordRest)

/-- Two messages: the longer one first, and last. -/
def maxText : Str := unlines (ordA ++ ordB)
def maxText' : Str := unlines (ordB ++ ordA)

/-- A host with another DBC file. -/
def otherDbc (text : Str) : Str → Option (Option Str) := (openHost text).dbc

/-- Whether two runs leave different texts at a path. -/
def differ (p : Str) : RunRes → RunRes → Bool
  | .done a, .done b => (onDisk a p).isSome && (onDisk b p).isSome && onDisk a p != onDisk b p
  | _, _ => false

end Fix

theorem section_of_check {P : Platform} {b : List Str} (h : (match b with
    | [] => false
    | h :: body => IsHeader (strTrim P.charMax h) &&
      body.all fun l => !IsHeader (strTrim P.charMax l) && !IsTx P (strTrim P.charMax l) && decide (findVersion P (strTrim P.charMax l) = .ok none)) = true) : MsgSection P b := by
  cases b with
  | nil => cases h
  | cons x body =>
    obtain ⟨h1, h2⟩ := (Bool.and_eq_true _ _).mp h
    refine ⟨x, body, rfl, h1, fun l hl => ?_⟩
    have h3 := List.all_eq_true.1 h2 l hl
    simp only [Bool.and_eq_true, Bool.not_eq_true', decide_eq_true_eq] at h3
    exact ⟨h3.1.1, h3.1.2, h3.2⟩

/-- No statement of the file ends before a comment begins. -/
theorem commentFirst_of_check {ls : List Str} (h : (ls.takeWhile fun l => !("CM_".toList.isPrefixOf l)).all (fun l => l.getLast? != some ';') = true) : CommentFirst ls := by
  induction ls with
  | nil => exact fun a l b e => absurd e (by cases a <;> exact fun q => nomatch q)
  | cons x ls ih =>
    intro a l b e hl
    by_cases hx : "CM_".toList.isPrefixOf x = true
    · cases a with
      | nil => cases e; exact ⟨x, List.mem_cons_self, List.isPrefixOf_iff_prefix.1 hx⟩
      | cons y a => cases e; exact ⟨x, List.mem_cons_self, List.isPrefixOf_iff_prefix.1 hx⟩
    · rw [List.takeWhile_cons, if_pos (by rw [Bool.not_eq_true _ |>.mp hx]; rfl), List.all_cons, Bool.and_eq_true] at h
      cases a with
      | nil =>
        cases e
        exact absurd hl (by simpa using h.1)
      | cons y a =>
        cases e
        obtain ⟨z, hz, q⟩ := ih h.2 a l b rfl hl
        exact ⟨z, List.mem_cons_of_mem _ hz, q⟩

theorem ordReordered : Reordered platIns Fix.ordText Fix.ordText' := by
  refine ⟨Fix.ordPre, [Fix.ordA, Fix.ordB], [Fix.ordB, Fix.ordA], Fix.ordLast, Fix.ordRest, by decide +kernel, by decide +kernel, .swap _ _ _, ?_, by decide +kernel, by decide +kernel,
    ?_, .inr (commentFirst_of_check (by decide +kernel))⟩
  · intro b hb
    simp only [List.mem_cons, List.not_mem_nil, or_false] at hb
    rcases hb with rfl | rfl <;> exact section_of_check (by decide +kernel)
  · have h : ((Fix.ordPre ++ [Fix.ordA, Fix.ordB].flatten).all fun l => (strTrim platIns.charMax l).getLast? != some ';' &&
        !"BA_ ".toList.isPrefixOf (strTrim platIns.charMax l) && !"VAL_ ".toList.isPrefixOf (strTrim platIns.charMax l)) = true := by decide +kernel
    intro l hl
    have h3 := List.all_eq_true.1 h l hl
    simp only [Bool.and_eq_true, Bool.not_eq_true', bne_iff_ne] at h3
    exact ⟨h3.1.1, fun q => by rw [List.isPrefixOf_iff_prefix.2 q] at h3; exact absurd h3.1.2 (by decide), fun q => by rw [List.isPrefixOf_iff_prefix.2 q] at h3; exact absurd h3.2 (by decide)⟩

/-- The hypotheses of `C76_order_partial` hold of two files with three messages each, with a list `NS_`, a comment, a cycle time and a value table. -/
example (files : List (Str × Str)) (h : runApp (Fix.openHost Fix.ordText) Fix.dirArgs = .done files) :
    ∃ files', runApp (Fix.openHost Fix.ordText') Fix.dirArgs = .done files' ∧ files.Perm files' := by
  have hd : (match trimDbcText platIns Fix.ordText with
      | .ok o => decide (o.msgs.Pairwise fun a b => a.msgId ≠ b.msgId)
      | _ => false) = true := by decide +kernel
  cases ho : trimDbcText platIns Fix.ordText with
  | ub => rw [ho] at hd; cases hd
  | throws => rw [ho] at hd; cases hd
  | ok out =>
    rw [ho] at hd
    have hd := of_decide_eq_true hd
    obtain ⟨files', h1, h2, -⟩ := C76_order_partial (Fix.openHost Fix.ordText) Fix.insSort_ok (fun _ => rfl) (Fix.otherDbc Fix.ordText') Fix.dirArgs "in/my.dbc".toList
      Fix.ordText Fix.ordText' ((asks_iff _ _).2 (by decide +kernel)) rfl rfl ordReordered out ho (show IdsDistinct out.msgs from hd) files h
    exact ⟨files', h1, h2⟩

/-- The files of the nodes are written in another order. -/
example : Fix.resPaths (runApp (Fix.openHost Fix.ordText) Fix.dirArgs) ≠ Fix.resPaths (runApp (Fix.openHost Fix.ordText') Fix.dirArgs) ∧
    (Fix.resPaths (runApp (Fix.openHost Fix.ordText) Fix.dirArgs)).map List.length = some 11 := by decide +kernel

/-- **C76** is false in full: when the last message of the file changes, so does the driver (`MAX_DLC_VALUE` leaves out the last message). -/
theorem C76_refuted : ∃ (H : RunHost) (dbc' : Str → Option (Option Str)) (args : List Str) (path text text' : Str) (secs secs' : List (List Str)) (out : DbcList) (files files' : List (Str × Str)) (p : Str),
    (∀ l, SortedBy (H.sort l) l) ∧ (∀ p, H.canOpen p = true) ∧ H.dbc path = some (some text) ∧ dbc' path = some (some text') ∧ Asks args path ∧
    getLines text = secs.flatten ∧ getLines text' = secs'.flatten ∧ secs.Perm secs' ∧ (∀ b ∈ secs, MsgSection H.plat b) ∧
    trimDbcText H.plat text = .ok out ∧ IdsDistinct out.msgs ∧
    runApp H args = .done files ∧ runApp { H with dbc := dbc' } args = .done files' ∧ onDisk files' p ≠ onDisk files p := by
  have h : Fix.differ "gen/lib/drv.h".toList (runApp (Fix.openHost Fix.maxText) Fix.dirArgs) (runApp (Fix.openHost Fix.maxText') Fix.dirArgs) = true := by decide +kernel
  have hd : (match trimDbcText platIns Fix.maxText with
      | .ok o => decide (o.msgs.Pairwise fun a b => a.msgId ≠ b.msgId)
      | _ => false) = true := by decide +kernel
  cases ho : trimDbcText platIns Fix.maxText with
  | ub => rw [ho] at hd; cases hd
  | throws => rw [ho] at hd; cases hd
  | ok out =>
    rw [ho] at hd
    have hd := of_decide_eq_true hd
    cases h1 : runApp (Fix.openHost Fix.maxText) Fix.dirArgs with
    | done files =>
      cases h2 : runApp (Fix.openHost Fix.maxText') Fix.dirArgs with
      | done files' =>
        rw [h1, h2] at h
        refine ⟨Fix.openHost Fix.maxText, Fix.otherDbc Fix.maxText', Fix.dirArgs, "in/my.dbc".toList, Fix.maxText, Fix.maxText', [Fix.ordA, Fix.ordB], [Fix.ordB, Fix.ordA], out, files, files',
          "gen/lib/drv.h".toList, Fix.insSort_ok, fun _ => rfl, rfl, rfl, (asks_iff _ _).2 (by decide +kernel), by decide +kernel, by decide +kernel, .swap _ _ _, ?_, ho, hd, h1, h2,
          Ne.symm (bne_iff_ne.1 ((Bool.and_eq_true _ _).mp h).2)⟩
        intro b hb
        simp only [List.mem_cons, List.not_mem_nil, or_false] at hb
        rcases hb with rfl | rfl <;> exact section_of_check (by decide +kernel)
      | _ => rw [h1, h2] at h; cases h
    | _ => rw [h1] at h; cases h

end Verif
