import Verif.Proofs.SigOrder
/-
C77: the order of the signal lines of a message.
-/
namespace Verif
open Spec

/-- The second file has the lines after the headers of some sections in another order; `pre` and `rest` are the same lines before and after them.
The signals of such a section have different start bits; before the next header no further signal is read.  No statement of an attribute or a value
table begins or ends before `rest`; if there is a line with `CM_` before it, a comment begins in `rest` before any statement ends. -/
structure Spec.SigsReordered (P : Platform) (text text' : Str) : Prop where
  split : ∃ (pre : List Str) (secs secs' : List (List Str)) (rest : List Str),
    getLines text = pre ++ secs.flatten ++ rest ∧ getLines text' = pre ++ secs'.flatten ++ rest ∧
    List.Forall₂ SameSection secs secs' ∧ (∀ b ∈ secs, MsgSection P b) ∧ (∀ b ∈ secs, StartsApart (sectionLines P b)) ∧
    (∀ l ∈ rest.takeWhile fun l => !IsHeader (strTrim P.charMax l), NoSig P (strTrim P.charMax l)) ∧
    (∀ l ∈ pre ++ secs.flatten, Plain (strTrim P.charMax l)) ∧
    ((∀ l ∈ pre ++ secs.flatten, ¬ "CM_".toList <+: strTrim P.charMax l) ∨ CommentFirst (rest.map (strTrim P.charMax)))

theorem flatten_mem {secs secs' : List (List Str)} (h : List.Forall₂ SameSection secs secs') {l : Str} (hl : l ∈ secs'.flatten) : l ∈ secs.flatten := by
  induction h with
  | nil => exact hl
  | cons hb _ ih =>
    rw [List.flatten_cons, List.mem_append] at hl ⊢
    refine hl.imp (fun q => ?_) ih
    cases hb with
    | mk x hp =>
      rcases List.mem_cons.1 q with rfl | q
      · exact List.mem_cons_self
      · exact List.mem_cons_of_mem _ (hp.mem_iff.2 q)

/-- The scanner returns the same list for both files. -/
theorem C77_scanner_partial (P : Platform) (hs : SortsByStart P) (text text' : Str) (hr : SigsReordered P text text') (out : DbcList) (h : trimDbcText P text = .ok out) :
    trimDbcText P text' = .ok out := by
  obtain ⟨pre, secs, secs', rest, e, e', hB, hsec, ha, hn, hl, hc⟩ := hr.split
  unfold trimDbcText at h ⊢
  rw [e] at h
  rw [e']
  cases h1 : parseMessageInfo P {} (pre ++ secs.flatten ++ rest) with
  | ub => rw [h1] at h; cases h
  | throws => rw [h1] at h; cases h
  | ok L =>
    rw [h1] at h
    cases h
    rw [parseMessageInfo_sigs hs hB hsec ha hn h1]
    have hpf : ∀ l ∈ pre ++ secs'.flatten, l ∈ pre ++ secs.flatten := fun l hx =>
      (List.mem_append.1 hx).elim (List.mem_append_left _) fun q => List.mem_append_right _ (flatten_mem hB q)
    dsimp only
    rw [parseOtherInfo_eq hl (fun l hx => hl l (hpf l hx)) (hc.imp (fun q l hx => (List.mem_append.1 hx).elim (q l) fun hx => q l (hpf l hx)) id) L.msgs _]

/-- **C77**, for messages whose signals have different start bits (and with the other conditions of `SigsReordered`): for every command line the run on the
second file ends the same way and writes the same files in the same order. -/
theorem C77_run_partial (H : RunHost) (hs : SortsByStart H.plat) (dbc' : Str → Option (Option Str)) (args : List Str) (path text text' : Str) (ha : Asks args path)
    (h1 : H.dbc path = some (some text)) (h2 : dbc' path = some (some text')) (hr : SigsReordered H.plat text text') (out : DbcList) (ho : trimDbcText H.plat text = .ok out) :
    runApp { H with dbc := dbc' } args = runApp H args := by
  rw [runApp_read ha h1, runApp_read (H := { H with dbc := dbc' }) ha h2, ho, C77_scanner_partial H.plat hs text text' hr out ho]
  rfl

/-! ### Examples -/

namespace Fix

def sgPre : List Str := ["VERSION \"1.2\"", "", "BU_: A B C"].map String.toList
def sgHead : Str := "BO_ 5 Y: 8 B".toList
def sgLines : List Str := [" SG_ T : 0|8@1+ (1,0) [0|0] \"\" A", " SG_ U : 8|4@1+ (1,0) [0|0] \"\" C", " SG_ W : 12|4@1- (0.5,0) [0|0] \"\" A", ""].map String.toList
def sgRest : List Str := ["BO_TX_BU_ 5 : B,C;", "CM_ SG_ 5 U \"<RollingCounter>\";", "BA_ \"GenMsgCycleTime\" BO_ 5 100;"].map String.toList
def sgText : Str := unlines (sgPre ++ [sgHead :: sgLines].flatten ++ sgRest)
def sgText' : Str := unlines (sgPre ++ [sgHead :: sgLines.reverse].flatten ++ sgRest)

/-- Two signals with the same start bit. -/
def eqLines : List Str := [" SG_ T : 0|8@1+ (1,0) [0|0] \"\" A", " SG_ U : 0|4@1+ (1,0) [0|0] \"\" A"].map String.toList
def eqText : Str := unlines (sgHead :: eqLines)
def eqText' : Str := unlines (sgHead :: eqLines.reverse)

end Fix

theorem sgReordered : SigsReordered platIns Fix.sgText Fix.sgText' := by
  refine ⟨Fix.sgPre, [Fix.sgHead :: Fix.sgLines], [Fix.sgHead :: Fix.sgLines.reverse], Fix.sgRest, by decide +kernel, by decide +kernel, .cons (.mk _ (List.reverse_perm _).symm) .nil, ?_, ?_, ?_, ?_,
    .inl ?_⟩
  · intro b hb
    rw [List.mem_singleton.1 hb]
    exact section_of_check (by decide +kernel)
  · intro b hb
    rw [List.mem_singleton.1 hb]
    have h : decide ((sectionLines platIns (Fix.sgHead :: Fix.sgLines)).Pairwise fun a b => a.startBit ≠ b.startBit) = true := by decide +kernel
    have h := of_decide_eq_true h
    exact h
  · have h : ((Fix.sgRest.takeWhile fun l => !IsHeader (strTrim platIns.charMax l)).all fun l => !isSignalLine (strTrim platIns.charMax l) ||
        decide (parseSignalLine platIns (strTrim platIns.charMax l) = .ok none)) = true := by decide +kernel
    intro l hl hs s q
    have h3 := List.all_eq_true.1 h l hl
    rw [hs, q] at h3
    cases h3
  · have h : ((Fix.sgPre ++ [Fix.sgHead :: Fix.sgLines].flatten).all fun l => (strTrim platIns.charMax l).getLast? != some ';' &&
        !"BA_ ".toList.isPrefixOf (strTrim platIns.charMax l) && !"VAL_ ".toList.isPrefixOf (strTrim platIns.charMax l)) = true := by decide +kernel
    intro l hl
    have h3 := List.all_eq_true.1 h l hl
    simp only [Bool.and_eq_true, Bool.not_eq_true', bne_iff_ne] at h3
    exact ⟨h3.1.1, fun q => by rw [List.isPrefixOf_iff_prefix.2 q] at h3; exact absurd h3.1.2 (by decide), fun q => by rw [List.isPrefixOf_iff_prefix.2 q] at h3; exact absurd h3.2 (by decide)⟩
  · have h : ((Fix.sgPre ++ [Fix.sgHead :: Fix.sgLines].flatten).all fun l => !"CM_".toList.isPrefixOf (strTrim platIns.charMax l)) = true := by decide +kernel
    intro l hl q
    have h3 := List.all_eq_true.1 h l hl
    rw [List.isPrefixOf_iff_prefix.2 q] at h3
    cases h3

/-- The hypotheses of `C77_run_partial` hold of a file with three signals, transmitters, a rolling counter and a cycle time. -/
example (out : DbcList) (ho : trimDbcText platIns Fix.sgText = .ok out) : runApp (Fix.openHost Fix.sgText') Fix.dirArgs = runApp (Fix.openHost Fix.sgText) Fix.dirArgs :=
  C77_run_partial (Fix.openHost Fix.sgText) platIns_sorts (Fix.otherDbc Fix.sgText') Fix.dirArgs "in/my.dbc".toList Fix.sgText Fix.sgText' ((asks_iff _ _).2 (by decide +kernel)) rfl rfl
    sgReordered out ho

example : (match trimDbcText platIns Fix.sgText with
    | .ok o => o.msgs.map fun m => m.signals.map (·.name)
    | _ => []) = [["T".toList, "U".toList, "W_ro".toList]] ∧
    (Fix.resPaths (runApp (Fix.openHost Fix.sgText) Fix.dirArgs)).map List.length = some 13 := by decide +kernel

/-- **C77** is false in full: the order of two signal lines with the same start bit shows in the driver. -/
theorem C77_refuted : ∃ (H : RunHost) (dbc' : Str → Option (Option Str)) (args : List Str) (path text text' h : Str) (body body' : List Str) (files files' : List (Str × Str)) (p : Str),
    SortsByStart H.plat ∧ (∀ l, SortedBy (H.sort l) l) ∧ (∀ p, H.canOpen p = true) ∧ H.dbc path = some (some text) ∧ dbc' path = some (some text') ∧ Asks args path ∧
    getLines text = h :: body ∧ getLines text' = h :: body' ∧ body.Perm body' ∧ MsgSection H.plat (h :: body) ∧
    runApp H args = .done files ∧ runApp { H with dbc := dbc' } args = .done files' ∧ onDisk files' p ≠ onDisk files p := by
  have h : Fix.differ "gen/lib/drv.h".toList (runApp (Fix.openHost Fix.eqText) Fix.dirArgs) (runApp (Fix.openHost Fix.eqText') Fix.dirArgs) = true := by decide +kernel
  cases h1 : runApp (Fix.openHost Fix.eqText) Fix.dirArgs with
  | done files =>
    cases h2 : runApp (Fix.openHost Fix.eqText') Fix.dirArgs with
    | done files' =>
      rw [h1, h2] at h
      exact ⟨Fix.openHost Fix.eqText, Fix.otherDbc Fix.eqText', Fix.dirArgs, "in/my.dbc".toList, Fix.eqText, Fix.eqText', Fix.sgHead, Fix.eqLines, Fix.eqLines.reverse, files, files',
        "gen/lib/drv.h".toList, platIns_sorts, Fix.insSort_ok, fun _ => rfl, rfl, rfl, (asks_iff _ _).2 (by decide +kernel), by decide +kernel, by decide +kernel, (List.reverse_perm _).symm,
        section_of_check (by decide +kernel), h1, h2, Ne.symm (bne_iff_ne.1 ((Bool.and_eq_true _ _).mp h).2)⟩
    | _ => rw [h1, h2] at h; cases h
  | _ => rw [h1] at h; cases h

end Verif
