import Verif.Props.Descriptive
import Verif.Props.Rerun
/-
C84 for a whole run: descriptive statements change the header of the driver only, outside the directory of the util files.
-/
namespace Verif
open Spec

/-- A run to the end wrote nothing, because of the directory, or all its files. -/
theorem generate_files {H : RunHost} (hsort : ∀ l, SortedBy (H.sort l) l) (hopen : ∀ p, H.canOpen p = true) {o : GenOptions} {out : DbcList} {files : List (Str × Str)}
    (h : generate H o out = .done files) :
    (files = [] ∧ ∃ d, prepareDirectory H.fs (configure o.drvname.1 (finalPath o)) o.isRewrite = .ret false d) ∨
    ((∃ d, prepareDirectory H.fs (configure o.drvname.1 (finalPath o)) o.isRewrite = .ret true d) ∧ ∃ hops sops,
      mainSourceOps (configureGen o.drvname.1 (commonInfoOf o H.date) (driverSrcInfo (extractFileName o.dbc.1)) out.verHi out.verLow) (H.sort out.msgs) = some sops ∧
      files = runFiles H o out hops sops) := by
  cases hp : prepareDirectory H.fs (configure o.drvname.1 (finalPath o)) o.isRewrite with
  | throws => unfold generate at h; dsimp only at h; rw [hp] at h; cases h
  | ub => unfold generate at h; dsimp only at h; rw [hp] at h; cases h
  | ret b d =>
    cases b with
    | false =>
      unfold generate at h
      dsimp only at h
      rw [hp] at h
      cases h
      exact .inl ⟨rfl, d, rfl⟩
    | true =>
      cases hh : mainHeaderOps (configureGen o.drvname.1 (commonInfoOf o H.date) (driverSrcInfo (extractFileName o.dbc.1)) out.verHi out.verLow) out.maxDlc (H.sort out.msgs) with
      | none =>
        unfold generate mainOps at h
        dsimp only at h
        rw [hp, hh] at h
        cases h
      | some hops =>
        cases hs : mainSourceOps (configureGen o.drvname.1 (commonInfoOf o H.date) (driverSrcInfo (extractFileName o.dbc.1)) out.verHi out.verLow) (H.sort out.msgs) with
        | none =>
          unfold generate mainOps at h
          dsimp only at h
          rw [hp, hh, hs] at h
          cases h
        | some sops =>
          rw [generate_done hsort hp hh hs fun p _ => hopen p] at h
          cases h
          exact .inr ⟨⟨d, rfl⟩, hops, sops, rfl, rfl⟩

/-- The util files are in their directory. -/
theorem utils_below (H : RunHost) (o : GenOptions) (drv base : Str) (g : GenDesc) (out : DbcList) :
    ∀ p ∈ (utilsFiles H o (configure drv base) g out).map (·.1), base ++ "/butl/".toList <+: p := by
  intro p hp
  have key : ∀ r : Str, base ++ "/butl/".toList <+: (base ++ "/butl".toList) ++ '/' :: r := fun r => ⟨r, by simp⟩
  unfold utilsFiles utilPair at hp
  split at hp
  · rw [List.map_flatMap] at hp
    obtain ⟨n, -, hn⟩ := List.mem_flatMap.1 hp
    simp only [List.map_cons, List.map_nil, List.mem_cons, List.not_mem_nil, or_false] at hn
    rcases hn with rfl | rfl
    · show _ <+: ((base ++ "/butl".toList) ++ "/".toList) ++ _
      rw [List.append_assoc]
      exact key _
    · show _ <+: ((base ++ "/butl".toList) ++ "/".toList) ++ _
      rw [List.append_assoc]
      exact key _
  · simp only [List.map_cons, List.map_nil, List.mem_cons, List.not_mem_nil, or_false] at hp
    rcases hp with rfl | rfl
    · exact key _
    · exact key _

/-- **C84**, a run: two DBC files with the same lines `pre` and then any comments, attributes and value tables without tags, the same command line, and both runs come to the
end.  Then every path other than the header of the driver and the util files has the same text after both. -/
theorem C84_run_partial (H : RunHost) (hsort : ∀ l, SortedBy (H.sort l) l) (hopen : ∀ p, H.canOpen p = true) (dbc' : Str → Option (Option Str)) (args : List Str)
    (path text text' : Str) (ha : Asks args path) (h1 : H.dbc path = some (some text)) (h2 : dbc' path = some (some text')) (pre body body' : List Str)
    (e : getLines text = pre ++ body) (e' : getLines text' = pre ++ body')
    (hi : ∀ l ∈ body, Inert H.plat (strTrim H.plat.charMax l)) (hi' : ∀ l ∈ body', Inert H.plat (strTrim H.plat.charMax l))
    (ht : ∀ l ∈ getLines text, '<' ∉ l) (ht' : ∀ l ∈ getLines text', '<' ∉ l) (hd : ∀ out, trimDbcText H.plat text = .ok out → IdsDistinct out.msgs)
    (files files' : List (Str × Str)) (hr : runApp H args = .done files) (hr' : runApp { H with dbc := dbc' } args = .done files') (p : Str)
    (hp : p ≠ finalPath (getOptions args) ++ "/lib/".toList ++ strLower (getOptions args).drvname.1 ++ ".h".toList)
    (hu : ¬ finalPath (getOptions args) ++ "/butl/".toList <+: p) : onDisk files' p = onDisk files p := by
  rw [runApp_read ha h1] at hr
  rw [runApp_read (H := { H with dbc := dbc' }) ha h2] at hr'
  cases hL : trimDbcText H.plat text with
  | ub => rw [hL] at hr; cases hr
  | throws => rw [hL] at hr; cases hr
  | ok out =>
    cases hL' : trimDbcText H.plat text' with
    | ub => rw [show ({ H with dbc := dbc' } : RunHost).plat = H.plat from rfl, hL'] at hr'; cases hr'
    | throws => rw [show ({ H with dbc := dbc' } : RunHost).plat = H.plat from rfl, hL'] at hr'; cases hr'
    | ok out' =>
      rw [hL] at hr
      rw [show ({ H with dbc := dbc' } : RunHost).plat = H.plat from rfl, hL'] at hr'
      have hr' : generate H (getOptions args) out' = .done files' := hr'
      have hr : generate H (getOptions args) out = .done files := hr
      generalize getOptions args = o at *
      have F := fun g => C84_files_partial H hsort text text' pre body body' out out' g e e' hi hi' ht ht' hL hL' (hd out hL)
      rcases generate_files hsort hopen hr with ⟨rfl, d, q⟩ | ⟨⟨d, q⟩, hops, sops, b, rfl⟩
      · rcases generate_files hsort hopen hr' with ⟨rfl, d', q'⟩ | ⟨⟨d', q'⟩, -⟩
        · rfl
        · rw [q] at q'; cases q'
      · rcases generate_files hsort hopen hr' with ⟨-, d', q'⟩ | ⟨-, hops', sops', b', rfl⟩
        · rw [q] at q'; cases q'
        · obtain ⟨f1, f2, f3, f4, f5⟩ := F (configureGen o.drvname.1 (commonInfoOf o H.date) (driverSrcInfo (extractFileName o.dbc.1)) out.verHi out.verLow)
          rw [f4, f5, ← f1, b] at b'
          cases b'
          unfold runFiles
          dsimp only
          rw [onDisk_append, onDisk_append, onDisk_none fun x => hu (utils_below _ _ _ _ _ _ _ x), onDisk_none fun x => hu (utils_below _ _ _ _ _ _ _ x), f4, f5]
          have cut : ∀ (t : Str) (l : List (Str × Str)), onDisk (((configure o.drvname.1 (finalPath o)).coreH, t) :: l) p = onDisk l p := by
            intro t l
            rw [show ∀ x : Str × Str, x :: l = [x] ++ l from fun _ => rfl, onDisk_append, onDisk_none (files := [_]) fun x => hp ?_]
            · cases onDisk l p <;> rfl
            · rw [List.map_cons, List.map_nil, List.mem_singleton] at x
              rw [x]
              show (finalPath o ++ "/lib".toList) ++ '/' :: (strLower o.drvname.1 ++ ".h".toList) = _
              simp
          unfold mainFiles
          simp only [List.cons_append]
          rw [cut, cut, f2, f3]

/-- The line (of a file) is a comment, an attribute or a value table; no word of it begins with `SG_`, or it has no colon. -/
def Spec.StmtLine (P : Platform) (l : Str) : Prop :=
  ("CM_ ".toList <+: strTrim P.charMax l ∨ "BA_ ".toList <+: strTrim P.charMax l ∨ "VAL_ ".toList <+: strTrim P.charMax l) ∧
    (¬ SgWord (strTrim P.charMax l) ∨ ':' ∉ strTrim P.charMax l)

/-- Such a line says nothing about messages and signals. -/
theorem stmt_inert {P : Platform} {l : Str} (h : StmtLine P l) : Inert P (strTrim P.charMax l) := by
  obtain ⟨hk, hc⟩ := h
  generalize strTrim P.charMax l = x at *
  have hs : isSignalLine x = true → parseSignalLine P x = .ok none := by
    intro q
    rcases hc with hc | hc
    · rw [(not_sgWord _).1 hc] at q
      cases q
    · exact noColon_sig P hc
  rcases hk with ⟨r, rfl⟩ | ⟨r, rfl⟩ | ⟨r, rfl⟩
  · exact ⟨under_version P (a := "CM".toList) (r := ' ' :: r) (by decide), rfl, front_tx P (a := 'C') (b := 'M') (by decide) (by decide) (by decide), hs⟩
  · exact ⟨under_version P (a := "BA".toList) (r := ' ' :: r) (by decide), rfl, front_tx P (a := 'B') (b := 'A') (by decide) (by decide) (by decide), hs⟩
  · exact ⟨under_version P (a := "VAL".toList) (r := ' ' :: r) (by decide), rfl, front_tx P (a := 'V') (b := 'A') (by decide) (by decide) (by decide), hs⟩

/-- **C84**, a run, the condition on the lines in terms of their text: the lines after `pre` are statements of one line. -/
theorem C84_lines_partial (H : RunHost) (hsort : ∀ l, SortedBy (H.sort l) l) (hopen : ∀ p, H.canOpen p = true) (dbc' : Str → Option (Option Str)) (args : List Str)
    (path text text' : Str) (ha : Asks args path) (h1 : H.dbc path = some (some text)) (h2 : dbc' path = some (some text')) (pre body body' : List Str)
    (e : getLines text = pre ++ body) (e' : getLines text' = pre ++ body') (hi : ∀ l ∈ body, StmtLine H.plat l) (hi' : ∀ l ∈ body', StmtLine H.plat l)
    (ht : ∀ l ∈ getLines text, '<' ∉ l) (ht' : ∀ l ∈ getLines text', '<' ∉ l) (hd : ∀ out, trimDbcText H.plat text = .ok out → IdsDistinct out.msgs)
    (files files' : List (Str × Str)) (hr : runApp H args = .done files) (hr' : runApp { H with dbc := dbc' } args = .done files') (p : Str)
    (hp : p ≠ finalPath (getOptions args) ++ "/lib/".toList ++ strLower (getOptions args).drvname.1 ++ ".h".toList)
    (hu : ¬ finalPath (getOptions args) ++ "/butl/".toList <+: p) : onDisk files' p = onDisk files p :=
  C84_run_partial H hsort hopen dbc' args path text text' ha h1 h2 pre body body' e e' (fun l hl => stmt_inert (hi l hl)) (fun l hl => stmt_inert (hi' l hl)) ht ht' hd files files' hr hr' p hp hu

/-! ### Example -/

/-- A check for `StmtLine`. -/
def stmtB (P : Platform) (l : Str) : Bool :=
  ("CM_ ".toList.isPrefixOf (strTrim P.charMax l) || "BA_ ".toList.isPrefixOf (strTrim P.charMax l) || "VAL_ ".toList.isPrefixOf (strTrim P.charMax l)) && !(strTrim P.charMax l).contains ':'

theorem stmtB_of {P : Platform} {l : Str} (h : stmtB P l = true) : StmtLine P l := by
  unfold stmtB at h
  rw [Bool.and_eq_true, Bool.or_eq_true, Bool.or_eq_true, Bool.not_eq_true', ← Bool.not_eq_true, List.contains_iff_mem, List.isPrefixOf_iff_prefix, List.isPrefixOf_iff_prefix,
    List.isPrefixOf_iff_prefix, or_assoc] at h
  exact ⟨h.1, .inr h.2⟩

namespace Fix

def cmPre : List Str := ["BO_ 5 Y: 8 B", " SG_ T : 0|8@1+ (1,0) [0|0] \"\" B"].map String.toList
def cmA : List Str := ["CM_ SG_ 5 T \"one\";"].map String.toList
def cmB : List Str := ["CM_ SG_ 5 T \"two\";", "BA_ \"GenMsgCycleTime\" BO_ 5 100;"].map String.toList

end Fix

/-- Two files with different comments and cycle times: the headers differ, the source files do not. -/
example : ∃ files files', runApp (Fix.openHost (Fix.unlines (Fix.cmPre ++ Fix.cmA))) Fix.dirArgs = .done files ∧
    runApp (Fix.openHost (Fix.unlines (Fix.cmPre ++ Fix.cmB))) Fix.dirArgs = .done files' ∧
    onDisk files' "gen/lib/drv.h".toList ≠ onDisk files "gen/lib/drv.h".toList ∧ onDisk files' "gen/lib/drv.c".toList = onDisk files "gen/lib/drv.c".toList := by
  have h : Fix.differ "gen/lib/drv.h".toList (runApp (Fix.openHost (Fix.unlines (Fix.cmPre ++ Fix.cmA))) Fix.dirArgs)
      (runApp (Fix.openHost (Fix.unlines (Fix.cmPre ++ Fix.cmB))) Fix.dirArgs) = true := by decide +kernel
  cases h1 : runApp (Fix.openHost (Fix.unlines (Fix.cmPre ++ Fix.cmA))) Fix.dirArgs with
  | done files =>
    cases h2 : runApp (Fix.openHost (Fix.unlines (Fix.cmPre ++ Fix.cmB))) Fix.dirArgs with
    | done files' =>
      rw [h1, h2] at h
      refine ⟨files, files', rfl, rfl, Ne.symm (bne_iff_ne.1 ((Bool.and_eq_true _ _).mp h).2), ?_⟩
      exact C84_lines_partial (Fix.openHost (Fix.unlines (Fix.cmPre ++ Fix.cmA))) Fix.insSort_ok (fun _ => rfl) (Fix.otherDbc (Fix.unlines (Fix.cmPre ++ Fix.cmB))) Fix.dirArgs
        "in/my.dbc".toList _ _ ((asks_iff _ _).2 (by decide +kernel)) rfl rfl Fix.cmPre Fix.cmA Fix.cmB (by decide +kernel) (by decide +kernel)
        (fun l hl => stmtB_of (List.all_eq_true.1 (show (Fix.cmA.all (stmtB (Fix.openHost []).plat)) = true by decide +kernel) l hl))
        (fun l hl => stmtB_of (List.all_eq_true.1 (show (Fix.cmB.all (stmtB (Fix.openHost []).plat)) = true by decide +kernel) l hl))
        (by decide +kernel) (by decide +kernel)
        (fun out ho => by
          have : out = Fix.listOf (Fix.unlines (Fix.cmPre ++ Fix.cmA)) := by
            unfold Fix.listOf
            rw [show trimDbcText (Fix.openHost []).plat (Fix.unlines (Fix.cmPre ++ Fix.cmA)) = .ok out from ho]
          rw [this]
          unfold IdsDistinct
          decide +kernel)
        files files' h1 h2 _ (by decide +kernel) (fun q => absurd (List.isPrefixOf_iff_prefix.2 q) (by decide +kernel))
    | _ => rw [h1, h2] at h; cases h
  | _ => rw [h1] at h; cases h

end Verif
