import Verif.Props.OutDirs
/-
C75: no file of a run replaces another file of the same run.
-/
namespace Verif
open Spec

/-- The nodes of a list of messages: who sends or receives one of them. -/
def Spec.IsNode (msgs : List Msg) (n : Str) : Prop := ∃ m ∈ msgs, n ∈ m.tranS ∨ n ∈ m.recS

/-- No two nodes differ in the case of letters only. -/
def Spec.NodesApart (msgs : List Msg) : Prop := ∀ a b, IsNode msgs a → IsNode msgs b → strLower a = strLower b → a = b

/-- What is in the file at `p` after these files were written one after the other: the text that was written last. -/
def Spec.onDisk (files : List (Str × Str)) (p : Str) : Option Str := (files.reverse.find? fun x => x.1 == p).map (·.2)

theorem front_ne {o a b : Str} (h : a ≠ b) : o ++ a ≠ o ++ b := fun e => h (List.append_cancel_left e)

/-- The paths of the files other than the util files, all switches off. -/
def fixedPaths (o d : Str) : List Str :=
  [o ++ ("/lib/".toList ++ (d ++ ".h".toList)), o ++ ("/lib/".toList ++ (d ++ ".c".toList)), o ++ ("/lib/".toList ++ (d ++ "-fmon.h".toList)),
   o ++ ("/usr/".toList ++ (d ++ "-fmon.c".toList)), o ++ ("/conf/".toList ++ (d ++ "-config.h".toList)), o ++ ("/conf/".toList ++ "dbccodeconf.h".toList),
   o ++ ("/inc/".toList ++ "canmonitorutil.h".toList)]

theorem fixed_nodup (o d : Str) : (fixedPaths o d).Nodup := by
  have hc : d ++ "-config.h".toList ≠ "dbccodeconf.h".toList := by
    intro e
    have : (d ++ "-config.h".toList).reverse.take 4 = "dbccodeconf.h".toList.reverse.take 4 := by rw [e]
    rw [List.reverse_append] at this
    cases this
  have h2 : ∀ (x : Char) (xs : Str) (y : Char) (ys : Str), x ≠ y → o ++ '/' :: x :: xs ≠ o ++ '/' :: y :: ys :=
    fun x xs y ys h => front_ne fun e => h (List.cons.inj (List.cons.inj e).2).1
  have lib : ∀ {x y : Str}, x ≠ y → o ++ ("/lib/".toList ++ (d ++ x)) ≠ o ++ ("/lib/".toList ++ (d ++ y)) := fun h => front_ne (front_ne (front_ne h))
  unfold fixedPaths
  refine .cons ?_ (.cons ?_ (.cons ?_ (.cons ?_ (.cons ?_ (.cons ?_ (.cons ?_ .nil))))))
  · simp only [List.mem_cons, List.not_mem_nil, or_false, forall_eq_or_imp, forall_eq]
    exact ⟨lib (by decide), lib (by decide), h2 'l' _ 'u' _ (by decide), h2 'l' _ 'c' _ (by decide), h2 'l' _ 'c' _ (by decide), h2 'l' _ 'i' _ (by decide)⟩
  · simp only [List.mem_cons, List.not_mem_nil, or_false, forall_eq_or_imp, forall_eq]
    exact ⟨lib (by decide), h2 'l' _ 'u' _ (by decide), h2 'l' _ 'c' _ (by decide), h2 'l' _ 'c' _ (by decide), h2 'l' _ 'i' _ (by decide)⟩
  · simp only [List.mem_cons, List.not_mem_nil, or_false, forall_eq_or_imp, forall_eq]
    exact ⟨h2 'l' _ 'u' _ (by decide), h2 'l' _ 'c' _ (by decide), h2 'l' _ 'c' _ (by decide), h2 'l' _ 'i' _ (by decide)⟩
  · simp only [List.mem_cons, List.not_mem_nil, or_false, forall_eq_or_imp, forall_eq]
    exact ⟨h2 'u' _ 'c' _ (by decide), h2 'u' _ 'c' _ (by decide), h2 'u' _ 'i' _ (by decide)⟩
  · simp only [List.mem_cons, List.not_mem_nil, or_false, forall_eq_or_imp, forall_eq]
    exact ⟨front_ne (front_ne hc), h2 'c' _ 'i' _ (by decide)⟩
  · simp only [List.mem_cons, List.not_mem_nil, or_false, forall_eq]
    exact h2 'c' _ 'i' _ (by decide)
  · exact fun _ q => absurd q List.not_mem_nil

/-- None of these is a file of the directory of the util files. -/
theorem fixed_not_butl (o d r : Str) : ∀ p ∈ fixedPaths o d, p ≠ o ++ ("/butl".toList ++ r) := by
  have h2 : ∀ (x : Char) (xs : Str) (y : Char) (ys : Str), x ≠ y → o ++ '/' :: x :: xs ≠ o ++ '/' :: y :: ys :=
    fun x xs y ys h => front_ne fun e => h (List.cons.inj (List.cons.inj e).2).1
  unfold fixedPaths
  simp only [List.mem_cons, List.not_mem_nil, or_false, forall_eq_or_imp, forall_eq]
  exact ⟨h2 'l' _ 'b' _ (by decide), h2 'l' _ 'b' _ (by decide), h2 'l' _ 'b' _ (by decide), h2 'u' _ 'b' _ (by decide), h2 'c' _ 'b' _ (by decide),
    h2 'c' _ 'b' _ (by decide), h2 'i' _ 'b' _ (by decide)⟩

/-- The util files of the nodes of a list, as many as it has. -/
theorem node_nodup (u drv : Str) : ∀ ns : List Str, (ns.flatMap fun n => [nodeUtilH u drv n, nodeUtilC u drv n]).Nodup ↔ (ns.map strLower).Nodup := by
  have hne : ∀ a b, nodeUtilH u drv a ≠ nodeUtilC u drv b := by
    intro a b e
    unfold nodeUtilH nodeUtilC at e
    rw [strLower_append (strLower (a ++ "_".toList ++ drv)), strLower_append (strLower (b ++ "_".toList ++ drv)), ← List.append_assoc, ← List.append_assoc (u ++ "/".toList)] at e
    have h := (List.append_inj' e (by decide)).2
    revert h
    decide
  intro ns
  induction ns with
  | nil => exact ⟨fun _ => .nil, fun _ => .nil⟩
  | cons a t ih =>
    rw [List.flatMap_cons, List.map_cons, List.nodup_cons, List.nodup_append, ih]
    constructor
    · rintro ⟨-, h2, h3⟩
      refine ⟨fun q => ?_, h2⟩
      obtain ⟨b, hb, e⟩ := List.mem_map.1 q
      exact h3 _ List.mem_cons_self _ (List.mem_flatMap.2 ⟨b, hb, List.mem_cons_self⟩) ((C45_partial u drv a b).1.2 e.symm)
    · rintro ⟨h1, h2⟩
      refine ⟨.cons (fun x q => ?_) (.cons (fun _ q => absurd q List.not_mem_nil) .nil), h2, fun x hx y hy e => ?_⟩
      · cases List.mem_singleton.1 q
        exact hne _ _
      · subst e
        obtain ⟨b, hb, hy⟩ := List.mem_flatMap.1 hy
        refine h1 (List.mem_map.2 ⟨b, hb, ?_⟩)
        simp only [List.mem_cons, List.not_mem_nil, or_false] at hx hy
        rcases hx with rfl | rfl <;> rcases hy with hy | hy
        · exact ((C45_partial u drv _ _).1.1 hy).symm
        · exact absurd hy (hne _ _)
        · exact absurd hy.symm (hne _ _)
        · exact ((C45_partial u drv _ _).2.1 hy).symm

theorem nodup_map_iff {ns : List Str} (f : Str → Str) (h : ns.Nodup) : (ns.map f).Nodup ↔ ∀ a ∈ ns, ∀ b ∈ ns, f a = f b → a = b := by
  induction ns with
  | nil => exact ⟨fun _ _ q => absurd q List.not_mem_nil, fun _ => .nil⟩
  | cons x t ih =>
    obtain ⟨h1, h2⟩ := List.nodup_cons.1 h
    rw [List.map_cons, List.nodup_cons, ih h2]
    constructor
    · rintro ⟨q1, q2⟩ a ha b hb e
      rcases List.mem_cons.1 ha with ha' | ha' <;> rcases List.mem_cons.1 hb with hb' | hb'
      · rw [ha', hb']
      · exact absurd (List.mem_map.2 ⟨b, hb', by rw [← e, ha']⟩) q1
      · exact absurd (List.mem_map.2 ⟨a, ha', by rw [e, hb']⟩) q1
      · exact q2 a ha' b hb' e
    · intro q
      refine ⟨fun m => ?_, fun a ha b hb => q a (List.mem_cons_of_mem _ ha) b (List.mem_cons_of_mem _ hb)⟩
      obtain ⟨b, hb, e⟩ := List.mem_map.1 m
      exact h1 (q b (List.mem_cons_of_mem _ hb) x List.mem_cons_self e ▸ hb)

theorem lower_nodup (msgs : List Msg) : ((collectNodes msgs).map strLower).Nodup ↔ NodesApart msgs := by
  have hn := C23_nodes msgs
  rw [nodup_map_iff _ hn.1]
  exact ⟨fun h a b ha hb => h a ((hn.2 a).2 ha) b ((hn.2 b).2 hb), fun h a ha b hb => h a b ((hn.2 a).1 ha) ((hn.2 b).1 hb)⟩

/-- The paths of a run that writes: no path twice, exactly if there are no util files of nodes or no two nodes differ in case only. -/
theorem written_nodup (o : GenOptions) (msgs : List Msg) (d : Option Str) :
    (writtenPaths o msgs (.ret true d)).Nodup ↔ (o.isNodeutils = true → NodesApart msgs) := by
  have hfix : ∀ rest : List Str, (∀ p ∈ rest, ∃ r, p = finalPath o ++ ("/butl".toList ++ r)) →
      (([(configure o.drvname.1 (finalPath o)).coreH, (configure o.drvname.1 (finalPath o)).coreC, (configure o.drvname.1 (finalPath o)).fmonH] ++
        (if o.isNofmon then [] else [(configure o.drvname.1 (finalPath o)).fmonC]) ++
        (if o.isNoconfig then [] else [(configure o.drvname.1 (finalPath o)).config, (configure o.drvname.1 (finalPath o)).codeconf]) ++
        (if o.isNocanmon then [] else [(configure o.drvname.1 (finalPath o)).canmon]) ++ rest).Nodup ↔ rest.Nodup) := by
    intro rest hr
    have hsub : List.Sublist ([(configure o.drvname.1 (finalPath o)).coreH, (configure o.drvname.1 (finalPath o)).coreC, (configure o.drvname.1 (finalPath o)).fmonH] ++
        (if o.isNofmon then [] else [(configure o.drvname.1 (finalPath o)).fmonC]) ++
        (if o.isNoconfig then [] else [(configure o.drvname.1 (finalPath o)).config, (configure o.drvname.1 (finalPath o)).codeconf]) ++
        (if o.isNocanmon then [] else [(configure o.drvname.1 (finalPath o)).canmon])) (fixedPaths (finalPath o) (strLower o.drvname.1)) := by
      have e : fixedPaths (finalPath o) (strLower o.drvname.1) = [(configure o.drvname.1 (finalPath o)).coreH, (configure o.drvname.1 (finalPath o)).coreC, (configure o.drvname.1 (finalPath o)).fmonH] ++
          [(configure o.drvname.1 (finalPath o)).fmonC] ++ [(configure o.drvname.1 (finalPath o)).config, (configure o.drvname.1 (finalPath o)).codeconf] ++
          [(configure o.drvname.1 (finalPath o)).canmon] := by
        unfold configure
        dsimp only
        simp only [List.append_assoc]
        rfl
      rw [e]
      refine List.Sublist.append (List.Sublist.append (List.Sublist.append (List.Sublist.refl _) ?_) ?_) ?_
      · cases o.isNofmon
        · exact List.Sublist.refl _
        · exact List.nil_sublist _
      · cases o.isNoconfig
        · exact List.Sublist.refl _
        · exact List.nil_sublist _
      · cases o.isNocanmon
        · exact List.Sublist.refl _
        · exact List.nil_sublist _
    rw [List.nodup_append]
    refine ⟨fun q => q.2.1, fun q => ⟨(fixed_nodup _ _).sublist hsub, q, fun a ha b hb e => ?_⟩⟩
    obtain ⟨r, rfl⟩ := hr b hb
    exact fixed_not_butl _ _ r a (hsub.subset ha) e
  unfold writtenPaths
  dsimp only
  by_cases hu : o.isNodeutils = true
  · rw [if_pos hu, hfix]
    · rw [node_nodup, lower_nodup]
      exact ⟨fun q _ => q, fun q => q hu⟩
    · intro p hp
      obtain ⟨n, -, hp⟩ := List.mem_flatMap.1 hp
      simp only [List.mem_cons, List.not_mem_nil, or_false] at hp
      rcases hp with rfl | rfl
      · exact ⟨_, by unfold nodeUtilH configure; dsimp only; simp only [List.append_assoc]; rfl⟩
      · exact ⟨_, by unfold nodeUtilC configure; dsimp only; simp only [List.append_assoc]; rfl⟩
  · rw [if_neg hu, hfix]
    · refine ⟨fun _ q => absurd q hu, fun _ => .cons (fun x q => ?_) (.cons (fun _ q => absurd q List.not_mem_nil) .nil)⟩
      cases List.mem_singleton.1 q
      intro e
      have h := (List.cons.inj (List.append_cancel_left e)).2
      have h := List.append_cancel_left h
      revert h
      decide
    · intro p hp
      simp only [List.mem_cons, List.not_mem_nil, or_false] at hp
      rcases hp with rfl | rfl
      · exact ⟨_, by unfold configure; dsimp only; simp only [List.append_assoc]; rfl⟩
      · exact ⟨_, by unfold configure; dsimp only; simp only [List.append_assoc]; rfl⟩

theorem onDisk_of_nodup {files : List (Str × Str)} (h : (files.map (·.1)).Nodup) {x : Str × Str} (hx : x ∈ files) : onDisk files x.1 = some x.2 := by
  unfold onDisk
  have hr : (files.reverse.map (·.1)).Nodup := by
    rw [List.map_reverse]
    exact List.pairwise_reverse.2 (h.imp fun q => Ne.symm q)
  have hx : x ∈ files.reverse := List.mem_reverse.2 hx
  generalize files.reverse = l at hr hx
  induction l with
  | nil => cases hx
  | cons y t ih =>
    obtain ⟨h1, h2⟩ := List.nodup_cons.1 hr
    rcases List.mem_cons.1 hx with rfl | hx
    · rw [List.find?_cons, beq_self_eq_true]
      rfl
    · rw [List.find?_cons_of_neg]
      · exact ih h2 hx
      · intro q
        have q : y.1 = x.1 := beq_iff_eq.1 q
        exact h1 (List.mem_map.2 ⟨x, hx, q.symm⟩)

/-- **C75**, for files with `NodesApart`: no two nodes whose names differ in the case of letters only.  A run writes no path twice, so that after it every
file has the text that was generated for it.  And the condition is exact: when a run writes at all and every file opens, some path is written twice
exactly if `-nodeutils` is on and two nodes have names that differ in case only. -/
theorem C75_once_partial (H : RunHost) (hsort : ∀ l, SortedBy (H.sort l) l) (args : List Str) (files : List (Str × Str)) (h : runApp H args = .done files) :
    ∃ path text out, Asks args path ∧ H.dbc path = some (some text) ∧ trimDbcText H.plat text = .ok out ∧
      (((getOptions args).isNodeutils = true → NodesApart out.msgs) → (files.map (·.1)).Nodup ∧ ∀ x ∈ files, onDisk files x.1 = some x.2) ∧
      (files ≠ [] → (∀ p, H.canOpen p = true) → ((files.map (·.1)).Nodup ↔ ((getOptions args).isNodeutils = true → NodesApart out.msgs))) := by
  obtain ⟨path, text, out, a1, a2, a3, a4, a5, -⟩ := C70_done H hsort args files h
  refine ⟨path, text, out, a1, a2, a3, fun hn => ?_, fun hne hop => ?_⟩
  · have : (files.map (·.1)).Nodup := by
      by_cases hf : files = []
      · rw [hf]
        exact .nil
      · obtain ⟨d, hd⟩ := a5 hf
        rw [a4]
        unfold runPaths
        rw [hd]
        exact ((written_nodup _ _ _).2 hn).sublist List.filter_sublist
    exact ⟨this, fun x hx => onDisk_of_nodup this hx⟩
  · obtain ⟨d, hd⟩ := a5 hne
    rw [a4, List.filter_eq_self.2 fun p _ => hop p]
    unfold runPaths
    rw [hd]
    exact written_nodup _ _ _

namespace Fix

/-- A message from node `ECU` to node `Ecu`. -/
def caseText : Str := "BO_ 1 M: 8 ECU\n SG_ S : 0|8@1+ (1,0) [0|0] \"\" Ecu".toList

/-- A host on which every file opens. -/
def openHost (text : Str) : RunHost := { dirHost text with canOpen := fun _ => true }

/-- Whether a file of the run does not have the text that was generated for it. -/
def lost (p : Str) : RunRes → Bool
  | .done files => files.any fun x => x.1 == p && (onDisk files p != some x.2)
  | _ => false

end Fix

/-- **C75** is false in full: of the files of the nodes `ECU` and `Ecu` only those of the second are left, which cannot send the message of the first. -/
theorem C75_refuted : ∃ (H : RunHost) (args : List Str) (files : List (Str × Str)), (∀ l, SortedBy (H.sort l) l) ∧ (∀ p, H.canOpen p = true) ∧
    runApp H args = .done files ∧ ∃ x ∈ files, onDisk files x.1 ≠ some x.2 := by
  have h : Fix.lost "gen/butl/ecu_drv-binutil.h".toList (runApp (Fix.openHost Fix.caseText) Fix.dirArgs) = true := by decide +kernel
  refine ⟨Fix.openHost Fix.caseText, Fix.dirArgs, ?_⟩
  cases hr : runApp (Fix.openHost Fix.caseText) Fix.dirArgs with
  | done files =>
    rw [hr] at h
    obtain ⟨x, hx, q⟩ := List.any_eq_true.1 h
    obtain ⟨q1, q2⟩ := (Bool.and_eq_true _ _).mp q
    refine ⟨files, Fix.insSort_ok, fun _ => rfl, rfl, x, hx, ?_⟩
    rw [beq_iff_eq.1 q1]
    exact bne_iff_ne.1 q2
  | _ => rw [hr] at h; cases h

/-- A message from one node to another. -/
def Fix.twoText : Str := "BO_ 1 M: 8 Dash\n SG_ S : 0|8@1+ (1,0) [0|0] \"\" Ecu".toList

/-- The hypotheses of `C75_once_partial` hold of a run with two nodes, which writes eleven files. -/
example (files : List (Str × Str)) (h : runApp (Fix.openHost Fix.twoText) Fix.dirArgs = .done files) :
    ∀ x ∈ files, onDisk files x.1 = some x.2 := by
  obtain ⟨path, text, out, -, h2, h3, h4, -⟩ := C75_once_partial _ Fix.insSort_ok _ _ h
  refine (h4 fun _ => (lower_nodup _).1 ?_).2
  have ht : text = Fix.twoText := by
    have h2 : (if path = "in/my.dbc".toList then some (some Fix.twoText) else none) = some (some text) := h2
    split at h2
    · exact (Option.some.inj (Option.some.inj h2)).symm
    · cases h2
  have e : (match trimDbcText platIns Fix.twoText with
      | .ok o => decide ((collectNodes o.msgs).map strLower).Nodup
      | _ => false) = true := by decide +kernel
  have h3 : trimDbcText platIns Fix.twoText = .ok out := ht ▸ h3
  rw [h3] at e
  exact of_decide_eq_true e

example : (Fix.resPaths (runApp (Fix.openHost Fix.twoText) Fix.dirArgs)).map List.length = some 11 := by decide +kernel

end Verif
