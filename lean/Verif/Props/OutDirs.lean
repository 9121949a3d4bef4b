import Verif.Props.RunEnd
import Verif.Props.NodeNames
/-
C74: the directories of the files a run writes.
-/
namespace Verif
open Spec

/-- A directory is at path `d` once the run has made its directories: it was there before, or it was not and could be made. -/
def Spec.DirMade (fs : FileSys) (d : Str) : Prop := fs.node d = .dir ∨ fs.node d = .absent ∧ fs.canCreate d = true

/-- `p` is the path of a file of directory `d`. -/
def Spec.InDir (p d : Str) : Prop := ∃ n, p = d ++ '/' :: n ∧ '/' ∉ n

theorem slash_lower {s : Str} (h : '/' ∉ s) : '/' ∉ strLower s := by
  intro q
  obtain ⟨c, hc, e⟩ := List.mem_map.1 q
  unfold lowerChar at e
  split at e
  · rename_i hr
    have h1 : 65 ≤ c.toNat := hr.1
    have h2 : c.toNat ≤ 90 := hr.2
    have e := congrArg Char.toNat e
    have : ∀ n, n < 91 → 65 ≤ n → (Char.ofNat (n + 32)).toNat ≠ '/'.toNat := by decide
    exact this c.toNat (by omega) h1 e
  · exact h (e ▸ hc)

/-- The name of the driver has no `/`: `make_c_name` makes an identifier of it. -/
theorem drv_noSlash (args : List Str) : '/' ∉ (getOptions args).drvname.1 := by
  have hc : ∀ v, '/' ∉ makeCName v := by
    intro v q
    rcases C33_identifier v with h | h
    · rw [h] at q
      cases q
    · cases hm : makeCName v with
      | nil => rw [hm] at q; cases q
      | cons a t =>
        rw [hm] at q h
        have hl : ¬ IsLetter '/' := by unfold IsLetter; decide
        have hd : ¬ IsDigit '/' := by unfold IsDigit; decide
        rcases List.mem_cons.1 q with q | q
        · exact hl (q ▸ h.1)
        · exact (h.2 _ q).elim hl hd
  have key : ∀ (l : List (Str × Str)) (o : GenOptions), '/' ∉ o.drvname.1 → '/' ∉ (l.foldl applyPair o).drvname.1 := by
    intro l
    induction l with
    | nil => exact fun _ q => q
    | cons a t ih =>
      intro o q
      refine ih _ ?_
      have hstep : (applyPair o a).drvname.1 = o.drvname.1 ∨ (applyPair o a).drvname.1 = makeCName a.2 := by
        unfold applyPair
        by_cases h1 : a.1 = "-dbc".toList; · rw [if_pos h1]; exact .inl rfl
        rw [if_neg h1]
        by_cases h2 : a.1 = "-out".toList; · rw [if_pos h2]; exact .inl rfl
        rw [if_neg h2]
        by_cases h3 : a.1 = "-drvname".toList; · rw [if_pos h3]; exact .inr rfl
        rw [if_neg h3]
        by_cases h4 : a.1 = "-rw".toList; · rw [if_pos h4]; exact .inl rfl
        rw [if_neg h4]
        by_cases h5 : a.1 = "-nodeutils".toList; · rw [if_pos h5]; exact .inl rfl
        rw [if_neg h5]
        by_cases h6 : a.1 = "-help".toList; · rw [if_pos h6]; exact .inl rfl
        rw [if_neg h6]
        by_cases h7 : a.1 = "-noinc".toList; · rw [if_pos h7]; exact .inl rfl
        rw [if_neg h7]
        by_cases h8 : a.1 = "-noconfig".toList; · rw [if_pos h8]; exact .inl rfl
        rw [if_neg h8]
        by_cases h9 : a.1 = "-nofmon".toList; · rw [if_pos h9]; exact .inl rfl
        rw [if_neg h9]
        by_cases h10 : a.1 = "-driverdir".toList; · rw [if_pos h10]; exact .inl rfl
        rw [if_neg h10]
        by_cases h11 : a.1 = "-gendate".toList; · rw [if_pos h11]; exact .inl rfl
        rw [if_neg h11]
        exact .inl rfl
      rcases hstep with e | e
      · rw [e]; exact q
      · rw [e]; exact hc _
  exact key _ _ (by decide)

theorem made_of_ok {fs : FileSys} {d : Str} (h : dirOk fs d = true) : DirMade fs d := by
  unfold dirOk at h
  unfold DirMade
  cases hn : fs.node d with
  | absent => rw [hn] at h; exact .inr ⟨rfl, h⟩
  | dir => exact .inl rfl
  | other => rw [hn] at h; cases h

theorem collect_mem {msgs : List Msg} {n : Str} (h : n ∈ collectNodes msgs) : ∃ m ∈ msgs, n ∈ m.tranS ∨ n ∈ m.recS := by
  have key : ∀ (l : List Msg) (acc : List Str), n ∈ l.foldl (fun acc m => m.recS.foldl addNode (m.tranS.foldl addNode acc)) acc →
      n ∈ acc ∨ ∃ m ∈ l, n ∈ m.tranS ∨ n ∈ m.recS := by
    have hf : ∀ (ns acc : List Str), n ∈ ns.foldl addNode acc → n ∈ acc ∨ n ∈ ns := by
      intro ns
      induction ns with
      | nil => exact fun _ q => .inl q
      | cons a t ih =>
        intro acc q
        rcases ih _ q with q | q
        · rcases (addNode_mem _ _ _).1 q with q | q
          · exact .inl q
          · exact .inr (q ▸ List.mem_cons_self)
        · exact .inr (List.mem_cons_of_mem _ q)
    intro l
    induction l with
    | nil => exact fun _ q => .inl q
    | cons a t ih =>
      intro acc q
      rcases ih _ q with q | ⟨m, hm, q⟩
      · rcases hf _ _ q with q | q
        · rcases hf _ _ q with q | q
          · exact .inl q
          · exact .inr ⟨a, List.mem_cons_self, .inl q⟩
        · exact .inr ⟨a, List.mem_cons_self, .inr q⟩
      · exact .inr ⟨m, List.mem_cons_of_mem _ hm, q⟩
  rcases key msgs [] h with q | q
  · cases q
  · exact q

/-- Every path a run with these options writes is in a directory it has made, if neither the name of the driver nor that of a node has a `/`. -/
theorem paths_made {o : GenOptions} {msgs : List Msg} {fs : FileSys} (hd : '/' ∉ o.drvname.1)
    (hn : o.isNodeutils = true → ∀ m ∈ msgs, ∀ n, n ∈ m.tranS ∨ n ∈ m.recS → '/' ∉ n) : ∀ p ∈ runPaths o msgs fs, ∃ d, InDir p d ∧ DirMade fs d := by
  intro p hp
  unfold runPaths at hp
  have hl := slash_lower hd
  cases hr : prepareDirectory fs (configure o.drvname.1 (finalPath o)) o.isRewrite with
  | throws => rw [hr] at hp; cases hp
  | ub => rw [hr] at hp; cases hp
  | ret ok x =>
    cases ok with
    | false => rw [hr] at hp; cases hp
    | true =>
      have hall : [finalPath o ++ "/lib".toList, finalPath o ++ "/usr".toList, finalPath o ++ "/inc".toList, finalPath o ++ "/conf".toList, finalPath o ++ "/butl".toList].all (dirOk fs) = true := by
        unfold prepareDirectory at hr
        cases hs : selectDirectory fs (configure o.drvname.1 (finalPath o)).base o.isRewrite with
        | throws => rw [hs] at hr; cases hr
        | ub => rw [hs] at hr; cases hr
        | ret a b =>
          rw [hs] at hr
          dsimp only at hr
          split at hr
          · rename_i q
            exact q
          · cases hr
      simp only [List.all_cons, List.all_nil, Bool.and_true, Bool.and_eq_true] at hall
      obtain ⟨m1, m2, m3, m4, m5⟩ := hall
      have fin : ∀ {t : Str}, '/' ∉ t → '/' ∉ strLower o.drvname.1 ++ t := fun ht q => (List.mem_append.1 q).elim hl ht
      rw [hr] at hp
      unfold writtenPaths at hp
      dsimp only at hp
      rcases List.mem_append.1 hp with hp | hp
      · rcases List.mem_append.1 hp with hp | hp
        · rcases List.mem_append.1 hp with hp | hp
          · rcases List.mem_append.1 hp with hp | hp
            · simp only [List.mem_cons, List.not_mem_nil, or_false] at hp
              rcases hp with rfl | rfl | rfl
              · exact ⟨_, ⟨_, rfl, fin (by decide)⟩, made_of_ok m1⟩
              · exact ⟨_, ⟨_, rfl, fin (by decide)⟩, made_of_ok m1⟩
              · exact ⟨_, ⟨_, rfl, fin (by decide)⟩, made_of_ok m1⟩
            · split at hp
              · cases hp
              · cases List.mem_singleton.1 hp
                exact ⟨_, ⟨_, rfl, fin (by decide)⟩, made_of_ok m2⟩
          · split at hp
            · cases hp
            · simp only [List.mem_cons, List.not_mem_nil, or_false] at hp
              rcases hp with rfl | rfl
              · exact ⟨_, ⟨_, rfl, fin (by decide)⟩, made_of_ok m4⟩
              · exact ⟨_, ⟨"dbccodeconf.h".toList, rfl, by decide⟩, made_of_ok m4⟩
        · split at hp
          · cases hp
          · cases List.mem_singleton.1 hp
            exact ⟨_, ⟨"canmonitorutil.h".toList, rfl, by decide⟩, made_of_ok m3⟩
      · split at hp
        · rename_i hnu
          obtain ⟨n, hnm, hp⟩ := List.mem_flatMap.1 hp
          obtain ⟨m, hm, hor⟩ := collect_mem hnm
          have h1 := hn hnu m hm n hor
          have h2 : '/' ∉ strLower (n ++ "_".toList ++ o.drvname.1) := slash_lower fun q => by
            rcases List.mem_append.1 q with q | q
            · rcases List.mem_append.1 q with q | q
              · exact h1 q
              · revert q
                decide
            · exact hd q
          have h3 : ∀ {t : Str}, '/' ∉ t → '/' ∉ strLower (strLower (n ++ "_".toList ++ o.drvname.1) ++ t) :=
            fun ht => slash_lower fun q => (List.mem_append.1 q).elim h2 ht
          simp only [List.mem_cons, List.not_mem_nil, or_false] at hp
          rcases hp with rfl | rfl
          · exact ⟨_, ⟨_, by unfold nodeUtilH; rw [List.append_assoc]; rfl, h3 (by decide)⟩, made_of_ok m5⟩
          · exact ⟨_, ⟨_, by unfold nodeUtilC; rw [List.append_assoc]; rfl, h3 (by decide)⟩, made_of_ok m5⟩
        · simp only [List.mem_cons, List.not_mem_nil, or_false] at hp
          rcases hp with rfl | rfl
          · exact ⟨_, ⟨_, rfl, fin (by decide)⟩, made_of_ok m5⟩
          · exact ⟨_, ⟨_, rfl, fin (by decide)⟩, made_of_ok m5⟩

/-- **C74**.  A run that ends regularly has made sure of the directory of every file it writes, and on a host that opens every
file in an existing directory it has written all files of C38. -/
theorem C74_dirs (H : RunHost) (hsort : ∀ l, SortedBy (H.sort l) l) (hstart : SortsByStart H.plat) (args : List Str) (files : List (Str × Str))
    (h : runApp H args = .done files) :
    (∀ x ∈ files, ∃ d, InDir x.1 d ∧ DirMade H.fs d) ∧
    ((∀ p d, InDir p d → DirMade H.fs d → H.canOpen p = true) →
      ∃ path text out, Asks args path ∧ H.dbc path = some (some text) ∧ trimDbcText H.plat text = .ok out ∧
        files.map (·.1) = runPaths (getOptions args) out.msgs H.fs) := by
  obtain ⟨path, text, out, a1, a2, a3, a4, -, -⟩ := C70_done H hsort args files h
  have hm := paths_made (msgs := out.msgs) (fs := H.fs) (drv_noSlash args) fun _ m hm n hn q =>
    absurd (C74_names H.plat hstart text out a3 m hm n hn _ q) (by unfold NodeChar IsLetter IsDigit; decide)
  constructor
  · intro x hx
    have : x.1 ∈ (runPaths (getOptions args) out.msgs H.fs).filter H.canOpen := a4 ▸ List.mem_map_of_mem hx
    exact hm _ (List.mem_filter.1 this).1
  · intro hop
    refine ⟨path, text, out, a1, a2, a3, a4.trans (List.filter_eq_self.2 fun p hp => ?_)⟩
    obtain ⟨d, q1, q2⟩ := hm p hp
    exact hop p d q1 q2

namespace Fix

/-- Directories that can be made. -/
def outDirs : List Str := ["gen", "gen/lib", "gen/usr", "gen/inc", "gen/conf", "gen/butl"].map String.toList

/-- The directory of a path. -/
def dirPart (p : Str) : Str := ((p.reverse.dropWhile (· != '/')).drop 1).reverse

/-- A host that opens the files of exactly the directories that were made. -/
def dirHost (text : Str) : RunHost :=
  { plat := platIns, fs := { node := fun _ => .absent, canCreate := fun d => outDirs.contains d }, dbc := fun p => if p = "in/my.dbc".toList then some (some text) else none
    canOpen := fun p => outDirs.contains (dirPart p), sort := insSort, date := none }

theorem dirPart_in {p d : Str} (h : InDir p d) : dirPart p = d := by
  obtain ⟨n, rfl, hn⟩ := h
  unfold dirPart
  have hrev : (d ++ '/' :: n).reverse = n.reverse ++ '/' :: d.reverse := by
    rw [List.reverse_append, List.reverse_cons, List.append_assoc]
    rfl
  have hdw : ∀ l : Str, '/' ∉ l → (l ++ '/' :: d.reverse).dropWhile (· != '/') = '/' :: d.reverse := by
    intro l
    induction l with
    | nil => exact fun _ => rfl
    | cons a t ih =>
      intro ha
      rw [List.cons_append, List.dropWhile_cons, if_pos (by rw [bne_iff_ne]; exact fun e => ha (e ▸ List.mem_cons_self))]
      exact ih fun q => ha (List.mem_cons_of_mem _ q)
  rw [hrev, hdw _ (by rw [List.mem_reverse]; exact hn), List.drop_succ_cons, List.drop_zero, List.reverse_reverse]

/-- The host opens every file in an existing directory. -/
theorem dirHost_opens (text : Str) : ∀ p d, InDir p d → DirMade (dirHost text).fs d → (dirHost text).canOpen p = true := by
  intro p d h1 h2
  show outDirs.contains (dirPart p) = true
  rw [dirPart_in h1]
  rcases h2 with h2 | h2
  · cases h2
  · exact h2.2

def dirArgs : List Str := ["coderdbc", "-dbc", "in/my.dbc", "-out", "gen", "-drvname", "drv", "-nodeutils", "-rw"].map String.toList

/-- The paths written by a run. -/
def resPaths : RunRes → Option (List Str)
  | .done files => some (files.map (·.1))
  | _ => none

end Fix

/-- The files of a driver with one node. -/
example : Fix.resPaths (runApp (Fix.dirHost "BO_ 1 M: 8 Dash".toList) Fix.dirArgs) = some (["gen/lib/drv.h", "gen/lib/drv.c", "gen/lib/drv-fmon.h", "gen/usr/drv-fmon.c",
    "gen/conf/drv-config.h", "gen/conf/dbccodeconf.h", "gen/inc/canmonitorutil.h", "gen/butl/dash_drv-binutil.h", "gen/butl/dash_drv-binutil.c"].map String.toList) := by
  decide +kernel

/-- All hypotheses of C74 hold on this host. -/
example (files : List (Str × Str)) (h : runApp (Fix.dirHost "BO_ 1 M: 8 Dash".toList) Fix.dirArgs = .done files) :
    (∀ x ∈ files, ∃ d, InDir x.1 d ∧ DirMade (Fix.dirHost "BO_ 1 M: 8 Dash".toList).fs d) ∧
    ∃ path text out, Asks Fix.dirArgs path ∧ (Fix.dirHost "BO_ 1 M: 8 Dash".toList).dbc path = some (some text) ∧ trimDbcText platIns text = .ok out ∧
      files.map (·.1) = runPaths (getOptions Fix.dirArgs) out.msgs (Fix.dirHost "BO_ 1 M: 8 Dash".toList).fs :=
  have q := C74_dirs (Fix.dirHost "BO_ 1 M: 8 Dash".toList) Fix.insSort_ok platIns_sorts Fix.dirArgs files h
  ⟨q.1, q.2 (Fix.dirHost_opens _)⟩

end Verif
