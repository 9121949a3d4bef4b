import Verif.Proofs.RunFiles
import Verif.Props.NodePipeline
import Verif.Props.App
/-
C65: from the command line to the compiled program.
-/
namespace Verif
open Spec

variable {φ : Type} {who : Option Str} {D0 : Defs} {on : List Str} {fl : ConfEdit} {tick hash : Hook} {maxW initW : Str}

/-- The directory in which the user compiles: every file the run has written to `lib`, `usr`, `inc` and `butl`, an empty `stdint.h` (its types are
built into the reading of C, Spec/CTree.lean), and the two configuration headers, in which the user may have removed the comment
marks before the switches `on`, and (`fl`) before the definition of `sigfloat_t`.  With `-noinc` the run does not write `canmonitorutil.h`; then
it is there from another run (`MonHeader`). -/
structure ProjectDir (dir files : List (Str × Str)) (o : GenOptions) (g : GenDesc) (on : List Str) (fl : ConfEdit) : Prop where
  copied : ∀ s ∈ ["/lib/".toList, "/usr/".toList, "/inc/".toList, "/butl/".toList], ∀ b t, written files (finalPath o ++ s ++ b) = some t → dir.lookup b = some t
  config : dir.lookup (strLower o.drvname.1 ++ "-config.h".toList) = some (opsText (userConfigOps g on))
  codeconf : dir.lookup "dbccodeconf.h".toList = some (opsText (userCodeConf fl g))
  stdint : dir.lookup "stdint.h".toList = some []
  canmon : o.isNocanmon = true → MonHeader dir g

/-- A run of the tool with which all goes well: the parameters are valid, the DBC file is there and gets through the scanner, the output
directory can be prepared and all files can be opened. -/
structure GoodRun (H : RunHost) (args : List Str) (text : Str) (out : DbcList) : Prop where
  sort : ∀ l, SortedBy (H.sort l) l
  valid : areParamsValid (getOptions args) = true
  read : H.dbc (getOptions args).dbc.1 = some (some text)
  scan : trimDbcText H.plat text = .ok out
  prep : ∃ d, prepareDirectory H.fs (configure (getOptions args).drvname.1 (finalPath (getOptions args))) (getOptions args).isRewrite = .ret true d
  canOpen : ∀ p ∈ runPaths (getOptions args) out.msgs H.fs, H.canOpen p = true

/-- What the comment block of the files of a run names. -/
def Spec.runSource (H : RunHost) (args : List Str) : Source :=
  { name := extractFileName (getOptions args).dbc.1, date := if (getOptions args).addGenDate then H.date else none }

theorem commonInfo_eq (H : RunHost) (args : List Str) : commonInfoOf (getOptions args) H.date = sourceInfo (runSource H args) := by
  unfold commonInfoOf sourceInfo runSource
  cases H.date with
  | none => cases (getOptions args).addGenDate <;> rfl
  | some t => cases (getOptions args).addGenDate <;> rfl

theorem config_default (g : GenDesc) : userConfigOps g [] = configHeaderOps g ∧ userCodeConf .none g = dbcCodeConfOps g := by
  have e : switchLine [] = switchOff := by
    funext n
    unfold switchLine
    exact if_neg List.not_mem_nil
  exact ⟨by unfold userConfigOps; rw [e]; rfl, rfl⟩

theorem run_done {H : RunHost} {args : List Str} {text : Str} {out : DbcList} (R : GoodRun H args text out) {hops sops : List WOp}
    (hh : mainHeaderOps (driverDesc (getOptions args).drvname.1 (runSource H args) out.verHi out.verLow) out.maxDlc (H.sort out.msgs) = some hops)
    (hs : mainSourceOps (driverDesc (getOptions args).drvname.1 (runSource H args) out.verHi out.verLow) (H.sort out.msgs) = some sops) :
    runApp H args = .done (runFiles H (getOptions args) out hops sops) := by
  obtain ⟨d, hp⟩ := R.prep
  have hc := R.canOpen
  unfold runPaths at hc
  rw [hp] at hc
  unfold runApp
  dsimp only
  rw [if_pos R.valid, R.read]
  dsimp only
  rw [R.scan]
  dsimp only
  refine generate_done R.sort hp ?_ ?_ hc
  · rw [commonInfo_eq H args]
    exact hh
  · rw [commonInfo_eq H args]
    exact hs

/-- The files of the main generator are in the directory. -/
theorem project_dir {H : RunHost} {args : List Str} {text : Str} {out : DbcList} (R : GoodRun H args text out) {hops sops : List WOp}
    {dir : List (Str × Str)}
    (hd : ProjectDir dir (runFiles H (getOptions args) out hops sops) (getOptions args)
      (driverDesc (getOptions args).drvname.1 (runSource H args) out.verHi out.verLow) on fl) :
    let g := driverDesc (getOptions args).drvname.1 (runSource H args) out.verHi out.verLow
    DirOk dir g on fl hops (H.sort out.msgs) ∧ dir.lookup (g.drvLow ++ ".c".toList) = some (opsText sops) ∧
      ((getOptions args).isNofmon = false → dir.lookup (g.drvLow ++ "-fmon.c".toList) = some (opsText (fmonSourceOps g (H.sort out.msgs)))) := by
  intro g
  obtain ⟨w1, w2, w3, w4, -, w5⟩ := run_written (H := H) (o := getOptions args) (out := out) (hops := hops) (sops := sops)
  rw [commonInfo_eq H args] at w3 w4 w5
  have e : ∀ (s b : Str), finalPath (getOptions args) ++ '/' :: s ++ '/' :: b = finalPath (getOptions args) ++ ('/' :: s ++ ['/']) ++ b := fun s b => by simp
  refine ⟨⟨?_, hd.config, hd.codeconf, ?_, ?_, hd.stdint⟩, ?_, fun hb => ?_⟩
  · exact hd.copied "/lib/".toList (by decide) _ _ ((congrArg _ (e "lib".toList _)).symm.trans w1)
  · cases hm : (getOptions args).isNocanmon with
    | true => exact hd.canmon hm
    | false => exact .inl (hd.copied "/inc/".toList (by decide) _ _ ((congrArg _ (e "inc".toList _)).symm.trans (w5 hm)))
  · exact hd.copied "/lib/".toList (by decide) _ _ ((congrArg _ (e "lib".toList _)).symm.trans w3)
  · exact hd.copied "/lib/".toList (by decide) _ _ ((congrArg _ (e "lib".toList _)).symm.trans w2)
  · exact hd.copied "/usr/".toList (by decide) _ _ ((congrArg _ (e "usr".toList _)).symm.trans (w4 hb))

/-- For whom the run makes util files: with `-nodeutils` for every node, here one whose name no other node has in another spelling; without it for all
messages. -/
def Spec.UtilRun (o : GenOptions) (msgs : List Msg) (who : Option Str) : Prop :=
  match who with
  | some node => o.isNodeutils = true ∧ node ∈ collectNodes msgs ∧ ∀ n ∈ collectNodes msgs, strLower n = strLower node → n = node
  | none => o.isNodeutils = false

/-- The util files are in the directory. -/
theorem project_node {H : RunHost} {args : List Str} {text : Str} {out : DbcList} (R : GoodRun H args text out) (hf : (getOptions args).isNofmon = false)
    (hw : UtilRun (getOptions args) out.msgs who)
    {hops sops uops : List WOp}
    (h3 : utilSourceOps (nodeDesc (getOptions args).drvname.1 (runSource H args) out.verHi out.verLow who) out.verHi out.verLow
      (H.sort (selectRx (whoGroups out.msgs who) out.msgs)) (H.sort (selectTx (whoGroups out.msgs who) out.msgs)) = some uops) {dir : List (Str × Str)}
    (hd : ProjectDir dir (runFiles H (getOptions args) out hops sops) (getOptions args)
      (driverDesc (getOptions args).drvname.1 (runSource H args) out.verHi out.verLow) on fl) :
    NodeDir dir (driverDesc (getOptions args).drvname.1 (runSource H args) out.verHi out.verLow)
      (nodeDesc (getOptions args).drvname.1 (runSource H args) out.verHi out.verLow who) on fl hops sops uops (H.sort out.msgs)
      (H.sort (selectRx (whoGroups out.msgs who) out.msgs)) (H.sort (selectTx (whoGroups out.msgs who) out.msgs)) := by
  obtain ⟨a1, a2, a3⟩ := project_dir R hd
  have e : (utilSourceOps (nodeDesc (getOptions args).drvname.1 (runSource H args) out.verHi out.verLow who) out.verHi out.verLow
      (H.sort (selectRx (whoGroups out.msgs who) out.msgs)) (H.sort (selectTx (whoGroups out.msgs who) out.msgs))).getD [] = uops := by rw [h3]; rfl
  cases who with
  | some node =>
    obtain ⟨hn, hnode, hone⟩ := hw
    obtain ⟨b1, b2⟩ := run_node (H := H) (hops := hops) (sops := sops) hn hnode hone
    rw [commonInfo_eq H args] at b1 b2
    refine ⟨a1, a2, a3 hf, ?_, ?_⟩
    · refine hd.copied "/butl/".toList (by decide) _ _ (Eq.trans (congrArg _ ?_) b1)
      unfold nodeUtilH configure
      dsimp only
      rw [List.append_assoc, List.append_assoc, List.append_assoc]
      rfl
    · refine hd.copied "/butl/".toList (by decide) _ _ (Eq.trans (congrArg _ ?_) (b2.trans (congrArg (fun x => some (opsText x)) e)))
      unfold nodeUtilC configure
      dsimp only
      rw [List.append_assoc, List.append_assoc, List.append_assoc]
      rfl
  | none =>
    obtain ⟨b1, b2⟩ := run_all (H := H) (hops := hops) (sops := sops) hw
    rw [commonInfo_eq H args] at b1 b2
    refine ⟨a1, a2, a3 hf, ?_, ?_⟩
    · refine hd.copied "/butl/".toList (by decide) _ _ (Eq.trans (congrArg _ ?_) b1)
      unfold configure
      dsimp only
      rw [List.append_assoc, List.append_assoc]
      rfl
    · refine hd.copied "/butl/".toList (by decide) _ _ (Eq.trans (congrArg _ ?_) (b2.trans (congrArg (fun x => some (opsText x)) e)))
      unfold configure
      dsimp only
      rw [List.append_assoc, List.append_assoc]
      have e2 : strLower (strLower (getOptions args).drvname.1 ++ "-binutil.c".toList) = strLower (getOptions args).drvname.1 ++ "-binutil.c".toList := by
        rw [lower_append, lower_lower]
        rfl
      exact congrArg (fun x => finalPath (getOptions args) ++ ("/butl/".toList ++ x)) e2

/-- **C65**, the driver.  For every command line, every DBC file and every host with which all goes well (`GoodRun`): if the driver name
and the names of the file make a readable C file (`DirDriver`), the run comes to its end, writes the files C38 tells (each
with one text), and in every directory with these files (`ProjectDir`: the configuration headers may be edited) the driver compiles and does for every message of
the DBC file what the file defines (`DriverProgram`, C64). -/
theorem C65_driver_partial (H : RunHost) (args : List Str) (text : Str) (out : DbcList) (R : GoodRun H args text out) (hs : SortsByStart H.plat) (hc : H.plat.charMax = 127)
    (hoob : ∀ v, H.plat.oob = some v → 2 ^ 32 ≤ CTy.toU .u64 v)
    (hD : DirDriver (getOptions args).drvname.1 (runSource H args) out.verHi out.verLow out.maxDlc (H.sort out.msgs) D0 on fl tick hash maxW initW)
    (maxV initV : Nat) :
    ∃ files, runApp H args = .done files ∧ files.map (·.1) = runPaths (getOptions args) out.msgs H.fs ∧
      ∀ dir, ProjectDir dir files (getOptions args) (driverDesc (getOptions args).drvname.1 (runSource H args) out.verHi out.verLow) on fl →
        DriverProgram φ H.plat text (getOptions args).drvname.1 (runSource H args) out (H.sort out.msgs) D0 on tick hash maxW initW maxV initV dir := by
  obtain ⟨hops, sops, h1, h2, h3⟩ := C64_driver_partial (φ := φ) H.plat hs hc hoob text out R.scan (H.sort out.msgs) (R.sort _) hD maxV initV
  obtain ⟨d, hp⟩ := R.prep
  refine ⟨_, run_done R h1 h2, ?_, fun dir hd => ?_⟩
  · unfold runPaths
    rw [hp]
    exact run_paths _ _ _ _ _ _
  · obtain ⟨a1, a2, -⟩ := project_dir R hd
    exact h3 dir a1 a2

/-- **C65**, the node.  With `-nodeutils`, for every node of the file whose name no other node has in another spelling: the three source files
of the node compile in the directory, link, and a received frame arrives as the DBC file defines it (`NodeProgram`, C64). -/
theorem C65_node_partial (H : RunHost) (args : List Str) (text : Str) (out : DbcList) (R : GoodRun H args text out) (hs : SortsByStart H.plat) (hc : H.plat.charMax = 127)
    (hoob : ∀ v, H.plat.oob = some v → 2 ^ 32 ≤ CTy.toU .u64 v) (hids : IdsDistinct out.msgs)
    (hf : (getOptions args).isNofmon = false) (hw : UtilRun (getOptions args) out.msgs who)
    (hD : NodeDriver (getOptions args).drvname.1 (runSource H args) out.verHi out.verLow out.maxDlc (H.sort out.msgs) D0 on fl tick hash maxW initW who
      (H.sort (selectRx (whoGroups out.msgs who) out.msgs)) (H.sort (selectTx (whoGroups out.msgs who) out.msgs)))
    (maxV initV : Nat) :
    ∃ files, runApp H args = .done files ∧ files.map (·.1) = runPaths (getOptions args) out.msgs H.fs ∧
      ∀ dir, ProjectDir dir files (getOptions args) (driverDesc (getOptions args).drvname.1 (runSource H args) out.verHi out.verLow) on fl →
        DriverProgram φ H.plat text (getOptions args).drvname.1 (runSource H args) out (H.sort out.msgs) D0 on tick hash maxW initW maxV initV dir ∧
        NodeProgram φ H.plat text (getOptions args).drvname.1 (runSource H args) out (H.sort out.msgs) D0 on tick hash maxW initW who
          (H.sort (selectRx (whoGroups out.msgs who) out.msgs)) maxV initV dir := by
  obtain ⟨hops, sops, uops, h1, h2, h3, h4⟩ := C64_receive_partial (φ := φ) H.plat hs hc hoob text out R.scan (H.sort out.msgs) (R.sort _) hids hD (R.sort _) (R.sort _) maxV initV
  obtain ⟨hops', sops', k1, k2, k3⟩ := C64_driver_partial (φ := φ) H.plat hs hc hoob text out R.scan (H.sort out.msgs) (R.sort _) hD.toDirDriver maxV initV
  cases h1.symm.trans k1
  cases h2.symm.trans k2
  obtain ⟨d, hp⟩ := R.prep
  refine ⟨_, run_done R h1 h2, ?_, fun dir hd => ?_⟩
  · unfold runPaths
    rw [hp]
    exact run_paths _ _ _ _ _ _
  · obtain ⟨a1, a2, -⟩ := project_dir R hd
    exact ⟨k3 dir a1 a2, h4 dir (project_node R hf hw h3 hd)⟩

/-- The configuration headers as the run writes them have all switches off, and do not define `sigfloat_t`. -/
theorem C65_config (H : RunHost) (args : List Str) (text : Str) (out : DbcList) (R : GoodRun H args text out) (hm : (getOptions args).isNoconfig = false)
    (files : List (Str × Str)) (hr : runApp H args = .done files) :
    let g := driverDesc (getOptions args).drvname.1 (runSource H args) out.verHi out.verLow
    written files (finalPath (getOptions args) ++ "/conf/".toList ++ strLower (getOptions args).drvname.1 ++ "-config.h".toList) = some (opsText (userConfigOps g [])) ∧
    written files (finalPath (getOptions args) ++ "/conf/dbccodeconf.h".toList) = some (opsText (userCodeConf .none g)) := by
  intro g
  obtain ⟨d, hp⟩ := R.prep
  have hinv : ∃ hops sops, mainHeaderOps g out.maxDlc (H.sort out.msgs) = some hops ∧ mainSourceOps g (H.sort out.msgs) = some sops := by
    unfold runApp at hr
    dsimp only at hr
    rw [if_pos R.valid, R.read] at hr
    dsimp only at hr
    rw [R.scan] at hr
    dsimp only at hr
    unfold generate at hr
    dsimp only at hr
    rw [hp, commonInfo_eq H args] at hr
    dsimp only at hr
    unfold mainOps at hr
    cases h1 : mainHeaderOps g out.maxDlc (H.sort out.msgs) with
    | none =>
      have h1' : mainHeaderOps (configureGen (getOptions args).drvname.1 (sourceInfo (runSource H args)) (driverSrcInfo (extractFileName (getOptions args).dbc.1)) out.verHi out.verLow) out.maxDlc
        (H.sort out.msgs) = none := h1
      rw [h1'] at hr
      cases hr
    | some hops =>
      have h1' : mainHeaderOps (configureGen (getOptions args).drvname.1 (sourceInfo (runSource H args)) (driverSrcInfo (extractFileName (getOptions args).dbc.1)) out.verHi out.verLow) out.maxDlc
        (H.sort out.msgs) = some hops := h1
      cases h2 : mainSourceOps g (H.sort out.msgs) with
      | none =>
        have h2' : mainSourceOps (configureGen (getOptions args).drvname.1 (sourceInfo (runSource H args)) (driverSrcInfo (extractFileName (getOptions args).dbc.1)) out.verHi out.verLow)
          (H.sort out.msgs) = none := h2
        rw [h1', h2'] at hr
        cases hr
      | some sops => exact ⟨hops, sops, rfl, rfl⟩
  obtain ⟨hops, sops, h1, h2⟩ := hinv
  cases (run_done R h1 h2).symm.trans hr
  obtain ⟨-, -, -, -, w, -⟩ := run_written (H := H) (o := getOptions args) (out := out) (hops := hops) (sops := sops)
  rw [commonInfo_eq H args] at w
  rw [(config_default g).1, (config_default g).2]
  refine ⟨Eq.trans (congrArg _ ?_) (w hm).1, Eq.trans (congrArg _ ?_) (w hm).2⟩
  · unfold configure
    dsimp only
    rw [List.append_assoc, List.append_assoc, List.append_assoc]
    rfl
  · unfold configure
    dsimp only
    rw [List.append_assoc]
    rfl

/-! ### Example: the file of C59, driver `drv`, node `Dash` -/

/-- Part of a path after the last `/`. -/
def baseOf (p : Str) : Str := (p.reverse.takeWhile fun c => c != '/').reverse

/-- Paths of files that can be copied into one directory beside the files `keys`. -/
def CopyOk (out : Str) (subs : List Str) (paths keys : List Str) : Prop :=
  (∀ p ∈ paths, ∀ q ∈ paths, baseOf p = baseOf q → p = q) ∧
  ∀ p ∈ paths, ∀ s ∈ subs, (out ++ s).isPrefixOf p = true → baseOf p = p.drop (out ++ s).length ∧ baseOf p ∉ keys

instance (out : Str) (subs paths keys : List Str) : Decidable (CopyOk out subs paths keys) := by unfold CopyOk; infer_instance

theorem lookup_base {l : List (Str × Str)} {p t : Str} (h : l.lookup p = some t) (hinj : ∀ q ∈ l.map (·.1), baseOf p = baseOf q → p = q) :
    (l.map fun x => (baseOf x.1, x.2)).lookup (baseOf p) = some t := by
  induction l with
  | nil => cases h
  | cons x l ih =>
    obtain ⟨k, v⟩ := x
    rw [List.lookup_cons] at h
    rw [List.map_cons, List.lookup_cons]
    by_cases e : p = k
    · subst e
      rw [beq_self_eq_true] at h ⊢
      exact h
    · have e2 : (p == k) = false := by simpa using e
      have e3 : (baseOf p == baseOf k) = false := by
        have : baseOf p ≠ baseOf k := fun q => e (hinj k List.mem_cons_self q)
        simpa using this
      rw [e2] at h
      dsimp only
      rw [e3]
      exact ih h fun q hq => hinj q (List.mem_cons_of_mem _ hq)

theorem lookup_pair {l : List (Str × Str)} {p t : Str} (h : l.lookup p = some t) : (p, t) ∈ l := by
  induction l with
  | nil => cases h
  | cons x l ih =>
    obtain ⟨k, v⟩ := x
    rw [List.lookup_cons] at h
    by_cases e : p = k
    · subst e
      rw [beq_self_eq_true] at h
      cases h
      exact List.mem_cons_self
    · have e2 : (p == k) = false := by simpa using e
      rw [e2] at h
      exact List.mem_cons_of_mem _ (ih h)

theorem lookup_skip {l1 l2 : List (Str × Str)} {b : Str} (h : b ∉ l1.map (·.1)) : (l1 ++ l2).lookup b = l2.lookup b := by
  induction l1 with
  | nil => rfl
  | cons x l ih =>
    obtain ⟨k, v⟩ := x
    have e2 : (b == k) = false := by
      have : b ≠ k := fun q => h (q ▸ List.mem_cons_self)
      simpa using this
    rw [List.cons_append, List.lookup_cons, e2]
    exact ih fun q => h (List.mem_cons_of_mem _ q)

/-- Copying the files of a run. -/
theorem project_copy {files extra : List (Str × Str)} {o : GenOptions} {g : GenDesc}
    (h : CopyOk (finalPath o) ["/lib/".toList, "/usr/".toList, "/inc/".toList, "/butl/".toList] (files.map (·.1)) (extra.map (·.1)))
    (h1 : extra.lookup (strLower o.drvname.1 ++ "-config.h".toList) = some (opsText (userConfigOps g on)))
    (h2 : extra.lookup "dbccodeconf.h".toList = some (opsText (userCodeConf fl g))) (h3 : extra.lookup "stdint.h".toList = some [])
    (h4 : o.isNocanmon = true → extra.lookup "canmonitorutil.h".toList = some (opsText (canMonUtilOps g))) :
    ProjectDir (extra ++ files.reverse.map fun x => (baseOf x.1, x.2)) files o g on fl := by
  have key : ∀ {b t : Str}, extra.lookup b = some t → (extra ++ files.reverse.map fun x => (baseOf x.1, x.2)).lookup b = some t := by
    intro b t h
    rw [List.lookup_append, h]
    rfl
  refine ⟨fun s hs b t hw => ?_, key h1, key h2, key h3, fun q => .inl (key (h4 q))⟩
  have hw' := hw
  unfold written at hw
  have hm : finalPath o ++ s ++ b ∈ files.map (·.1) := List.mem_map.2 ⟨_, List.mem_reverse.1 (lookup_pair hw), rfl⟩
  have hp := h.2 _ hm s hs (by rw [List.isPrefixOf_iff_prefix]; exact List.prefix_append _ _)
  rw [List.drop_left] at hp
  have e := lookup_base hw (fun q hq hb => by
    rw [List.map_reverse, List.mem_reverse] at hq
    exact h.1 _ hm _ hq hb)
  rw [hp.1] at e hp
  rw [lookup_skip hp.2]
  exact e

namespace Fix

/-- Sorting by insertion. -/
def insMsg (m : Msg) : List Msg → List Msg
  | [] => [m]
  | a :: l => if m.msgId ≤ a.msgId then m :: a :: l else a :: insMsg m l

theorem insMsg_perm (m : Msg) (l : List Msg) : (insMsg m l).Perm (m :: l) := by
  induction l with
  | nil => exact List.Perm.refl _
  | cons a l ih =>
    unfold insMsg
    split
    · exact List.Perm.refl _
    · exact (ih.cons a).trans (List.Perm.swap m a l)

theorem insMsg_sorted (m : Msg) (l : List Msg) (h : l.Pairwise fun a b => a.msgId ≤ b.msgId) : (insMsg m l).Pairwise fun a b => a.msgId ≤ b.msgId := by
  induction l with
  | nil => exact List.pairwise_singleton _ _
  | cons a l ih =>
    rw [List.pairwise_cons] at h
    unfold insMsg
    split
    · rename_i hle
      refine List.pairwise_cons.2 ⟨fun c hc => ?_, List.pairwise_cons.2 h⟩
      rcases List.mem_cons.1 hc with rfl | hc
      · exact hle
      · exact Nat.le_trans hle (h.1 c hc)
    · rename_i hle
      refine List.pairwise_cons.2 ⟨fun c hc => ?_, ih h.2⟩
      rcases List.mem_cons.1 ((insMsg_perm m l).mem_iff.1 hc) with rfl | hc
      · omega
      · exact h.1 c hc

def insSort (l : List Msg) : List Msg := l.foldr insMsg []

theorem insSort_ok (l : List Msg) : SortedBy (insSort l) l := by
  unfold insSort
  induction l with
  | nil => exact ⟨List.Perm.refl _, List.Pairwise.nil⟩
  | cons a l ih => exact ⟨(insMsg_perm _ _).trans (ih.1.cons a), insMsg_sorted _ _ ih.2⟩

/-- A host: an empty directory, the DBC file in `in`, all files can be written. -/
def runHost : RunHost :=
  { plat := platIns, fs := { node := fun _ => .absent, canCreate := fun _ => true }, dbc := fun p => if p = "in/my.dbc".toList then some (some pipeText) else none
    canOpen := fun _ => true, sort := insSort, date := some "2026.11.16 17:00:00".toList }

def runArgs : List Str := ["coderdbc", "-dbc", "in/my.dbc", "-out", "gen", "-drvname", "drv", "-nodeutils", "-rw"].map String.toList

def runOpts : GenOptions := { dbc := ("in/my.dbc".toList, true), outdir := ("gen".toList, true), drvname := ("drv".toList, true), isRewrite := true, isNodeutils := true }

theorem runOpts_eq : getOptions runArgs = runOpts := by decide +kernel

theorem goodRun : GoodRun runHost runArgs pipeText pipeOut := by
  refine ⟨insSort_ok, ?_, ?_, pipeOk, ⟨some "gen".toList, ?_⟩, fun _ _ => rfl⟩
  · rw [runOpts_eq]; decide
  · rw [runOpts_eq]; rfl
  · rw [runOpts_eq]; decide +kernel

theorem runSorted : insSort pipeOut.msgs = pipeMsgs ∧ insSort (selectRx (whoGroups pipeOut.msgs (some "Dash".toList)) pipeOut.msgs) = dashRx ∧
    insSort (selectTx (whoGroups pipeOut.msgs (some "Dash".toList)) pipeOut.msgs) = dashTx := by decide +kernel

theorem runFile : runSource runHost runArgs = { name := "my.dbc".toList } := by
  unfold runSource
  rw [runOpts_eq]
  decide +kernel

theorem runCopy : CopyOk (finalPath runOpts) ["/lib/".toList, "/usr/".toList, "/inc/".toList, "/butl/".toList] (runPaths runOpts pipeOut.msgs runHost.fs)
    ["drv-config.h".toList, "dbccodeconf.h".toList, "stdint.h".toList] := by decide +kernel

end Fix

/-- The hypotheses of C65 can be met: the run ends, its files can be copied into one directory with edited configuration headers, the node compiles and links there. -/
example : ∃ files, runApp Fix.runHost Fix.runArgs = .done files ∧ files.length = 11 ∧
    ∃ dir, ProjectDir dir files Fix.runOpts Fix.pipeG Fix.dashOn .float ∧
      NodeProgram Unit platIns Fix.pipeText "drv".toList "my.dbc".toList Fix.pipeOut Fix.pipeMsgs Fix.userHooks Fix.dashOn (.call "GetTick".toList) (.call "GetHash".toList) "8U".toList "0U".toList
        (some "Dash".toList) Fix.dashRx 8 0 dir := by
  have hD := Fix.dashDriver
  obtain ⟨e1, e2, e3⟩ := Fix.runSorted
  rw [← e1, ← e2, ← e3, ← Fix.runFile] at hD
  have key := C65_node_partial (φ := Unit) (who := some "Dash".toList) Fix.runHost Fix.runArgs Fix.pipeText Fix.pipeOut Fix.goodRun platIns_sorts rfl (fun v e => by cases e) Fix.dashIds
    (by rw [Fix.runOpts_eq]; rfl) ⟨by rw [Fix.runOpts_eq]; rfl, by decide +kernel, by decide +kernel⟩
    (D0 := Fix.userHooks) (on := Fix.dashOn) (fl := .float) (tick := .call "GetTick".toList) (hash := .call "GetHash".toList) (maxW := "8U".toList) (initW := "0U".toList)
    (by rw [Fix.runOpts_eq]; exact hD) 8 0
  rw [Fix.runOpts_eq, Fix.runFile] at key
  obtain ⟨files, r1, r2, r3⟩ := key
  have hlen : files.length = 11 := by
    have := congrArg List.length r2
    rw [List.length_map] at this
    exact this.trans (by decide +kernel)
  have hc := Fix.runCopy
  rw [← r2] at hc
  have hp : ProjectDir _ files Fix.runOpts Fix.pipeG Fix.dashOn .float := project_copy
    (extra := [("drv-config.h".toList, opsText (userConfigOps Fix.pipeG Fix.dashOn)), ("dbccodeconf.h".toList, opsText (userCodeConf .float Fix.pipeG)), ("stdint.h".toList, [])])
    hc rfl rfl rfl (fun q => nomatch q)
  have hn := (r3 _ hp).2
  have s1 : Fix.runHost.sort Fix.pipeOut.msgs = Fix.pipeMsgs := e1
  have s2 : Fix.runHost.sort (selectRx (whoGroups Fix.pipeOut.msgs (some "Dash".toList)) Fix.pipeOut.msgs) = Fix.dashRx := e2
  rw [s1, s2] at hn
  exact ⟨files, r1, hlen, _, hp, hn⟩

namespace Fix

/-- A run with `-gendate`, `-noinc` and `-nofmon`, as for a second driver of a project. -/
def dateArgs : List Str := ["coderdbc", "-dbc", "in/my.dbc", "-out", "gen", "-drvname", "drv", "-rw", "-gendate", "-noinc", "-nofmon"].map String.toList

def dateOpts : GenOptions :=
  { dbc := ("in/my.dbc".toList, true), outdir := ("gen".toList, true), drvname := ("drv".toList, true), isRewrite := true, addGenDate := true, isNocanmon := true, isNofmon := true }

theorem dateOpts_eq : getOptions dateArgs = dateOpts := by decide +kernel

def dateSource : Source := { name := "my.dbc".toList, date := some "2026.11.16 17:00:00".toList }

theorem dateFile : runSource runHost dateArgs = dateSource := by
  unfold runSource
  rw [dateOpts_eq]
  decide +kernel

def dateG : GenDesc := driverDesc "drv".toList dateSource pipeOut.verHi pipeOut.verLow

theorem dateGood : GoodRun runHost dateArgs pipeText pipeOut := by
  refine ⟨insSort_ok, ?_, ?_, pipeOk, ⟨some "gen".toList, ?_⟩, fun _ _ => rfl⟩
  · rw [dateOpts_eq]; decide
  · rw [dateOpts_eq]; rfl
  · rw [dateOpts_eq]; decide +kernel

theorem dateDir : DirDriver "drv".toList dateSource pipeOut.verHi pipeOut.verLow pipeOut.maxDlc pipeMsgs userHooks dashOn .float
    (.call "GetTick".toList) (.call "GetHash".toList) "8U".toList "0U".toList :=
  ⟨⟨readB_sound (by decide +kernel), by decide, by decide +kernel, by decide +kernel⟩, by decide +kernel, by decide +kernel, by decide +kernel, .inl rfl⟩

theorem dateCopy : CopyOk (finalPath dateOpts) ["/lib/".toList, "/usr/".toList, "/inc/".toList, "/butl/".toList] (runPaths dateOpts pipeOut.msgs runHost.fs)
    ["drv-config.h".toList, "dbccodeconf.h".toList, "stdint.h".toList, "canmonitorutil.h".toList] := by decide +kernel

end Fix

/-- The hypotheses of C65 for the driver can be met with a date in the comment block and with `canmonitorutil.h` not written by the run. -/
example : ∃ files, runApp Fix.runHost Fix.dateArgs = .done files ∧ files.length = 7 ∧
    ∃ dir, ProjectDir dir files Fix.dateOpts Fix.dateG Fix.dashOn .float ∧
      DriverProgram Unit platIns Fix.pipeText "drv".toList Fix.dateSource Fix.pipeOut Fix.pipeMsgs Fix.userHooks Fix.dashOn (.call "GetTick".toList) (.call "GetHash".toList)
        "8U".toList "0U".toList 8 0 dir := by
  have hD := Fix.dateDir
  obtain ⟨e1, -, -⟩ := Fix.runSorted
  rw [← e1, ← Fix.dateFile] at hD
  have key := C65_driver_partial (φ := Unit) Fix.runHost Fix.dateArgs Fix.pipeText Fix.pipeOut Fix.dateGood platIns_sorts rfl (fun v e => by cases e)
    (D0 := Fix.userHooks) (on := Fix.dashOn) (fl := .float) (tick := .call "GetTick".toList) (hash := .call "GetHash".toList) (maxW := "8U".toList) (initW := "0U".toList)
    (by rw [Fix.dateOpts_eq]; exact hD) 8 0
  rw [Fix.dateOpts_eq, Fix.dateFile] at key
  obtain ⟨files, r1, r2, r3⟩ := key
  have hlen : files.length = 7 := by
    have := congrArg List.length r2
    rw [List.length_map] at this
    exact this.trans (by decide +kernel)
  have hc := Fix.dateCopy
  rw [← r2] at hc
  have hp : ProjectDir _ files Fix.dateOpts Fix.dateG Fix.dashOn .float := project_copy
    (extra := [("drv-config.h".toList, opsText (userConfigOps Fix.dateG Fix.dashOn)), ("dbccodeconf.h".toList, opsText (userCodeConf .float Fix.dateG)), ("stdint.h".toList, []),
      ("canmonitorutil.h".toList, opsText (canMonUtilOps Fix.dateG))])
    hc rfl rfl rfl (fun _ => rfl)
  have hn := r3 _ hp
  have s1 : Fix.runHost.sort Fix.pipeOut.msgs = Fix.pipeMsgs := e1
  rw [s1] at hn
  exact ⟨files, r1, hlen, _, hp, hn⟩

end Verif
