import Verif.Proofs.NoFlush
import Verif.Proofs.UtilRead
import Verif.Props.Receive
/-
The files a run writes.
-/
namespace Verif

/-- Files of the main generator. -/
def mainFiles (o : GenOptions) (c : OutPaths) (g : GenDesc) (srt : List Msg) (hops sops : List WOp) : List (Str × Str) :=
  [(c.coreH, opsText hops), (c.coreC, opsText sops), (c.fmonH, opsText (fmonHeaderOps g srt))] ++
  (if o.isNofmon then [] else [(c.fmonC, opsText (fmonSourceOps g srt))]) ++
  (if o.isNoconfig then [] else [(c.config, opsText (configHeaderOps g)), (c.codeconf, opsText (dbcCodeConfOps g))]) ++
  (if o.isNocanmon then [] else [(c.canmon, opsText (canMonUtilOps g))])

theorem main_files {H : RunHost} {o : GenOptions} {c : OutPaths} {g : GenDesc} {maxDlc : Nat} {srt : List Msg} {hops sops : List WOp}
    (hh : mainHeaderOps g maxDlc srt = some hops) (hs : mainSourceOps g srt = some sops)
    (ho : ∀ p ∈ (mainFiles o c g srt hops sops).map (·.1), H.canOpen p = true) :
    ∃ mops, mainOps H o c g maxDlc srt = some mops ∧ (Writer.run {} mops).files = mainFiles o c g srt hops sops := by
  unfold mainOps
  rw [hh, hs]
  refine ⟨_, rfl, ?_⟩
  unfold mainFiles at ho ⊢
  have key : ∀ (b : Bool) (fs : List (List WOp × Str)) (F : List (Str × Str)) (rest : List WOp),
      (∀ x ∈ fs, OnlyText x.1) → (b = false → ∀ x ∈ fs, H.canOpen x.2 = true) →
      Writer.run { buf := [], files := F } ((if b then [] else fs.flatMap fun x => x.1 ++ [.flush x.2 (H.canOpen x.2)]) ++ rest) =
        Writer.run { buf := [], files := F ++ if b then [] else fs.map fun x => (x.2, opsText x.1) } rest := by
    intro b fs F rest h1 h2
    cases b with
    | true =>
      simp only [if_true, List.nil_append, List.append_nil]
    | false =>
      simp only [Bool.false_eq_true, if_false]
      have h3 := h2 rfl
      clear h2
      induction fs generalizing F with
      | nil => simp only [List.flatMap_nil, List.nil_append, List.map_nil, List.append_nil]
      | cons x fs ih =>
        have e := h3 x List.mem_cons_self
        rw [List.flatMap_cons, e, List.append_assoc, run_file (h1 x List.mem_cons_self), ih _ (fun y hy => h1 y (List.mem_cons_of_mem _ hy)) (fun y hy => h3 y (List.mem_cons_of_mem _ hy)),
          List.map_cons, List.append_assoc]
        rfl
  have e1 := key false [(hops, c.coreH), (sops, c.coreC), (fmonHeaderOps g srt, c.fmonH)] []
    ((if o.isNofmon then [] else fmonSourceOps g srt ++ [.flush c.fmonC (H.canOpen c.fmonC)]) ++
    (if o.isNoconfig then [] else configHeaderOps g ++ [.flush c.config (H.canOpen c.config)] ++ dbcCodeConfOps g ++ [.flush c.codeconf (H.canOpen c.codeconf)]) ++
    (if o.isNocanmon then [] else canMonUtilOps g ++ [.flush c.canmon (H.canOpen c.canmon)]))
    (by
      intro x hx
      simp only [List.mem_cons, List.not_mem_nil, or_false] at hx
      rcases hx with rfl | rfl | rfl
      · exact text_header hh
      · exact text_source hs
      · exact text_fmonHeader _)
    (by
      intro _ x hx
      simp only [List.mem_cons, List.not_mem_nil, or_false] at hx
      rcases hx with rfl | rfl | rfl <;> exact ho _ (by simp))
  have e2 := fun F rest => key o.isNofmon [(fmonSourceOps g srt, c.fmonC)] F rest
    (by intro x hx; rw [List.mem_singleton.1 hx]; exact text_fmonSource _)
    (by intro hb x hx; rw [List.mem_singleton.1 hx]; exact ho _ (by simp [hb]))
  have e3 := fun F rest => key o.isNoconfig [(configHeaderOps g, c.config), (dbcCodeConfOps g, c.codeconf)] F rest
    (by
      intro x hx
      simp only [List.mem_cons, List.not_mem_nil, or_false] at hx
      rcases hx with rfl | rfl
      · exact text_config
      · exact text_codeConf)
    (by
      intro hb x hx
      simp only [List.mem_cons, List.not_mem_nil, or_false] at hx
      rcases hx with rfl | rfl <;> exact ho _ (by simp [hb]))
  have e4 := fun F rest => key o.isNocanmon [(canMonUtilOps g, c.canmon)] F rest
    (by intro x hx; rw [List.mem_singleton.1 hx]; exact text_canMon)
    (by intro hb x hx; rw [List.mem_singleton.1 hx]; exact ho _ (by simp [hb]))
  simp only [List.flatMap_cons, List.flatMap_nil, List.append_nil, List.map_cons, List.map_nil, Bool.false_eq_true, if_false, List.nil_append, List.append_assoc] at e1 e2 e3 e4 ⊢
  show (Writer.run { buf := [], files := [] } _).files = _
  rw [e1, e2, e3]
  have e5 := e4 (([(c.coreH, opsText hops), (c.coreC, opsText sops), (c.fmonH, opsText (fmonHeaderOps g srt))] ++ if o.isNofmon = true then [] else [(c.fmonC, opsText (fmonSourceOps g srt))]) ++
    if o.isNoconfig = true then [] else [(c.config, opsText (configHeaderOps g)), (c.codeconf, opsText (dbcCodeConfOps g))]) []
  rw [List.append_nil] at e5
  rw [e5]
  simp only [List.append_assoc]
  rfl

/-- The source of a util file can always be printed. -/
theorem utilSource_some {rx : List Msg} (hs : rx.Pairwise fun a b => a.msgId ≤ b.msgId) (u : UtilDesc) (hi lo : Nat) (tx : List Msg) :
    ∃ ops, utilSourceOps u hi lo rx tx = some ops := by
  have key : ∃ body, receiveOps u rx = some body := by
    unfold receiveOps
    by_cases h : rx.length > 0
    · obtain ⟨t, ht, -⟩ := fillTree_some hs h
      rw [if_pos h, ht]
      exact ⟨_, rfl⟩
    · rw [if_neg h]
      exact ⟨_, rfl⟩
  obtain ⟨body, hb⟩ := key
  unfold utilSourceOps
  rw [hb]
  exact ⟨_, rfl⟩

/-- The two files of one util driver. -/
def utilPair (H : RunHost) (u : UtilDesc) (hi lo : Nat) (ph pc : Str) (G : Groups) (msgs : List Msg) : List (Str × Str) :=
  [(ph, opsText (utilHeaderOps u (H.sort (selectRx G msgs)) (H.sort (selectTx G msgs)))),
   (pc, opsText ((utilSourceOps u hi lo (H.sort (selectRx G msgs)) (H.sort (selectTx G msgs))).getD []))]

theorem util_files {H : RunHost} (hsort : ∀ l, SortedBy (H.sort l) l) {u : UtilDesc} {hi lo : Nat} {ph pc : Str} {G : Groups} {msgs : List Msg} (h1 : H.canOpen ph = true) (h2 : H.canOpen pc = true) :
    ∃ ops, utilOps H u hi lo ph pc G msgs = some ops ∧
      ∀ F rest, Writer.run { buf := [], files := F } (ops ++ rest) = Writer.run { buf := [], files := F ++ utilPair H u hi lo ph pc G msgs } rest := by
  obtain ⟨sops, hs⟩ := utilSource_some (hsort (selectRx G msgs)).2 u hi lo (H.sort (selectTx G msgs))
  unfold utilOps utilPair
  dsimp only
  rw [hs, h1, h2]
  refine ⟨_, rfl, fun F rest => ?_⟩
  have e : utilHeaderOps u (H.sort (selectRx G msgs)) (H.sort (selectTx G msgs)) ++ [.flush ph true] ++ sops ++ [.flush pc true] ++ rest =
      utilHeaderOps u (H.sort (selectRx G msgs)) (H.sort (selectTx G msgs)) ++ [.flush ph true] ++ (sops ++ [.flush pc true] ++ rest) := by
    simp only [List.append_assoc]
  rw [e, run_file (text_utilHeader _ _ _), run_file (text_utilSource hs)]
  simp only [List.append_assoc, Option.getD_some]
  rfl

/-- Files of the util generator. -/
def utilsFiles (H : RunHost) (o : GenOptions) (c : OutPaths) (g : GenDesc) (out : DbcList) : List (Str × Str) :=
  if o.isNodeutils then
    (collectNodes out.msgs).flatMap fun n => utilPair H (nodeUtil g o.drvname.1 n) out.verHi out.verLow (nodeUtilH c.utildir o.drvname.1 n)
      (nodeUtilC c.utildir o.drvname.1 n) (nodeGroups out.msgs n) out.msgs
  else utilPair H (allUtil g o.drvname.1) out.verHi out.verLow c.utilH c.utilC (allGroups out.msgs) out.msgs

theorem utils_files {H : RunHost} (hsort : ∀ l, SortedBy (H.sort l) l) {o : GenOptions} {c : OutPaths} {g : GenDesc} {out : DbcList}
    (ho : ∀ p ∈ (utilsFiles H o c g out).map (·.1), H.canOpen p = true) :
    ∃ uops, utilsOps H o c g out = some uops ∧ (Writer.run {} uops).files = utilsFiles H o c g out := by
  unfold utilsOps utilsFiles at *
  split
  · rename_i hn
    rw [if_pos hn] at ho
    generalize collectNodes out.msgs = ns at ho
    have key : ∃ opss, (ns.mapM fun n => utilOps H (nodeUtil g o.drvname.1 n) out.verHi out.verLow (nodeUtilH c.utildir o.drvname.1 n)
        (nodeUtilC c.utildir o.drvname.1 n) (nodeGroups out.msgs n) out.msgs) = some opss ∧
        ∀ F, Writer.run { buf := [], files := F } opss.flatten = ({ buf := [], files := F ++ (ns.flatMap fun n => utilPair H (nodeUtil g o.drvname.1 n) out.verHi out.verLow (nodeUtilH c.utildir o.drvname.1 n)
          (nodeUtilC c.utildir o.drvname.1 n) (nodeGroups out.msgs n) out.msgs) } : Writer) := by
      induction ns with
      | nil => exact ⟨[], rfl, fun F => by simp only [List.flatMap_nil, List.append_nil]; rfl⟩
      | cons n ns ih =>
        obtain ⟨opss, a1, a2⟩ := ih (fun p hp => ho p (by rw [List.flatMap_cons, List.map_append]; exact List.mem_append_right _ hp))
        obtain ⟨ops, b1, b2⟩ := util_files hsort (u := nodeUtil g o.drvname.1 n) (hi := out.verHi) (lo := out.verLow) (ph := nodeUtilH c.utildir o.drvname.1 n)
          (pc := nodeUtilC c.utildir o.drvname.1 n) (G := nodeGroups out.msgs n) (msgs := out.msgs)
          (ho _ (by rw [List.flatMap_cons, List.map_append]; exact List.mem_append_left _ (by unfold utilPair; simp)))
          (ho _ (by rw [List.flatMap_cons, List.map_append]; exact List.mem_append_left _ (by unfold utilPair; simp)))
        refine ⟨ops :: opss, ?_, fun F => ?_⟩
        · rw [List.mapM_cons, b1, a1]
          rfl
        · rw [List.flatten_cons, b2, a2, List.flatMap_cons, List.append_assoc]
    obtain ⟨opss, a1, a2⟩ := key
    refine ⟨opss.flatten, by rw [a1]; rfl, ?_⟩
    have := a2 []
    rw [List.nil_append] at this
    exact congrArg Writer.files this
  · rename_i hn
    rw [if_neg hn] at ho
    obtain ⟨ops, b1, b2⟩ := util_files hsort (u := allUtil g o.drvname.1) (hi := out.verHi) (lo := out.verLow) (ph := c.utilH)
          (pc := c.utilC) (G := allGroups out.msgs) (msgs := out.msgs) (ho _ (by unfold utilPair; simp)) (ho _ (by unfold utilPair; simp))
    refine ⟨ops, b1, ?_⟩
    have := b2 [] []
    rw [List.append_nil, List.nil_append] at this
    exact congrArg Writer.files this

/-- All files of a run. -/
def runFiles (H : RunHost) (o : GenOptions) (out : DbcList) (hops sops : List WOp) : List (Str × Str) :=
  let c := configure o.drvname.1 (finalPath o)
  let g := configureGen o.drvname.1 (commonInfoOf o H.date) (driverSrcInfo (extractFileName o.dbc.1)) out.verHi out.verLow
  mainFiles o c g (H.sort out.msgs) hops sops ++ utilsFiles H o c g out

/-- Their paths are the ones of the model of the paths (C38). -/
theorem run_paths (H : RunHost) (o : GenOptions) (out : DbcList) (hops sops : List WOp) (d : Option Str) :
    (runFiles H o out hops sops).map (·.1) = writtenPaths o out.msgs (.ret true d) := by
  unfold runFiles mainFiles utilsFiles writtenPaths
  dsimp only
  simp only [List.map_append, List.map_cons, List.map_nil, apply_ite (List.map Prod.fst), List.map_flatMap, utilPair]

theorem generate_done {H : RunHost} (hsort : ∀ l, SortedBy (H.sort l) l) {o : GenOptions} {out : DbcList} {d : Option Str} {hops sops : List WOp}
    (hp : prepareDirectory H.fs (configure o.drvname.1 (finalPath o)) o.isRewrite = .ret true d)
    (hh : mainHeaderOps (configureGen o.drvname.1 (commonInfoOf o H.date) (driverSrcInfo (extractFileName o.dbc.1)) out.verHi out.verLow) out.maxDlc (H.sort out.msgs) = some hops)
    (hs : mainSourceOps (configureGen o.drvname.1 (commonInfoOf o H.date) (driverSrcInfo (extractFileName o.dbc.1)) out.verHi out.verLow) (H.sort out.msgs) = some sops)
    (ho : ∀ p ∈ writtenPaths o out.msgs (.ret true d), H.canOpen p = true) : generate H o out = .done (runFiles H o out hops sops) := by
  rw [← run_paths H o out hops sops d] at ho
  unfold runFiles at ho ⊢
  dsimp only at ho ⊢
  rw [List.map_append] at ho
  obtain ⟨mops, a1, a2⟩ := main_files (c := configure o.drvname.1 (finalPath o)) hh hs (fun p hp => ho p (List.mem_append_left _ hp))
  obtain ⟨uops, b1, b2⟩ := utils_files hsort (fun p hp => ho p (List.mem_append_right _ hp))
  unfold generate
  dsimp only
  rw [hp]
  dsimp only
  rw [a1, b1]
  dsimp only
  rw [a2, b2]

/-! ### What is at a path -/

theorem written_mem {files : List (Str × Str)} {p t : Str} (h : (p, t) ∈ files) (hu : ∀ t', (p, t') ∈ files → t' = t) : written files p = some t := by
  unfold written
  have h1 : (p, t) ∈ files.reverse := List.mem_reverse.2 h
  have h2 : ∀ t', (p, t') ∈ files.reverse → t' = t := fun t' q => hu t' (List.mem_reverse.1 q)
  generalize files.reverse = l at h1 h2
  induction l with
  | nil => cases h1
  | cons x l ih =>
    obtain ⟨k, v⟩ := x
    by_cases e : p = k
    · subst e
      rw [List.lookup_cons_self, h2 v List.mem_cons_self]
    · have e2 : (p == k) = false := by simpa using e
      rw [List.lookup_cons, e2]
      refine ih ?_ (fun t' q => h2 t' (List.mem_cons_of_mem _ q))
      rcases List.mem_cons.1 h1 with q | q
      · exact absurd (congrArg Prod.fst q) e
      · exact q

/-- The first two characters after the output directory. -/
def subDir (out p : Str) : Str := (p.drop out.length).take 2

section paths
variable (drv out : Str)

theorem sub_coreH : subDir out (configure drv out).coreH = ['/', 'l'] := by
  unfold subDir configure; dsimp only; rw [List.append_assoc, List.drop_left]; rfl
theorem sub_coreC : subDir out (configure drv out).coreC = ['/', 'l'] := by
  unfold subDir configure; dsimp only; rw [List.append_assoc, List.drop_left]; rfl
theorem sub_fmonH : subDir out (configure drv out).fmonH = ['/', 'l'] := by
  unfold subDir configure; dsimp only; rw [List.append_assoc, List.drop_left]; rfl
theorem sub_fmonC : subDir out (configure drv out).fmonC = ['/', 'u'] := by
  unfold subDir configure; dsimp only; rw [List.append_assoc, List.drop_left]; rfl
theorem sub_config : subDir out (configure drv out).config = ['/', 'c'] := by
  unfold subDir configure; dsimp only; rw [List.append_assoc, List.drop_left]; rfl
theorem sub_codeconf : subDir out (configure drv out).codeconf = ['/', 'c'] := by
  unfold subDir configure; dsimp only; rw [List.append_assoc, List.drop_left]; rfl
theorem sub_canmon : subDir out (configure drv out).canmon = ['/', 'i'] := by
  unfold subDir configure; dsimp only; rw [List.append_assoc, List.drop_left]; rfl
theorem sub_utilH : subDir out (configure drv out).utilH = ['/', 'b'] := by
  unfold subDir configure; dsimp only; rw [List.append_assoc, List.drop_left]; rfl
theorem sub_utilC : subDir out (configure drv out).utilC = ['/', 'b'] := by
  unfold subDir configure; dsimp only; rw [List.append_assoc, List.drop_left]; rfl
theorem sub_nodeH (n : Str) : subDir out (nodeUtilH (configure drv out).utildir drv n) = ['/', 'b'] := by
  unfold subDir nodeUtilH configure; dsimp only; rw [List.append_assoc, List.append_assoc, List.drop_left]; rfl
theorem sub_nodeC (n : Str) : subDir out (nodeUtilC (configure drv out).utildir drv n) = ['/', 'b'] := by
  unfold subDir nodeUtilC configure; dsimp only; rw [List.append_assoc, List.append_assoc, List.drop_left]; rfl

theorem coreH_coreC : (configure drv out).coreH ≠ (configure drv out).coreC := by
  unfold configure; dsimp only
  intro e
  exact absurd (List.append_cancel_left (List.cons.inj (List.append_cancel_left e)).2) (by decide)
theorem coreH_fmonH : (configure drv out).coreH ≠ (configure drv out).fmonH := by
  unfold configure; dsimp only
  intro e
  exact absurd (List.append_cancel_left (List.cons.inj (List.append_cancel_left e)).2) (by decide)
theorem coreC_fmonH : (configure drv out).coreC ≠ (configure drv out).fmonH := by
  unfold configure; dsimp only
  intro e
  exact absurd (List.append_cancel_left (List.cons.inj (List.append_cancel_left e)).2) (by decide)
theorem config_codeconf : (configure drv out).config ≠ (configure drv out).codeconf := by
  unfold configure; dsimp only
  intro e
  have e2 : strLower drv ++ "-config.h".toList = "dbccodeconf.h".toList := (List.cons.inj (List.append_cancel_left e)).2
  have : '-' ∈ "dbccodeconf.h".toList := e2 ▸ List.mem_append_right _ (by decide)
  exact absurd this (by decide)
theorem nodeH_nodeC (n n' : Str) : nodeUtilH (configure drv out).utildir drv n ≠ nodeUtilC (configure drv out).utildir drv n' := by
  unfold nodeUtilH nodeUtilC
  intro e
  have e1 : ∀ (X : Str) (k : Char), strLower (X ++ ("-binutil.".toList ++ [k])) = (strLower X ++ strLower "-binutil.".toList) ++ [lowerChar k] := by
    intro X k
    rw [strLower_append, strLower_append, List.append_assoc]
    rfl
  have e2 := congrArg List.getLast? (List.append_cancel_left e)
  have a1 := e1 (strLower (n ++ "_".toList ++ drv)) 'h'
  have a2 := e1 (strLower (n' ++ "_".toList ++ drv)) 'c'
  have e3 := (congrArg List.getLast? a1.symm).trans (e2.trans (congrArg List.getLast? a2))
  rw [List.getLast?_concat, List.getLast?_concat] at e3
  exact absurd e3 (by decide)

end paths

/-- The files of a run, one by one. -/
theorem mem_run {H : RunHost} {o : GenOptions} {out : DbcList} {hops sops : List WOp} {p t : Str} (h : (p, t) ∈ runFiles H o out hops sops) :
    let c := configure o.drvname.1 (finalPath o)
    let g := configureGen o.drvname.1 (commonInfoOf o H.date) (driverSrcInfo (extractFileName o.dbc.1)) out.verHi out.verLow
    (p = c.coreH ∧ t = opsText hops) ∨ (p = c.coreC ∧ t = opsText sops) ∨ (p = c.fmonH ∧ t = opsText (fmonHeaderOps g (H.sort out.msgs))) ∨
    (p = c.fmonC ∧ t = opsText (fmonSourceOps g (H.sort out.msgs))) ∨ (p = c.config ∧ t = opsText (configHeaderOps g)) ∨ (p = c.codeconf ∧ t = opsText (dbcCodeConfOps g)) ∨
    (p = c.canmon ∧ t = opsText (canMonUtilOps g)) ∨
    (subDir (finalPath o) p = ['/', 'b'] ∧ (o.isNodeutils = true → ∃ n ∈ collectNodes out.msgs,
      (p, t) ∈ utilPair H (nodeUtil g o.drvname.1 n) out.verHi out.verLow (nodeUtilH c.utildir o.drvname.1 n) (nodeUtilC c.utildir o.drvname.1 n) (nodeGroups out.msgs n) out.msgs)) := by
  intro c g
  unfold runFiles at h
  dsimp only at h
  rcases List.mem_append.1 h with h | h
  · unfold mainFiles at h
    simp only [List.mem_append, List.mem_cons, List.not_mem_nil, or_false, Prod.mk.injEq] at h
    rcases h with ((h | h) | h) | h
    · rcases h with h | h | h
      · exact .inl h
      · exact .inr (.inl h)
      · exact .inr (.inr (.inl h))
    · split at h
      · cases h
      · rw [List.mem_singleton, Prod.mk.injEq] at h
        exact .inr (.inr (.inr (.inl h)))
    · split at h
      · cases h
      · simp only [List.mem_cons, List.not_mem_nil, or_false, Prod.mk.injEq] at h
        rcases h with h | h
        · exact .inr (.inr (.inr (.inr (.inl h))))
        · exact .inr (.inr (.inr (.inr (.inr (.inl h)))))
    · split at h
      · cases h
      · rw [List.mem_singleton, Prod.mk.injEq] at h
        exact .inr (.inr (.inr (.inr (.inr (.inr (.inl h))))))
  · refine .inr (.inr (.inr (.inr (.inr (.inr (.inr ?_))))))
    unfold utilsFiles at h
    split at h
    · obtain ⟨n, hn, hm⟩ := List.mem_flatMap.1 h
      refine ⟨?_, fun _ => ⟨n, hn, hm⟩⟩
      unfold utilPair at hm
      simp only [List.mem_cons, List.not_mem_nil, or_false, Prod.mk.injEq] at hm
      rcases hm with hm | hm
      · rw [hm.1]; exact sub_nodeH _ _ _
      · rw [hm.1]; exact sub_nodeC _ _ _
    · rename_i hn
      refine ⟨?_, fun q => absurd q hn⟩
      unfold utilPair at h
      simp only [List.mem_cons, List.not_mem_nil, or_false, Prod.mk.injEq] at h
      rcases h with hm | hm
      · rw [hm.1]; exact sub_utilH _ _
      · rw [hm.1]; exact sub_utilC _ _

theorem sub_ne {out p q a b : Str} (h1 : subDir out p = a) (h2 : subDir out q = b) (hne : a ≠ b) : p ≠ q := fun e => hne (h1.symm.trans ((congrArg _ e).trans h2))

/-- What is at the paths of the main generator after a run. -/
theorem run_written {H : RunHost} {o : GenOptions} {out : DbcList} {hops sops : List WOp} :
    let c := configure o.drvname.1 (finalPath o)
    let g := configureGen o.drvname.1 (commonInfoOf o H.date) (driverSrcInfo (extractFileName o.dbc.1)) out.verHi out.verLow
    let F := runFiles H o out hops sops
    written F c.coreH = some (opsText hops) ∧ written F c.coreC = some (opsText sops) ∧ written F c.fmonH = some (opsText (fmonHeaderOps g (H.sort out.msgs))) ∧
    (o.isNofmon = false → written F c.fmonC = some (opsText (fmonSourceOps g (H.sort out.msgs)))) ∧
    (o.isNoconfig = false → written F c.config = some (opsText (configHeaderOps g)) ∧ written F c.codeconf = some (opsText (dbcCodeConfOps g))) ∧
    (o.isNocanmon = false → written F c.canmon = some (opsText (canMonUtilOps g))) := by
  intro c g F
  have s1 : subDir (finalPath o) c.coreH = _ := sub_coreH o.drvname.1 (finalPath o)
  have s2 : subDir (finalPath o) c.coreC = _ := sub_coreC o.drvname.1 (finalPath o)
  have s3 : subDir (finalPath o) c.fmonH = _ := sub_fmonH o.drvname.1 (finalPath o)
  have s4 : subDir (finalPath o) c.fmonC = _ := sub_fmonC o.drvname.1 (finalPath o)
  have s5 : subDir (finalPath o) c.config = _ := sub_config o.drvname.1 (finalPath o)
  have s6 : subDir (finalPath o) c.codeconf = _ := sub_codeconf o.drvname.1 (finalPath o)
  have s7 : subDir (finalPath o) c.canmon = _ := sub_canmon o.drvname.1 (finalPath o)
  have n1 : c.coreH ≠ c.coreC := coreH_coreC o.drvname.1 (finalPath o)
  have n2 : c.coreH ≠ c.fmonH := coreH_fmonH o.drvname.1 (finalPath o)
  have n3 : c.coreC ≠ c.fmonH := coreC_fmonH o.drvname.1 (finalPath o)
  have n4 : c.config ≠ c.codeconf := config_codeconf o.drvname.1 (finalPath o)
  have key : ∀ p t, (p, t) ∈ F → (p = c.coreH ∧ t = opsText hops) ∨ (p = c.coreC ∧ t = opsText sops) ∨ (p = c.fmonH ∧ t = opsText (fmonHeaderOps g (H.sort out.msgs))) ∨
      (p = c.fmonC ∧ t = opsText (fmonSourceOps g (H.sort out.msgs))) ∨ (p = c.config ∧ t = opsText (configHeaderOps g)) ∨ (p = c.codeconf ∧ t = opsText (dbcCodeConfOps g)) ∨
      (p = c.canmon ∧ t = opsText (canMonUtilOps g)) ∨ subDir (finalPath o) p = ['/', 'b'] := by
    intro p t q
    rcases mem_run q with h | h | h | h | h | h | h | h
    · exact .inl h
    · exact .inr (.inl h)
    · exact .inr (.inr (.inl h))
    · exact .inr (.inr (.inr (.inl h)))
    · exact .inr (.inr (.inr (.inr (.inl h))))
    · exact .inr (.inr (.inr (.inr (.inr (.inl h)))))
    · exact .inr (.inr (.inr (.inr (.inr (.inr (.inl h))))))
    · exact .inr (.inr (.inr (.inr (.inr (.inr (.inr h.1))))))
  have mem : (c.coreH, opsText hops) ∈ F ∧ (c.coreC, opsText sops) ∈ F ∧ (c.fmonH, opsText (fmonHeaderOps g (H.sort out.msgs))) ∈ F ∧
      (o.isNofmon = false → (c.fmonC, opsText (fmonSourceOps g (H.sort out.msgs))) ∈ F) ∧
      (o.isNoconfig = false → (c.config, opsText (configHeaderOps g)) ∈ F ∧ (c.codeconf, opsText (dbcCodeConfOps g)) ∈ F) ∧
      (o.isNocanmon = false → (c.canmon, opsText (canMonUtilOps g)) ∈ F) := by
    have hm : ∀ x, x ∈ mainFiles o c g (H.sort out.msgs) hops sops → x ∈ F := fun x hx => List.mem_append_left _ hx
    refine ⟨hm _ ?_, hm _ ?_, hm _ ?_, fun hb => hm _ ?_, fun hb => ⟨hm _ ?_, hm _ ?_⟩, fun hb => hm _ ?_⟩
    · exact List.mem_append_left _ (List.mem_append_left _ (List.mem_append_left _ List.mem_cons_self))
    · exact List.mem_append_left _ (List.mem_append_left _ (List.mem_append_left _ (List.mem_cons_of_mem _ List.mem_cons_self)))
    · exact List.mem_append_left _ (List.mem_append_left _ (List.mem_append_left _ (List.mem_cons_of_mem _ (List.mem_cons_of_mem _ List.mem_cons_self))))
    · refine List.mem_append_left _ (List.mem_append_left _ (List.mem_append_right _ ?_))
      rw [hb]
      exact List.mem_cons_self
    · refine List.mem_append_left _ (List.mem_append_right _ ?_)
      rw [hb]
      exact List.mem_cons_self
    · refine List.mem_append_left _ (List.mem_append_right _ ?_)
      rw [hb]
      exact List.mem_cons_of_mem _ List.mem_cons_self
    · refine List.mem_append_right _ ?_
      rw [hb]
      exact List.mem_cons_self
  generalize opsText hops = T1 at key mem ⊢
  generalize opsText sops = T2 at key mem ⊢
  generalize opsText (fmonHeaderOps g (H.sort out.msgs)) = T3 at key mem ⊢
  generalize opsText (fmonSourceOps g (H.sort out.msgs)) = T4 at key mem ⊢
  generalize opsText (configHeaderOps g) = T5 at key mem ⊢
  generalize opsText (dbcCodeConfOps g) = T6 at key mem ⊢
  generalize opsText (canMonUtilOps g) = T7 at key mem ⊢
  generalize c.coreH = P1 at *
  generalize c.coreC = P2 at *
  generalize c.fmonH = P3 at *
  generalize c.fmonC = P4 at *
  generalize c.config = P5 at *
  generalize c.codeconf = P6 at *
  generalize c.canmon = P7 at *
  clear_value F
  have ne : ∀ {p q a b : Str}, subDir (finalPath o) p = a → subDir (finalPath o) q = b → a ≠ b → p ≠ q := sub_ne
  generalize subDir (finalPath o) = sub at *
  refine ⟨?_, ?_, ?_, fun hb => ?_, fun hb => ⟨?_, ?_⟩, fun hb => ?_⟩
  · refine written_mem mem.1 fun t' q => ?_
    rcases key _ _ q with h | h | h | h | h | h | h | h
    · exact h.2
    · exact absurd h.1 n1
    · exact absurd h.1 n2
    · exact absurd h.1 (ne s1 s4 (by decide))
    · exact absurd h.1 (ne s1 s5 (by decide))
    · exact absurd h.1 (ne s1 s6 (by decide))
    · exact absurd h.1 (ne s1 s7 (by decide))
    · exact absurd (s1.symm.trans h) (by decide)
  · refine written_mem mem.2.1 fun t' q => ?_
    rcases key _ _ q with h | h | h | h | h | h | h | h
    · exact absurd h.1.symm n1
    · exact h.2
    · exact absurd h.1 n3
    · exact absurd h.1 (ne s2 s4 (by decide))
    · exact absurd h.1 (ne s2 s5 (by decide))
    · exact absurd h.1 (ne s2 s6 (by decide))
    · exact absurd h.1 (ne s2 s7 (by decide))
    · exact absurd (s2.symm.trans h) (by decide)
  · refine written_mem mem.2.2.1 fun t' q => ?_
    rcases key _ _ q with h | h | h | h | h | h | h | h
    · exact absurd h.1.symm n2
    · exact absurd h.1.symm n3
    · exact h.2
    · exact absurd h.1 (ne s3 s4 (by decide))
    · exact absurd h.1 (ne s3 s5 (by decide))
    · exact absurd h.1 (ne s3 s6 (by decide))
    · exact absurd h.1 (ne s3 s7 (by decide))
    · exact absurd (s3.symm.trans h) (by decide)
  · refine written_mem (mem.2.2.2.1 hb) fun t' q => ?_
    rcases key _ _ q with h | h | h | h | h | h | h | h
    · exact absurd h.1 (ne s4 s1 (by decide))
    · exact absurd h.1 (ne s4 s2 (by decide))
    · exact absurd h.1 (ne s4 s3 (by decide))
    · exact h.2
    · exact absurd h.1 (ne s4 s5 (by decide))
    · exact absurd h.1 (ne s4 s6 (by decide))
    · exact absurd h.1 (ne s4 s7 (by decide))
    · exact absurd (s4.symm.trans h) (by decide)
  · refine written_mem (mem.2.2.2.2.1 hb).1 fun t' q => ?_
    rcases key _ _ q with h | h | h | h | h | h | h | h
    · exact absurd h.1 (ne s5 s1 (by decide))
    · exact absurd h.1 (ne s5 s2 (by decide))
    · exact absurd h.1 (ne s5 s3 (by decide))
    · exact absurd h.1 (ne s5 s4 (by decide))
    · exact h.2
    · exact absurd h.1 n4
    · exact absurd h.1 (ne s5 s7 (by decide))
    · exact absurd (s5.symm.trans h) (by decide)
  · refine written_mem (mem.2.2.2.2.1 hb).2 fun t' q => ?_
    rcases key _ _ q with h | h | h | h | h | h | h | h
    · exact absurd h.1 (ne s6 s1 (by decide))
    · exact absurd h.1 (ne s6 s2 (by decide))
    · exact absurd h.1 (ne s6 s3 (by decide))
    · exact absurd h.1 (ne s6 s4 (by decide))
    · exact absurd h.1.symm n4
    · exact h.2
    · exact absurd h.1 (ne s6 s7 (by decide))
    · exact absurd (s6.symm.trans h) (by decide)
  · refine written_mem (mem.2.2.2.2.2 hb) fun t' q => ?_
    rcases key _ _ q with h | h | h | h | h | h | h | h
    · exact absurd h.1 (ne s7 s1 (by decide))
    · exact absurd h.1 (ne s7 s2 (by decide))
    · exact absurd h.1 (ne s7 s3 (by decide))
    · exact absurd h.1 (ne s7 s4 (by decide))
    · exact absurd h.1 (ne s7 s5 (by decide))
    · exact absurd h.1 (ne s7 s6 (by decide))
    · exact h.2
    · exact absurd (s7.symm.trans h) (by decide)

/-- What is at the paths of a node, when no other node has its name in another spelling. -/
theorem run_node {H : RunHost} {o : GenOptions} {out : DbcList} {hops sops : List WOp} (hn : o.isNodeutils = true) {node : Str} (hmem : node ∈ collectNodes out.msgs)
    (hone : ∀ n ∈ collectNodes out.msgs, strLower n = strLower node → n = node) :
    let c := configure o.drvname.1 (finalPath o)
    let u := nodeUtil (configureGen o.drvname.1 (commonInfoOf o H.date) (driverSrcInfo (extractFileName o.dbc.1)) out.verHi out.verLow) o.drvname.1 node
    let rx := H.sort (selectRx (nodeGroups out.msgs node) out.msgs)
    let tx := H.sort (selectTx (nodeGroups out.msgs node) out.msgs)
    let F := runFiles H o out hops sops
    written F (nodeUtilH c.utildir o.drvname.1 node) = some (opsText (utilHeaderOps u rx tx)) ∧
    written F (nodeUtilC c.utildir o.drvname.1 node) = some (opsText ((utilSourceOps u out.verHi out.verLow rx tx).getD [])) := by
  intro c u rx tx F
  have s1 : subDir (finalPath o) c.coreH = _ := sub_coreH o.drvname.1 (finalPath o)
  have s2 : subDir (finalPath o) c.coreC = _ := sub_coreC o.drvname.1 (finalPath o)
  have s3 : subDir (finalPath o) c.fmonH = _ := sub_fmonH o.drvname.1 (finalPath o)
  have s4 : subDir (finalPath o) c.fmonC = _ := sub_fmonC o.drvname.1 (finalPath o)
  have s5 : subDir (finalPath o) c.config = _ := sub_config o.drvname.1 (finalPath o)
  have s6 : subDir (finalPath o) c.codeconf = _ := sub_codeconf o.drvname.1 (finalPath o)
  have s7 : subDir (finalPath o) c.canmon = _ := sub_canmon o.drvname.1 (finalPath o)
  have sh : ∀ n, subDir (finalPath o) (nodeUtilH c.utildir o.drvname.1 n) = _ := sub_nodeH o.drvname.1 (finalPath o)
  have sc : ∀ n, subDir (finalPath o) (nodeUtilC c.utildir o.drvname.1 n) = _ := sub_nodeC o.drvname.1 (finalPath o)
  have key : ∀ p t, subDir (finalPath o) p = ['/', 'b'] → (p, t) ∈ F → ∃ n ∈ collectNodes out.msgs,
      (p, t) ∈ utilPair H (nodeUtil (configureGen o.drvname.1 (commonInfoOf o H.date) (driverSrcInfo (extractFileName o.dbc.1)) out.verHi out.verLow) o.drvname.1 n)
        out.verHi out.verLow (nodeUtilH c.utildir o.drvname.1 n) (nodeUtilC c.utildir o.drvname.1 n) (nodeGroups out.msgs n) out.msgs := by
    intro p t hp q
    rcases mem_run q with h | h | h | h | h | h | h | h
    · exact absurd h.1 (sub_ne hp s1 (by decide))
    · exact absurd h.1 (sub_ne hp s2 (by decide))
    · exact absurd h.1 (sub_ne hp s3 (by decide))
    · exact absurd h.1 (sub_ne hp s4 (by decide))
    · exact absurd h.1 (sub_ne hp s5 (by decide))
    · exact absurd h.1 (sub_ne hp s6 (by decide))
    · exact absurd h.1 (sub_ne hp s7 (by decide))
    · exact h.2 hn
  have hm : ∀ x ∈ utilPair H u out.verHi out.verLow (nodeUtilH c.utildir o.drvname.1 node) (nodeUtilC c.utildir o.drvname.1 node) (nodeGroups out.msgs node) out.msgs, x ∈ F := by
    intro x hx
    refine List.mem_append_right _ ?_
    unfold utilsFiles
    rw [if_pos hn]
    exact List.mem_flatMap.2 ⟨node, hmem, hx⟩
  constructor
  · refine written_mem (hm _ List.mem_cons_self) fun t' q => ?_
    obtain ⟨n, hn1, hn2⟩ := key _ _ (sh node) q
    rcases List.mem_cons.1 hn2 with e | e
    · have e1 := hone n hn1 ((C45_partial c.utildir o.drvname.1 n node).1.1 (congrArg Prod.fst e).symm)
      subst e1
      exact congrArg Prod.snd e
    · rw [List.mem_singleton] at e
      exact absurd (congrArg Prod.fst e) (nodeH_nodeC _ _ _ _)
  · refine written_mem (hm _ (List.mem_cons_of_mem _ List.mem_cons_self)) fun t' q => ?_
    obtain ⟨n, hn1, hn2⟩ := key _ _ (sc node) q
    rcases List.mem_cons.1 hn2 with e | e
    · exact absurd (congrArg Prod.fst e).symm (nodeH_nodeC _ _ _ _)
    · rw [List.mem_singleton] at e
      have e1 := hone n hn1 ((C45_partial c.utildir o.drvname.1 n node).2.1 (congrArg Prod.fst e).symm)
      subst e1
      exact congrArg Prod.snd e

/-- What is at the paths of the util files without `-nodeutils`. -/
theorem run_all {H : RunHost} {o : GenOptions} {out : DbcList} {hops sops : List WOp} (hn : o.isNodeutils = false) :
    let c := configure o.drvname.1 (finalPath o)
    let u := allUtil (configureGen o.drvname.1 (commonInfoOf o H.date) (driverSrcInfo (extractFileName o.dbc.1)) out.verHi out.verLow) o.drvname.1
    let rx := H.sort (selectRx (allGroups out.msgs) out.msgs)
    let tx := H.sort (selectTx (allGroups out.msgs) out.msgs)
    let F := runFiles H o out hops sops
    written F c.utilH = some (opsText (utilHeaderOps u rx tx)) ∧
    written F c.utilC = some (opsText ((utilSourceOps u out.verHi out.verLow rx tx).getD [])) := by
  intro c u rx tx F
  have hne : c.utilH ≠ c.utilC := by
    intro e
    have e : finalPath o ++ "/butl".toList ++ '/' :: (strLower o.drvname.1 ++ "-binutil.h".toList) = finalPath o ++ "/butl".toList ++ '/' :: (strLower o.drvname.1 ++ "-binutil.c".toList) := e
    have e := List.append_cancel_left (List.cons.inj (List.append_cancel_left e)).2
    exact absurd e (by decide)
  have eF : ∃ A, F = A ++ [(c.utilH, opsText (utilHeaderOps u rx tx)), (c.utilC, opsText ((utilSourceOps u out.verHi out.verLow rx tx).getD []))] := by
    have e : utilsFiles H o c (configureGen o.drvname.1 (commonInfoOf o H.date) (driverSrcInfo (extractFileName o.dbc.1)) out.verHi out.verLow) out =
        [(c.utilH, opsText (utilHeaderOps u rx tx)), (c.utilC, opsText ((utilSourceOps u out.verHi out.verLow rx tx).getD []))] := by
      unfold utilsFiles
      rw [if_neg (by rw [hn]; exact Bool.false_ne_true)]
      rfl
    rw [← e]
    exact ⟨_, rfl⟩
  obtain ⟨A, eF⟩ := eF
  rw [eF]
  unfold written
  rw [List.reverse_append]
  have e1 : (c.utilH == c.utilC) = false := by simpa using hne
  refine ⟨?_, ?_⟩
  · show List.lookup c.utilH ((c.utilC, _) :: (c.utilH, _) :: A.reverse) = _
    rw [List.lookup_cons, e1]
    dsimp only
    rw [List.lookup_cons, beq_self_eq_true]
  · show List.lookup c.utilC ((c.utilC, _) :: (c.utilH, _) :: A.reverse) = _
    rw [List.lookup_cons, beq_self_eq_true]

end Verif
