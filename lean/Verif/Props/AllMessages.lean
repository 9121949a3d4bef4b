import Verif.Props.Exchange
/-
C71: a run without `-nodeutils`.  The util files are then called after the driver and hold every message that has signals; nothing is sorted into "sent".
-/
namespace Verif
open Verif.Spec

/-- Without `-nodeutils` the received messages are all those with signals. -/
theorem all_rx (msgs : List Msg) : selectRx (whoGroups msgs none) msgs = msgs.filter (·.frameNotEmpty) := by
  show selectRx (allGroups msgs) msgs = _
  unfold selectRx
  refine List.filter_congr fun m hm => ?_
  have : m.msgId ∈ (allGroups msgs).rx := List.mem_map.2 ⟨m, hm, rfl⟩
  simp [this]

/-- And there are no sent ones. -/
theorem all_tx (msgs : List Msg) : selectTx (whoGroups msgs none) msgs = [] := by
  show selectTx (allGroups msgs) msgs = _
  unfold selectTx
  simp [allGroups]

theorem sort_nil {H : RunHost} (h : ∀ l, SortedBy (H.sort l) l) : H.sort [] = [] := (h []).1.eq_nil

section
variable {φ : Type} {D0 D1 D2 : Defs} {on on1 on2 : List Str} {tick hash tick1 hash1 tick2 hash2 : Hook} {maxW initW maxW1 initW1 maxW2 initW2 : Str}

/-- **C71**.  A run without `-nodeutils`, from the command line: the run ends, and in every directory with its files the driver, the monitor and the one pair of util files compile and
link to a program that receives any sequence of frames (`NodeTrace`, C66), with every message of the file that has signals. -/
theorem C71_run_partial (H : RunHost) (args : List Str) (text : Str) (out : DbcList) (R : GoodRun H args text out) (hs : SortsByStart H.plat) (hc : H.plat.charMax = 127)
    (hoob : ∀ v, H.plat.oob = some v → 2 ^ 32 ≤ CTy.toU .u64 v) (hids : IdsDistinct out.msgs)
    (hf : (getOptions args).isNofmon = false) (hn : (getOptions args).isNodeutils = false) {fl : ConfEdit}
    (hD : NodeDriver (getOptions args).drvname.1 (runSource H args) out.verHi out.verLow out.maxDlc (H.sort out.msgs) D0 on fl tick hash maxW initW none
      (H.sort (out.msgs.filter (·.frameNotEmpty))) [])
    (maxV initV : Nat) :
    ∃ files, runApp H args = .done files ∧ files.map (·.1) = runPaths (getOptions args) out.msgs H.fs ∧
      ∀ dir, ProjectDir dir files (getOptions args) (driverDesc (getOptions args).drvname.1 (runSource H args) out.verHi out.verLow) on fl →
        NodeTrace φ H.plat text (getOptions args).drvname.1 (runSource H args) out (H.sort out.msgs) D0 on tick hash maxW initW none
          (H.sort (out.msgs.filter (·.frameNotEmpty))) maxV initV dir := by
  have := C66_run_partial (φ := φ) (who := none) H args text out R hs hc hoob hids hf hn (D0 := D0) (on := on) (fl := fl) (tick := tick) (hash := hash) (maxW := maxW) (initW := initW)
    (by rw [all_rx, all_tx, sort_nil R.sort]; exact hD) maxV initV
  rw [all_rx] at this
  exact this

/-- **C71**, between two programs.  Sender and receiver are made by two runs with the same DBC file, the second without `-nodeutils`: no frame is lost.  Every frame that a Pack function
makes is accepted with its id, and at the end the struct of every message holds what the sender meant at its last Pack. -/
theorem C71_exchange_partial (H1 H2 : RunHost) (args1 args2 : List Str) (text : Str) (out : DbcList) (R1 : GoodRun H1 args1 text out) (R2 : GoodRun H2 args2 text out)
    (hP : H2.plat = H1.plat) (hs : SortsByStart H1.plat) (hc : H1.plat.charMax = 127) (hoob : ∀ v, H1.plat.oob = some v → 2 ^ 32 ≤ CTy.toU .u64 v) (hids : IdsDistinct out.msgs)
    (hf : (getOptions args2).isNofmon = false) (hn : (getOptions args2).isNodeutils = false)
    {fl1 fl2 : ConfEdit} (hD1 : DirDriver (getOptions args1).drvname.1 (runSource H1 args1) out.verHi out.verLow out.maxDlc (H1.sort out.msgs) D1 on1 fl1 tick1 hash1 maxW1 initW1)
    (hD2 : NodeDriver (getOptions args2).drvname.1 (runSource H2 args2) out.verHi out.verLow out.maxDlc (H2.sort out.msgs) D2 on2 fl2 tick2 hash2 maxW2 initW2 none
      (H2.sort (out.msgs.filter (·.frameNotEmpty))) [])
    (hsome : ∃ m ∈ out.msgs, m.frameNotEmpty = true) (max1 init1 max2 init2 : Nat) :
    let drv1 := (getOptions args1).drvname.1
    let drv2 := (getOptions args2).drvname.1
    let g1 := driverDesc drv1 (runSource H1 args1) out.verHi out.verLow
    let g2 := driverDesc drv2 (runSource H2 args2) out.verHi out.verLow
    let cfg1 := cfgOf g1 (userTable g1 D1 on1) false max1 init1
    let cfg2 := cfgOf g2 (userTable g2 D2 on2) false max2 init2
    ∃ files1 files2, runApp H1 args1 = .done files1 ∧ runApp H2 args2 = .done files2 ∧
      ∀ dir1 dir2, ProjectDir dir1 files1 (getOptions args1) g1 on1 fl1 → ProjectDir dir2 files2 (getOptions args2) g2 on2 fl2 →
      ∃ is1 is js us,
        (∃ F, ∀ f, F ≤ f → compileTree f dir1 D1 (g1.drvLow ++ ".c".toList) = some is1 ∧ compileTree f dir2 D2 (g2.drvLow ++ ".c".toList) = some is ∧
          compileTree f dir2 D2 (g2.drvLow ++ "-fmon.c".toList) = some js ∧ compileTree f dir2 D2 (strLower (strLower drv2 ++ "-binutil.c".toList)) = some us) ∧
        links [is, js, us] = true ∧
        ∀ (f : Nat) (xs : List (Send φ)) (mem : Str → CSt φ), 256 ≤ f →
          (∀ x ∈ xs, SendOk H1.plat text (H1.sort out.msgs) cfg1.flag is1 max1 init1 x ∧
            (∃ hashF now, TargetOk g1 (H1.sort out.msgs) ((userTable g1 D1 on1).lookup (monoName g1)).isSome cfg1
              (lookOf g1 (userTable g1 D1 on1) (H1.sort out.msgs) tick1 hash1 maxW1 initW1) x.T hashF now) ∧
            (∃ hashF now, TargetOk g2 (H2.sort out.msgs) ((userTable g2 D2 on2).lookup (monoName g2)).isSome cfg2
              (lookOf g2 (userTable g2 D2 on2) (H2.sort out.msgs) tick2 hash2 maxW2 initW2) x.T2 hashF now) ∧
            (∀ n, x.T2.user ("Unpack_".toList ++ n ++ "_".toList ++ drv2) = none) ∧
            (cfg2.flag .useSigFloat = false ∨ (∀ s ∈ x.d.sigs, s.plain) ∨
              (H1.plat.oob = none ∧ ∀ s ∈ x.d.sigs, ¬ s.plain → ScaleOk s ∧ ∀ m ∈ out.msgs, ∀ t ∈ m.signals, t.name = s.member → OwnMacro (H2.sort out.msgs) t))) →
          (∀ d, NodeMsg H1.plat text none (H2.sort out.msgs) cfg2.flag d → Ready is d.name (mem d.name)) →
          ∃ fs mem', sendAll f is1 drv1 xs = some fs ∧
            receiveAll f [is, js, us] (strLower drv2 ++ "_Receive".toList) fs mem = some (mem', xs.map fun x => .i ⟨.u32, (x.d.id : Nat)⟩) ∧
            ∀ pre x post, xs = pre ++ x :: post → (∀ y ∈ post, y.d.id ≠ x.d.id) →
              ∃ r, packCall f is1 drv1 x = some r ∧ Arrived (cfg2.flag .useSigFloat) x.T2.F x.d r.1 (mem' x.d.name) ∧
                (∀ s ∈ x.d.sigs, ¬ AutoMember cfg1.flag (H1.sort out.msgs) x.d s.member → Means cfg1.flag x s (r.1.fld s.member) ∧
                  ((s.len ≤ 32 ∨ bitPos s.intel s.start s.len 0 % 8 = 0) → Means cfg1.flag x s ((mem' x.d.name).fld s.member))) ∧
                (cfg2.flag .useMon = true → (mem' x.d.name).mon "dlc_error".toList = 0) := by
  intro drv1 drv2 g1 g2 cfg1 cfg2
  obtain ⟨m0, hm0, he0⟩ := hsome
  obtain ⟨files1, files2, r1, r2, hx⟩ := C67_run_partial (φ := φ) (who := none) H1 H2 args1 args2 text out R1 R2 hP hs hc hoob hids hf hn hD1
    (D2 := D2) (on2 := on2) (fl2 := fl2) (tick2 := tick2) (hash2 := hash2) (maxW2 := maxW2) (initW2 := initW2)
    (by rw [all_rx, all_tx, sort_nil R2.sort]; exact hD2)
    (by
      rw [all_rx]
      exact List.ne_nil_of_mem ((R2.sort _).1.mem_iff.2 (List.mem_filter.2 ⟨hm0, he0⟩))) max1 init1 max2 init2
  refine ⟨files1, files2, r1, r2, fun dir1 dir2 p1 p2 => ?_⟩
  obtain ⟨is1, is, js, us, hF, hl, hrun⟩ := hx dir1 dir2 p1 p2
  refine ⟨is1, is, js, us, hF, hl, fun f xs mem hfuel hxs hmem => ?_⟩
  have hmsg : ∀ x ∈ xs, NodeMsg H1.plat text none (H2.sort out.msgs) cfg2.flag x.d := fun x hx => by
    obtain ⟨a, -, -, -, b⟩ := hxs x hx
    refine ⟨a.stated, a.ok, a.some, a.signed, a.csm.imp_right fun h m hm => h m ((R1.sort _).1.mem_iff.2 ((R2.sort _).1.mem_iff.1 hm)), ?_⟩
    refine b.imp_right (Or.imp_right fun ⟨q1, q2⟩ => ⟨q1, fun s hs hp => ⟨(q2 s hs hp).1, fun m hm => (q2 s hs hp).2 m ((R2.sort _).1.mem_iff.1 hm)⟩⟩)
  obtain ⟨fs, mem', as, s1, s2, s3, s4⟩ := hrun f xs mem hfuel (fun x hx => ⟨(hxs x hx).1, (hxs x hx).2.1, (hxs x hx).2.2.1, (hxs x hx).2.2.2.1, .inl (hmsg x hx)⟩) hmem
  have e : as = xs.map fun x => .i ⟨.u32, (x.d.id : Nat)⟩ := by
    have hq : ∀ {ys : List (Send φ)} {bs : List (V φ)}, (∀ y ∈ ys, Receives none y.d) →
        List.Forall₂ (fun (x : Send φ) a => (a = .i ⟨.u32, (x.d.id : Nat)⟩ ∧ NodeMsg H1.plat text none (H2.sort out.msgs) cfg2.flag x.d) ∨ (a = .i ⟨.u32, 0⟩ ∧ ¬ Receives none x.d)) ys bs →
        bs = ys.map fun x => .i ⟨.u32, (x.d.id : Nat)⟩ := by
      intro ys
      induction ys with
      | nil => intro bs _ h; cases h; rfl
      | cons y ys ih =>
        intro bs hr h
        cases h with
        | cons q r =>
          rw [List.map_cons, ← ih (fun z hz => hr z (List.mem_cons_of_mem _ hz)) r]
          rcases q with q | q
          · rw [q.1]
          · exact absurd (hr y List.mem_cons_self) q.2
    exact hq (fun y hy => (hmsg y hy).recs) s3
  subst e
  exact ⟨fs, mem', s1, s2, fun pre x post e h => s4 pre x post e (hmsg x (e ▸ List.mem_append_right _ List.mem_cons_self)) h⟩

end

/-! ### Refuted in general -/

namespace Fix

/-- A message `d_rx`. -/
def allRxMsgs : List Msg := [{ msgT with name := "d_rx".toList }]

theorem allRxRd : DriverOk "d".toList "my.dbc".toList 1 2 8 allRxMsgs [] .zero .zero "8U".toList "0U".toList :=
  driverB_sound (by decide +kernel)

theorem allRxNode : NodeRd "d".toList "my.dbc".toList 1 2 8 allRxMsgs [] none allRxMsgs [] :=
  ⟨by decide +kernel, by decide +kernel, by decide +kernel, by decide +kernel, by decide +kernel⟩

end Fix

/-- **C71** is false in general: with a driver named `d` and a message `d_rx` (the files of the driver itself compile) the struct of received messages is called like the struct of the
message, and the util source file does not compile. -/
theorem C71_refuted : ∃ hops sops F, mainHeaderOps (driverDesc "d".toList "my.dbc".toList 1 2) 8 Fix.allRxMsgs = some hops ∧
    utilSourceOps (nodeDesc "d".toList "my.dbc".toList 1 2 none) 1 2 Fix.allRxMsgs [] = some sops ∧
    ∀ f, F ≤ f → compile f (utilFiles (nodeDesc "d".toList "my.dbc".toList 1 2 none) hops Fix.allRxMsgs Fix.allRxMsgs []) [] (opsText sops) = none := by
  obtain ⟨hops, sops, F, h1, h2, h3⟩ := C57_compiles_partial Fix.allRxRd Fix.allRxNode (G := { rx := [0x1ABCD], tx := [], both := [] })
    ⟨List.Perm.of_eq (by decide +kernel), by decide +kernel⟩ ⟨List.Perm.of_eq (by decide +kernel), by decide +kernel⟩
  refine ⟨hops, sops, F, h1, h2, fun f hf => ?_⟩
  have hn : ¬ (utilNames (nodeDesc "d".toList "my.dbc".toList 1 2 none) (headerTable (driverDesc "d".toList "my.dbc".toList 1 2) 8 Fix.allRxMsgs []) Fix.allRxMsgs Fix.allRxMsgs []).Nodup := by
    decide +kernel
  have := mt (h3 f hf).1 hn
  simpa using this

/-! ### Example: the file of C59 without `-nodeutils` -/

namespace Fix

def allArgs : List Str := ["coderdbc", "-dbc", "in/my.dbc", "-out", "gen", "-drvname", "drv", "-rw"].map String.toList

def allOpts : GenOptions := { dbc := ("in/my.dbc".toList, true), outdir := ("gen".toList, true), drvname := ("drv".toList, true), isRewrite := true }

theorem allOpts_eq : getOptions allArgs = allOpts := by decide +kernel

theorem allGood : GoodRun runHost allArgs pipeText pipeOut := by
  refine ⟨insSort_ok, ?_, ?_, pipeOk, ⟨some "gen".toList, ?_⟩, fun _ _ => rfl⟩
  · rw [allOpts_eq]; decide
  · rw [allOpts_eq]; rfl
  · rw [allOpts_eq]; decide +kernel

def allRx : List Msg := insSort (pipeOut.msgs.filter (·.frameNotEmpty))

theorem allNode : NodeRd "drv".toList "my.dbc".toList pipeOut.verHi pipeOut.verLow pipeOut.maxDlc pipeMsgs (userTable pipeG userHooks dashOn) none allRx [] :=
  ⟨by decide, by decide, by decide +kernel, by decide +kernel, by decide +kernel⟩

theorem allDriver : NodeDriver "drv".toList "my.dbc".toList pipeOut.verHi pipeOut.verLow pipeOut.maxDlc pipeMsgs userHooks dashOn .float
    (.call "GetTick".toList) (.call "GetHash".toList) "8U".toList "0U".toList none allRx [] :=
  ⟨⟨dashDir, by decide +kernel⟩, allNode, by decide +kernel⟩

theorem allFile : runSource runHost allArgs = { name := "my.dbc".toList } := by
  unfold runSource
  rw [allOpts_eq]
  decide +kernel

theorem allCopy : CopyOk (finalPath allOpts) ["/lib/".toList, "/usr/".toList, "/inc/".toList, "/butl/".toList] (runPaths allOpts pipeOut.msgs runHost.fs)
    ["drv-config.h".toList, "dbccodeconf.h".toList, "stdint.h".toList] := by decide +kernel

end Fix

/-- The run ends, its files can be copied into one directory with edited configuration headers, and three frames that the driver makes there arrive. -/
example : ∃ files dir is js us fs mem', runApp Fix.runHost Fix.allArgs = .done files ∧ ProjectDir dir files Fix.allOpts Fix.pipeG Fix.dashOn .float ∧
    sendAll 256 is "drv".toList Fix.sends = some fs ∧
    receiveAll 256 [is, js, us] "drv_Receive".toList fs (fun _ => Fix.cst0) = some (mem', [.i ⟨.u32, 1024⟩, .i ⟨.u32, 100⟩, .i ⟨.u32, 1024⟩]) ∧
    (mem' "Motor".toList).fld "Torque".toList = 77 ∧ (mem' "Gear".toList).fld "Ratio_ro".toList = 3 := by
  have hD := Fix.allDriver
  have e1 := Fix.runSorted.1
  rw [← e1, ← Fix.allFile] at hD
  have key := C71_exchange_partial (φ := Unit) Fix.runHost Fix.runHost Fix.allArgs Fix.allArgs Fix.pipeText Fix.pipeOut Fix.allGood Fix.allGood rfl platIns_sorts rfl (fun v e => by cases e)
    Fix.dashIds (by rw [Fix.allOpts_eq]; rfl) (by rw [Fix.allOpts_eq]; rfl)
    (D1 := Fix.userHooks) (on1 := Fix.dashOn) (fl1 := .float) (tick1 := .call "GetTick".toList) (hash1 := .call "GetHash".toList) (maxW1 := "8U".toList) (initW1 := "0U".toList)
    (D2 := Fix.userHooks) (on2 := Fix.dashOn) (fl2 := .float) (tick2 := .call "GetTick".toList) (hash2 := .call "GetHash".toList) (maxW2 := "8U".toList) (initW2 := "0U".toList)
    (by rw [Fix.allOpts_eq]; exact hD.toDirDriver) (by rw [Fix.allOpts_eq]; exact hD) (by decide +kernel) 8 0 8 0
  rw [Fix.allOpts_eq, Fix.allFile] at key
  have s1 : Fix.runHost.sort Fix.pipeOut.msgs = Fix.pipeMsgs := e1
  rw [s1] at key
  obtain ⟨files, files', r1, r1', r3⟩ := key
  cases RunRes.done.inj (r1.symm.trans r1')
  obtain ⟨files2, k1, k2, -⟩ := C71_run_partial (φ := Unit) Fix.runHost Fix.allArgs Fix.pipeText Fix.pipeOut Fix.allGood platIns_sorts rfl (fun v e => by cases e)
    Fix.dashIds (by rw [Fix.allOpts_eq]; rfl) (by rw [Fix.allOpts_eq]; rfl)
    (D0 := Fix.userHooks) (on := Fix.dashOn) (fl := .float) (tick := .call "GetTick".toList) (hash := .call "GetHash".toList) (maxW := "8U".toList) (initW := "0U".toList)
    (by rw [Fix.allOpts_eq]; exact hD) 8 0
  cases RunRes.done.inj (r1.symm.trans k1)
  rw [Fix.allOpts_eq] at k2
  have hc := Fix.allCopy
  rw [← k2] at hc
  have hp : ProjectDir _ files Fix.allOpts Fix.pipeG Fix.dashOn .float := project_copy
    (extra := [("drv-config.h".toList, opsText (userConfigOps Fix.pipeG Fix.dashOn)), ("dbccodeconf.h".toList, opsText (userCodeConf .float Fix.pipeG)), ("stdint.h".toList, [])])
    hc rfl rfl rfl (fun q => nomatch q)
  obtain ⟨is1, is, js, us, ⟨F, hF⟩, -, hrun⟩ := r3 _ _ hp hp
  have e : is1 = is := Option.some.inj ((hF F (Nat.le_refl _)).1.symm.trans (hF F (Nat.le_refl _)).2.1)
  subst e
  obtain ⟨fs, mem', q1, q2, q3⟩ := hrun 256 Fix.sends (fun _ => Fix.cst0) (Nat.le_refl _)
    (fun x hx => by
      have hT : ∃ hashF now, TargetOk Fix.pipeG Fix.pipeMsgs ((userTable Fix.pipeG Fix.userHooks Fix.dashOn).lookup (monoName Fix.pipeG)).isSome Fix.dashCfg Fix.dashLook Fix.dashTarget hashF now :=
        ⟨Fix.pipeHash, 77, Fix.dashTargetOk⟩
      simp only [Fix.sends, List.mem_cons, List.not_mem_nil, or_false] at hx
      rcases hx with rfl | rfl | rfl
      · exact ⟨Fix.sendMotor _ _ (.inl rfl), hT, hT, Fix.dashUser, .inl Fix.dashFlag.1⟩
      · exact ⟨Fix.sendGear _, hT, hT, Fix.dashUser, .inl Fix.dashFlag.1⟩
      · exact ⟨Fix.sendMotor _ _ (.inr rfl), hT, hT, Fix.dashUser, .inl Fix.dashFlag.1⟩)
    (fun d _ => ⟨fun _ _ k t w _ => by cases t <;> rfl, fun _ _ => Int.le_refl _, rfl, rfl⟩)
  obtain ⟨r, -, -, m1, m2⟩ := q3 [Fix.sendOf Fix.motor 3, Fix.sendOf Fix.gear 3] (Fix.sendOf Fix.motor 77) [] rfl (fun _ q => (nomatch q))
  obtain ⟨r', -, -, g1, -⟩ := q3 [Fix.sendOf Fix.motor 3] (Fix.sendOf Fix.gear 3) [Fix.sendOf Fix.motor 77] rfl (by decide)
  refine ⟨files, _, is1, js, us, fs, mem', r1, hp, q1, q2, ?_, ?_⟩
  · exact ((m1 (Fix.sd "Torque" 19 12 false true (-2048) 2047 "Nm") (by decide) (Fix.notAuto (.inl rfl) _)).2 (.inl (by decide))).2 (.inl Fix.dashFlag.1)
  · exact ((g1 Fix.ratio List.mem_cons_self (Fix.notAuto (.inr rfl) _)).2 (.inl (by decide))).2 (.inl Fix.dashFlag.1)

end Verif
