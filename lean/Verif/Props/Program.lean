import Verif.Proofs.NodeLink
/-
C63: the three source files of a node.
-/
namespace Verif
open Spec

variable {φ : Type} {drv : Str} {file : Source} {w : Option Str} {hi lo maxDlc : Nat} {msgs rx tx : List Msg} {D0 : Defs} {on : List Str} {fl : ConfEdit} {tick hash : Hook} {maxW initW : Str}

/-- Conditions under which the three source files compile and link: in addition to those for the two source files of the driver, those on
the node, and no two of the names the util source file defines or gets from headers are the same. -/
structure NodeDriver (drv : Str) (file : Source) (hi lo maxDlc : Nat) (msgs : List Msg) (D0 : Defs) (on : List Str) (fl : ConfEdit) (tick hash : Hook) (maxW initW : Str) (w : Option Str) (rx tx : List Msg) : Prop
    extends LinkDriver drv file hi lo maxDlc msgs D0 on fl tick hash maxW initW where
  rdNode : NodeRd drv file hi lo maxDlc msgs (userTable (driverDesc drv file hi lo) D0 on) w rx tx
  util : ((confItems fl ((userTable (driverDesc drv file hi lo) D0 on).lookup (driverDesc drv file hi lo).usemon).isSome).flatMap Item.defines ++
    utilNames (nodeDesc drv file hi lo w) (headerTable (driverDesc drv file hi lo) maxDlc msgs (userTable (driverDesc drv file hi lo) D0 on)) msgs rx tx).Nodup

/-- The directory of the driver with the util files of a node. -/
structure NodeDir (dir : List (Str × Str)) (g : GenDesc) (u : UtilDesc) (on : List Str) (fl : ConfEdit) (hops sops uops : List WOp) (msgs rx tx : List Msg) : Prop
    extends DirOk dir g on fl hops msgs where
  source : dir.lookup (g.drvLow ++ ".c".toList) = some (opsText sops)
  fsource : dir.lookup (g.drvLow ++ "-fmon.c".toList) = some (opsText (fmonSourceOps g msgs))
  uheader : dir.lookup u.hname = some (opsText (utilHeaderOps u rx tx))
  usource : dir.lookup (strLower (u.name ++ "-binutil.c".toList)) = some (opsText uops)

/-- **C63**.  The generated files are a complete program: `<drv>.c`, `<drv>-fmon.c` and `<node>_<drv>-binutil.c` compile in the directory of
the generated files, for any set `on` of switches, any further macros `D0` and any node, and the three units link: nothing is
defined twice, and everything that is declared is defined with the declared type.  If the answer of `Unpack_M` to the util unit is what the function `Unpack_M` of the main
unit returns for a message with the id, a call of `<node>_<drv>_Receive` with any id makes exactly one call, of `Unpack_M` of a mapped message `M` with this id, and returns
the id; what the call does to the struct of the message is what the model of the functions does (C01 to C08); or, if no mapped message has
this id, it makes no call and returns 0. -/
theorem C63_program_partial (h : NodeDriver drv file hi lo maxDlc msgs D0 on fl tick hash maxW initW w rx tx) {G : Groups}
    (hr : SortedBy rx (selectRx G msgs)) (ht : SortedBy tx (selectTx G msgs)) (maxV initV : Nat) :
    let g := driverDesc drv file hi lo
    let u := nodeDesc drv file hi lo w
    let cfg := cfgOf g (userTable g D0 on) false maxV initV
    let K := lookOf g (userTable g D0 on) msgs tick hash maxW initW
    ∃ hops sops uops, mainHeaderOps g maxDlc msgs = some hops ∧ mainSourceOps g msgs = some sops ∧ utilSourceOps u hi lo rx tx = some uops ∧
      ∀ dir, NodeDir dir g u on fl hops sops uops msgs rx tx →
      ∃ is js us, (∃ F, ∀ f, F ≤ f → compileTree f dir D0 (g.drvLow ++ ".c".toList) = some is ∧ compileTree f dir D0 (g.drvLow ++ "-fmon.c".toList) = some js ∧
          compileTree f dir D0 (strLower (u.name ++ "-binutil.c".toList)) = some us) ∧
        links [is, js, us] = true ∧
        (rx ≠ [] → ∀ (T : Target φ) (hashF : List Nat → Nat → Nat → Str → Nat → Nat) (now : Nat),
          TargetOk g msgs ((userTable g D0 on).lookup (monoName g)).isSome cfg K T hashF now →
          ∀ (f id d : Nat) (vid vd : CVal) (N : OutNames) (mem : Msg → St φ) (cmem : Msg → CSt φ) (st : CSt φ), (cfg.flag .useCanStruct = true → N.len = "DLC".toList ∧ N.ide = "IDE".toList) → 256 ≤ f →
          CTy.u32.conv vid.val = (id : Nat) → id < 2 ^ 32 → CTy.u8.conv vd.val = (d : Nat) →
          (∀ m, MappedRx G msgs m → m.msgId = id → Obs K N (mem m) (cmem m) ∧ Typed (mkCtx cfg msgs m (fltOps T.F) hashF now d) (mem m)) →
          (∀ m, MappedRx G msgs m → m.msgId = id → T.user (callName drv m) = none ∧ ∃ r, callUnit f T is (callName drv m) (unpackArgs ⟨.u8, (d : Nat)⟩) (cmem m) = some r ∧
            T.ret (callName drv m) [.p (.sub m.name), .p .data, .i ⟨.u8, (d : Nat)⟩] = r.2) →
          ∃ loc, (∃ m st1 r, MappedRx G msgs m ∧ m.msgId = id ∧
              callUnit f T us (u.name ++ "_Receive".toList) [.p .msg, .p .data, .i vid, .i vd] st =
                some ({ st with loc := loc, calls := st.calls ++ [(callName drv m, [.p (.sub m.name), .p .data, .i ⟨.u8, (d : Nat)⟩])] }, .i ⟨.u32, (id : Nat)⟩) ∧
              callUnit f T is (callName drv m) (unpackArgs ⟨.u8, (d : Nat)⟩) (cmem m) = some r ∧
              runUnpack (mkCtx cfg msgs m (fltOps T.F) hashF now d) m (mem m) = .ok st1 ∧ Obs K N st1 r.1) ∨
            ((∀ m, MappedRx G msgs m → m.msgId ≠ id) ∧
              callUnit f T us (u.name ++ "_Receive".toList) [.p .msg, .p .data, .i vid, .i vd] st = some ({ st with loc := loc }, .i ⟨.u32, 0⟩))) := by
  intro g u cfg K
  obtain ⟨hops, ho⟩ := h.rd.header
  have hN : NamesOk g := driver_names h.confName h.rd.headers.2
  have hsw : SwitchOk g := driver_switches h.rd.drvId
  have hn2 : (definedNames g msgs).Nodup := (List.nodup_append.1 h.names).2.1
  have hD : DriverOk drv file hi lo maxDlc msgs (userTable g D0 on) tick hash maxW initW := ⟨h.rd, hn2⟩
  have hU := h.rd.unit hops false 0 0
  have hk := mapped_util hD h.rdNode hr ht
  obtain ⟨hops', sops, o1, a1, cmain⟩ := C61_model_partial (φ := φ) h.toDirDriver maxV initV
  cases ho.symm.trans o1
  obtain ⟨uops, t, u1, -, -⟩ := util_read hD h.rdNode hr ht ho
  refine ⟨hops, sops, uops, ho, a1, u1, fun dir hd => ?_⟩
  obtain ⟨sops', ls, b1, b2, b3, b4⟩ := dir_compile_iff hd.toDirOk hN hsw hU h.words h.fresh ho
  cases a1.symm.trans b1
  obtain ⟨F, hF⟩ := b4 hd.source
  have hty := unit_types (fl := fl) (mono := ((userTable g D0 on).lookup (monoName g)).isSome) b3 rfl b2 h.frame h.float
  have hag := unit_agree (fl := fl) (mono := ((userTable g D0 on).lookup (monoName g)).isSome) b3 b2 rfl h.names h.protos
  have hfm := fmonRd hU h.words (fun m hm => (h.rd.text m hm).name) (driver_verFar h.rd.drvId) fun _ => h.ver
  obtain ⟨F2, hF2⟩ := fmonUnit_compile hd.toDirOk hsw hfm h.fresh hd.fsource
  have hnn : (cfgOf g (userTable g D0 on) false 0 0).flag .useMon = true → (fmonNames g ((userTable g D0 on).lookup (monoName g)).isSome msgs).Nodup := fun q => by
    have hf := hfm.fresh
    rw [q, if_pos rfl] at hf
    exact fmonNames_nodup hf
  obtain ⟨uops', t, u2, u3, u4⟩ := dirUtilSource_run hd.toDirOk hN hsw hU h.words h.fresh ho (utilOf h.rd.drvId h.rdNode.nodeId) hk hd.uheader hr.2 usrc_dir
  cases u1.symm.trans u2
  obtain ⟨F3, hF3⟩ := u4.compile hd.usource ⟨fun _ q => (nomatch q), fun _ _ q => (nomatch q)⟩
  have hlow := nameLow (drv := drv) (file := file) (hi := hi) (lo := lo) h.rdNode.nodeId.1
  have hud := h.util
  have v1 := util_allDefines (g := g) (flag := (cfgOf g (userTable g D0 on) false 0 0).flag) (msgs := msgs) (rx := rx) (tx := tx) u
    (headerTable g maxDlc msgs (userTable g D0 on)) t (confItems fl ((userTable g D0 on).lookup g.usemon).isSome)
  have v2 := util_types (u := u) (D := headerTable g maxDlc msgs (userTable g D0 on)) (t := t) b3 rfl b2 h.frame h.float (mapped_ok hr ht)
  have v3 := util_agree (cfg := cfgOf g (userTable g D0 on) false 0 0) (mono := ((userTable g D0 on).lookup (monoName g)).isSome) (t := t) hlow h.names h.protos h.util
  obtain ⟨is, ⟨F1, hF1⟩, -, -, hcall⟩ := cmain dir hd.toDirOk hd.source
  have eis := Option.some.inj ((hF1 (max F F1) (by omega)).symm.trans ((hF (max F F1) (by omega)).trans (if_pos ⟨h.names, hty, hag⟩)))
  have hlinks := util_links (t := t) hlow b3 b2 rfl h.names h.util h.protos hnn
  rw [← eis] at hlinks
  refine ⟨is, _, _, ⟨F1 + F2 + F3, fun f hf => ⟨hF1 f (by omega), hF2 f (by omega), (hF3 f (by omega)).trans (if_pos ⟨(congrArg List.Nodup v1).mpr h.util, v2, v3⟩)⟩⟩, hlinks, ?_⟩
  intro hne T hashF now hT f id d vid vd N mem cmem st hNs hf e1 e2 e3 hst hans
  have hpos : 0 < rx.length := List.length_pos_iff.2 hne
  have hd8 : d < 256 := by
    have : CTy.u8.conv vd.val = vd.val % 256 := rfl
    omega
  have hself : CTy.u8.conv (CVal.mk .u8 (d : Nat)).val = (d : Nat) := by
    have : CTy.u8.conv (CVal.mk .u8 (d : Nat)).val = (d : Int) % 256 := rfl
    omega
  have hsame : ∀ m, MappedRx G msgs m → m.msgId = id → ∃ st1 r, callUnit f T is (callName drv m) (unpackArgs ⟨.u8, (d : Nat)⟩) (cmem m) = some r ∧
      runUnpack (mkCtx cfg msgs m (fltOps T.F) hashF now d) m (mem m) = .ok st1 ∧ Obs K N st1 r.1 ∧
      T.ret (callName drv m) [.p (.sub m.name), .p .data, .i ⟨.u8, (d : Nat)⟩] = .i ⟨.u32, (m.msgId : Nat)⟩ := by
    intro m hm hmid
    obtain ⟨-, r, r1, r2⟩ := hans m hm hmid
    have hx := (hcall T hashF now hT m hm.1 hm.2.1 d ⟨.u8, (d : Nat)⟩ hd8 hself N (mem m) (cmem m) hNs (hst m hm hmid).1 (hst m hm hmid).2 f hf).1
    have r1' : callUnit f T is (unpackName g m) (unpackArgs ⟨.u8, (d : Nat)⟩) (cmem m) = some r := r1
    rw [r1'] at hx
    cases hq : runUnpack (mkCtx cfg msgs m (fltOps T.F) hashF now d) m (mem m) with
    | bad => rw [hq] at hx; exact hx.elim
    | genUB => rw [hq] at hx; exact hx.elim
    | ok st1 =>
      rw [hq] at hx
      obtain ⟨x1, x2, x3⟩ := hx
      exact ⟨st1, r, r1, rfl, x1, r2.trans x3⟩
  obtain ⟨loc, ⟨m, m1, m2, m3⟩ | q⟩ := recv_unit (φ := φ) (drv := drv) (g := g) (w := w) (tx := tx) (flag := (cfgOf g (userTable g D0 on) false 0 0).flag)
    (D := headerTable g maxDlc msgs (userTable g D0 on)) (p := confItems fl ((userTable g D0 on).lookup g.usemon).isSome) (T := T) (f := f) (rv := fun m => m.msgId) (G := G) rfl hr hpos (u3 hpos) h.util
    (conf_noFuncs _ _) hk.rxNames (fun m hx => (h.rdNode.msg m (List.mem_append_left _ hx)).2.2) (fun m hx => (h.rd.text m (mapped_ok hr ht m (List.mem_append_left _ hx)).1).id) st e1 e2 e3
    (fun m hm hmid => by
      obtain ⟨-, -, -, -, -, q⟩ := hsame m hm hmid
      exact ⟨(hans m hm hmid).1, q, (h.rd.text m hm.1).id⟩)
  · obtain ⟨st1, r, q1, q2, q3, -⟩ := hsame m m1 m2
    rw [m2] at m3
    exact ⟨loc, .inl ⟨m, st1, r, m1, m2, m3, q1, q2, q3⟩⟩
  · exact ⟨loc, .inr q⟩

/-- The directory assumed by `C63_program_partial` exists: the list of the generated files. -/
theorem C63_dir_partial (h : NodeDriver drv file hi lo maxDlc msgs D0 on fl tick hash maxW initW w rx tx) {G : Groups}
    (hr : SortedBy rx (selectRx G msgs)) (ht : SortedBy tx (selectTx G msgs)) :
    let g := driverDesc drv file hi lo
    let u := nodeDesc drv file hi lo w
    ∃ hops sops uops dir, mainHeaderOps g maxDlc msgs = some hops ∧ mainSourceOps g msgs = some sops ∧ utilSourceOps u hi lo rx tx = some uops ∧
      NodeDir dir g u on fl hops sops uops msgs rx tx := by
  intro g u
  obtain ⟨hops, sops, dir, a1, a2, a3, a4, a5⟩ := C62_dir_partial h.toDirRd fl
  have hD : DriverOk drv file hi lo maxDlc msgs (userTable g D0 on) tick hash maxW initW := ⟨h.rd, (List.nodup_append.1 h.names).2.1⟩
  obtain ⟨uops, t, u1, -, -⟩ := util_read hD h.rdNode hr ht a1
  have d1 : u.hname ∉ dirFiles g := hname_dir h.rd.drvId.1
  have d2 : usrcFile u ∉ u.hname :: dirFiles g := usrc_dir
  have e0 : u.hname = strLower (utilBase drv w) ++ "-binutil.h".toList := hname_eq _ _ _
  have e1 : usrcFile u = strLower (utilBase drv w) ++ "-binutil.c".toList := usrc_eq _ _ _ _ _
  have hs : stdFile ≠ u.hname := hname_ne (a := "std".toList) "int.h" (by decide) (by decide)
  have hs2 : stdFile ≠ usrcFile u := by
    rw [e1]
    intro e
    have e : "stdint".toList ++ ".h".toList = (strLower (utilBase drv w) ++ "-binutil".toList) ++ ".c".toList := by rw [List.append_assoc]; exact e
    exact suffix_ne (s := ".h".toList) (t := ".c".toList) rfl (by decide) e
  have f1 : srcFile g ≠ u.hname := by
    rw [e0]
    intro e
    have e : strLower drv ++ ".c".toList = (strLower (utilBase drv w) ++ "-binutil".toList) ++ ".h".toList := by rw [List.append_assoc]; exact e
    exact suffix_ne (s := ".c".toList) (t := ".h".toList) rfl (by decide) e
  have f2 : fsrcFile g ≠ u.hname := by
    rw [e0]
    intro e
    have e : (strLower drv ++ "-fmon".toList) ++ ".c".toList = (strLower (utilBase drv w) ++ "-binutil".toList) ++ ".h".toList := by
      rw [List.append_assoc, List.append_assoc]; exact e
    exact suffix_ne (s := ".c".toList) (t := ".h".toList) rfl (by decide) e
  have f3 : srcFile g ≠ usrcFile u := by
    rw [e1]
    intro e
    have e : strLower drv ++ ".c".toList = (strLower (utilBase drv w) ++ "-binutil".toList) ++ ".c".toList := by rw [List.append_assoc]; exact e
    have e := List.append_cancel_right e
    exact dash_ident h.rd.drvId.1 (e ▸ List.mem_append_right _ (by decide))
  have f4 : fsrcFile g ≠ usrcFile u := by
    rw [e1]
    intro e
    have e : (strLower drv ++ "-".toList) ++ "fmon.c".toList = (strLower (utilBase drv w) ++ "-bin".toList) ++ "util.c".toList := by
      rw [List.append_assoc, List.append_assoc]; exact e
    exact suffix_ne (s := "fmon.c".toList) (t := "util.c".toList) rfl (by decide) e
  have key : ∀ n, n ∈ [hdrFile g, cfgFile g, ccFile, muFile, fmonFile g, stdFile, srcFile g, fsrcFile g] →
      ((u.hname, opsText (utilHeaderOps u rx tx)) :: (usrcFile u, opsText uops) :: dir).lookup n = dir.lookup n := by
    intro n hn
    have : n ≠ u.hname ∧ n ≠ usrcFile u := by
      have p1 : ∀ n ∈ dirFiles g, n ≠ u.hname ∧ n ≠ usrcFile u := fun n hn => ⟨fun e => d1 (e ▸ hn), fun e => d2 (e ▸ List.mem_cons_of_mem _ hn)⟩
      simp only [List.mem_cons, List.not_mem_nil, or_false] at hn
      rcases hn with rfl | rfl | rfl | rfl | rfl | rfl | rfl | rfl
      iterate 5 exact p1 _ (by simp [dirFiles])
      · exact ⟨hs, hs2⟩
      · exact ⟨f1, f3⟩
      · exact ⟨f2, f4⟩
    exact (lookup_ne this.1).trans (lookup_ne this.2)
  refine ⟨hops, sops, uops, (u.hname, opsText (utilHeaderOps u rx tx)) :: (usrcFile u, opsText uops) :: dir, a1, a2, u1, ⟨⟨?_, ?_, ?_, ?_, ?_, ?_⟩, ?_, ?_, lookup_eq, ?_⟩⟩
  · exact (key _ (by simp)).trans a3.header
  · exact (key _ (by simp)).trans a3.config
  · exact (key _ (by simp)).trans a3.codeconf
  · exact a3.monutil.same (key _ (by simp))
  · exact (key _ (by simp)).trans a3.fmon
  · exact (key _ (by simp)).trans a3.stdint
  · exact (key (srcFile g) (by simp)).trans a4
  · exact (key (fsrcFile g) (by simp)).trans a5
  · exact (lookup_ne (n := usrcFile u) fun e => d2 (List.mem_cons.2 (.inl e))).trans lookup_eq

/-! Examples: node `ECU` receives `MSG` and `TMP` and sends `TMP`. -/

namespace Fix

/-- Nothing switched on. -/
theorem progMin : NodeDriver "drv".toList "my.dbc".toList 1 2 8 drvMsgs [] [] .none .zero .zero "8U".toList "0U".toList (some "ECU".toList) [msgA, msgT] [msgT] where
  toLinkDriver := linkMin
  rdNode := ⟨by decide +kernel, by decide +kernel, by decide +kernel, by decide +kernel, by decide +kernel⟩
  util := by decide +kernel

/-- The macros of the user and the one that asks for variables. -/
def hookVars : Defs := userHooks ++ [("__DEF_ECU_DRV__".toList, .obj [])]

/-- A monitor function per message, the struct of the messages as variables. -/
theorem progMax : NodeDriver "drv".toList "my.dbc".toList 1 2 8 drvMsgs hookVars allOn .float (.call "GetTick".toList) (.call "GetHash".toList) "8U".toList "0U".toList
    (some "ECU".toList) [msgA, msgT] [msgT] where
  rd := readB_sound (by decide +kernel)
  confName := by decide +kernel
  words := by decide +kernel
  fresh := by decide +kernel
  names := by decide +kernel
  protos := by decide +kernel
  frame := by decide +kernel
  float := .inl rfl
  ver := by decide +kernel
  rdNode := ⟨by decide +kernel, by decide +kernel, by decide +kernel, by decide +kernel, by decide +kernel⟩
  util := by decide +kernel

/-- A node that receives nothing. -/
theorem progTx : NodeDriver "drv".toList "my.dbc".toList 1 2 8 drvMsgs [] [] .none .zero .zero "8U".toList "0U".toList (some "ECU".toList) [] [msgT] where
  toLinkDriver := linkMin
  rdNode := ⟨by decide +kernel, by decide +kernel, by decide +kernel, by decide +kernel, by decide +kernel⟩
  util := by decide +kernel

end Fix

end Verif
