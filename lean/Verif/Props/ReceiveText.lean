import Verif.Proofs.NodeUtil
import Verif.Props.Receive
import Verif.Props.VersionText
/-
C57: the text of the util files of a node, read as C.
-/
namespace Verif
open Spec

variable {φ : Type} {drv : Str} {file : Source} {w : Option Str} {hi lo maxDlc : Nat} {msgs rx tx : List Msg} {D0 : Defs} {tick hash : Hook} {maxW initW : Str}

theorem mapped_ok {G : Groups} (hr : SortedBy rx (selectRx G msgs)) (ht : SortedBy tx (selectTx G msgs)) : ∀ m ∈ rx ++ tx, m ∈ msgs ∧ m.frameNotEmpty = true := by
  intro m hm
  rcases List.mem_append.1 hm with hm | hm
  · have := (mem_selectRx G msgs m).1 (hr.1.mem_iff.1 hm)
    exact ⟨this.1, this.2.1⟩
  · have := (mem_selectTx G msgs m).1 (ht.1.mem_iff.1 hm)
    exact ⟨this.1, this.2.1⟩

theorem mapped_util (h : DriverOk drv file hi lo maxDlc msgs D0 tick hash maxW initW) (hn : NodeRd drv file hi lo maxDlc msgs D0 w rx tx) {G : Groups}
    (hr : SortedBy rx (selectRx G msgs)) (ht : SortedBy tx (selectTx G msgs)) : UtilOk (nodeDesc drv file hi lo w) (headerTable (driverDesc drv file hi lo) maxDlc msgs D0) rx tx := by
  refine utilOk h.toDriverRd hn (mapped_ok hr ht) (mapped_nodup h.names (fun m q => ?_) hr.1) (mapped_nodup h.names (fun m q => ?_) ht.1)
  · exact (Bool.and_eq_true_iff.1 q).1
  · exact (Bool.and_eq_true_iff.1 q).1

theorem util_read (h : DriverOk drv file hi lo maxDlc msgs D0 tick hash maxW initW) (hn : NodeRd drv file hi lo maxDlc msgs D0 w rx tx) {G : Groups}
    (hr : SortedBy rx (selectRx G msgs)) (ht : SortedBy tx (selectTx G msgs)) {hops : List WOp} (ho : mainHeaderOps (driverDesc drv file hi lo) maxDlc msgs = some hops) :
    ∃ sops t, utilSourceOps (nodeDesc drv file hi lo w) hi lo rx tx = some sops ∧ (0 < rx.length → fillTree rx (rx.length + 1) 0 rx.length false = some t) ∧
      GItems (utilFiles (nodeDesc drv file hi lo w) hops msgs rx tx) sops D0 (headerTable (driverDesc drv file hi lo) maxDlc msgs D0)
        (utilItems (nodeDesc drv file hi lo w) (headerTable (driverDesc drv file hi lo) maxDlc msgs D0)
          (headerItems (driverDesc drv file hi lo) (fun f => ((macroTable (driverDesc drv file hi lo) maxDlc msgs D0).lookup (flagName (driverDesc drv file hi lo) f)).isSome) msgs) rx tx t) := by
  have hU := h.toDriverRd.unit hops false 0 0
  have hl := version_lookup ((fresh_append _ _ _).1 h.fresh).1
  have hc : D0.lookup "__cplusplus".toList = none := Sub.none ((Sub.addAll _ _).trans (headerTable_sub _)) hU.head.cpp
  exact utilSource_read (files := textFiles _ _ _ _ hops msgs) (mapped_util h hn hr ht) hr.2 (nodeFiles h.toDriverRd hn hops h.fileT hi lo) hc (node_include h.toDriverRd ho)
    ⟨words_of_ident hU.head.verhigh.1, hU.head.verhigh.2⟩ ⟨words_of_ident hU.head.verlow.1, hU.head.verlow.2⟩ hl.1 hl.2 h.ver.1 h.ver.2

/-- **C57**, exactly: the util source file of a node compiles if and only if no two of the types, variables
and functions of it and the included headers have the same name. -/
theorem C57_compiles_partial (h : DriverOk drv file hi lo maxDlc msgs D0 tick hash maxW initW) (hn : NodeRd drv file hi lo maxDlc msgs D0 w rx tx) {G : Groups}
    (hr : SortedBy rx (selectRx G msgs)) (ht : SortedBy tx (selectTx G msgs)) :
    ∃ hops sops F, mainHeaderOps (driverDesc drv file hi lo) maxDlc msgs = some hops ∧ utilSourceOps (nodeDesc drv file hi lo w) hi lo rx tx = some sops ∧
      ∀ f, F ≤ f → ((compile f (utilFiles (nodeDesc drv file hi lo w) hops msgs rx tx) D0 (opsText sops)).isSome = true ↔
        (utilNames (nodeDesc drv file hi lo w) (headerTable (driverDesc drv file hi lo) maxDlc msgs D0) msgs rx tx).Nodup) := by
  obtain ⟨hops, ho⟩ := h.toDriverRd.header
  obtain ⟨sops, t, h1, -, h3⟩ := util_read h hn hr ht ho
  obtain ⟨F, hF⟩ := h3.compile
  refine ⟨hops, sops, F, ho, h1, fun f hf => ?_⟩
  rw [hF f hf, util_defines]
  split
  · rename_i q
    exact ⟨fun _ => q, fun _ => rfl⟩
  · rename_i q
    exact ⟨fun x => absurd x Bool.false_ne_true, fun x => absurd x q⟩

/-- **C57**.  The literal text of `<node>_<drv>-binutil.c` with its header and the headers of the driver, put
through the C preprocessor with any set `D0` of user macros and then through the C parser, is a translation
unit; and a call of its function `<node>_<drv>_Receive` with any id, any length and in any state makes exactly
one call, of `Unpack_M` of a mapped message `M` with this id with a pointer to the member `M` and the data and
the length, and returns what that call returned; or, if no mapped message has this id, it makes no call and returns
0.  Nothing else of the state changes. -/
theorem C57_receive_partial (h : DriverOk drv file hi lo maxDlc msgs D0 tick hash maxW initW) (hn : NodeRd drv file hi lo maxDlc msgs D0 w rx tx) {G : Groups}
    (hr : SortedBy rx (selectRx G msgs)) (ht : SortedBy tx (selectTx G msgs))
    (hd : (utilNames (nodeDesc drv file hi lo w) (headerTable (driverDesc drv file hi lo) maxDlc msgs D0) msgs rx tx).Nodup) :
    ∃ hops sops is, mainHeaderOps (driverDesc drv file hi lo) maxDlc msgs = some hops ∧ utilSourceOps (nodeDesc drv file hi lo w) hi lo rx tx = some sops ∧
      (∃ F, ∀ f, F ≤ f → compile f (utilFiles (nodeDesc drv file hi lo w) hops msgs rx tx) D0 (opsText sops) = some is) ∧
      (rx ≠ [] → ∀ (T : Target φ) (f id d : Nat) (rv : Msg → Nat) (vid vd : CVal) (st : CSt φ),
        (∀ m, MappedRx G msgs m → m.msgId = id →
          T.user (callName drv m) = none ∧ T.ret (callName drv m) [.p (.sub m.name), .p .data, .i ⟨.u8, (d : Nat)⟩] = .i ⟨.u32, (rv m : Nat)⟩ ∧ rv m < 2 ^ 32) →
        CTy.u32.conv vid.val = (id : Nat) → id < 2 ^ 32 → CTy.u8.conv vd.val = (d : Nat) →
        ∃ loc, (∃ m, MappedRx G msgs m ∧ m.msgId = id ∧
            callUnit f T is (utilName (nodeDesc drv file hi lo w) "_Receive") [.p .msg, .p .data, .i vid, .i vd] st =
              some ({ st with loc := loc, calls := st.calls ++ [(callName drv m, [.p (.sub m.name), .p .data, .i ⟨.u8, (d : Nat)⟩])] }, .i ⟨.u32, (rv m : Nat)⟩)) ∨
          ((∀ m, MappedRx G msgs m → m.msgId ≠ id) ∧
            callUnit f T is (utilName (nodeDesc drv file hi lo w) "_Receive") [.p .msg, .p .data, .i vid, .i vd] st = some ({ st with loc := loc }, .i ⟨.u32, 0⟩))) := by
  obtain ⟨hops, ho⟩ := h.toDriverRd.header
  obtain ⟨sops, t, h1, h2, h3⟩ := util_read h hn hr ht ho
  obtain ⟨F, hF⟩ := h3.compile
  rw [util_defines] at hF
  simp only [if_pos hd] at hF
  refine ⟨hops, sops, _, ho, h1, ⟨F, hF⟩, fun hne T f id d rv vid vd st hT hv1 hv2 hv => ?_⟩
  have hpos : 0 < rx.length := List.length_pos_iff.2 hne
  have hok := mapped_util h hn hr ht
  have hm : ∀ m ∈ rx, MappedRx G msgs m := fun m hx => (mem_selectRx G msgs m).1 (hr.1.mem_iff.1 hx)
  obtain ⟨t', e', -, hdis⟩ := fillTree_some hr.2 hpos
  have et := h2 hpos
  rw [et] at e'
  cases e'
  have hids : ∀ i ∈ treeIds t, i < 2 ^ 32 := by
    intro i hx
    obtain ⟨m, hm', rfl⟩ := fillTree_ids et i hx
    exact (h.text m (hm m hm').1).id
  have key := recv_call (φ := φ) (tx := tx) (flag := fun f => ((macroTable (driverDesc drv file hi lo) maxDlc msgs D0).lookup (flagName (driverDesc drv file hi lo) f)).isSome)
    (rv := fun m => ⟨.u32, (rv m : Nat)⟩) (T := T) (f := f) (st := st) (g := driverDesc drv file hi lo) (w := w) (drv := drv) rfl hpos hids hd hok.rxNames
    (fun m hx => mapped_ok hr ht m (List.mem_append_left _ hx)) (fun m hx => (hn.msg m (List.mem_append_left _ hx)).2.2) hv1 hv2 hv
    (fun m hc => by
      obtain ⟨hx, e⟩ := dispatch_mem (hdis id) hc
      exact ⟨hx, (hT m (hm m hx) e).1, (hT m (hm m hx) e).2.1⟩)
  have kc : ∀ n : Nat, n < 2 ^ 32 → (CVal.mk .u32 (n : Nat)).cast .u32 = ⟨.u32, (n : Nat)⟩ := by
    intro n q
    unfold CVal.cast
    rw [u32_nat q]
  rcases hdis id with ⟨k, m, -, -, g3, g4, g5⟩ | ⟨g1, g2⟩
  · have hx := List.mem_of_getElem? g3
    rw [g5] at key
    unfold afterCalls afterCalls at key
    dsimp only at key
    rw [kc _ (hT m (hm m hx) g4).2.2, kc _ (hT m (hm m hx) g4).2.2] at key
    exact ⟨_, Or.inl ⟨m, hm m hx, g4, key⟩⟩
  · rw [g2] at key
    refine ⟨_, Or.inr ⟨fun m hmm => ?_, key⟩⟩
    have hx : m ∈ rx := hr.1.mem_iff.2 ((mem_selectRx G msgs m).2 hmm)
    obtain ⟨k, hk⟩ := List.getElem?_of_mem hx
    exact g1 k m (Nat.zero_le _) (List.getElem?_eq_some_iff.1 hk).1 hk

/-- **C57**: if every `Unpack_M` returns the id of its message (C54, C09), the receive function returns the id
it was called with exactly for the ids of mapped messages, and 0 for the others. -/
theorem C57_id_partial (h : DriverOk drv file hi lo maxDlc msgs D0 tick hash maxW initW) (hn : NodeRd drv file hi lo maxDlc msgs D0 w rx tx) {G : Groups}
    (hr : SortedBy rx (selectRx G msgs)) (ht : SortedBy tx (selectTx G msgs)) (hne : rx ≠ [])
    (hd : (utilNames (nodeDesc drv file hi lo w) (headerTable (driverDesc drv file hi lo) maxDlc msgs D0) msgs rx tx).Nodup) :
    ∃ hops sops is, mainHeaderOps (driverDesc drv file hi lo) maxDlc msgs = some hops ∧ utilSourceOps (nodeDesc drv file hi lo w) hi lo rx tx = some sops ∧
      (∃ F, ∀ f, F ≤ f → compile f (utilFiles (nodeDesc drv file hi lo w) hops msgs rx tx) D0 (opsText sops) = some is) ∧
      ∀ (T : Target φ) (f id d : Nat) (vid vd : CVal) (st : CSt φ),
        (∀ m, MappedRx G msgs m → T.user (callName drv m) = none ∧ ∀ vs, T.ret (callName drv m) vs = .i ⟨.u32, (m.msgId : Nat)⟩) →
        CTy.u32.conv vid.val = (id : Nat) → id < 2 ^ 32 → CTy.u8.conv vd.val = (d : Nat) →
        ∃ st' r, callUnit f T is (utilName (nodeDesc drv file hi lo w) "_Receive") [.p .msg, .p .data, .i vid, .i vd] st = some (st', .i ⟨.u32, (r : Nat)⟩) ∧
          ((∃ m, MappedRx G msgs m ∧ m.msgId = id) → r = id) ∧ ((∀ m, MappedRx G msgs m → m.msgId ≠ id) → r = 0 ∧ st'.calls = st.calls) := by
  obtain ⟨hops, sops, is, h1, h2, h3, h4⟩ := C57_receive_partial (φ := φ) h hn hr ht hd
  refine ⟨hops, sops, is, h1, h2, h3, fun T f id d vid vd st hT e1 e2 e3 => ?_⟩
  obtain ⟨loc, ⟨m, a, b, c⟩ | ⟨a, b⟩⟩ := h4 hne T f id d (fun m => m.msgId) vid vd st (fun m hm _ => ⟨(hT m hm).1, (hT m hm).2 _, (h.text m hm.1).id⟩) e1 e2 e3
  · exact ⟨_, _, c, fun _ => b, fun q => absurd b (q m a)⟩
  · exact ⟨_, 0, b, fun ⟨m, c, d⟩ => absurd d (a m c), fun _ => ⟨rfl, rfl⟩⟩

/-- **C57**, version check: util files generated for another version of the database than the driver's header do
not compile: their `#error` is reached. -/
theorem C57_mismatch_partial (h : DriverOk drv file hi lo maxDlc msgs D0 tick hash maxW initW) (hn : NodeRd drv file hi lo maxDlc msgs D0 w rx tx) {G : Groups}
    (hr : SortedBy rx (selectRx G msgs)) (ht : SortedBy tx (selectTx G msgs)) {file' : Source} (hf' : SourceOk file') {hi' lo' : Nat}
    (hv : hi' < 2 ^ 32 ∧ lo' < 2 ^ 32) (hne : ¬ (hi = hi' ∧ lo = lo')) :
    let u := nodeDesc drv file' hi' lo' w
    ∃ hops sops F, mainHeaderOps (driverDesc drv file hi lo) maxDlc msgs = some hops ∧ utilSourceOps u hi' lo' rx tx = some sops ∧
      ∀ f, F ≤ f → compile f ((u.hname, opsText (utilHeaderOps u rx tx)) :: genFiles (driverDesc drv file hi lo) hops msgs) D0 (opsText sops) = none := by
  intro u
  obtain ⟨hops, ho⟩ := h.toDriverRd.header
  have hU := h.toDriverRd.unit hops false 0 0
  have hl := version_lookup ((fresh_append _ _ _).1 h.fresh).1
  have hc : D0.lookup "__cplusplus".toList = none := Sub.none ((Sub.addAll _ _).trans (headerTable_sub _)) hU.head.cpp
  have ok := mapped_util h hn hr ht
  have hok : UtilOk u (headerTable (driverDesc drv file hi lo) maxDlc msgs D0) rx tx :=
    { base := ok.base, cpp := ok.cpp, drv := ok.drv, name := ok.name, NAME := ok.NAME, own := ok.own, msg := ok.msg, call := ok.call, rxNames := ok.rxNames, txNames := ok.txNames }
  obtain ⟨us, hg, -⟩ := utilInclude_read hok (nodeFiles h.toDriverRd hn hops hf' hi' lo') hc (node_include h.toDriverRd ho)
  have hl2 := versionCheck_line (files := textFiles (driverDesc drv file hi lo) drv w (opsText (utilHeaderOps u rx tx)) hops msgs) (g := driverDesc drv file hi lo) (hi' := hi') (lo' := lo')
    ((headerTable_sub _).base hU.head.base) ⟨words_of_ident hU.head.verhigh.1, hU.head.verhigh.2⟩ ⟨words_of_ident hU.head.verlow.1, hU.head.verlow.2⟩ hl.1 hl.2
    h.ver.1 h.ver.2 hv.1 hv.2
  have hne : ¬ ((driverDesc drv file hi lo).hiver = hi' ∧ (driverDesc drv file hi lo).lowver = lo') := hne
  rw [decide_eq_true hne] at hl2
  rw [utilSource_eq]
  obtain ⟨body, hb, hnf⟩ : ∃ body, receiveOps u rx = some body ∧ NoFlush body := by
    unfold receiveOps
    split
    · rename_i hpos
      obtain ⟨t, ht, -, -⟩ := fillTree_some hr.2 hpos
      rw [ht]
      exact ⟨_, rfl, .of rfl⟩
    · exact ⟨_, rfl, NoFlush.nil⟩
  rw [hb]
  have hrest : NoFlush ([opLine "#endif", opEmpty] ++ ((if rx.length > 0 ∨ tx.length > 0 then
      [.appendF ("#ifdef __DEF_".toList ++ u.NAME ++ "__".toList), opEmpty] ++
      (if rx.length > 0 then [.appendF ("".toList ++ utilName u "_rx_t" ++ " ".toList ++ utilName u "_rx" ++ ";".toList), opEmpty] else []) ++
      (if tx.length > 0 then [.appendF ("".toList ++ utilName u "_tx_t" ++ " ".toList ++ utilName u "_tx" ++ ";".toList), opEmpty] else []) ++
      [.appendF ("#endif // __DEF_".toList ++ u.NAME ++ "__".toList), opEmpty] else []) ++ body)) := by
    refine NoFlush.append (.of rfl) (NoFlush.append ?_ hnf)
    split
    · refine NoFlush.append (NoFlush.append (NoFlush.append (.of rfl) ?_) ?_) (.of rfl)
      · split
        · exact .of rfl
        · exact NoFlush.nil
      · split
        · exact .of rfl
        · exact NoFlush.nil
    · exact NoFlush.nil
  obtain ⟨F, hF⟩ := error_compile hg hl2.1 hl2.2 (ol_utilError hok)
    (isDir_error ("The ".toList ++ u.NAME ++ " binutil source file has inconsistency with core dbc lib!".toList)) hrest
  refine ⟨hops, _, F, ho, rfl, fun f hf => ?_⟩
  have := hF f hf
  simp only [List.append_assoc] at this ⊢
  exact this

/-! Examples: node `ECU` receives `MSG` and `TMP` and sends `TMP`; every macro of the user defined, and the one for
the variables too. -/

namespace Fix

def nodeG : Groups := { rx := [0x123], tx := [], both := [0x1ABCD] }

/-- The macro that asks for variables, and the others. -/
def userVars : Defs := userMax ++ [("__DEF_ECU_DRV__".toList, .obj [])]

theorem drvVars : DriverOk "drv".toList "my.dbc".toList 1 2 8 drvMsgs userVars (.call "GetTick".toList) (.call "GetHash".toList) "8U".toList "0U".toList :=
  driverB_sound (by decide +kernel)

theorem nodeVars : NodeRd "drv".toList "my.dbc".toList 1 2 8 drvMsgs userVars (some "ECU".toList) [msgA, msgT] [msgT] :=
  ⟨by decide +kernel, by decide +kernel, by decide +kernel, by decide +kernel, by decide +kernel⟩

theorem nodeMin : NodeRd "drv".toList "my.dbc".toList 1 2 8 drvMsgs [] (some "ECU".toList) [msgA, msgT] [msgT] :=
  ⟨by decide +kernel, by decide +kernel, by decide +kernel, by decide +kernel, by decide +kernel⟩

theorem nodeRx : SortedBy [msgA, msgT] (selectRx nodeG drvMsgs) := ⟨List.Perm.of_eq (by decide +kernel), by decide +kernel⟩

theorem nodeTx : SortedBy [msgT] (selectTx nodeG drvMsgs) := ⟨List.Perm.of_eq (by decide +kernel), by decide +kernel⟩

end Fix

example : ∃ hops sops is, mainHeaderOps (driverDesc "drv".toList "my.dbc".toList 1 2) 8 Fix.drvMsgs = some hops ∧
    utilSourceOps (nodeDesc "drv".toList "my.dbc".toList 1 2 (some "ECU".toList)) 1 2 [Fix.msgA, Fix.msgT] [Fix.msgT] = some sops ∧
    ∃ F, ∀ f, F ≤ f → compile f (utilFiles (nodeDesc "drv".toList "my.dbc".toList 1 2 (some "ECU".toList)) hops Fix.drvMsgs [Fix.msgA, Fix.msgT] [Fix.msgT]) Fix.userVars (opsText sops) = some is := by
  obtain ⟨hops, sops, is, h1, h2, h3, -⟩ := C57_receive_partial (φ := Unit) Fix.drvVars Fix.nodeVars Fix.nodeRx Fix.nodeTx (by decide +kernel)
  exact ⟨hops, sops, is, h1, h2, h3⟩

/-- Without macros, id 0x123: the receive function returns it. -/
example : ∃ hops sops is, mainHeaderOps (driverDesc "drv".toList "my.dbc".toList 1 2) 8 Fix.drvMsgs = some hops ∧
    utilSourceOps (nodeDesc "drv".toList "my.dbc".toList 1 2 (some "ECU".toList)) 1 2 [Fix.msgA, Fix.msgT] [Fix.msgT] = some sops ∧
    (∃ F, ∀ f, F ≤ f → compile f (utilFiles (nodeDesc "drv".toList "my.dbc".toList 1 2 (some "ECU".toList)) hops Fix.drvMsgs [Fix.msgA, Fix.msgT] [Fix.msgT]) [] (opsText sops) = some is) ∧
    ∀ (T : Target φ) (f : Nat) (st : CSt φ), (∀ n, T.user n = none) → (∀ m ∈ Fix.drvMsgs, ∀ vs, T.ret (callName "drv".toList m) vs = .i ⟨.u32, (m.msgId : Nat)⟩) →
      ∃ st', callUnit f T is "ecu_drv_Receive".toList [.p .msg, .p .data, .i ⟨.u32, 0x123⟩, .i ⟨.u8, 8⟩] st = some (st', .i ⟨.u32, 0x123⟩) := by
  obtain ⟨hops, sops, is, h1, h2, h3, h4⟩ := C57_id_partial (φ := φ) Fix.drvMin Fix.nodeMin Fix.nodeRx Fix.nodeTx (by decide) (by decide +kernel)
  refine ⟨hops, sops, is, h1, h2, h3, fun T f st a b => ?_⟩
  obtain ⟨st', r, e, g, -⟩ := h4 T f 0x123 8 ⟨.u32, 0x123⟩ ⟨.u8, 8⟩ st (fun m hm => ⟨a _, b m hm.1⟩) (by decide) (by decide) (by decide)
  have := g ⟨Fix.msgA, (mem_selectRx _ _ _).1 (Fix.nodeRx.1.mem_iff.1 (by simp)), rfl⟩
  subst this
  exact ⟨st', e⟩

namespace Fix

/-- A message `n_d_rx`. -/
def rxMsgs : List Msg := [{ msgT with name := "n_d_rx".toList }]

theorem rxRd : DriverOk "d".toList "my.dbc".toList 1 2 8 rxMsgs [] .zero .zero "8U".toList "0U".toList :=
  driverB_sound (by decide +kernel)

theorem rxNode : NodeRd "d".toList "my.dbc".toList 1 2 8 rxMsgs [] (some "N".toList) rxMsgs [] :=
  ⟨by decide +kernel, by decide +kernel, by decide +kernel, by decide +kernel, by decide +kernel⟩

end Fix

/-- **C57** is false in general: with a driver named `d`, a node `N` and a message `n_d_rx` (the files of the
driver itself compile) the struct of received messages is called like the struct of the message, and the util source file
does not compile. -/
theorem C57_refuted : ∃ hops sops F, mainHeaderOps (driverDesc "d".toList "my.dbc".toList 1 2) 8 Fix.rxMsgs = some hops ∧
    utilSourceOps (nodeDesc "d".toList "my.dbc".toList 1 2 (some "N".toList)) 1 2 Fix.rxMsgs [] = some sops ∧
    ∀ f, F ≤ f → compile f (utilFiles (nodeDesc "d".toList "my.dbc".toList 1 2 (some "N".toList)) hops Fix.rxMsgs Fix.rxMsgs []) [] (opsText sops) = none := by
  obtain ⟨hops, sops, F, h1, h2, h3⟩ := C57_compiles_partial Fix.rxRd Fix.rxNode (G := { rx := [0x1ABCD], tx := [], both := [] })
    ⟨List.Perm.of_eq (by decide +kernel), by decide +kernel⟩ ⟨List.Perm.of_eq (by decide +kernel), by decide +kernel⟩
  refine ⟨hops, sops, F, h1, h2, fun f hf => ?_⟩
  have hn : ¬ (utilNames (nodeDesc "d".toList "my.dbc".toList 1 2 (some "N".toList)) (headerTable (driverDesc "d".toList "my.dbc".toList 1 2) 8 Fix.rxMsgs []) Fix.rxMsgs Fix.rxMsgs []).Nodup := by
    decide +kernel
  have := mt (h3 f hf).1 hn
  simpa using this

/-- Example of the version check: headers of version 1.2, util files of version 1.3. -/
example : let u := nodeDesc "drv".toList "other.dbc".toList 1 3 (some "ECU".toList)
    ∃ hops sops F, mainHeaderOps (driverDesc "drv".toList "my.dbc".toList 1 2) 8 Fix.drvMsgs = some hops ∧ utilSourceOps u 1 3 [Fix.msgA, Fix.msgT] [Fix.msgT] = some sops ∧
      ∀ f, F ≤ f → compile f ((u.hname, opsText (utilHeaderOps u [Fix.msgA, Fix.msgT] [Fix.msgT])) :: genFiles (driverDesc "drv".toList "my.dbc".toList 1 2) hops Fix.drvMsgs)
        Fix.userVars (opsText sops) = none :=
  C57_mismatch_partial Fix.drvVars Fix.nodeVars Fix.nodeRx Fix.nodeTx (by decide) (by decide) (by decide)

end Verif
