import Verif.Props.Program
import Verif.Props.Auto
/-
C64: from the text of the DBC file to the complete program.
-/
namespace Verif
open Spec

variable {φ : Type} {drv : Str} {file : Source} {who : Option Str} {hi lo maxDlc : Nat} {msgs rx tx : List Msg} {D0 : Defs} {on : List Str} {fl : ConfEdit} {tick hash : Hook} {maxW initW : Str}

/-- The main unit of the directory does what the model does, and has the structs of the messages. -/
theorem dir_unit (h : DirDriver drv file hi lo maxDlc msgs D0 on fl tick hash maxW initW) (maxV initV : Nat) :
    let g := driverDesc drv file hi lo
    let cfg := cfgOf g (userTable g D0 on) false maxV initV
    ∃ hops sops, mainHeaderOps g maxDlc msgs = some hops ∧ mainSourceOps g msgs = some sops ∧
      ∀ dir, DirOk dir g on fl hops msgs → dir.lookup (srcFile g) = some (opsText sops) →
      ∃ is, (∃ F, ∀ f, F ≤ f → compileTree f dir D0 (srcFile g) = some is) ∧
        RunsModel φ g msgs ((userTable g D0 on).lookup (monoName g)).isSome cfg (lookOf g (userTable g D0 on) msgs tick hash maxW initW) is ∧
        ∀ m ∈ msgs, m.frameNotEmpty = true → structOf is (typeName m) = some (structMembers cfg.flag m) := by
  intro g cfg
  obtain ⟨hops, sops, ho, a1, hdir⟩ := C61_model_partial (φ := φ) h maxV initV
  refine ⟨hops, sops, ho, a1, fun dir hd hs => ?_⟩
  obtain ⟨is, ⟨F, hF⟩, -, -, hrun⟩ := hdir dir hd hs
  have hN : NamesOk g := driver_names h.confName h.rd.headers.2
  have hsw : SwitchOk g := driver_switches h.rd.drvId
  have hU := h.rd.unit hops false maxV initV
  obtain ⟨sops', ls, b1, b2, b3, b4⟩ := dir_compile_iff hd hN hsw hU h.words h.fresh ho
  cases a1.symm.trans b1
  obtain ⟨F2, hF2⟩ := b4 hs
  have e := (hF (max F F2) (by omega)).symm.trans (hF2 (max F F2) (by omega))
  have eis : is = confItems fl (cfg.flag .useMon) ++ unitItems g cfg.flag ((userTable g D0 on).lookup (monoName g)).isSome msgs ls := by
    split at e
    · exact Option.some.inj e
    · cases e
  refine ⟨is, ⟨F, hF⟩, ?_, fun m hm hne => ?_⟩
  · intro T hashF now hT m hm hne dlcArg v hv1 hv2 N hNs st cst ho ht f hf
    exact hrun T hashF now hT m hm hne dlcArg v hv1 hv2 N st cst hNs ho ht f hf
  · have hnd : (is.flatMap Item.defines).Nodup := by
      rw [eis, List.flatMap_append, unit_defines b2 b3]
      exact h.names
    refine structOf_mem hnd ?_
    rw [eis]
    exact List.mem_append_right _ (struct_mem hm hne)

/-- What the driver compiled in a directory does for the messages a DBC file states: conclusion of C64 and C65. -/
def DriverProgram (φ : Type) (P : Platform) (text drv : Str) (file : Source) (out : DbcList) (srt : List Msg) (D0 : Defs) (on : List Str) (tick hash : Hook) (maxW initW : Str)
    (maxV initV : Nat) (dir : List (Str × Str)) : Prop :=
  let g := driverDesc drv file out.verHi out.verLow
  let cfg := cfgOf g (userTable g D0 on) false maxV initV
  let K := lookOf g (userTable g D0 on) srt tick hash maxW initW
  ∃ is, (∃ F, ∀ f, F ≤ f → compileTree f dir D0 (g.drvLow ++ ".c".toList) = some is) ∧
  ∀ (T : Target φ) (hashF : List Nat → Nat → Nat → Str → Nat → Nat) (now : Nat),
    TargetOk g srt ((userTable g D0 on).lookup (monoName g)).isSome cfg K T hashF now →
    ∀ d, Stated (fileLines P text) d → MsgDescOk d → d.sigs ≠ [] → (∀ s ∈ d.sigs, s.signed = true → s.len ≤ 32) →
    (d.dlc ≤ 8 ∨ ∀ m ∈ srt, m.msgId = d.id → m.csmSig = none) →
    ∀ cst : CSt φ, StartIn is d cst → ∀ f, 256 ≤ f →
      ((cfg.flag .useSigFloat = false ∨ ∀ s ∈ d.sigs, s.plain) →
        (∀ v : CVal, ∃ r, callUnit f T is ("Unpack_".toList ++ d.name ++ "_".toList ++ drv) (unpackArgs v) cst = some r ∧ Unpacked d cst r) ∧
        (∀ N : OutNames, (cfg.flag .useCanStruct = true → N.len = "DLC".toList ∧ N.ide = "IDE".toList) → (∀ s ∈ d.sigs, InSigRange s.signed s.len (cst.fld s.member)) →
          ∃ r, callUnit f T is ("Pack_".toList ++ d.name ++ "_".toList ++ drv) (packArgs (cfg.flag .useCanStruct) N) cst = some r ∧ Packed maxV initV N d cst r ∧
            ∀ n, ¬ AutoMember cfg.flag srt d n → r.1.fld n = cst.fld n)) ∧
      (P.oob = none → cfg.flag .useSigFloat = true →
        (∀ s ∈ d.sigs, ¬ s.plain → ScaleOk s ∧ ∀ m ∈ srt, ∀ t ∈ m.signals, t.name = s.member → OwnMacro srt t) →
        (∀ v : CVal, ∃ r, callUnit f T is ("Unpack_".toList ++ d.name ++ "_".toList ++ drv) (unpackArgs v) cst = some r ∧ Unpacked d cst r ∧ UnpackedPhys T.F d cst r.1) ∧
        (∀ N : OutNames, (cfg.flag .useCanStruct = true → N.len = "DLC".toList ∧ N.ide = "IDE".toList) → (cfg.flag .autoRoll = true → ∀ s ∈ d.sigs, InSigRange s.signed s.len (cst.fld s.member)) →
          ∀ raw, PhysSet T.F d cst raw →
          ∃ r, callUnit f T is ("Pack_".toList ++ d.name ++ "_".toList ++ drv) (packArgs (cfg.flag .useCanStruct) N) cst = some r ∧ Packed maxV initV N d cst r ∧
            (∀ s ∈ d.sigs, ¬ s.plain → r.1.fld s.member = raw s.member) ∧
            ∀ n, (∀ s ∈ d.sigs, ¬ s.plain → n ≠ s.member) → ¬ AutoMember cfg.flag srt d n → r.1.fld n = cst.fld n)) ∧
      (IdsDistinct out.msgs → ∀ (N : OutNames) (r : CSt φ × V φ), (cfg.flag .useCanStruct = true → N.len = "DLC".toList ∧ N.ide = "IDE".toList) → callUnit f T is ("Pack_".toList ++ d.name ++ "_".toList ++ drv) (packArgs (cfg.flag .useCanStruct) N) cst = some r →
        Automatic cfg.flag srt hashF d cst r.1)

/-- **C64**, the driver: C59 and C60 in the directory of the generated files.  For every file text that the scanner gets through, every driver
name and every choice of the switches in `<drv>-config.h` (for the struct of the frame and for physical values of type `sigfloat_t` the user declares the type in `dbccodeconf.h`) the source file compiles in the directory with
the literal texts of all generated files, and for every message the file states `Unpack_M_drv` and `Pack_M_drv` of this unit are defined on
all states and payloads, and read and write the bits the signal lines of the file define; with physical values switched on the physical
members too; Pack counts an automatic counter up and fills in the checksum.  `srt` are the parsed messages sorted by id (c-main-generator.cpp:46-50). -/
theorem C64_driver_partial (P : Platform) (hs : SortsByStart P) (hc : P.charMax = 127) (hoob : ∀ v, P.oob = some v → 2 ^ 32 ≤ CTy.toU .u64 v)
    (text : Str) (out : DbcList) (h : trimDbcText P text = .ok out) (srt : List Msg) (hp : SortedBy srt out.msgs)
    (hD : DirDriver drv file out.verHi out.verLow out.maxDlc srt D0 on fl tick hash maxW initW) (maxV initV : Nat) :
    let g := driverDesc drv file out.verHi out.verLow
    ∃ hops sops, mainHeaderOps g out.maxDlc srt = some hops ∧ mainSourceOps g srt = some sops ∧
      ∀ dir, DirOk dir g on fl hops srt → dir.lookup (g.drvLow ++ ".c".toList) = some (opsText sops) →
      DriverProgram φ P text drv file out srt D0 on tick hash maxW initW maxV initV dir := by
  intro g
  let cfg := cfgOf g (userTable g D0 on) false maxV initV
  let K := lookOf g (userTable g D0 on) srt tick hash maxW initW
  obtain ⟨hops, sops, ho, a1, hdir⟩ := dir_unit (φ := φ) hD maxV initV
  refine ⟨hops, sops, ho, a1, fun dir hd hsrc => ?_⟩
  obtain ⟨is, hF, hrun, hstr⟩ := hdir dir hd hsrc
  have hDr : DriverOk drv file out.verHi out.verLow out.maxDlc srt (userTable g D0 on) tick hash maxW initW := ⟨hD.rd, (List.nodup_append.1 hD.names).2.1⟩
  refine ⟨is, hF, fun T hashF now hT d hst hdo hne hsg hcs cst hsc f hf => ⟨fun hph => ?_, fun hu hsf hph => ?_, fun hids N r hNs hr => ?_⟩⟩
  · have key := runs_stated hs hc hoob h hp hDr (cfg := cfg) rfl hrun hstr T hashF now hT d hst hdo hne hsg hph hcs cst hsc f hf
    exact ⟨key.1, fun N hNs hr => key.2 N hNs hr⟩
  · have key := runs_physStated hs hc hu h hp hDr (cfg := cfg) rfl hsf hrun hstr T hashF now hT d hst hdo hne hsg hph hcs cst hsc f hf
    exact ⟨key.1, fun N hNs hr raw hraw => key.2 N hNs hr raw hraw⟩
  · exact stated_auto hs hc hoob h hp hids hrun hstr T hashF now hT d hst hdo hne hcs cst hsc f hf N hNs r hr

/-- The message is received: by a node if one of its signal lines names the node, by the util files of all messages if it has a signal. -/
def Spec.Receives (who : Option Str) (d : MsgDesc) : Prop :=
  match who with
  | some node => ∃ s ∈ d.sigs, node ∈ s.recs
  | none => d.sigs ≠ []

/-- The same of a parsed message that is not empty. -/
def Spec.TakesMsg (who : Option Str) (m : Msg) : Prop :=
  match who with
  | some node => node ∈ m.recS
  | none => True

instance (who : Option Str) (m : Msg) : Decidable (TakesMsg who m) := by
  cases who <;> unfold TakesMsg <;> infer_instance

theorem Spec.Receives.sigs {who : Option Str} {d : MsgDesc} (h : Receives who d) : d.sigs ≠ [] := by
  cases who with
  | none => exact h
  | some node =>
    obtain ⟨s, q, -⟩ := h
    exact List.ne_nil_of_mem q

theorem who_messages (msgs : List Msg) (who : Option Str) (hd : IdsDistinct msgs) (m : Msg) :
    MappedRx (whoGroups msgs who) msgs m ↔ m ∈ msgs ∧ m.frameNotEmpty = true ∧ TakesMsg who m := by
  cases who with
  | some node => exact (C23_node_messages msgs node hd m).1
  | none =>
    refine ⟨fun h => ⟨h.1, h.2.1, trivial⟩, fun h => ⟨h.1, h.2.1, .inr (List.mem_map.2 ⟨m, h.1, rfl⟩)⟩⟩

/-- A message of the file and the parsed message. -/
theorem stated_receives {P : Platform} (hs : SortsByStart P) {text : Str} {out : DbcList} (h : trimDbcText P text = .ok out) (hids : IdsDistinct out.msgs) {d : MsgDesc}
    (hd : MsgDescOk d) (hst : Stated (fileLines P text) d) (hr : Receives who d) :
    ∃ m, MappedRx (whoGroups out.msgs who) out.msgs m ∧ m.name = d.name ∧ m.msgId = d.id ∧ m.dlc = d.dlc := by
  obtain ⟨m, hm, n1, n2, n3, -, n4, -, ss, hF, hperm⟩ := stated_message hs h hd hst
  obtain ⟨d1, -⟩ := desc_signals hF hperm
  refine ⟨m, (who_messages out.msgs who hids m).2 ⟨hm, n4 hr.sigs, ?_⟩, n1, n2, n3⟩
  cases who with
  | none => trivial
  | some node =>
    obtain ⟨s, hsd, hn⟩ := hr
    obtain ⟨t, ht, q⟩ := d1 s hsd
    exact ((C31_receivers P text out h m hm).2 node).2 ⟨t, ht, q.recs ▸ hn⟩

/-- Selecting and sorting does not depend on the order of the messages. -/
theorem sorted_rx {srt msgs rx : List Msg} {G : Groups} (hp : SortedBy srt msgs) (hr : SortedBy rx (selectRx G msgs)) : SortedBy rx (selectRx G srt) :=
  ⟨hr.1.trans (hp.1.symm.filter _), hr.2⟩
theorem sorted_tx {srt msgs tx : List Msg} {G : Groups} (hp : SortedBy srt msgs) (ht : SortedBy tx (selectTx G msgs)) : SortedBy tx (selectTx G srt) :=
  ⟨ht.1.trans (hp.1.symm.filter _), ht.2⟩

/-- What the three source files of a node compiled in a directory do for the messages a DBC file states: conclusion of C64 and C65. -/
def NodeProgram (φ : Type) (P : Platform) (text drv : Str) (file : Source) (out : DbcList) (srt : List Msg) (D0 : Defs) (on : List Str) (tick hash : Hook) (maxW initW : Str)
    (who : Option Str) (rx : List Msg) (maxV initV : Nat) (dir : List (Str × Str)) : Prop :=
  let g := driverDesc drv file out.verHi out.verLow
  let u := nodeDesc drv file out.verHi out.verLow who
  let cfg := cfgOf g (userTable g D0 on) false maxV initV
  let K := lookOf g (userTable g D0 on) srt tick hash maxW initW
  ∃ is js us, (∃ F, ∀ f, F ≤ f → compileTree f dir D0 (g.drvLow ++ ".c".toList) = some is ∧ compileTree f dir D0 (g.drvLow ++ "-fmon.c".toList) = some js ∧
      compileTree f dir D0 (strLower (u.name ++ "-binutil.c".toList)) = some us) ∧
    links [is, js, us] = true ∧
    ∀ (T : Target φ) (hashF : List Nat → Nat → Nat → Str → Nat → Nat) (now : Nat),
      TargetOk g srt ((userTable g D0 on).lookup (monoName g)).isSome cfg K T hashF now →
      ∀ (f id dlc : Nat) (vid vd : CVal) (mem : Str → CSt φ) (st : CSt φ), 256 ≤ f →
      CTy.u32.conv vid.val = (id : Nat) → id < 2 ^ 32 → CTy.u8.conv vd.val = (dlc : Nat) →
      (∀ m, MappedRx (whoGroups out.msgs who) out.msgs m → m.msgId = id → Start cfg.flag m (mem m.name) ∧
        T.user ("Unpack_".toList ++ m.name ++ "_".toList ++ drv) = none ∧
        ∃ r, callUnit f T is ("Unpack_".toList ++ m.name ++ "_".toList ++ drv) (unpackArgs ⟨.u8, (dlc : Nat)⟩) (mem m.name) = some r ∧
          T.ret ("Unpack_".toList ++ m.name ++ "_".toList ++ drv) [.p (.sub m.name), .p .data, .i ⟨.u8, (dlc : Nat)⟩] = r.2) →
      (∀ d, Stated (fileLines P text) d → MsgDescOk d → (Receives who d) → d.id = id →
        ∃ loc r, callUnit f T us (u.name ++ "_Receive".toList) [.p .msg, .p .data, .i vid, .i vd] st =
            some ({ st with loc := loc, calls := st.calls ++ [("Unpack_".toList ++ d.name ++ "_".toList ++ drv, [.p (.sub d.name), .p .data, .i ⟨.u8, (dlc : Nat)⟩])] }, .i ⟨.u32, (id : Nat)⟩) ∧
          callUnit f T is ("Unpack_".toList ++ d.name ++ "_".toList ++ drv) (unpackArgs ⟨.u8, (dlc : Nat)⟩) (mem d.name) = some r ∧
          ((∀ s ∈ d.sigs, s.signed = true → s.len ≤ 32) → (cfg.flag .useSigFloat = false ∨ ∀ s ∈ d.sigs, s.plain) →
            (d.dlc ≤ 8 ∨ ∀ m ∈ srt, m.msgId = d.id → m.csmSig = none) → Unpacked d (mem d.name) r)) ∧
      (rx ≠ [] → (∀ m ∈ out.msgs, m.frameNotEmpty = true → TakesMsg who m → m.msgId ≠ id) →
        ∃ loc, callUnit f T us (u.name ++ "_Receive".toList) [.p .msg, .p .data, .i vid, .i vd] st = some ({ st with loc := loc }, .i ⟨.u32, 0⟩))

/-- **C64**, the node: from the text of the DBC file to a received frame.  The three source files generated for a node compile and link in the
directory of the generated files, and if the answer of every `Unpack_M` to the util unit is what the function of the main unit returns:
for every message the file states and one of whose signal lines names the node as receiver, a call of `<node>_<drv>_Receive` with the id of
the message makes exactly one call, of `Unpack_M_drv` for this message, returns the id, and the call leaves in every member the value the DBC
file defines for the payload.  With the id of no received message it makes no call and returns 0.  -/
theorem C64_receive_partial (P : Platform) (hs : SortsByStart P) (hc : P.charMax = 127) (hoob : ∀ v, P.oob = some v → 2 ^ 32 ≤ CTy.toU .u64 v)
    (text : Str) (out : DbcList) (h : trimDbcText P text = .ok out) (srt : List Msg) (hp : SortedBy srt out.msgs) (hids : IdsDistinct out.msgs)
    (hD : NodeDriver drv file out.verHi out.verLow out.maxDlc srt D0 on fl tick hash maxW initW who rx tx)
    (hr : SortedBy rx (selectRx (whoGroups out.msgs who) out.msgs)) (ht : SortedBy tx (selectTx (whoGroups out.msgs who) out.msgs)) (maxV initV : Nat) :
    let g := driverDesc drv file out.verHi out.verLow
    let u := nodeDesc drv file out.verHi out.verLow who
    ∃ hops sops uops, mainHeaderOps g out.maxDlc srt = some hops ∧ mainSourceOps g srt = some sops ∧ utilSourceOps u out.verHi out.verLow rx tx = some uops ∧
      ∀ dir, NodeDir dir g u on fl hops sops uops srt rx tx →
      NodeProgram φ P text drv file out srt D0 on tick hash maxW initW who rx maxV initV dir := by
  intro g u
  let cfg := cfgOf g (userTable g D0 on) false maxV initV
  let K := lookOf g (userTable g D0 on) srt tick hash maxW initW
  obtain ⟨hops, sops, uops, ho, a1, u1, hdir⟩ := C63_program_partial (φ := φ) hD (sorted_rx hp hr) (sorted_tx hp ht) maxV initV
  obtain ⟨hops', sops', o2, a2, hmain⟩ := dir_unit (φ := φ) hD.toDirDriver maxV initV
  cases ho.symm.trans o2
  cases a1.symm.trans a2
  refine ⟨hops, sops, uops, ho, a1, u1, fun dir hd => ?_⟩
  obtain ⟨is, js, us, ⟨F, hF⟩, hl, hrecv⟩ := hdir dir hd
  obtain ⟨is', ⟨F2, hF2⟩, hrun, hstr⟩ := hmain dir hd.toDirOk hd.source
  have e : is' = is := Option.some.inj ((hF2 (max F F2) (by omega)).symm.trans (hF (max F F2) (by omega)).1)
  subst e
  have hDr : DriverOk drv file out.verHi out.verLow out.maxDlc srt (userTable g D0 on) tick hash maxW initW := ⟨hD.rd, (List.nodup_append.1 hD.names).2.1⟩
  refine ⟨is', js, us, ⟨F, hF⟩, hl, fun T hashF now hT f id dlc vid vd mem st hf e1 e2 e3 hmem => ?_⟩
  obtain ⟨⟨N, hNs⟩⟩ : Nonempty { N : OutNames // N.len = "DLC".toList ∧ N.ide = "IDE".toList } :=
    ⟨⟨⟨"DLC".toList, "IDE".toList, by decide, by decide, by decide⟩, rfl, rfl⟩⟩
  have mapped : ∀ {m}, MappedRx (whoGroups out.msgs who) srt m → MappedRx (whoGroups out.msgs who) out.msgs m := fun q => ⟨hp.1.mem_iff.1 q.1, q.2⟩
  have mapped' : ∀ {m}, MappedRx (whoGroups out.msgs who) out.msgs m → MappedRx (whoGroups out.msgs who) srt m := fun q => ⟨hp.1.mem_iff.2 q.1, q.2⟩
  have key := fun hne => hrecv hne T hashF now hT f id dlc vid vd N (fun m => startSt (mem m.name)) (fun m => mem m.name) st (fun _ => hNs) hf e1 e2 e3
    (fun m hm q => ⟨start_obs (hmem m (mapped hm) q).1 K N, start_typed (hmem m (mapped hm) q).1 _ _ _ _⟩) (fun m hm q => (hmem m (mapped hm) q).2)
  refine ⟨fun d hst hdo hrec hid => ?_, fun hne hno => ?_⟩
  · obtain ⟨m, hm, n1, n2, n3⟩ := stated_receives hs h hids hdo hst hrec
    have hne : rx ≠ [] := List.ne_nil_of_mem (hr.1.mem_iff.2 ((mem_selectRx _ _ m).2 hm))
    obtain ⟨loc, ⟨m', st1, r, b1, b2, b3, b4, -, -⟩ | ⟨b1, -⟩⟩ := key hne
    · have em : m' = m := ids_inj hids (mapped b1).1 hm.1 (b2.trans (hid.symm.trans n2.symm))
      subst em
      have en : callName drv m' = "Unpack_".toList ++ d.name ++ "_".toList ++ drv := by unfold callName; rw [n1]
      rw [en, n1] at b3 b4
      refine ⟨loc, r, b3, b4, fun hsg hph hcs => ?_⟩
      have hsc : StartIn is' d (mem d.name) := by
        have q := (hmem m' hm b2).1
        rw [n1] at q
        refine ⟨fun ms hms n t w hx => ?_, q.mon, q.dat, n3 ▸ q.len, q.out, q.calls⟩
        have hx2 := hstr m' (mapped' hm).1 hm.2.1
        unfold typeName at hx2
        rw [n1] at hx2
        cases hms.symm.trans hx2
        exact q.fld n t w hx
      obtain ⟨r', r1, r2⟩ := (runs_stated hs hc hoob h hp hDr (cfg := cfg) rfl hrun hstr T hashF now hT d hst hdo (hrec.sigs) hsg hph hcs
        (mem d.name) hsc f hf).1 ⟨.u8, (dlc : Nat)⟩
      cases b4.symm.trans r1
      exact r2
    · exact absurd (n2.trans hid) (b1 m (mapped' hm))
  · obtain ⟨loc, ⟨m', st1, r, b1, b2, -⟩ | ⟨-, b2⟩⟩ := key hne
    · have := (who_messages out.msgs who hids m').1 (mapped b1)
      exact absurd b2 (hno m' this.1 this.2.1 this.2.2)
    · exact ⟨loc, b2⟩

/-! ### Example: node `Dash` of the file of C59 receives both messages -/

namespace Fix

def dashRx : List Msg := (selectRx (whoGroups pipeOut.msgs (some "Dash".toList)) pipeOut.msgs).reverse
def dashTx : List Msg := selectTx (whoGroups pipeOut.msgs (some "Dash".toList)) pipeOut.msgs

theorem dashRxOk : SortedBy dashRx (selectRx (whoGroups pipeOut.msgs (some "Dash".toList)) pipeOut.msgs) := ⟨List.reverse_perm _, by decide +kernel⟩
theorem dashTxOk : SortedBy dashTx (selectTx (whoGroups pipeOut.msgs (some "Dash".toList)) pipeOut.msgs) := ⟨List.Perm.refl _, by decide +kernel⟩

/-- Switches: everything but physical values. -/
def dashOn : List Str := ["DRV_USE_BITS_SIGNAL", "DRV_USE_DIAG_MONITORS", "DRV_AUTO_ROLL", "DRV_AUTO_CSM"].map String.toList

theorem dashRd : DirRd "drv".toList "my.dbc".toList pipeOut.verHi pipeOut.verLow pipeOut.maxDlc pipeMsgs userHooks dashOn
    (.call "GetTick".toList) (.call "GetHash".toList) "8U".toList "0U".toList :=
  ⟨readB_sound (by decide +kernel), by decide, by decide +kernel, by decide +kernel⟩

theorem dashDir : DirDriver "drv".toList "my.dbc".toList pipeOut.verHi pipeOut.verLow pipeOut.maxDlc pipeMsgs userHooks dashOn .float
    (.call "GetTick".toList) (.call "GetHash".toList) "8U".toList "0U".toList :=
  ⟨dashRd, by decide +kernel, by decide +kernel, by decide +kernel, .inl rfl⟩

theorem dashNode : NodeRd "drv".toList "my.dbc".toList pipeOut.verHi pipeOut.verLow pipeOut.maxDlc pipeMsgs (userTable pipeG userHooks dashOn) (some "Dash".toList) dashRx dashTx :=
  ⟨by decide, by decide, by decide +kernel, by decide +kernel, by decide +kernel⟩

theorem dashDriver : NodeDriver "drv".toList "my.dbc".toList pipeOut.verHi pipeOut.verLow pipeOut.maxDlc pipeMsgs userHooks dashOn .float
    (.call "GetTick".toList) (.call "GetHash".toList) "8U".toList "0U".toList (some "Dash".toList) dashRx dashTx :=
  ⟨⟨dashDir, by decide +kernel⟩, dashNode, by decide +kernel⟩

def dashCfg : Cfg := cfgOf pipeG (userTable pipeG userHooks dashOn) false 8 0
def dashLook : Look := lookOf pipeG (userTable pipeG userHooks dashOn) pipeMsgs (.call "GetTick".toList) (.call "GetHash".toList) "8U".toList "0U".toList

/-- The target: the functions of the user, and what the functions of the main unit answer the util unit. -/
def dashTarget : Target Unit :=
  { target with ext64 := false, ret := fun n _ => if n = "Unpack_Motor_drv".toList then .i ⟨.u32, 1024⟩ else .i ⟨.u32, 100⟩ }

theorem dashMax : dashLook.maxW = "8U".toList ∧ dashCfg.maxDlc = 8 := ⟨rfl, rfl⟩
theorem dashInit : dashLook.initW = "0U".toList ∧ dashCfg.initByte = 0 := ⟨rfl, rfl⟩

theorem dashTargetOk : TargetOk pipeG pipeMsgs ((userTable pipeG userHooks dashOn).lookup (monoName pipeG)).isSome dashCfg dashLook dashTarget pipeHash 77 := by
  refine ⟨rfl, ?_, ?_, ?_, ?_, ?_⟩
  · exact ⟨fun _ _ => some (.i ⟨.u32, 77⟩), by unfold dashTarget target; dsimp only; rw [if_neg (by decide), if_pos rfl], fun _ => ⟨⟨.u32, 77⟩, rfl, by decide⟩⟩
  · intro _ m hm hne x hx
    have hk := pipeKinds m hm (by rw [hx]; rfl)
    rw [hk.1, hk.2]
    refine ⟨by decide +kernel, 1, fun _ d => some (.i ⟨.u8, ((d.take 7).foldl (· + ·) 0 % 256 : Nat)⟩), by decide, by unfold dashTarget target; dsimp only; rw [if_pos rfl],
      fun d => ⟨_, rfl, ?_⟩⟩
    exact u8_conv_mod _
  · intro _ m hm _
    revert m
    decide +kernel
  · rw [dashMax.1, dashMax.2]
    exact ⟨by decide, ⟨.u32, 8⟩, by decide, rfl, by decide⟩
  · rw [dashInit.1, dashInit.2]
    exact ⟨by decide, ⟨.u32, 0⟩, by decide, rfl⟩

/-- Memory: every struct, and the received frame. -/
def dashMem : CSt Unit := { cst0 with dat := [0xAB, 0, 0x0F, 0xF0, 0, 0, 0, 0] }

theorem dashIds : IdsDistinct pipeOut.msgs := by unfold IdsDistinct; decide +kernel

theorem dashNames : ∀ m ∈ pipeOut.msgs, (m.name = "Motor".toList ∨ m.name = "Gear".toList) ∧ m.dlc ≤ 8 := by decide +kernel

end Fix

/-- The whole way for a node: id 1024 is received, the member `Torque` of the message holds -16. -/
example : let u := nodeDesc "drv".toList "my.dbc".toList Fix.pipeOut.verHi Fix.pipeOut.verLow (some "Dash".toList)
    ∃ hops sops uops, mainHeaderOps Fix.pipeG Fix.pipeOut.maxDlc Fix.pipeMsgs = some hops ∧ mainSourceOps Fix.pipeG Fix.pipeMsgs = some sops ∧
      utilSourceOps u Fix.pipeOut.verHi Fix.pipeOut.verLow Fix.dashRx Fix.dashTx = some uops ∧
      ∀ dir, NodeDir dir Fix.pipeG u Fix.dashOn .float hops sops uops Fix.pipeMsgs Fix.dashRx Fix.dashTx →
      ∃ is js us, (∃ F, ∀ f, F ≤ f → compileTree f dir Fix.userHooks "drv.c".toList = some is ∧ compileTree f dir Fix.userHooks "drv-fmon.c".toList = some js ∧
          compileTree f dir Fix.userHooks "dash_drv-binutil.c".toList = some us) ∧
        links [is, js, us] = true ∧
        ∀ st, ∃ loc r, callUnit 256 Fix.dashTarget us "dash_drv_Receive".toList [.p .msg, .p .data, .i ⟨.u32, 1024⟩, .i ⟨.u8, 8⟩] st =
            some ({ st with loc := loc, calls := st.calls ++ [("Unpack_Motor_drv".toList, [.p (.sub "Motor".toList), .p .data, .i ⟨.u8, 8⟩])] }, .i ⟨.u32, 1024⟩) ∧
          callUnit 256 Fix.dashTarget is "Unpack_Motor_drv".toList (unpackArgs ⟨.u8, 8⟩) Fix.dashMem = some r ∧ r.1.fld "Torque".toList = -16 := by
  intro u
  obtain ⟨hops, sops, uops, h1, h2, h3, h4⟩ := C64_receive_partial (φ := Unit) platIns platIns_sorts rfl (fun v e => by cases e) Fix.pipeText Fix.pipeOut Fix.pipeOk Fix.pipeMsgs Fix.pipeSorted Fix.dashIds
    Fix.dashDriver Fix.dashRxOk Fix.dashTxOk 8 0
  obtain ⟨hops', sops', k1, k2, k3⟩ := C64_driver_partial (φ := Unit) platIns platIns_sorts rfl (fun v e => by cases e) Fix.pipeText Fix.pipeOut Fix.pipeOk
    Fix.pipeMsgs Fix.pipeSorted Fix.dashDriver.toDirDriver 8 0
  cases h1.symm.trans k1
  cases h2.symm.trans k2
  refine ⟨hops, sops, uops, h1, h2, h3, fun dir hd => ?_⟩
  obtain ⟨is, js, us, ⟨F, hF⟩, hl, hrecv⟩ := h4 dir hd
  obtain ⟨is', ⟨F2, hF2⟩, hrun⟩ := k3 dir hd.toDirOk hd.source
  have e : is' = is := Option.some.inj ((hF2 (max F F2) (by omega)).symm.trans (hF (max F F2) (by omega)).1)
  subst e
  refine ⟨is', js, us, ⟨F, hF⟩, hl, fun st => ?_⟩
  have hin : ∀ d, d.dlc ≤ 8 → StartIn is' d Fix.dashMem := fun d hd => by
    refine ⟨fun _ _ n t w _ => ?_, fun _ _ => Int.le_refl _, ?_, hd, rfl, rfl⟩
    · cases t <;> rfl
    · intro b hb
      revert b
      decide
  have hfl : (cfgOf Fix.pipeG (userTable Fix.pipeG Fix.userHooks Fix.dashOn) false 8 0).flag .useSigFloat = false := by decide +kernel
  have hm := ((hrun Fix.dashTarget Fix.pipeHash 77 Fix.dashTargetOk Fix.motor Fix.motorStated Fix.motorOk (by decide) (by decide) (Or.inl (by decide)) _ (hin _ (by decide)) 256
    (Nat.le_refl _)).1 (Or.inl hfl)).1 ⟨.u8, 8⟩
  have hg := ((hrun Fix.dashTarget Fix.pipeHash 77 Fix.dashTargetOk Fix.gear Fix.gearStated Fix.gearOk (by decide) (by decide) (Or.inl (by decide)) _ (hin _ (by decide)) 256
    (Nat.le_refl _)).1 (Or.inl hfl)).1 ⟨.u8, 8⟩
  obtain ⟨a, -⟩ := hrecv Fix.dashTarget Fix.pipeHash 77 Fix.dashTargetOk 256 1024 8 ⟨.u32, 1024⟩ ⟨.u8, 8⟩ (fun _ => Fix.dashMem) st (Nat.le_refl _) (by decide) (by decide) (by decide)
    (fun m q _ => by
      refine ⟨⟨fun n t w _ => ?_, fun _ _ => Int.le_refl _, ?_, (Fix.dashNames m q.1).2, rfl, rfl⟩, ?_⟩
      · cases t <;> rfl
      · intro b hb
        revert b
        decide
      · rcases (Fix.dashNames m q.1).1 with e | e <;> rw [e]
        · obtain ⟨r, r1, r2⟩ := hm
          exact ⟨by decide, r, r1, r2.1.symm⟩
        · obtain ⟨r, r1, r2⟩ := hg
          exact ⟨by decide, r, r1, r2.1.symm⟩)
  obtain ⟨loc, r, b1, b2, b3⟩ := a Fix.motor Fix.motorStated Fix.motorOk ⟨_, List.mem_cons_self, by decide⟩ rfl
  refine ⟨loc, r, b1, b2, ?_⟩
  have := (b3 (by decide) (Or.inl hfl) (Or.inl (by decide))).2.2 (Fix.sd "Torque" 19 12 false true (-2048) 2047 "Nm") (by decide) (Or.inl (by decide))
  exact this.trans (by decide +kernel)

end Verif
