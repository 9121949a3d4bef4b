import Verif.Proofs.LinkedRun
import Verif.Props.Run
import Verif.Props.Monitor
/-
C66: a node that receives any sequence of frames.
-/
namespace Verif
open Spec

variable {φ : Type} {drv : Str} {file : Source} {who : Option Str} {hi lo maxDlc : Nat} {msgs rx tx : List Msg} {D0 : Defs} {on : List Str} {fl : ConfEdit} {tick hash : Hook} {maxW initW : Str}

/-- A frame that arrives: id, length and payload, and the target at this moment (its functions, such as the clock, may answer differently at
every frame). -/
structure Spec.Arrival (φ : Type) where
  T : Target φ
  id : Nat
  dlc : Nat
  data : List Nat

/-- One call of the receive function `n` for every frame that arrives: memory afterwards, and what the calls have returned. -/
def Spec.receiveAll (f : Nat) (us : List (List Spec.Item)) (n : Str) : List (Arrival φ) → (Str → CSt φ) → Option ((Str → CSt φ) × List (V φ))
  | [], mem => some (mem, [])
  | x :: xs, mem =>
    (runProg f x.T us n [.p .msg, .p .data, .i ⟨.u32, (x.id : Nat)⟩, .i ⟨.u8, (x.dlc : Nat)⟩] mem x.data).bind fun r =>
      (receiveAll f us n xs r.1).map fun q => (q.1, r.2 :: q.2)

/-- The struct of message `n` before a call: members hold values of their types. -/
structure Spec.Ready (is : List Spec.Item) (n : Str) (cst : CSt φ) : Prop where
  fld : ∀ ms, structOf is (n ++ "_t".toList) = some ms → ∀ k t w, (k, MTy.int t w) ∈ ms → t.conv (cst.fld k) = cst.fld k
  mon : ∀ e ∈ monMembers, 0 ≤ cst.mon e.1
  out : cst.out = fun _ => none
  calls : cst.calls = []

theorem Spec.Ready.start {is : List Spec.Item} {d : MsgDesc} {cst : CSt φ} (h : Ready is d.name cst) {dat : List Nat} (h1 : IsPayload dat) (h2 : d.dlc ≤ dat.length) :
    StartIn is d { cst with dat := dat } := ⟨h.fld, h.mon, h1, h2, h.out, h.calls⟩

/-- A message of the file that the node receives, and for which the generated code is defined on all inputs (C59, C60). -/
structure Spec.NodeMsg (P : Platform) (text : Str) (who : Option Str) (srt : List Msg) (flag : Flag → Bool) (d : MsgDesc) : Prop where
  stated : Stated (fileLines P text) d
  ok : MsgDescOk d
  recs : Receives who d
  signed : ∀ s ∈ d.sigs, s.signed = true → s.len ≤ 32
  csm : d.dlc ≤ 8 ∨ ∀ m ∈ srt, m.msgId = d.id → m.csmSig = none
  phys : flag .useSigFloat = false ∨ (∀ s ∈ d.sigs, s.plain) ∨
    (P.oob = none ∧ ∀ s ∈ d.sigs, ¬ s.plain → ScaleOk s ∧ ∀ m ∈ srt, ∀ t ∈ m.signals, t.name = s.member → OwnMacro srt t)

/-- The struct holds the values the DBC file defines for a payload: raw values, and physical values if they are switched on. -/
def Spec.Holds (phys : Bool) (F : Flt φ) (d : MsgDesc) (data : List Nat) (cst : CSt φ) : Prop :=
  (∀ s ∈ d.sigs, (s.len ≤ 32 ∨ bitPos s.intel s.start s.len 0 % 8 = 0) → cst.fld s.member =
    if s.signed then signedOf s.len (rawValue s.intel s.start s.len data) else (rawValue s.intel s.start s.len data : Nat)) ∧
  (phys = true → ∀ s ∈ d.sigs, ¬ s.plain →
    (s.whole → cst.fld s.physMember = s.raw data * s.f + s.o) ∧
    (¬ s.whole → cst.flt s.physMember = F.add (F.mul (F.ofInt (s.raw data)) (constF F true s.factor.value)) (constF F true s.offset.value)))

/-- What is known of the three units of a node. -/
structure NodeUnits (φ : Type) (drv : Str) (file : Source) (hi lo : Nat) (who : Option Str) (G : Groups) (srt rx : List Msg) (mono : Bool) (cfg : Cfg) (K : Look) (is js us : List Spec.Item) : Prop where
  links : links [is, js, us] = true
  runs : RunsModel φ (driverDesc drv file hi lo) srt mono cfg K is
  structs : ∀ m ∈ srt, m.frameNotEmpty = true → structOf is (typeName m) = some (structMembers cfg.flag m)
  fmon : cfg.flag .useMon = true → ∀ m ∈ srt, ∃ fn, .func fn ∈ js ∧ fn.name = K.fmon m.name
  void : ∀ fn, .func fn ∈ js → ∀ (k : Nat) (env : Env φ) (q : Ptr) (v : CVal) (st : CSt φ), runVoid k env fn [.p q, .i v] st = some st
  recv : rx ≠ [] → ∀ (T : Target φ) (hashF : List Nat → Nat → Nat → Str → Nat → Nat) (now : Nat), TargetOk (driverDesc drv file hi lo) srt mono cfg K T hashF now →
    ∀ (f id d : Nat) (vid vd : CVal) (N : OutNames) (mem : Msg → St φ) (cmem : Msg → CSt φ) (st : CSt φ), (cfg.flag .useCanStruct = true → N.len = "DLC".toList ∧ N.ide = "IDE".toList) → 256 ≤ f →
    CTy.u32.conv vid.val = (id : Nat) → id < 2 ^ 32 → CTy.u8.conv vd.val = (d : Nat) →
    (∀ m, MappedRx G srt m → m.msgId = id → Obs K N (mem m) (cmem m) ∧ Typed (mkCtx cfg srt m (fltOps T.F) hashF now d) (mem m)) →
    (∀ m, MappedRx G srt m → m.msgId = id → T.user (callName drv m) = none ∧ ∃ r, callUnit f T is (callName drv m) (unpackArgs ⟨.u8, (d : Nat)⟩) (cmem m) = some r ∧
      T.ret (callName drv m) [.p (.sub m.name), .p .data, .i ⟨.u8, (d : Nat)⟩] = r.2) →
    ∃ loc, (∃ m st1 r, MappedRx G srt m ∧ m.msgId = id ∧
        callUnit f T us ((nodeDesc drv file hi lo who).name ++ "_Receive".toList) [.p .msg, .p .data, .i vid, .i vd] st =
          some ({ st with loc := loc, calls := st.calls ++ [(callName drv m, [.p (.sub m.name), .p .data, .i ⟨.u8, (d : Nat)⟩])] }, .i ⟨.u32, (id : Nat)⟩) ∧
        callUnit f T is (callName drv m) (unpackArgs ⟨.u8, (d : Nat)⟩) (cmem m) = some r ∧
        runUnpack (mkCtx cfg srt m (fltOps T.F) hashF now d) m (mem m) = .ok st1 ∧ Obs K N st1 r.1) ∨
      ((∀ m, MappedRx G srt m → m.msgId ≠ id) ∧
        callUnit f T us ((nodeDesc drv file hi lo who).name ++ "_Receive".toList) [.p .msg, .p .data, .i vid, .i vd] st = some ({ st with loc := loc }, .i ⟨.u32, 0⟩))

/-- The units of a node in a directory. -/
theorem node_units (h : NodeDriver drv file hi lo maxDlc msgs D0 on fl tick hash maxW initW who rx tx) {G : Groups}
    (hr : SortedBy rx (selectRx G msgs)) (ht : SortedBy tx (selectTx G msgs)) (maxV initV : Nat) :
    let g := driverDesc drv file hi lo
    let u := nodeDesc drv file hi lo who
    ∃ hops sops uops, mainHeaderOps g maxDlc msgs = some hops ∧ mainSourceOps g msgs = some sops ∧ utilSourceOps u hi lo rx tx = some uops ∧
      ∀ dir, NodeDir dir g u on fl hops sops uops msgs rx tx →
      ∃ is js us, (∃ F, ∀ f, F ≤ f → compileTree f dir D0 (g.drvLow ++ ".c".toList) = some is ∧ compileTree f dir D0 (g.drvLow ++ "-fmon.c".toList) = some js ∧
          compileTree f dir D0 (strLower (u.name ++ "-binutil.c".toList)) = some us) ∧
        NodeUnits φ drv file hi lo who G msgs rx ((userTable g D0 on).lookup (monoName g)).isSome (cfgOf g (userTable g D0 on) false maxV initV)
          (lookOf g (userTable g D0 on) msgs tick hash maxW initW) is js us := by
  intro g u
  obtain ⟨hops, sops, uops, ho, a1, u1, hdir⟩ := C63_program_partial (φ := φ) h hr ht maxV initV
  obtain ⟨hops', sops', o2, a2, hmain⟩ := dir_unit (φ := φ) h.toDirDriver maxV initV
  cases ho.symm.trans o2
  cases a1.symm.trans a2
  obtain ⟨hops', sops', o2, a2, hlink⟩ := C62_link_partial (φ := φ) h.toLinkDriver
  cases ho.symm.trans o2
  cases a1.symm.trans a2
  refine ⟨hops, sops, uops, ho, a1, u1, fun dir hd => ?_⟩
  obtain ⟨is, js, us, ⟨F, hF⟩, hl, hrecv⟩ := hdir dir hd
  obtain ⟨is', ⟨F2, hF2⟩, hrun, hstr⟩ := hmain dir hd.toDirOk hd.source
  have e : is' = is := Option.some.inj ((hF2 (max F F2) (by omega)).symm.trans (hF (max F F2) (by omega)).1)
  subst e
  obtain ⟨is'', js', ⟨F3, hF3⟩, -, hm1, hm2⟩ := hlink dir hd.toDirOk hd.source hd.fsource
  have e : js' = js := Option.some.inj ((hF3 (max F F3) (by omega)).2.symm.trans (hF (max F F3) (by omega)).2.1)
  subst e
  exact ⟨is', js', us, ⟨F, hF⟩, hl, hrun, hstr, hm1, hm2, hrecv⟩

/-- Unpack of a message of the node. -/
theorem unit_unpacks {P : Platform} (hs : SortsByStart P) (hc : P.charMax = 127) (hoob : ∀ v, P.oob = some v → 2 ^ 32 ≤ CTy.toU .u64 v)
    {text : Str} {out : DbcList} (h : trimDbcText P text = .ok out) {srt : List Msg} (hp : SortedBy srt out.msgs)
    (hD : DriverOk drv file out.verHi out.verLow out.maxDlc srt D0 tick hash maxW initW)
    {cfg : Cfg} {K : Look} {mono : Bool} {is : List Spec.Item} (hcf : cfg.flag = fun f => (D0.lookup (flagName (driverDesc drv file out.verHi out.verLow) f)).isSome)
    (h4 : RunsModel φ (driverDesc drv file out.verHi out.verLow) srt mono cfg K is)
    (hstr : ∀ m ∈ srt, m.frameNotEmpty = true → structOf is (typeName m) = some (structMembers cfg.flag m))
    {T : Target φ} {hashF : List Nat → Nat → Nat → Str → Nat → Nat} {now : Nat} (hT : TargetOk (driverDesc drv file out.verHi out.verLow) srt mono cfg K T hashF now)
    {d : MsgDesc} (hd : NodeMsg P text who srt cfg.flag d) {cst : CSt φ} (hsc : StartIn is d cst) {f : Nat} (hf : 256 ≤ f) (v : CVal) :
    ∃ r, callUnit f T is ("Unpack_".toList ++ d.name ++ "_".toList ++ drv) (unpackArgs v) cst = some r ∧ r.2 = .i ⟨.u32, (d.id : Nat)⟩ ∧ r.1.dat = cst.dat ∧
      Holds (cfg.flag .useSigFloat) T.F d cst.dat r.1 := by
  have hne : d.sigs ≠ [] := hd.recs.sigs
  have plain : (cfg.flag .useSigFloat = false ∨ ∀ s ∈ d.sigs, s.plain) → ∃ r, callUnit f T is ("Unpack_".toList ++ d.name ++ "_".toList ++ drv) (unpackArgs v) cst = some r ∧
      r.2 = .i ⟨.u32, (d.id : Nat)⟩ ∧ r.1.dat = cst.dat ∧ Holds (cfg.flag .useSigFloat) T.F d cst.dat r.1 := by
    intro q
    obtain ⟨r, r1, r2, r3, r4⟩ := (runs_stated hs hc hoob h hp hD hcf h4 hstr T hashF now hT d hd.stated hd.ok hne hd.signed q hd.csm cst hsc f hf).1 v
    refine ⟨r, r1, r2, r3, r4, fun e s hsm hns => ?_⟩
    rcases q with q | q
    · rw [q] at e
      cases e
    · exact absurd (q s hsm) hns
  rcases hd.phys with q | q | ⟨q1, q2⟩
  · exact plain (.inl q)
  · exact plain (.inr q)
  · cases hfl : cfg.flag .useSigFloat with
    | false =>
      rw [hfl] at plain
      exact plain (.inl rfl)
    | true =>
      obtain ⟨r, r1, ⟨r2, r3, r4⟩, r5⟩ := (runs_physStated hs hc q1 h hp hD hcf hfl h4 hstr T hashF now hT d hd.stated hd.ok hne hd.signed q2 hd.csm cst hsc f hf).1 v
      exact ⟨r, r1, r2, r3, r4, fun _ s hsm hns => r5 s hsm hns⟩

theorem TargetOk.retAny {g : GenDesc} {mono : Bool} {cfg : Cfg} {K : Look} {T : Target φ} {hashF : List Nat → Nat → Nat → Str → Nat → Nat} {now : Nat}
    (h : TargetOk g msgs mono cfg K T hashF now) (ret : Str → List (V φ) → V φ) : TargetOk g msgs mono cfg K { T with ret := ret } hashF now :=
  ⟨h.ext64, h.tick, h.hash, h.fmon, h.max, h.init⟩

/-- The monitor after a received frame. -/
def Spec.Monitored (dlc : Nat) (now arg : Nat) (before after : CSt φ) : Prop :=
  after.mon "frame_cnt".toList = (before.mon "frame_cnt".toList + 1) % 2 ^ 32 ∧ after.mon "last_cycle".toList = (now % 2 ^ 32 : Nat) ∧
    (after.mon "dlc_error".toList = if arg < dlc then 1 else 0) ∧
    after.mon "timeout_cycle".toList = before.mon "timeout_cycle".toList ∧ after.mon "cycle_error".toList = before.mon "cycle_error".toList

/-- The member with the counter expected next. -/
def Spec.SigDesc.expt (s : SigDesc) : Str := s.member ++ "_expt".toList

/-- Counter and checksum after a received frame: an error is reported if the counter is not the expected one, the next expected one is the successor; an error
is reported if the low byte of the user's hash of the frame is not the checksum of the frame.  Without counter or checksum the bits stay. -/
structure Spec.Checked (srt : List Msg) (flag : Flag → Bool) (hashF : List Nat → Nat → Nat → Str → Nat → Nat) (d : MsgDesc) (data : List Nat) (before after : CSt φ) : Prop where
  roll : flag .autoRoll = true → ∀ s ∈ d.sigs, IsCounter srt d s → s.signed = false →
    after.mon "roll_error".toList = (if s.raw data = before.fld s.expt then 0 else 1) ∧ after.fld s.expt = (s.raw data + 1) % 2 ^ s.len
  csm : flag .autoCsm = true → ∀ s ∈ d.sigs, ∀ method op, IsChecksum srt d s method op →
    after.mon "csm_error".toList = if ((hashF data d.dlc d.id method op % 256 : Nat) : Int) = s.raw data then 0 else 1
  noRoll : flag .autoRoll = false ∨ (∀ s ∈ d.sigs, ¬ IsCounter srt d s) → after.mon "roll_error".toList = before.mon "roll_error".toList
  noCsm : flag .autoCsm = false ∨ (∀ s ∈ d.sigs, ∀ method op, ¬ IsChecksum srt d s method op) → after.mon "csm_error".toList = before.mon "csm_error".toList

section
variable {P : Platform} {text : Str} {out : DbcList} {srt : List Msg} {cfg : Cfg} {K : Look} {mono : Bool} {is js us : List Spec.Item}

/-- Counter and checksum after Unpack of a message the file states. -/
theorem stated_checked (hs : SortsByStart P) (hc : P.charMax = 127) (hoob : ∀ v, P.oob = some v → 2 ^ 32 ≤ CTy.toU .u64 v) (h : trimDbcText P text = .ok out)
    (hp : SortedBy srt out.msgs) (hids : IdsDistinct out.msgs) {d : MsgDesc} (hst : Stated (fileLines P text) d) (hd : MsgDescOk d)
    (hcs : d.dlc ≤ 8 ∨ ∀ m ∈ srt, m.msgId = d.id → m.csmSig = none) (hmon : cfg.flag .useMon = true) {m : Msg} (hm : m ∈ out.msgs) (hmi : m.msgId = d.id)
    {fl : FloatOps φ} {hashF : List Nat → Nat → Nat → Str → Nat → Nat} {now arg : Nat} {N : OutNames} {cst cst' : CSt φ} {st' : St φ}
    (hdat : IsPayload cst.dat) (hlen : d.dlc ≤ cst.dat.length) (hnn : ∀ e ∈ monMembers, 0 ≤ cst.mon e.1)
    (hrun : runUnpack (mkCtx cfg srt m fl hashF now arg) m (startSt cst) = .ok st') (hobs : Obs K N st' cst') : Checked srt cfg.flag hashF d cst.dat cst cst' := by
  obtain ⟨m', hm', n1, n2, n3, -, -, -, ss, hF, hperm⟩ := stated_message hs h hd hst
  have em : m = m' := ids_inj hids hm hm' (hmi.trans n2.symm)
  subst em
  obtain ⟨d1, d2⟩ := desc_signals hF hperm
  have hok : MsgOk m := by
    refine ⟨by rw [n3]; exact hd.dlc.2, fun s hsm => ?_⟩
    obtain ⟨e, he, q⟩ := d2 s hsm
    have hx := hd.sigs e he
    refine ⟨by rw [q.len]; exact hx.pos, by rw [q.len]; exact hx.len, ?_⟩
    unfold Sig.fits Sig.intel
    rw [q.intel, q.start, q.len, n3]
    exact hx.fits
  obtain ⟨c1, c2⟩ := C50_generator_conditions P hs hc hoob text out h m hm hok
  have hnd : (m.signals.map (·.name)).Nodup := names_nodup (c := mkCtx cfg srt m fl hashF now arg) rfl (runUnpack_any hrun).1
  have uniq : ∀ {m2 : Msg}, m2 ∈ srt → m2.msgId = d.id → m2 = m := fun q e => ids_inj hids (hp.1.mem_iff.1 q) hm (e.trans hmi.symm)
  have desc : ∀ {s : SigDesc} {t : Sig}, s ∈ d.sigs → t ∈ m.signals → t.name = s.member → FromDesc P s t := fun hs ht e => by
    obtain ⟨t', ht', q⟩ := d1 _ hs
    have := nodup_inj hnd ht ht' (e.trans q.name.symm)
    subst this
    exact q
  have hl : m.dlc ≤ (startSt cst).dat.length := by rw [n3]; exact hlen
  obtain ⟨-, -, -, -, -, o1, o2⟩ := mon_one (c := mkCtx cfg srt m fl hashF now arg) hmon hrun
  refine ⟨fun hr s hsm ⟨m2, q1, q2, t, q3, q4⟩ hu => ?_, fun hf s hsm method op ⟨m2, q1, q2, q3, q4, t, q5, q6⟩ => ?_, fun q => ?_, fun q => ?_⟩
  · have := uniq q1 q2
    subst this
    have ht := sigAt_mem q3
    have hfd := desc hsm ht q4
    obtain ⟨a1, a2⟩ := unpack_roll (c := mkCtx cfg srt m2 fl hashF now arg) rfl hok hmon hr q3 (c1 t ht) hdat hl hrun
    have hv := fromDesc_value hfd cst.dat
    have hpos : (0 : Int) < 2 ^ t.lengthBit := by exact_mod_cast Nat.two_pow_pos t.lengthBit
    constructor
    · rw [hobs.mon.roll, a1]
      show (((if t.value cst.dat = cst.fld (exptName t.name) then 0 else 1 : Nat)) : Int) = _
      unfold exptName SigDesc.expt
      rw [hv, q4]
      split <;> rfl
    · rw [hobs.fld]
      unfold exptName at a2
      rw [q4] at a2
      show st'.fld (s.member ++ "_expt".toList) = _
      rw [a2, store_of_sigRange (c1 t ht) (hok.2 t ht).1]
      · show (t.value cst.dat + 1) % 2 ^ t.lengthBit = _
        rw [hv, hfd.len]
      · unfold InSigRange
        rw [hfd.signed, hu]
        exact ⟨Int.emod_nonneg _ (by omega), Int.emod_lt_of_pos _ hpos⟩
  · have := uniq q1 q2
    subst this
    have ht := sigAt_mem q5
    have hfd := desc hsm ht q6
    have hin : t.lengthBit ≤ 8 := by
      rcases hcs with q | q
      · exact inByte_len (c2 (by rw [n3]; exact q) t q5).2
      · have := q m2 q1 q2
        unfold Msg.sigAt at q5
        rw [this] at q5
        cases q5
    have a1 := unpack_csm (c := mkCtx cfg srt m2 fl hashF now arg) rfl hok hmon hf q5 (c1 t ht) (.inl (by omega)) hdat hl hrun
    rw [hobs.mon.csm, a1]
    show (((if ((hashF cst.dat m2.dlc m2.msgId m2.csmMethod m2.csmOp % 256 : Nat) : Int) = t.value cst.dat then 0 else 1 : Nat)) : Int) = _
    rw [fromDesc_value hfd, n3, n2, q3, q4]
    split <;> rfl
  · have h0 : 0 ≤ cst.mon "roll_error".toList := hnn ("roll_error".toList, .u32, some 1) (by decide)
    rw [hobs.mon.roll, o1 ?_]
    · exact Int.toNat_of_nonneg h0
    · rcases q with q | q
      · exact .inr q
      · refine .inl ?_
        cases hq : m.sigAt m.rollSig with
        | none => rfl
        | some t =>
          obtain ⟨s, hsm, w⟩ := d2 t (sigAt_mem hq)
          exact absurd ⟨m, hp.1.mem_iff.2 hm, hmi, t, hq, w.name⟩ (q s hsm)
  · have h0 : 0 ≤ cst.mon "csm_error".toList := hnn ("csm_error".toList, .u32, some 1) (by decide)
    rw [hobs.mon.csm, o2 ?_]
    · exact Int.toNat_of_nonneg h0
    · rcases q with q | q
      · exact .inr q
      · refine .inl ?_
        cases hq : m.sigAt m.csmSig with
        | none => rfl
        | some t =>
          obtain ⟨s, hsm, w⟩ := d2 t (sigAt_mem hq)
          exact absurd ⟨m, hp.1.mem_iff.2 hm, hmi, rfl, rfl, t, hq, w.name⟩ (q s hsm _ _)

/-- What the proofs about a node need of the file. -/
structure NodeCtx (P : Platform) (text drv : Str) (file : Source) (who : Option Str) (out : DbcList) (srt rx : List Msg) (D0 : Defs) (tick hash : Hook) (maxW initW : Str) (cfg : Cfg) : Prop where
  sorts : SortsByStart P
  char : P.charMax = 127
  oob : ∀ v, P.oob = some v → 2 ^ 32 ≤ CTy.toU .u64 v
  scan : trimDbcText P text = .ok out
  sorted : SortedBy srt out.msgs
  ids : IdsDistinct out.msgs
  driver : DriverOk drv file out.verHi out.verLow out.maxDlc srt D0 tick hash maxW initW
  flag : cfg.flag = fun f => (D0.lookup (flagName (driverDesc drv file out.verHi out.verLow) f)).isSome
  recvs : SortedBy rx (selectRx (whoGroups out.msgs who) out.msgs)
  names : (rx.map (·.name)).Nodup

theorem NodeCtx.mapped (h : NodeCtx P text drv file who out srt rx D0 tick hash maxW initW cfg) {m : Msg} :
    MappedRx (whoGroups out.msgs who) srt m ↔ MappedRx (whoGroups out.msgs who) out.msgs m :=
  ⟨fun q => ⟨h.sorted.1.mem_iff.1 q.1, q.2⟩, fun q => ⟨h.sorted.1.mem_iff.2 q.1, q.2⟩⟩

/-- The parsed message of a message of the node. -/
theorem NodeCtx.msg (h : NodeCtx P text drv file who out srt rx D0 tick hash maxW initW cfg) {d : MsgDesc} (hd : NodeMsg P text who srt cfg.flag d) :
    ∃ m, MappedRx (whoGroups out.msgs who) out.msgs m ∧ m.name = d.name ∧ m.msgId = d.id ∧ m.dlc = d.dlc ∧ m ∈ rx := by
  obtain ⟨m, hm, n1, n2, n3⟩ := stated_receives h.sorts h.scan h.ids hd.ok hd.stated hd.recs
  exact ⟨m, hm, n1, n2, n3, h.recvs.1.mem_iff.2 ((mem_selectRx _ _ m).2 hm)⟩

/-- One frame with the id of a message of the node. -/
theorem node_step (h : NodeCtx P text drv file who out srt rx D0 tick hash maxW initW cfg)
    (hU : NodeUnits φ drv file out.verHi out.verLow who (whoGroups out.msgs who) srt rx mono cfg K is js us)
    {x : Arrival φ} {hashF : List Nat → Nat → Nat → Str → Nat → Nat} {now : Nat} (hT : TargetOk (driverDesc drv file out.verHi out.verLow) srt mono cfg K x.T hashF now)
    (huser : ∀ n, x.T.user ("Unpack_".toList ++ n ++ "_".toList ++ drv) = none) {f : Nat} (hf : 256 ≤ f) (hx : x.dlc < 256) (hid : x.id < 2 ^ 32) (hp : IsPayload x.data)
    {d : MsgDesc} (hd : NodeMsg P text who srt cfg.flag d) (hdi : d.id = x.id) (hdl : d.dlc ≤ x.data.length) {mem : Str → CSt φ} (hmem : Ready is d.name (mem d.name)) :
    ∃ st', runProg f x.T [is, js, us] ((nodeDesc drv file out.verHi out.verLow who).name ++ "_Receive".toList) [.p .msg, .p .data, .i ⟨.u32, (x.id : Nat)⟩, .i ⟨.u8, (x.dlc : Nat)⟩] mem x.data =
        some (fun n => if n = d.name then st' else mem n, .i ⟨.u32, (x.id : Nat)⟩) ∧
      Ready is d.name st' ∧ Holds (cfg.flag .useSigFloat) x.T.F d x.data st' ∧ (cfg.flag .useMon = true → Monitored d.dlc now x.dlc (mem d.name) st' ∧
        Checked srt cfg.flag hashF d x.data (mem d.name) st') := by
  obtain ⟨m, hm, n1, n2, n3, hmx⟩ := h.msg hd
  have hm' := h.mapped.2 hm
  have hne : rx ≠ [] := List.ne_nil_of_mem hmx
  let cst : CSt φ := { mem d.name with dat := x.data }
  have hsc : StartIn is d cst := hmem.start hp hdl
  have hself : CTy.u8.conv (CVal.mk .u8 (x.dlc : Nat)).val = (x.dlc : Nat) := by
    have : CTy.u8.conv (CVal.mk .u8 (x.dlc : Nat)).val = (x.dlc : Int) % 256 := rfl
    omega
  have hself32 : CTy.u32.conv (CVal.mk .u32 (x.id : Nat)).val = (x.id : Nat) := by
    have : CTy.u32.conv (CVal.mk .u32 (x.id : Nat)).val = (x.id : Int) % 4294967296 := rfl
    omega
  obtain ⟨N⟩ : Nonempty { N : OutNames // N.len = "DLC".toList ∧ N.ide = "IDE".toList } :=
    ⟨⟨⟨"DLC".toList, "IDE".toList, by decide, by decide, by decide⟩, rfl, rfl⟩⟩
  have hstart : Start cfg.flag m cst := by
    refine ⟨fun n t w q => hsc.fld _ ?_ n t w q, hsc.mon, hsc.dat, by rw [n3]; exact hsc.len, hsc.out, hsc.calls⟩
    have := hU.structs m hm'.1 hm'.2.1
    unfold typeName at this
    rw [n1] at this
    exact this
  have en : callName drv m = "Unpack_".toList ++ d.name ++ "_".toList ++ drv := by unfold callName; rw [n1]
  have eu : unpackName (driverDesc drv file out.verHi out.verLow) m = "Unpack_".toList ++ d.name ++ "_".toList ++ drv := en
  -- the call of Unpack
  obtain ⟨r, r1, r2, r3, r4⟩ := unit_unpacks h.sorts h.char h.oob h.scan h.sorted h.driver h.flag hU.runs hU.structs hT hd hsc hf ⟨.u8, (x.dlc : Nat)⟩
  have hsame := (hU.runs x.T hashF now hT m hm'.1 hm'.2.1 x.dlc ⟨.u8, (x.dlc : Nat)⟩ hx hself N.1 (fun _ => N.2) (startSt cst) cst (start_obs hstart K N.1)
    (start_typed hstart _ _ _ _) f hf).1
  rw [eu, r1] at hsame
  obtain ⟨st1, hst1, hobs⟩ : ∃ st1, runUnpack (mkCtx cfg srt m (fltOps x.T.F) hashF now x.dlc) m (startSt cst) = .ok st1 ∧ Obs K N.1 st1 r.1 := by
    cases hq : runUnpack (mkCtx cfg srt m (fltOps x.T.F) hashF now x.dlc) m (startSt cst) with
    | bad => rw [hq] at hsame; exact hsame.elim
    | genUB => rw [hq] at hsame; exact hsame.elim
    | ok st1 => rw [hq] at hsame; exact ⟨st1, rfl, hsame.1⟩
  obtain ⟨k1, k2⟩ := unpack_keeps (struct_width cfg srt m _ _ _ _) hst1
  have htyped := k1 (start_typed hstart _ _ _ _)
  have hcalls : ∀ c ∈ r.1.calls, cfg.flag .useMon = true ∧ c = (K.fmon m.name, [.p .mon, .i ⟨.u32, (m.msgId : Nat)⟩]) := by
    intro c hc
    rw [hobs.calls] at hc
    obtain ⟨y, hy, rfl⟩ := List.mem_map.1 hc
    rcases k2 y hy with q | ⟨rfl, q⟩
    · cases q
    · exact ⟨q, rfl⟩
  have hvoid : voidCalls f x.T [is, js, us] r.1.calls r.1 = some r.1 := by
    refine voidCalls_nothing fun c hc => ?_
    obtain ⟨hmon, rfl⟩ := hcalls c hc
    obtain ⟨fn, f1, f2⟩ := hU.fmon hmon m hm'.1
    have hs := funcOf_isSome f1
    rw [f2] at hs
    obtain ⟨g', g1, g2, -⟩ := funcOf_some hs
    exact ⟨js, g', unitOf_mem hU.links (by simp) hs, g1, hU.void g' g2 _ _ _ _ _⟩
  have hleaf : callLeaf f x.T [is, js, us] ("Unpack_".toList ++ d.name ++ "_".toList ++ drv) (unpackArgs ⟨.u8, (x.dlc : Nat)⟩) cst =
      some ({ r.1 with out := fun _ => none, calls := [] }, r.2) :=
    callLeaf_eq (unitOf_mem hU.links (by simp) (callUnit_isSome r1)) r1 hvoid
  -- the call of the receive function
  let T' : Target φ := { x.T with ret := answer f x.T [is, js, us] mem x.data }
  have hT' : TargetOk (driverDesc drv file out.verHi out.verLow) srt mono cfg K T' hashF now := hT.retAny _
  have hans : T'.ret ("Unpack_".toList ++ d.name ++ "_".toList ++ drv) [.p (.sub d.name), .p .data, .i ⟨.u8, (x.dlc : Nat)⟩] = r.2 := by
    show answer f x.T [is, js, us] mem x.data _ _ = _
    unfold answer
    have e1 : subOf (φ := φ) [.p (.sub d.name), .p .data, .i ⟨.u8, (x.dlc : Nat)⟩] = some d.name := rfl
    have e2 : [V.p (.sub d.name), .p .data, .i ⟨.u8, (x.dlc : Nat)⟩].map asMsg = unpackArgs (φ := φ) ⟨.u8, (x.dlc : Nat)⟩ := rfl
    rw [e1, e2, Option.bind_some, hleaf]
  obtain ⟨r', s1, s2, -⟩ := unit_unpacks h.sorts h.char h.oob h.scan h.sorted h.driver h.flag hU.runs hU.structs hT' hd hsc hf ⟨.u8, (x.dlc : Nat)⟩
  have one : ∀ m', MappedRx (whoGroups out.msgs who) srt m' → m'.msgId = x.id → m' = m := fun m' q e =>
    ids_inj h.ids (h.mapped.1 q).1 hm.1 (e.trans (hdi.symm.trans n2.symm))
  obtain ⟨loc, ⟨m', st2, r'', b1, b2, b3, -⟩ | ⟨b1, -⟩⟩ := hU.recv hne T' hashF now hT' f x.id x.dlc ⟨.u32, (x.id : Nat)⟩ ⟨.u8, (x.dlc : Nat)⟩ N.1 (fun _ => startSt cst) (fun _ => cst)
    { fld := fun _ => 0, flt := fun _ => x.T.F.ofInt 0, mon := fun _ => 0, dat := x.data } (fun _ => N.2) hf hself32 hid hself
    (fun m' q e => by
      cases one m' q e
      exact ⟨start_obs hstart K N.1, start_typed hstart _ _ _ _⟩)
    (fun m' q e => by
      cases one m' q e
      rw [en, n1]
      exact ⟨huser _, r', s1, hans.trans (r2.trans s2.symm)⟩)
  · cases one m' b1 b2
    rw [en, n1] at b3
    refine ⟨{ r.1 with out := fun _ => none, calls := [] }, ?_, ⟨fun ms hms k t w hk => ?_, fun e he => ?_, rfl, rfl⟩, r4, fun hmon => ?_⟩
    · unfold runProg
      rw [unitOf_mem hU.links (u := us) (by simp) (callUnit_isSome b3), Option.bind_some]
      show (callUnit f T' us _ _ _).bind _ = _
      rw [b3, Option.bind_some]
      show (Option.bind (some d.name) fun s => (callLeaf f x.T [is, js, us] ("Unpack_".toList ++ d.name ++ "_".toList ++ drv) (unpackArgs ⟨.u8, (x.dlc : Nat)⟩)
        { mem s with dat := x.data }).map _) = _
      rw [Option.bind_some]
      show (callLeaf f x.T [is, js, us] ("Unpack_".toList ++ d.name ++ "_".toList ++ drv) (unpackArgs ⟨.u8, (x.dlc : Nat)⟩) cst).map _ = _
      rw [hleaf]
      rfl
    · have h2 := hU.structs m hm'.1 hm'.2.1
      unfold typeName at h2
      rw [n1] at h2
      cases hms.symm.trans h2
      have hfr := h.driver.frame m hm'.1 hm'.2.1
      have hnd : ((structMembers cfg.flag m).map (·.1)).Nodup := by rw [h.flag]; exact hfr.members
      have := typed_members hnd htyped hk
      show t.conv (r.1.fld k) = r.1.fld k
      rw [hobs.fld]
      exact this
    · have hq := hobs.mon
      show 0 ≤ r.1.mon e.1
      simp only [monMembers, List.mem_cons, List.not_mem_nil, or_false] at he
      rcases he with rfl | rfl | rfl | rfl | rfl | rfl | rfl
      · exact hq.last ▸ Int.natCast_nonneg _
      · exact hq.timeout ▸ Int.natCast_nonneg _
      · exact hq.cnt ▸ Int.natCast_nonneg _
      · exact hq.roll ▸ Int.natCast_nonneg _
      · exact hq.csm ▸ Int.natCast_nonneg _
      · exact hq.cycle ▸ Int.natCast_nonneg _
      · exact hq.dlc ▸ Int.natCast_nonneg _
    · have hck : Checked srt cfg.flag hashF d x.data (mem d.name) { r.1 with out := fun _ => none, calls := [] } := by
        have hq := stated_checked h.sorts h.char h.oob h.scan h.sorted h.ids hd.stated hd.ok hd.csm hmon hm.1 n2 (cst := cst) hp hdl hmem.mon hst1 hobs
        exact ⟨hq.roll, hq.csm, hq.noRoll, hq.noCsm⟩
      obtain ⟨o1, o2, o3, o4, o5, -⟩ := mon_one (c := mkCtx cfg srt m (fltOps x.T.F) hashF now x.dlc) hmon hst1
      have h0 : 0 ≤ cst.mon "frame_cnt".toList := hstart.mon ("frame_cnt".toList, .u32, none) (by decide)
      have e0 : ((startSt cst).mon.frameCnt : Int) = (mem d.name).mon "frame_cnt".toList := Int.toNat_of_nonneg h0
      have h4 : 0 ≤ cst.mon "timeout_cycle".toList := hstart.mon ("timeout_cycle".toList, .u32, none) (by decide)
      have h5 : 0 ≤ cst.mon "cycle_error".toList := hstart.mon ("cycle_error".toList, .u32, some 1) (by decide)
      refine ⟨⟨?_, ?_, ?_, ?_, ?_⟩, hck⟩
      · show r.1.mon "frame_cnt".toList = _
        rw [hobs.mon.cnt, o1, ← e0]
        rfl
      · show r.1.mon "last_cycle".toList = _
        rw [hobs.mon.last, o2]
        rfl
      · show r.1.mon "dlc_error".toList = _
        rw [hobs.mon.dlc, o3, n3]
        show (((if x.dlc < d.dlc then 1 else 0 : Nat)) : Int) = _
        split <;> rfl
      · show r.1.mon "timeout_cycle".toList = _
        rw [hobs.mon.timeout, o4]
        exact Int.toNat_of_nonneg h4
      · show r.1.mon "cycle_error".toList = _
        rw [hobs.mon.cycle, o5]
        exact Int.toNat_of_nonneg h5
  · exact absurd (n2.trans hdi) (b1 m hm')

/-- One frame with the id of no message of the node. -/
theorem node_skip (h : NodeCtx P text drv file who out srt rx D0 tick hash maxW initW cfg)
    (hU : NodeUnits φ drv file out.verHi out.verLow who (whoGroups out.msgs who) srt rx mono cfg K is js us) (hne : rx ≠ [])
    {x : Arrival φ} {hashF : List Nat → Nat → Nat → Str → Nat → Nat} {now : Nat} (hT : TargetOk (driverDesc drv file out.verHi out.verLow) srt mono cfg K x.T hashF now)
    {f : Nat} (hf : 256 ≤ f) (hx : x.dlc < 256) (hid : x.id < 2 ^ 32) (hno : ∀ m ∈ out.msgs, m.frameNotEmpty = true → TakesMsg who m → m.msgId ≠ x.id) (mem : Str → CSt φ) :
    runProg f x.T [is, js, us] ((nodeDesc drv file out.verHi out.verLow who).name ++ "_Receive".toList) [.p .msg, .p .data, .i ⟨.u32, (x.id : Nat)⟩, .i ⟨.u8, (x.dlc : Nat)⟩] mem x.data =
      some (mem, .i ⟨.u32, 0⟩) := by
  have hself : CTy.u8.conv (CVal.mk .u8 (x.dlc : Nat)).val = (x.dlc : Nat) := by
    have : CTy.u8.conv (CVal.mk .u8 (x.dlc : Nat)).val = (x.dlc : Int) % 256 := rfl
    omega
  have hself32 : CTy.u32.conv (CVal.mk .u32 (x.id : Nat)).val = (x.id : Nat) := by
    have : CTy.u32.conv (CVal.mk .u32 (x.id : Nat)).val = (x.id : Int) % 4294967296 := rfl
    omega
  have hall : ∀ m, MappedRx (whoGroups out.msgs who) srt m → m.msgId ≠ x.id := fun m q => by
    have := (who_messages out.msgs who h.ids m).1 (h.mapped.1 q)
    exact hno m this.1 this.2.1 this.2.2
  let T' : Target φ := { x.T with ret := answer f x.T [is, js, us] mem x.data }
  have hT' : TargetOk (driverDesc drv file out.verHi out.verLow) srt mono cfg K T' hashF now := hT.retAny _
  let st0 : CSt φ := { fld := fun _ => 0, flt := fun _ => x.T.F.ofInt 0, mon := fun _ => 0, dat := x.data }
  obtain ⟨loc, ⟨m, -, -, b1, b2, -⟩ | ⟨-, b⟩⟩ := hU.recv hne T' hashF now hT' f x.id x.dlc ⟨.u32, (x.id : Nat)⟩ ⟨.u8, (x.dlc : Nat)⟩
    ⟨"DLC".toList, "IDE".toList, by decide, by decide, by decide⟩ (fun _ => startSt st0) (fun _ => st0) st0 (fun _ => ⟨rfl, rfl⟩) hf hself32 hid hself
    (fun m q e => absurd e (hall m q)) (fun m q e => absurd e (hall m q))
  · exact absurd b2 (hall m b1)
  · unfold runProg
    rw [unitOf_mem hU.links (u := us) (by simp) (callUnit_isSome b), Option.bind_some]
    show (callUnit f T' us _ _ st0).bind _ = _
    rw [b, Option.bind_some]

theorem name_inj {l : List Msg} (h : (l.map (·.name)).Nodup) {a b : Msg} (ha : a ∈ l) (hb : b ∈ l) (e : a.name = b.name) : a = b := by
  induction l with
  | nil => cases ha
  | cons x l ih =>
    rw [List.map_cons, List.nodup_cons] at h
    have hx : ∀ {c}, c ∈ l → c.name ≠ x.name := fun hc q => h.1 (q ▸ List.mem_map.2 ⟨_, hc, rfl⟩)
    rcases List.mem_cons.1 ha with p | p <;> rcases List.mem_cons.1 hb with q | q
    · exact p.trans q.symm
    · exact absurd (e.symm.trans (congrArg _ p)) (hx q)
    · exact absurd (e.trans (congrArg _ q)) (hx p)
    · exact ih h.2 p q

/-- A frame the theorem is about: values of their types, bytes, no function of the user is named like an unpack function, and an id that is either the
one of a message of the node, with room for its bytes, or of no received message. -/
structure Spec.ArrivalOk (P : Platform) (text drv : Str) (who : Option Str) (out : DbcList) (srt : List Msg) (flag : Flag → Bool) (x : Arrival φ) : Prop where
  id : x.id < 2 ^ 32
  dlc : x.dlc < 256
  data : IsPayload x.data
  user : ∀ n, x.T.user ("Unpack_".toList ++ n ++ "_".toList ++ drv) = none
  known : (∃ d, NodeMsg P text who srt flag d ∧ d.id = x.id ∧ d.dlc ≤ x.data.length) ∨ ∀ m ∈ out.msgs, m.frameNotEmpty = true → TakesMsg who m → m.msgId ≠ x.id

/-- The counter expected after frames: the successor of the last one received, `e` before the first. -/
def Spec.expected (d : MsgDesc) (s : SigDesc) : List (Arrival φ) → Int → Int
  | [], e => e
  | x :: xs, e => expected d s xs (if x.id = d.id then (s.raw x.data + 1) % 2 ^ s.len else e)

/-- The struct of message `d` after the frames `fs`; `ok` tells which clock and hash a target has. -/
structure Spec.After (flag : Flag → Bool) (srt : List Msg) (ok : Target φ → (List Nat → Nat → Nat → Str → Nat → Nat) → Nat → Prop) (d : MsgDesc) (fs : List (Arrival φ))
    (before after : CSt φ) : Prop where
  none : (∀ x ∈ fs, x.id ≠ d.id) → after = before
  last : ∀ pre x post, fs = pre ++ x :: post → x.id = d.id → (∀ y ∈ post, y.id ≠ d.id) →
    Holds (flag .useSigFloat) x.T.F d x.data after ∧
    (flag .useMon = true → (∀ hashF now, ok x.T hashF now → after.mon "last_cycle".toList = (now % 2 ^ 32 : Nat)) ∧ after.mon "dlc_error".toList = if x.dlc < d.dlc then 1 else 0)
  count : flag .useMon = true → after.mon "frame_cnt".toList % 2 ^ 32 = (before.mon "frame_cnt".toList + (fs.filter fun x => x.id == d.id).length) % 2 ^ 32
  timeout : flag .useMon = true → after.mon "timeout_cycle".toList = before.mon "timeout_cycle".toList ∧ after.mon "cycle_error".toList = before.mon "cycle_error".toList
  expt : flag .useMon = true → flag .autoRoll = true → ∀ s ∈ d.sigs, IsCounter srt d s → s.signed = false → after.fld s.expt = expected d s fs (before.fld s.expt)
  roll : flag .useMon = true → flag .autoRoll = true → ∀ s ∈ d.sigs, IsCounter srt d s → s.signed = false →
    ∀ pre x post, fs = pre ++ x :: post → x.id = d.id → (∀ y ∈ post, y.id ≠ d.id) →
    after.mon "roll_error".toList = if s.raw x.data = expected d s pre (before.fld s.expt) then 0 else 1
  csm : flag .useMon = true → flag .autoCsm = true → ∀ s ∈ d.sigs, ∀ method op, IsChecksum srt d s method op →
    ∀ pre x post, fs = pre ++ x :: post → x.id = d.id → (∀ y ∈ post, y.id ≠ d.id) →
    ∀ hashF now, ok x.T hashF now → after.mon "csm_error".toList = if ((hashF x.data d.dlc d.id method op % 256 : Nat) : Int) = s.raw x.data then 0 else 1
  noRoll : flag .useMon = true → flag .autoRoll = false ∨ (∀ s ∈ d.sigs, ¬ IsCounter srt d s) → after.mon "roll_error".toList = before.mon "roll_error".toList
  noCsm : flag .useMon = true → flag .autoCsm = false ∨ (∀ s ∈ d.sigs, ∀ method op, ¬ IsChecksum srt d s method op) → after.mon "csm_error".toList = before.mon "csm_error".toList

theorem node_trace (h : NodeCtx P text drv file who out srt rx D0 tick hash maxW initW cfg)
    (hU : NodeUnits φ drv file out.verHi out.verLow who (whoGroups out.msgs who) srt rx mono cfg K is js us) (hne : rx ≠ []) {f : Nat} (hf : 256 ≤ f) (fs : List (Arrival φ)) :
    ∀ mem : Str → CSt φ, (∀ x ∈ fs, ArrivalOk P text drv who out srt cfg.flag x ∧ ∃ hashF now, TargetOk (driverDesc drv file out.verHi out.verLow) srt mono cfg K x.T hashF now) →
    (∀ d, NodeMsg P text who srt cfg.flag d → Ready is d.name (mem d.name)) →
    ∃ mem' as, receiveAll f [is, js, us] ((nodeDesc drv file out.verHi out.verLow who).name ++ "_Receive".toList) fs mem = some (mem', as) ∧
      List.Forall₂ (fun x a => (a = .i ⟨.u32, (x.id : Nat)⟩ ∧ ∃ d, NodeMsg P text who srt cfg.flag d ∧ d.id = x.id) ∨
        (a = .i ⟨.u32, 0⟩ ∧ ∀ m ∈ out.msgs, m.frameNotEmpty = true → TakesMsg who m → m.msgId ≠ x.id)) fs as ∧
      ∀ d, NodeMsg P text who srt cfg.flag d → Ready is d.name (mem' d.name) ∧
        After cfg.flag srt (TargetOk (driverDesc drv file out.verHi out.verLow) srt mono cfg K) d fs (mem d.name) (mem' d.name) := by
  induction fs with
  | nil =>
    intro mem _ hr
    refine ⟨mem, [], rfl, .nil, fun d hd => ⟨hr d hd, fun _ => rfl, fun pre x post e => ?_, fun _ => ?_, fun _ => ⟨rfl, rfl⟩, fun _ _ _ _ _ _ => rfl,
      fun _ _ _ _ _ _ pre x post e => ?_, fun _ _ _ _ _ _ _ pre x post e => ?_, fun _ _ => rfl, fun _ _ => rfl⟩⟩
    · cases pre <;> cases e
    · simp
    · cases pre <;> cases e
    · cases pre <;> cases e
  | cons x fs ih =>
    intro mem hfs hr
    obtain ⟨hx, hashF, now, hT⟩ := hfs x List.mem_cons_self
    have hrest := fun y hy => hfs y (List.mem_cons_of_mem _ hy)
    -- the memory after the first frame
    have step : ∃ mem1 a, runProg f x.T [is, js, us] ((nodeDesc drv file out.verHi out.verLow who).name ++ "_Receive".toList)
          [.p .msg, .p .data, .i ⟨.u32, (x.id : Nat)⟩, .i ⟨.u8, (x.dlc : Nat)⟩] mem x.data = some (mem1, a) ∧
        ((a = .i ⟨.u32, (x.id : Nat)⟩ ∧ ∃ d, NodeMsg P text who srt cfg.flag d ∧ d.id = x.id) ∨
          (a = .i ⟨.u32, 0⟩ ∧ ∀ m ∈ out.msgs, m.frameNotEmpty = true → TakesMsg who m → m.msgId ≠ x.id)) ∧
        ∀ d, NodeMsg P text who srt cfg.flag d → Ready is d.name (mem1 d.name) ∧ (x.id ≠ d.id → mem1 d.name = mem d.name) ∧
          (x.id = d.id → Holds (cfg.flag .useSigFloat) x.T.F d x.data (mem1 d.name) ∧
            (cfg.flag .useMon = true → ∀ hashF now, TargetOk (driverDesc drv file out.verHi out.verLow) srt mono cfg K x.T hashF now →
              Monitored d.dlc now x.dlc (mem d.name) (mem1 d.name) ∧ Checked srt cfg.flag hashF d x.data (mem d.name) (mem1 d.name))) := by
      rcases hx.known with ⟨d0, hd0, i0, l0⟩ | hno
      · obtain ⟨st', e, g1, -⟩ := node_step h hU hT hx.user hf hx.dlc hx.id hx.data hd0 i0 l0 (hr d0 hd0)
        obtain ⟨m0, q1, q2, q3, q4, q5⟩ := h.msg hd0
        refine ⟨_, _, e, .inl ⟨rfl, d0, hd0, i0⟩, fun d hd => ?_⟩
        obtain ⟨m, p1, p2, p3, p4, p5⟩ := h.msg hd
        by_cases hid : x.id = d.id
        · have em : m = m0 := ids_inj h.ids p1.1 q1.1 (p3.trans (hid.symm.trans (i0.symm.trans q3.symm)))
          subst em
          have en : d.name = d0.name := p2.symm.trans q2
          refine ⟨?_, fun q => absurd hid q, fun _ => ?_⟩
          · rw [if_pos en, en]
            exact g1
          · have key : ∀ hashF now, TargetOk (driverDesc drv file out.verHi out.verLow) srt mono cfg K x.T hashF now →
                Holds (cfg.flag .useSigFloat) x.T.F d x.data (if d.name = d0.name then st' else mem d.name) ∧
                (cfg.flag .useMon = true → Monitored d.dlc now x.dlc (mem d.name) (if d.name = d0.name then st' else mem d.name) ∧
                  Checked srt cfg.flag hashF d x.data (mem d.name) (if d.name = d0.name then st' else mem d.name)) := by
              intro hashF now hT
              obtain ⟨st2, e2, -, g2, g3⟩ := node_step h hU hT hx.user hf hx.dlc hx.id hx.data hd hid.symm (by rw [← p4, q4]; exact l0) (hr d hd)
              have e3 := congrFun (congrArg Prod.fst (Option.some.inj (e.symm.trans e2))) d.name
              dsimp only at e3
              rw [if_pos rfl] at e3
              rw [e3]
              exact ⟨g2, g3⟩
            exact ⟨(key hashF now hT).1, fun hmon hashF now hT => (key hashF now hT).2 hmon⟩
        · have en : d.name ≠ d0.name := fun en => by
            have em := name_inj h.names p5 q5 (p2.trans (en.trans q2.symm))
            subst em
            exact hid (i0.symm.trans (q3.symm.trans p3))
          rw [if_neg en]
          exact ⟨hr d hd, fun _ => rfl, fun q => absurd q hid⟩
      · refine ⟨_, _, node_skip h hU hne hT hf hx.dlc hx.id hno mem, .inr ⟨rfl, hno⟩, fun d hd => ⟨hr d hd, fun _ => rfl, fun q => ?_⟩⟩
        obtain ⟨m, p1, p2, p3, -⟩ := h.msg hd
        have := (who_messages out.msgs who h.ids m).1 p1
        exact absurd (p3.trans q.symm) (hno m this.1 this.2.1 this.2.2)
    obtain ⟨mem1, a, e1, e2, e3⟩ := step
    obtain ⟨mem', as, i1, i2, i3⟩ := ih mem1 hrest (fun d hd => (e3 d hd).1)
    refine ⟨mem', a :: as, ?_, .cons e2 i2, fun d hd => ?_⟩
    · unfold receiveAll
      rw [e1, Option.bind_some, i1]
      rfl
    · obtain ⟨j1, j2⟩ := i3 d hd
      obtain ⟨k1, k2, k3⟩ := e3 d hd
      refine ⟨j1, fun hno => ?_, fun pre y post e hy hpost => ?_, fun hmon => ?_, fun hmon => ?_, fun hmon hfl s hsm hcn hsg => ?_, fun hmon hfl s hsm hcn hsg pre y post e hy hpost => ?_,
        fun hmon hfl s hsm method op hcs pre y post e hy hpost hashF now hT => ?_, fun hmon hno => ?_, fun hmon hno => ?_⟩
      · exact (j2.none fun y hy => hno y (List.mem_cons_of_mem _ hy)).trans (k2 (hno x List.mem_cons_self))
      · cases pre with
        | nil =>
          rw [List.nil_append] at e
          cases e
          rw [j2.none hpost]
          refine ⟨(k3 hy).1, fun hmon => ⟨fun hashF now hT => ((k3 hy).2 hmon hashF now hT).1.2.1, ((k3 hy).2 hmon hashF now hT).1.2.2.1⟩⟩
        | cons z pre =>
          rw [List.cons_append] at e
          cases e
          exact j2.last pre y post rfl hy hpost
      · have hc := j2.count hmon
        by_cases hid : x.id = d.id
        · have hm := ((k3 hid).2 hmon hashF now hT).1.1
          rw [List.filter_cons_of_pos (by simpa using hid), List.length_cons]
          rw [hm] at hc
          generalize (mem d.name).mon "frame_cnt".toList = u at hc ⊢
          generalize (mem' d.name).mon "frame_cnt".toList = w at hc ⊢
          omega
        · rw [List.filter_cons_of_neg (by simpa using hid)]
          rw [k2 hid] at hc
          exact hc
      · obtain ⟨t1, t2⟩ := j2.timeout hmon
        by_cases hid : x.id = d.id
        · obtain ⟨-, -, -, q1, q2⟩ := ((k3 hid).2 hmon hashF now hT).1
          exact ⟨t1.trans q1, t2.trans q2⟩
        · rw [k2 hid] at t1 t2
          exact ⟨t1, t2⟩
      · have q := j2.expt hmon hfl s hsm hcn hsg
        unfold expected
        by_cases hid : x.id = d.id
        · rw [(((k3 hid).2 hmon hashF now hT).2.roll hfl s hsm hcn hsg).2] at q
          rw [if_pos hid]
          exact q
        · rw [k2 hid] at q
          rw [if_neg hid]
          exact q
      · cases pre with
        | nil =>
          rw [List.nil_append] at e
          cases e
          rw [j2.none hpost]
          exact (((k3 hy).2 hmon hashF now hT).2.roll hfl s hsm hcn hsg).1
        | cons z pre =>
          rw [List.cons_append] at e
          cases e
          have q := j2.roll hmon hfl s hsm hcn hsg pre y post rfl hy hpost
          unfold expected
          by_cases hid : x.id = d.id
          · rw [(((k3 hid).2 hmon hashF now hT).2.roll hfl s hsm hcn hsg).2] at q
            rw [if_pos hid]
            exact q
          · rw [k2 hid] at q
            rw [if_neg hid]
            exact q
      · cases pre with
        | nil =>
          rw [List.nil_append] at e
          cases e
          rw [j2.none hpost]
          exact ((k3 hy).2 hmon hashF now hT).2.csm hfl s hsm method op hcs
        | cons z pre =>
          rw [List.cons_append] at e
          cases e
          exact j2.csm hmon hfl s hsm method op hcs pre y post rfl hy hpost hashF now hT
      · have q := j2.noRoll hmon hno
        by_cases hid : x.id = d.id
        · exact q.trans (((k3 hid).2 hmon hashF now hT).2.noRoll hno)
        · rw [k2 hid] at q
          exact q
      · have q := j2.noCsm hmon hno
        by_cases hid : x.id = d.id
        · exact q.trans (((k3 hid).2 hmon hashF now hT).2.noCsm hno)
        · rw [k2 hid] at q
          exact q

end

/-- A node that receives any frames.  The three source files compile in the directory and link, and for every sequence of frames: the calls of `<node>_<drv>_Receive` in
the linked program are defined, one call per frame; a call returns the id of the frame, or 0 if no message that the node receives has this id; and afterwards the
struct of every message the file states for this node is what the last frame with its id makes it: every member holds the value the DBC file
defines for this payload, time and length error are those of this frame, and the number of frames with this id has been added to `frame_cnt`;
`roll_error` tells whether the (unsigned) counter of this frame is the successor of the one before, `csm_error` whether its checksum is what the user's hash function says.  A struct of a message for which no frame arrived is unchanged. -/
def NodeTrace (φ : Type) (P : Platform) (text drv : Str) (file : Source) (out : DbcList) (srt : List Msg) (D0 : Defs) (on : List Str) (tick hash : Hook) (maxW initW : Str)
    (who : Option Str) (rx : List Msg) (maxV initV : Nat) (dir : List (Str × Str)) : Prop :=
  let g := driverDesc drv file out.verHi out.verLow
  let u := nodeDesc drv file out.verHi out.verLow who
  let cfg := cfgOf g (userTable g D0 on) false maxV initV
  let K := lookOf g (userTable g D0 on) srt tick hash maxW initW
  let mono := ((userTable g D0 on).lookup (monoName g)).isSome
  ∃ is js us, (∃ F, ∀ f, F ≤ f → compileTree f dir D0 (g.drvLow ++ ".c".toList) = some is ∧ compileTree f dir D0 (g.drvLow ++ "-fmon.c".toList) = some js ∧
      compileTree f dir D0 (strLower (u.name ++ "-binutil.c".toList)) = some us) ∧
    links [is, js, us] = true ∧
    ∀ (f : Nat) (fs : List (Arrival φ)) (mem : Str → CSt φ), 256 ≤ f → rx ≠ [] →
      (∀ x ∈ fs, ArrivalOk P text drv who out srt cfg.flag x ∧ ∃ hashF now, TargetOk g srt mono cfg K x.T hashF now) →
      (∀ d, NodeMsg P text who srt cfg.flag d → Ready is d.name (mem d.name)) →
      ∃ mem' as, receiveAll f [is, js, us] (u.name ++ "_Receive".toList) fs mem = some (mem', as) ∧
        List.Forall₂ (fun x a => (a = .i ⟨.u32, (x.id : Nat)⟩ ∧ ∃ d, NodeMsg P text who srt cfg.flag d ∧ d.id = x.id) ∨
          (a = .i ⟨.u32, 0⟩ ∧ ∀ m ∈ out.msgs, m.frameNotEmpty = true → TakesMsg who m → m.msgId ≠ x.id)) fs as ∧
        ∀ d, NodeMsg P text who srt cfg.flag d → Ready is d.name (mem' d.name) ∧
          After cfg.flag srt (TargetOk g srt mono cfg K) d fs (mem d.name) (mem' d.name)

/-- **C66**.  From the text of the DBC file to a node that receives any sequence of frames. -/
theorem C66_trace_partial (P : Platform) (hs : SortsByStart P) (hc : P.charMax = 127) (hoob : ∀ v, P.oob = some v → 2 ^ 32 ≤ CTy.toU .u64 v)
    (text : Str) (out : DbcList) (h : trimDbcText P text = .ok out) (srt : List Msg) (hp : SortedBy srt out.msgs) (hids : IdsDistinct out.msgs)
    (hD : NodeDriver drv file out.verHi out.verLow out.maxDlc srt D0 on fl tick hash maxW initW who rx tx)
    (hr : SortedBy rx (selectRx (whoGroups out.msgs who) out.msgs)) (ht : SortedBy tx (selectTx (whoGroups out.msgs who) out.msgs)) (maxV initV : Nat) :
    let g := driverDesc drv file out.verHi out.verLow
    let u := nodeDesc drv file out.verHi out.verLow who
    ∃ hops sops uops, mainHeaderOps g out.maxDlc srt = some hops ∧ mainSourceOps g srt = some sops ∧ utilSourceOps u out.verHi out.verLow rx tx = some uops ∧
      ∀ dir, NodeDir dir g u on fl hops sops uops srt rx tx →
      NodeTrace φ P text drv file out srt D0 on tick hash maxW initW who rx maxV initV dir := by
  intro g u
  obtain ⟨hops, sops, uops, ho, a1, u1, hdir⟩ := node_units (φ := φ) hD (sorted_rx hp hr) (sorted_tx hp ht) maxV initV
  refine ⟨hops, sops, uops, ho, a1, u1, fun dir hd => ?_⟩
  obtain ⟨is, js, us, hF, hU⟩ := hdir dir hd
  have hDr : DriverOk drv file out.verHi out.verLow out.maxDlc srt (userTable g D0 on) tick hash maxW initW := ⟨hD.rd, (List.nodup_append.1 hD.names).2.1⟩
  have hctx : NodeCtx P text drv file who out srt rx (userTable g D0 on) tick hash maxW initW (cfgOf g (userTable g D0 on) false maxV initV) :=
    ⟨hs, hc, hoob, h, hp, hids, hDr, rfl, hr, (mapped_util hDr hD.rdNode (sorted_rx hp hr) (sorted_tx hp ht)).rxNames⟩
  exact ⟨is, js, us, hF, hU.links, fun f fs mem hf hne hfs hmem => node_trace hctx hU hne hf fs mem hfs hmem⟩

/-- **C66**, from the command line. -/
theorem C66_run_partial (H : RunHost) (args : List Str) (text : Str) (out : DbcList) (R : GoodRun H args text out) (hs : SortsByStart H.plat) (hc : H.plat.charMax = 127)
    (hoob : ∀ v, H.plat.oob = some v → 2 ^ 32 ≤ CTy.toU .u64 v) (hids : IdsDistinct out.msgs)
    (hf : (getOptions args).isNofmon = false) (hw : UtilRun (getOptions args) out.msgs who)
    (hD : NodeDriver (getOptions args).drvname.1 (runSource H args) out.verHi out.verLow out.maxDlc (H.sort out.msgs) D0 on fl tick hash maxW initW who
      (H.sort (selectRx (whoGroups out.msgs who) out.msgs)) (H.sort (selectTx (whoGroups out.msgs who) out.msgs)))
    (maxV initV : Nat) :
    ∃ files, runApp H args = .done files ∧ files.map (·.1) = runPaths (getOptions args) out.msgs H.fs ∧
      ∀ dir, ProjectDir dir files (getOptions args) (driverDesc (getOptions args).drvname.1 (runSource H args) out.verHi out.verLow) on fl →
        NodeTrace φ H.plat text (getOptions args).drvname.1 (runSource H args) out (H.sort out.msgs) D0 on tick hash maxW initW who
          (H.sort (selectRx (whoGroups out.msgs who) out.msgs)) maxV initV dir := by
  obtain ⟨hops, sops, uops, h1, h2, h3, h4⟩ := C66_trace_partial (φ := φ) H.plat hs hc hoob text out R.scan (H.sort out.msgs) (R.sort _) hids hD (R.sort _) (R.sort _) maxV initV
  obtain ⟨d, hp⟩ := R.prep
  refine ⟨_, run_done R h1 h2, ?_, fun dir hd => h4 dir (project_node R hf hw h3 hd)⟩
  unfold runPaths
  rw [hp]
  exact run_paths _ _ _ _ _ _

/-! ### Example: node `Dash` receives `Motor`, a frame nobody knows, `Gear` and again `Motor` -/

namespace Fix

def dashFrames : List (Arrival Unit) :=
  [⟨dashTarget, 1024, 4, [0, 0, 0, 0, 0, 0, 0, 0]⟩, ⟨dashTarget, 5, 8, []⟩, ⟨dashTarget, 100, 2, [7, 1]⟩, ⟨dashTarget, 1024, 8, [0xAB, 0, 0x0F, 0xF0, 0, 0, 0, 0]⟩]

theorem dashFlag : dashCfg.flag .useSigFloat = false ∧ dashCfg.flag .useMon = true := by decide +kernel

theorem dashAuto : dashCfg.flag .autoRoll = true ∧ dashCfg.flag .autoCsm = true := by decide +kernel

theorem dashMotor : NodeMsg platIns pipeText (some "Dash".toList) pipeMsgs dashCfg.flag motor :=
  ⟨motorStated, motorOk, ⟨_, List.mem_cons_self, by decide⟩, by decide, .inl (by decide), .inl dashFlag.1⟩

theorem dashGear : NodeMsg platIns pipeText (some "Dash".toList) pipeMsgs dashCfg.flag gear :=
  ⟨gearStated, gearOk, ⟨_, List.mem_cons_self, by decide⟩, by decide, .inl (by decide), .inl dashFlag.1⟩

theorem dashUser (n : Str) : dashTarget.user ("Unpack_".toList ++ n ++ "_".toList ++ "drv".toList) = none := by
  unfold dashTarget target
  dsimp only
  have e : ∀ (a : Str), "Unpack_".toList ++ n ++ "_".toList ++ "drv".toList = a → a.head? = some 'U' := fun a h => h ▸ rfl
  rw [if_neg fun q => absurd (e _ q) (by decide), if_neg fun q => absurd (e _ q) (by decide)]

theorem dashFive : ∀ m ∈ pipeOut.msgs, m.frameNotEmpty = true → TakesMsg (some "Dash".toList) m → m.msgId ≠ 5 := by decide +kernel

theorem dashBytes : ∀ x ∈ dashFrames, IsPayload x.data := by
  have : ∀ x ∈ dashFrames, ∀ b ∈ x.data, b < 256 := by decide
  exact this

theorem dashArrive : ∀ x ∈ dashFrames, ArrivalOk platIns pipeText "drv".toList (some "Dash".toList) pipeOut pipeMsgs dashCfg.flag x ∧ x.T = dashTarget := by
  intro x hx
  have hb := dashBytes x hx
  simp only [dashFrames, List.mem_cons, List.not_mem_nil, or_false] at hx
  rcases hx with rfl | rfl | rfl | rfl
  · exact ⟨⟨by decide, by decide, hb, dashUser, .inl ⟨motor, dashMotor, rfl, by decide⟩⟩, rfl⟩
  · exact ⟨⟨by decide, by decide, hb, dashUser, .inr dashFive⟩, rfl⟩
  · exact ⟨⟨by decide, by decide, hb, dashUser, .inl ⟨gear, dashGear, rfl, by decide⟩⟩, rfl⟩
  · exact ⟨⟨by decide, by decide, hb, dashUser, .inl ⟨motor, dashMotor, rfl, by decide⟩⟩, rfl⟩

end Fix

example : ∃ dir is js us mem' as, (∃ F, ∀ f, F ≤ f → compileTree f dir Fix.userHooks "drv.c".toList = some is ∧ compileTree f dir Fix.userHooks "drv-fmon.c".toList = some js ∧
      compileTree f dir Fix.userHooks "dash_drv-binutil.c".toList = some us) ∧
    receiveAll 256 [is, js, us] "dash_drv_Receive".toList Fix.dashFrames (fun _ => Fix.cst0) = some (mem', as) ∧
    as = [.i ⟨.u32, 1024⟩, .i ⟨.u32, 0⟩, .i ⟨.u32, 100⟩, .i ⟨.u32, 1024⟩] ∧
    (mem' "Motor".toList).fld "Torque".toList = -16 ∧ (mem' "Motor".toList).mon "frame_cnt".toList % 2 ^ 32 = 2 ∧ (mem' "Motor".toList).mon "dlc_error".toList = 0 ∧
    (mem' "Gear".toList).fld "Ratio_ro".toList = 263 ∧
    -- the counters are 0 and 11: the second one is not the successor; the checksum is 0, the hash of the last frame is not
    (mem' "Motor".toList).mon "roll_error".toList = 1 ∧ (mem' "Motor".toList).fld "Cnt_expt".toList = 12 ∧
    (mem' "Motor".toList).mon "csm_error".toList = 1 ∧ (mem' "Gear".toList).mon "roll_error".toList = 0 := by
  obtain ⟨hops, sops, uops, h1, h2, h3, h4⟩ := C66_trace_partial (φ := Unit) platIns platIns_sorts rfl (fun v e => by cases e) Fix.pipeText Fix.pipeOut Fix.pipeOk Fix.pipeMsgs Fix.pipeSorted Fix.dashIds
    Fix.dashDriver Fix.dashRxOk Fix.dashTxOk 8 0
  obtain ⟨hops', sops', uops', dir, k1, k2, k3, hdir⟩ := C63_dir_partial Fix.dashDriver (sorted_rx Fix.pipeSorted Fix.dashRxOk) (sorted_tx Fix.pipeSorted Fix.dashTxOk)
  cases h1.symm.trans k1
  cases h2.symm.trans k2
  cases h3.symm.trans k3
  obtain ⟨is, js, us, hF, -, hrun⟩ := h4 dir hdir
  obtain ⟨mem', as, r1, r2, r3⟩ := hrun 256 Fix.dashFrames (fun _ => Fix.cst0) (Nat.le_refl _) (by decide +kernel)
    (fun x hx => ⟨(Fix.dashArrive x hx).1, Fix.pipeHash, 77, by rw [(Fix.dashArrive x hx).2]; exact Fix.dashTargetOk⟩)
    (fun d _ => ⟨fun _ _ k t w _ => by cases t <;> rfl, fun _ _ => Int.le_refl _, rfl, rfl⟩)
  refine ⟨dir, is, js, us, mem', as, hF, r1, ?_, ?_⟩
  · have hno : ∀ {i : Nat}, (∃ m ∈ Fix.pipeOut.msgs, m.frameNotEmpty = true ∧ TakesMsg (some "Dash".toList) m ∧ m.msgId = i) →
        ¬ ∀ m ∈ Fix.pipeOut.msgs, m.frameNotEmpty = true → TakesMsg (some "Dash".toList) m → m.msgId ≠ i := fun ⟨m, a, b, c, d⟩ q => q m a b c d
    have hfive : ¬ ∃ d, NodeMsg platIns Fix.pipeText (some "Dash".toList) Fix.pipeMsgs Fix.dashCfg.flag d ∧ d.id = 5 := fun ⟨d, hd, he⟩ => by
      obtain ⟨m, hm, n1, n2, n3⟩ := stated_receives platIns_sorts Fix.pipeOk Fix.dashIds hd.ok hd.stated hd.recs
      have := (who_messages Fix.pipeOut.msgs _ Fix.dashIds m).1 hm
      exact Fix.dashFive m this.1 this.2.1 this.2.2 (n2.trans he)
    unfold Fix.dashFrames at r2
    cases r2 with
    | cons q1 r2 => cases r2 with
      | cons q2 r2 => cases r2 with
        | cons q3 r2 => cases r2 with
          | cons q4 r2 =>
            cases r2
            have a1 := q1.resolve_right fun q => hno (by decide +kernel) q.2
            have a2 := q2.resolve_left fun q => hfive q.2
            have a3 := q3.resolve_right fun q => hno (by decide +kernel) q.2
            have a4 := q4.resolve_right fun q => hno (by decide +kernel) q.2
            rw [a1.1, a2.1, a3.1, a4.1]
            rfl
  · have hm := (r3 Fix.motor Fix.dashMotor).2
    have hg := (r3 Fix.gear Fix.dashGear).2
    obtain ⟨m1, m2⟩ := hm.last (Fix.dashFrames.take 3) ⟨Fix.dashTarget, 1024, 8, [0xAB, 0, 0x0F, 0xF0, 0, 0, 0, 0]⟩ [] rfl rfl (fun _ q => (nomatch q))
    obtain ⟨g1, -⟩ := hg.last (Fix.dashFrames.take 2) ⟨Fix.dashTarget, 100, 2, [7, 1]⟩ (Fix.dashFrames.drop 3) rfl rfl (by decide)
    have hcnt : IsCounter Fix.pipeMsgs Fix.motor (Fix.sd "Cnt" 0 4 true false 0 15 "") := ⟨_, List.mem_cons_of_mem _ List.mem_cons_self, rfl, _, rfl, rfl⟩
    have hcrc : IsChecksum Fix.pipeMsgs Fix.motor (Fix.sd "Crc" 56 8 true false 0 255 "") "XOR8".toList 1 := ⟨_, List.mem_cons_of_mem _ List.mem_cons_self, rfl, rfl, rfl, _, rfl, rfl⟩
    have hgear : ∀ s ∈ Fix.gear.sigs, ¬ IsCounter Fix.pipeMsgs Fix.gear s := by
      have : ∀ m ∈ Fix.pipeMsgs, m.msgId = Fix.gear.id → m.sigAt m.rollSig = none := by decide +kernel
      exact fun s _ ⟨m, hm, e, t, ht, _⟩ => by rw [this m hm e] at ht; cases ht
    have e1 := hm.roll Fix.dashFlag.2 Fix.dashAuto.1 _ List.mem_cons_self hcnt rfl (Fix.dashFrames.take 3) ⟨Fix.dashTarget, 1024, 8, [0xAB, 0, 0x0F, 0xF0, 0, 0, 0, 0]⟩ [] rfl rfl
      (fun _ q => (nomatch q))
    have e2 := hm.expt Fix.dashFlag.2 Fix.dashAuto.1 _ List.mem_cons_self hcnt rfl
    have e3 := hm.csm Fix.dashFlag.2 Fix.dashAuto.2 _ (List.mem_cons_of_mem _ (List.mem_cons_of_mem _ List.mem_cons_self)) _ _ hcrc (Fix.dashFrames.take 3)
      ⟨Fix.dashTarget, 1024, 8, [0xAB, 0, 0x0F, 0xF0, 0, 0, 0, 0]⟩ [] rfl rfl (fun _ q => (nomatch q)) _ _ Fix.dashTargetOk
    refine ⟨?_, ?_, (m2 Fix.dashFlag.2).2, ?_, e1.trans (by decide +kernel), e2.trans (by decide +kernel), e3.trans (by decide +kernel), hg.noRoll Fix.dashFlag.2 (.inr hgear)⟩
    · exact (m1.1 (Fix.sd "Torque" 19 12 false true (-2048) 2047 "Nm") (by decide) (.inl (by decide))).trans (by decide +kernel)
    · exact (hm.count Fix.dashFlag.2).trans (by decide +kernel)
    · exact (g1.1 Fix.ratio List.mem_cons_self (.inl (by decide))).trans (by decide +kernel)

end Verif
