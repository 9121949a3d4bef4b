import Verif.Props.PhysPipeline
import Verif.Props.Receive
import Verif.Props.Monitor
/-
Rolling counter and checksum of a message the file states, after a call of Pack in the compiled unit (used by C64 to C68).
-/
namespace Verif
open Spec

variable {φ : Type}

/-- The rolling counter of a message: the signal a comment has marked (C52). -/
def Spec.IsCounter (srt : List Msg) (d : MsgDesc) (s : SigDesc) : Prop :=
  ∃ m ∈ srt, m.msgId = d.id ∧ ∃ t, m.sigAt m.rollSig = some t ∧ t.name = s.member

/-- The checksum of a message, with method and option of the comment (C52). -/
def Spec.IsChecksum (srt : List Msg) (d : MsgDesc) (s : SigDesc) (method : Str) (op : Nat) : Prop :=
  ∃ m ∈ srt, m.msgId = d.id ∧ m.csmMethod = method ∧ m.csmOp = op ∧ ∃ t, m.sigAt m.csmSig = some t ∧ t.name = s.member

theorem nodup_inj {α β : Type} {f : α → β} {l : List α} (h : (l.map f).Nodup) {a b : α} (ha : a ∈ l) (hb : b ∈ l) (e : f a = f b) : a = b := by
  induction l with
  | nil => cases ha
  | cons x l ih =>
    rw [List.map_cons, List.nodup_cons] at h
    have hx : ∀ {c}, c ∈ l → f c ≠ f x := fun hc q => h.1 (q ▸ List.mem_map.2 ⟨_, hc, rfl⟩)
    rcases List.mem_cons.1 ha with p | p <;> rcases List.mem_cons.1 hb with q | q
    · exact p.trans q.symm
    · exact absurd (e.symm.trans (congrArg _ p)) (hx q)
    · exact absurd (e.trans (congrArg _ q)) (hx p)
    · exact ih h.2 p q

theorem flatMap_sublist {α β : Type} {f : α → β} {g : α → List β} (h : ∀ a, ∃ t, g a = f a :: t) : ∀ l : List α, (l.map f).Sublist (l.flatMap g)
  | [] => by simp
  | a :: l => by
    obtain ⟨t, e⟩ := h a
    rw [List.map_cons, List.flatMap_cons, e, List.cons_append]
    exact ((flatMap_sublist h l).trans (List.sublist_append_right _ _)).cons_cons _

/-- Signals of a message for which a function has run have different names. -/
theorem names_nodup {c : Ctx φ} {m : Msg} (hc : c.decls = structDecls c.cfg m) (h : c.declsOk = true) : (m.signals.map (·.name)).Nodup := by
  have hn := nodup_of_declsOk h
  rw [hc] at hn
  unfold structDecls structSigs at hn
  rw [List.flatMap_append, List.map_append, List.map_flatMap] at hn
  exact (flatMap_sublist (f := fun s : Sig => s.name) (fun a => ⟨_, by unfold sigDecls; rfl⟩) m.signals).nodup (List.nodup_append.1 hn).1

theorem fromDesc_value {P : Platform} {d : SigDesc} {s : Sig} (h : FromDesc P d s) (dat : List Nat) : s.value dat = d.raw dat := by
  unfold Sig.value Sig.raw SigDesc.raw Sig.intel
  rw [h.signed, h.len, h.intel, h.start]

/-- Two buffers that differ at most in the bits of signal `s`. -/
def Spec.SameBut (s : SigDesc) (a b : List Nat) : Prop :=
  a.length = b.length ∧ ∀ p, (∀ k, k < s.len → bitPos s.intel s.start s.len k ≠ p) → payloadBit a p = payloadBit b p

/-- Counter and checksum after Pack: the counter is the successor of what the member held (within its bits), the checksum is the low byte of the user's hash of
the frame, where the hash may have seen other bits in place of the checksum. -/
structure Spec.Automatic (flag : Flag → Bool) (srt : List Msg) (hashF : List Nat → Nat → Nat → Str → Nat → Nat) (d : MsgDesc) (before after : CSt φ) : Prop where
  roll : flag .autoRoll = true → ∀ s ∈ d.sigs, IsCounter srt d s → s.signed = false → (flag .autoCsm = true → ∀ method op, ¬ IsChecksum srt d s method op) →
    InSigRange s.signed s.len (before.fld s.member) → after.fld s.member = (before.fld s.member + 1) % 2 ^ s.len
  csm : flag .autoCsm = true → ∀ s ∈ d.sigs, ∀ method op, IsChecksum srt d s method op →
    ∃ d0, IsPayload d0 ∧ SameBut s d0 after.dat ∧
      (InSigRange s.signed s.len ((hashF d0 d.dlc d.id method op % 256 : Nat) : Int) → after.fld s.member = ((hashF d0 d.dlc d.id method op % 256 : Nat) : Int))

theorem stated_auto {P : Platform} (hs : SortsByStart P) (hc : P.charMax = 127) (hoob : ∀ v, P.oob = some v → 2 ^ 32 ≤ CTy.toU .u64 v)
    {text : Str} {out : DbcList} (h : trimDbcText P text = .ok out) {srt : List Msg} (hp : SortedBy srt out.msgs) (hids : IdsDistinct out.msgs)
    {g : GenDesc} {cfg : Cfg} {K : Look} {mono : Bool} {is : List Spec.Item}
    (h4 : RunsModel φ g srt mono cfg K is) (hstr : ∀ m ∈ srt, m.frameNotEmpty = true → structOf is (typeName m) = some (structMembers cfg.flag m))
    (T : Target φ) (hashF : List Nat → Nat → Nat → Str → Nat → Nat) (now : Nat) (hT : TargetOk g srt mono cfg K T hashF now)
    (d : MsgDesc) (hst : Stated (fileLines P text) d) (hd : MsgDescOk d) (hne : d.sigs ≠ [])
    (hcs : d.dlc ≤ 8 ∨ ∀ m ∈ srt, m.msgId = d.id → m.csmSig = none)
    (cst : CSt φ) (hsc : StartIn is d cst) (f : Nat) (hf : 256 ≤ f) (N : OutNames) (hN : cfg.flag .useCanStruct = true → N.len = "DLC".toList ∧ N.ide = "IDE".toList)
    (r : CSt φ × V φ) (hr : callUnit f T is ("Pack_".toList ++ d.name ++ "_".toList ++ g.drvOrig) (packArgs (cfg.flag .useCanStruct) N) cst = some r) :
    Automatic cfg.flag srt hashF d cst r.1 := by
  obtain ⟨m, hm, n1, n2, n3, -, n4, -, ss, hF, hperm⟩ := stated_message hs h hd hst
  have hm0 := hm
  replace hm := hp.1.mem_iff.2 hm
  obtain ⟨d1, d2⟩ := desc_signals hF hperm
  have hok : MsgOk m := by
    refine ⟨by rw [n3]; exact hd.dlc.2, fun s hsm => ?_⟩
    obtain ⟨e, he, q⟩ := d2 s hsm
    have hx := hd.sigs e he
    refine ⟨by rw [q.len]; exact hx.pos, by rw [q.len]; exact hx.len, ?_⟩
    unfold Sig.fits Sig.intel
    rw [q.intel, q.start, q.len, n3]
    exact hx.fits
  obtain ⟨c1, c2⟩ := C50_generator_conditions P hs hc hoob text out h m hm0 hok
  have hcsm : CsmHyp cfg m := fun _ s hsa => by
    rcases hcs with q | q
    · exact c2 (by rw [n3]; exact q) s hsa
    · unfold Msg.sigAt at hsa
      rw [q m hm n2] at hsa
      cases hsa
  have hinit : cfg.initByte < 256 := by
    obtain ⟨-, v, -, hv⟩ := hT.init
    have e : CTy.u8.conv v.val = v.val % 256 := rfl
    rw [e] at hv
    omega
  have hstart : Start cfg.flag m cst := by
    refine ⟨fun n t w q => hsc.fld _ ?_ n t w q, hsc.mon, hsc.dat, by rw [n3]; exact hsc.len, hsc.out, hsc.calls⟩
    have := hstr m hm (n4 hne)
    unfold typeName at this
    rw [n1] at this
    exact this
  have ep : packName g m = "Pack_".toList ++ d.name ++ "_".toList ++ g.drvOrig := by unfold packName; rw [n1]
  have q := (h4 T hashF now hT m hm (n4 hne) 0 ⟨.u8, 0⟩ (by decide) rfl N hN (startSt cst) cst (start_obs hstart K N) (start_typed hstart _ _ _ _) f hf).2
  rw [ep, hr] at q
  cases hrun : runPack (mkCtx cfg srt m (fltOps T.F) hashF now 0) m (startSt cst) with
  | bad => rw [hrun] at q; exact q.elim
  | genUB => rw [hrun] at q; exact q.elim
  | ok st' =>
    rw [hrun] at q
    obtain ⟨hobs, -, -⟩ := q
    have hdo := runPack_declsOk hrun
    have hnd : (m.signals.map (·.name)).Nodup := names_nodup (c := mkCtx cfg srt m (fltOps T.F) hashF now 0) rfl hdo
    have uniq : ∀ {m2 : Msg}, m2 ∈ srt → m2.msgId = d.id → m2 = m := fun q e => ids_inj hids (hp.1.mem_iff.1 q) hm0 (e.trans n2.symm)
    have desc : ∀ {s : SigDesc} {t : Sig}, s ∈ d.sigs → t ∈ m.signals → t.name = s.member → FromDesc P s t := fun hs ht e => by
      obtain ⟨t', ht', q⟩ := d1 _ hs
      have := nodup_inj hnd ht ht' (e.trans q.name.symm)
      subst this
      exact q
    have hl : m.dlc ≤ (startSt cst).dat.length := by rw [n3]; exact hsc.len
    refine ⟨fun hfl s hsm ⟨m2, q1, q2, t, q3, q4⟩ hu hnc hrange => ?_, fun hfl s hsm method op ⟨m2, q1, q2, q3, q4, t, q5, q6⟩ => ?_⟩
    · have := uniq q1 q2
      subst this
      have ht := sigAt_mem q3
      have hfd := desc hsm ht q4
      have h31 := (runPack_parts hok hrun).2.1 t q3
      have hb : InSigRange t.signed t.lengthBit (cst.fld t.name) := by rw [hfd.signed, hfd.len, q4]; exact hrange
      have a := pack_roll (c := mkCtx cfg srt m2 (fltOps T.F) hashF now 0) rfl hok c1 hcsm hinit hsc.dat hl q3 hfl
        (fun hca e => hnc hca _ _ ⟨m2, q1, q2, rfl, rfl, t, e, q4⟩) (fun hsf => roll_simple (c := mkCtx cfg srt m2 (fltOps T.F) hashF now 0) rfl rfl hdo q3 hfl hsf)
        (sigRange_bound h31 hb) hrun
      have hpos : (0 : Int) < 2 ^ t.lengthBit := by exact_mod_cast Nat.two_pow_pos t.lengthBit
      rw [hobs.fld, ← q4, a, store_of_sigRange (c1 t ht) (hok.2 t ht).1]
      · show (cst.fld t.name + 1) % 2 ^ t.lengthBit = _
        rw [hfd.len]
      · unfold InSigRange
        rw [hfd.signed, hu]
        exact ⟨Int.emod_nonneg _ (by omega), Int.emod_lt_of_pos _ hpos⟩
    · have := uniq q1 q2
      subst this
      have ht := sigAt_mem q5
      have hfd := desc hsm ht q6
      obtain ⟨d0, p1, p2, p3⟩ := pack_csm (c := mkCtx cfg srt m2 (fltOps T.F) hashF now 0) rfl hok c1 hcsm hinit hsc.dat hl hfl q5 hrun
      refine ⟨d0, p1, ⟨by rw [hobs.dat]; exact p2.1, fun p hp => ?_⟩, fun hfit => ?_⟩
      · rw [hobs.dat]
        refine p2.2 p fun k hk => ?_
        unfold Sig.pos Sig.intel
        rw [hfd.intel, hfd.start, hfd.len]
        exact hp k (hfd.len ▸ hk)
      · rw [hobs.fld, ← q6, p3, store_of_sigRange (c1 t ht) (hok.2 t ht).1]
        · show ((hashF d0 m2.dlc m2.msgId m2.csmMethod m2.csmOp % 256 : Nat) : Int) = _
          rw [n3, n2, q3, q4]
        · rw [hfd.signed, hfd.len]
          show InSigRange _ _ ((hashF d0 m2.dlc m2.msgId m2.csmMethod m2.csmOp % 256 : Nat) : Int)
          rw [n3, n2, q3, q4]
          exact hfit

end Verif
