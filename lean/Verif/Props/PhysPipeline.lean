import Verif.Props.Pipeline
import Verif.Props.PhysText
import Verif.Proofs.PhysDesc
/-
C60: physical values, from the text of the DBC file.
-/
namespace Verif
open Spec

variable {φ : Type} {drv : Str} {file : Source} {D0 : Defs} {tick hash : Hook} {maxW initW : Str}

/-- The member with the physical value (README: scaled signals get a second member with the suffix `_phys`). -/
def Spec.SigDesc.physMember (d : SigDesc) : Str := d.name ++ "_phys".toList

/-- The raw value of a signal in a payload. -/
def Spec.SigDesc.raw (d : SigDesc) (dat : List Nat) : Int :=
  if d.signed then signedOf d.len (rawValue d.intel d.start d.len dat) else (rawValue d.intel d.start d.len dat : Nat)

/-- The physical members after Unpack: `raw * factor + offset` with the factor and offset of the file, exact for
whole factors and offsets and otherwise with the operations of the target (the constants as printed). -/
def Spec.UnpackedPhys (F : Flt φ) (d : MsgDesc) (cst : CSt φ) (r : CSt φ) : Prop :=
  ∀ s ∈ d.sigs, ¬ s.plain →
    (s.whole → r.fld s.physMember = s.raw cst.dat * s.f + s.o) ∧
    (¬ s.whole → r.flt s.physMember = F.add (F.mul (F.ofInt (s.raw cst.dat)) (constF F true s.factor.value)) (constF F true s.offset.value))

/-- The physical members hold the physical values of the raw values `raw` (a function of the raw member). -/
def Spec.PhysSet (F : Flt φ) (d : MsgDesc) (cst : CSt φ) (raw : Str → Int) : Prop :=
  ∀ s ∈ d.sigs, ¬ s.plain → InSigRange s.signed s.len (raw s.member) ∧
    (s.whole → cst.fld s.physMember = raw s.member * s.f + s.o) ∧
    (¬ s.whole → F.toInt (idealType s.signed s.len)
      (F.div (F.sub (cst.flt s.physMember) (constF F true s.offset.value)) (constF F true s.factor.value)) = some (raw s.member))

/-- What the functions of a unit do with the physical values of the messages a file states, if they do what the model does. -/
theorem runs_physStated {P : Platform} (hs : SortsByStart P) (hc : P.charMax = 127) (hu : P.oob = none)
    {text : Str} {out : DbcList} (h : trimDbcText P text = .ok out) {srt : List Msg} (hp : SortedBy srt out.msgs) (hD : DriverOk drv file out.verHi out.verLow out.maxDlc srt D0 tick hash maxW initW)
    {cfg : Cfg} {K : Look} {mono : Bool} {is : List Spec.Item} (hcf : cfg.flag = fun f => (D0.lookup (flagName (driverDesc drv file out.verHi out.verLow) f)).isSome)
    (hfl : cfg.flag .useSigFloat = true) (h4 : RunsModel φ (driverDesc drv file out.verHi out.verLow) srt mono cfg K is)
    (hstr : ∀ m ∈ srt, m.frameNotEmpty = true → structOf is (typeName m) = some (structMembers cfg.flag m))
    (T : Target φ) (hashF : List Nat → Nat → Nat → Str → Nat → Nat) (now : Nat) (hT : TargetOk (driverDesc drv file out.verHi out.verLow) srt mono cfg K T hashF now)
    (d : MsgDesc) (hst : Stated (fileLines P text) d) (hd : MsgDescOk d) (hne : d.sigs ≠ []) (hsg : ∀ s ∈ d.sigs, s.signed = true → s.len ≤ 32)
    (hph : ∀ s ∈ d.sigs, ¬ s.plain → ScaleOk s ∧ ∀ m ∈ srt, ∀ t ∈ m.signals, t.name = s.member → OwnMacro srt t)
    (hcs : d.dlc ≤ 8 ∨ ∀ m ∈ srt, m.msgId = d.id → m.csmSig = none)
    (cst : CSt φ) (hsc : StartIn is d cst) (f : Nat) (hf : 256 ≤ f) :
    (∀ v : CVal, ∃ r, callUnit f T is ("Unpack_".toList ++ d.name ++ "_".toList ++ drv) (unpackArgs v) cst = some r ∧ Unpacked d cst r ∧ UnpackedPhys T.F d cst r.1) ∧
    (∀ N : OutNames, (cfg.flag .useCanStruct = true → N.len = "DLC".toList ∧ N.ide = "IDE".toList) →
      (cfg.flag .autoRoll = true → ∀ s ∈ d.sigs, InSigRange s.signed s.len (cst.fld s.member)) →
      ∀ raw, PhysSet T.F d cst raw →
      ∃ r, callUnit f T is ("Pack_".toList ++ d.name ++ "_".toList ++ drv) (packArgs (cfg.flag .useCanStruct) N) cst = some r ∧ Packed cfg.maxDlc cfg.initByte N d cst r ∧
        (∀ s ∈ d.sigs, ¬ s.plain → r.1.fld s.member = raw s.member) ∧
        ∀ n, (∀ s ∈ d.sigs, ¬ s.plain → n ≠ s.member) → ¬ AutoMember cfg.flag srt d n → r.1.fld n = cst.fld n) := by
  obtain ⟨m, hm, n1, n2, n3, n0, n4, n5, ss, hF, hperm⟩ := stated_message hs h hd hst
  have hm0 := hm
  replace hm := hp.1.mem_iff.2 hm
  obtain ⟨d1, d2⟩ := desc_signals hF hperm
  have hoob : ∀ v, P.oob = some v → 2 ^ 32 ≤ CTy.toU .u64 v := by rw [hu]; intro v hv; cases hv
  have hok : MsgOk m := by
    refine ⟨by rw [n3]; exact hd.dlc.2, fun s hsm => ?_⟩
    obtain ⟨e, he, q⟩ := d2 s hsm
    have hx := hd.sigs e he
    refine ⟨by rw [q.len]; exact hx.pos, by rw [q.len]; exact hx.len, ?_⟩
    unfold Sig.fits Sig.intel
    rw [q.intel, q.start, q.len, n3]
    exact hx.fits
  obtain ⟨c1, c2⟩ := C50_generator_conditions P hs hc hoob text out h m hm0 hok
  have hpl : ∀ {e : SigDesc} {s : Sig}, FromDesc P e s → s.isSimple = false → ¬ e.plain := by
    intro e s q hsi hp
    rw [q.simple.2 hp] at hsi
    cases hsi
  have hpl' : ∀ {e : SigDesc} {s : Sig}, FromDesc P e s → ¬ e.plain → s.isSimple = false := by
    intro e s q hp
    cases hsi : s.isSimple
    · rfl
    · exact absurd (q.simple.1 hsi) hp
  have hdb : ∀ {e : SigDesc} {s : Sig}, FromDesc P e s → (s.isDouble = false ↔ e.whole) := by
    intro e s q
    have := q.double
    cases hb : s.isDouble
    · rw [hb] at this
      refine ⟨fun _ => ?_, fun _ => rfl⟩
      refine ⟨?_, ?_⟩
      · refine Classical.byContradiction fun hn => ?_
        have := this.2 (Or.inl hn)
        cases this
      · refine Classical.byContradiction fun hn => ?_
        have := this.2 (Or.inr hn)
        cases this
    · refine ⟨fun q => (by cases q), fun hw => ?_⟩
      rcases this.1 hb with q | q
      · exact absurd hw.1 q
      · exact absurd hw.2 q
  have hgood : PhysGood srt cfg m := by
    refine ⟨hok, c1, fun s hsm q => ?_, fun s hsa => ?_, ?_, hfl, fun s hsm hsi => ?_⟩
    · obtain ⟨e, he, qe⟩ := d2 s hsm
      rw [qe.len]
      exact hsg e he (qe.signed.symm.trans q)
    · rcases hcs with q | q
      · exact c2 (by rw [n3]; exact q) s hsa
      · rw [q m hm n2] at hsa
        cases hsa
    · obtain ⟨-, v, -, hv⟩ := hT.init
      have e : CTy.u8.conv v.val = v.val % 256 := rfl
      rw [e] at hv
      omega
    · obtain ⟨e, he, q⟩ := d2 s hsm
      obtain ⟨k1, k2⟩ := hph e he (hpl q hsi)
      refine ⟨n5 ⟨e, he, hpl q hsi⟩, ?_, k2 m hm s hsm q.name, fun hb => ?_⟩
      · unfold Sig.aligned Sig.pos Sig.intel
        rw [q.len, q.intel, q.start]
        exact k1.aligned
      · obtain ⟨r1, r2⟩ := scale_ok hc hu (hd.sigs e he).pos (hd.sigs e he).len (hsg e he) k1 ((hdb q).1 hb) q
        refine ⟨e.f, e.o, r1, fun x hx => (r2 x ?_).1⟩
        rw [← q.signed, ← q.len]
        exact hx
  have hstart : Start cfg.flag m cst := by
    refine ⟨fun n t w q => hsc.fld _ ?_ n t w q, hsc.mon, hsc.dat, by rw [n3]; exact hsc.len, hsc.out, hsc.calls⟩
    have := hstr m hm (n4 hne)
    unfold typeName at this
    rw [n1] at this
    exact this
  obtain ⟨u, p⟩ := runs_phys hD hcf h4 T hashF now hT m hm (n4 hne) hgood cst hstart f hf
  have eu : unpackName (driverDesc drv file out.verHi out.verLow) m = "Unpack_".toList ++ d.name ++ "_".toList ++ drv := by unfold unpackName; rw [n1]; rfl
  have ep : packName (driverDesc drv file out.verHi out.verLow) m = "Pack_".toList ++ d.name ++ "_".toList ++ drv := by unfold packName; rw [n1]; rfl
  constructor
  · intro v
    obtain ⟨r, r1, ⟨r2, r3, r4⟩, r5⟩ := u v
    rw [eu] at r1
    refine ⟨r, r1, ⟨by rw [← n2]; exact r2, r3, fun e he ha => ?_⟩, fun e he hp => ?_⟩
    · obtain ⟨s, hsm, q⟩ := d1 e he
      have := r4 s hsm (by unfold Sig.aligned Sig.pos Sig.intel; rw [q.len, q.intel, q.start]; exact ha)
      rw [q.name, q.signed, q.len, q.intel, q.start] at this
      exact this
    · obtain ⟨s, hsm, q⟩ := d1 e he
      obtain ⟨k1, k2⟩ := r5 s hsm (hpl' q hp)
      have ev : sigValue s cst.dat = e.raw cst.dat := by
        unfold sigValue SigDesc.raw
        rw [q.signed, q.len, q.intel, q.start]
      rw [ev, q.phys hp] at k1 k2
      rw [q.factor, q.offset] at k2
      refine ⟨fun hw => k1 ((hdb q).2 hw) e.f e.o ?_, fun hw => k2 ?_⟩
      · exact (scale_ok hc hu (hd.sigs e he).pos (hd.sigs e he).len (hsg e he) (hph e he hp).1 hw q).1
      · cases hb : s.isDouble
        · exact absurd ((hdb q).1 hb) hw
        · rfl
  · intro N hN hr raw hset
    obtain ⟨r, r1, ⟨r2, r3, r4, r5, r6, ⟨o1, o2, -⟩, -⟩, r7, r8⟩ := p N hN (fun ha s hsa => by
      have hsm : s ∈ m.signals := by
        unfold Msg.sigAt at hsa
        cases hq : m.rollSig with
        | none => rw [hq] at hsa; cases hsa
        | some i => rw [hq] at hsa; exact List.mem_of_getElem? hsa
      obtain ⟨e, he, q⟩ := d2 s hsm
      rw [q.signed, q.len, q.name]
      exact hr ha e he) (fun s => raw s.name) (fun s hsm hsi => by
      obtain ⟨e, he, q⟩ := d2 s hsm
      have hp := hpl q hsi
      obtain ⟨w1, w2, w3⟩ := hset e he hp
      have ephys : s.nameFloat = e.physMember := q.phys hp
      dsimp only
      rw [q.signed, q.len, q.name]
      refine ⟨w1, fun hb => ?_, fun hb => ?_⟩
      · have hw := (hdb q).1 hb
        obtain ⟨v1, v2⟩ := scale_ok hc hu (hd.sigs e he).pos (hd.sigs e he).len (hsg e he) (hph e he hp).1 hw q
        obtain ⟨-, t1, t2, t3, t4⟩ := v2 _ w1
        refine ⟨e.f, e.o, v1, t1, ?_, t2, t4, ?_⟩
        · rw [ephys, w2 hw, Int.add_sub_cancel]
          exact t3
        · rw [ephys, w2 hw, Int.add_sub_cancel, Int.mul_tdiv_cancel _ t1]
      · have hw : ¬ e.whole := fun hw => by rw [(hdb q).2 hw] at hb; cases hb
        have ht : s.typeRo = idealType e.signed e.len := by
          obtain ⟨s1, hg, t1, -⟩ := q.type
          obtain ⟨mx, mn, ro, ph, hrl, e1, -⟩ := getSigType_fields hg
          rw [t1, e1]
          exact rawLimits_type (h := P.toHost) hc hoob (hd.sigs e he).pos (hd.sigs e he).len hrl
        have hk : convKind s = .full := by unfold convKind; rw [if_pos hb]
        show T.F.toInt s.typeRo (match convKind s with
          | .full => T.F.div (T.F.sub (cst.flt s.nameFloat) (constF T.F s.isDouble s.offset)) (constF T.F s.isDouble s.factor)
          | .factor => T.F.div (cst.flt s.nameFloat) (constF T.F s.isDouble s.factor)
          | .offset => T.F.sub (cst.flt s.nameFloat) (constF T.F s.isDouble s.offset)) = _
        rw [hk, hb, ht, q.offset, q.factor, ephys]
        exact w3 hw)
    rw [ep] at r1
    refine ⟨r, r1, ⟨by rw [← n2]; exact r2, by rw [o1, n3], by rw [o2, n0], r5, r6, fun hmax p => ⟨fun hp => ?_, fun hp => ?_⟩⟩, fun e he hp => ?_, fun n hn ha => ?_⟩
    · rw [r3 (by rw [n3]; exact hmax) p (by rw [n3]; exact hp)]
      refine or_congr Iff.rfl ⟨?_, ?_⟩
      · rintro ⟨s, hsm, k, hk, hb, hi⟩
        obtain ⟨e, he, q⟩ := d2 s hsm
        rw [q.len] at hk
        rw [q.intel, q.start, q.len] at hb
        rw [q.name] at hi
        exact ⟨e, he, k, hk, hb, hi⟩
      · rintro ⟨e, he, k, hk, hb, hi⟩
        obtain ⟨s, hsm, q⟩ := d1 e he
        rw [← q.len] at hk
        rw [← q.intel, ← q.start, ← q.len] at hb
        rw [← q.name] at hi
        exact ⟨s, hsm, k, hk, hb, hi⟩
    · exact r4 (by rw [n3]; exact hmax) p (by rw [n3]; exact hp)
    · obtain ⟨s, hsm, q⟩ := d1 e he
      have := r7 s hsm (hpl' q hp)
      rw [q.name] at this
      exact this
    · refine r8 n (fun s hsm hsi => ?_) (fun q s hs e => ha ⟨m, hm, n2, .inl ⟨q, s, hs, e⟩⟩) (fun q s hs e => ha ⟨m, hm, n2, .inr ⟨q, s, hs, e⟩⟩)
      obtain ⟨e, he, q⟩ := d2 s hsm
      rw [q.name]
      exact hn e he (hpl q hsi)

/-- **C60**, from the text of the DBC file to physical values: for every file text the scanner gets through
(without undefined conversions), every driver name and every set of user macros that can be read and that
switches physical values on, and every message the file states: in the compiled text of the generated files
`Unpack_M_drv` is defined on every payload and leaves `raw * factor + offset` in the physical members; and
`Pack_M_drv`, called with physical members that hold the physical values of some raw values, is defined, puts
those raw values into the raw members and sends their bits at the places the file defines.
`srt` are the parsed messages sorted by id (as in C59).

Full statement: also for factors that are not positive, and for values of the conversion outside of `int`.
Missing because the conversion is wrong there in general (C13, C14, C15). -/
theorem C60_pipeline_partial (P : Platform) (hs : SortsByStart P) (hc : P.charMax = 127) (hu : P.oob = none)
    (text : Str) (out : DbcList) (h : trimDbcText P text = .ok out) (srt : List Msg) (hp : SortedBy srt out.msgs)
    (hD : DriverOk drv file out.verHi out.verLow out.maxDlc srt D0 tick hash maxW initW) (ext64 : Bool) (maxV initV : Nat) :
    let g := driverDesc drv file out.verHi out.verLow
    let cfg := cfgOf g D0 ext64 maxV initV
    let K := lookOf g D0 srt tick hash maxW initW
    cfg.flag .useSigFloat = true →
    ∃ hops sops is, mainHeaderOps g out.maxDlc srt = some hops ∧ mainSourceOps g srt = some sops ∧
      (∃ F, ∀ f, F ≤ f → compile f (genFiles g hops srt) D0 (opsText sops) = some is) ∧
      ∀ (T : Target φ) (hashF : List Nat → Nat → Nat → Str → Nat → Nat) (now : Nat),
        TargetOk g srt (D0.lookup (monoName g)).isSome cfg K T hashF now →
        ∀ d, Stated (fileLines P text) d → MsgDescOk d → d.sigs ≠ [] → (∀ s ∈ d.sigs, s.signed = true → s.len ≤ 32) →
        (∀ s ∈ d.sigs, ¬ s.plain → ScaleOk s ∧ ∀ m ∈ srt, ∀ t ∈ m.signals, t.name = s.member → OwnMacro srt t) →
        (d.dlc ≤ 8 ∨ ∀ m ∈ srt, m.msgId = d.id → m.csmSig = none) →
        ∀ cst : CSt φ, StartIn is d cst → ∀ f, 256 ≤ f →
          (∀ v : CVal, ∃ r, callUnit f T is ("Unpack_".toList ++ d.name ++ "_".toList ++ drv) (unpackArgs v) cst = some r ∧ Unpacked d cst r ∧
            UnpackedPhys T.F d cst r.1) ∧
          (∀ N : OutNames, (cfg.flag .useCanStruct = true → N.len = "DLC".toList ∧ N.ide = "IDE".toList) →
            (cfg.flag .autoRoll = true → ∀ s ∈ d.sigs, InSigRange s.signed s.len (cst.fld s.member)) →
            ∀ raw, PhysSet T.F d cst raw →
            ∃ r, callUnit f T is ("Pack_".toList ++ d.name ++ "_".toList ++ drv) (packArgs (cfg.flag .useCanStruct) N) cst = some r ∧ Packed maxV initV N d cst r ∧
              (∀ s ∈ d.sigs, ¬ s.plain → r.1.fld s.member = raw s.member) ∧
              ∀ n, (∀ s ∈ d.sigs, ¬ s.plain → n ≠ s.member) → ¬ AutoMember cfg.flag srt d n → r.1.fld n = cst.fld n) := by
  intro g cfg K hfl
  obtain ⟨hops, sops, is, h1, h2, ⟨F, h3⟩, h4⟩ := C54_model_partial (φ := φ) hD ext64 maxV initV
  exact ⟨hops, sops, is, h1, h2, ⟨F, h3⟩, fun T hashF now hT d hst hd hne hsg hph hcs cst hsc f hf =>
    runs_physStated hs hc hu h hp hD rfl hfl h4 (fun m hm hne => driver_structs hD h1 h2 h3 hm hne) T hashF now hT d hst hd hne hsg hph hcs cst hsc f hf⟩

/-! ### Example: a message with a scaled signal -/

namespace Fix

def ratio : SigDesc :=
  { name := "Ratio".toList, mux := .plain, start := 0, len := 10, intel := true, signed := false, factor := ⟨false, 2, []⟩, offset := ⟨true, 40, []⟩,
    min := ⟨false, 0, []⟩, max := ⟨false, 1, []⟩, unit := [], recs := ["Dash".toList] }

def gear : MsgDesc := { id := 100, ext := false, name := "Gear".toList, dlc := 2, tx := "ECU".toList, sigs := [ratio] }

theorem gearStated : Stated (fileLines platIns pipeText) gear := by
  refine ⟨(fileLines platIns pipeText).take 9, (fileLines platIns pipeText).drop 11, by decide +kernel, fun l hl => noSigB_sound ?_⟩
  revert l
  decide +kernel

theorem gearOk : MsgDescOk gear := by
  refine ⟨by decide, by decide, by decide, by decide, fun s hs => ?_⟩
  rw [List.mem_singleton.1 (show s ∈ [ratio] from hs)]
  refine ⟨⟨⟨by decide, by decide⟩, by unfold LitsOk; decide, ⟨by decide, fun a x z b e => ?_⟩, by decide, fun r hr => ?_⟩, by decide, by decide, by decide, by decide,
    by decide, by unfold Fits; decide⟩
  · simp [ratio] at e
  · rw [List.mem_singleton.1 (show r ∈ ["Dash".toList] from hr)]
    exact ⟨by decide, by decide⟩

theorem ratioScale : ScaleOk ratio := by
  refine ⟨by decide, fun _ => by decide, fun _ _ x hx => ?_, fun _ _ h => absurd h (by decide)⟩
  have h1 : 0 ≤ x ∧ x < 1024 := hx
  have e1 : ratio.f = 2 := by decide
  have e2 : ratio.o = -40 := by decide
  rw [e1, e2]
  omega

instance (a b : Sig) : Decidable (SameConv a b) := inferInstanceAs (Decidable (_ ∧ _))
instance (msgs : List Msg) (t : Sig) : Decidable (OwnMacro msgs t) := by unfold OwnMacro; infer_instance

theorem ratioOwn : ∀ m ∈ pipeMsgs, ∀ t ∈ m.signals, t.name = ratio.member → OwnMacro pipeMsgs t := by
  decide +kernel

end Fix

/-- The raw value 50 is the physical value 60: Unpack computes it, and Pack sends it. -/
example : ∃ hops sops is, mainHeaderOps Fix.pipeG Fix.pipeOut.maxDlc Fix.pipeMsgs = some hops ∧ mainSourceOps Fix.pipeG Fix.pipeMsgs = some sops ∧
    (∃ F, ∀ f, F ≤ f → compile f (genFiles Fix.pipeG hops Fix.pipeMsgs) Fix.userMax (opsText sops) = some is) ∧
    (∃ r, callUnit 256 Fix.target is "Unpack_Gear_drv".toList (unpackArgs ⟨.u8, 2⟩) { Fix.cst0 with dat := [50, 0] } = some r ∧
      r.1.fld "Ratio_phys".toList = 60) ∧
    ∀ N : OutNames, N.len = "DLC".toList ∧ N.ide = "IDE".toList → ∃ r, callUnit 256 Fix.target is "Pack_Gear_drv".toList (packArgs true N)
        { Fix.cst0 with dat := [7, 7], fld := fun n => if n = "Ratio_phys".toList then 60 else 0 } = some r ∧
      r.1.fld "Ratio_ro".toList = 50 := by
  obtain ⟨hops, sops, is, h1, h2, h3, h4⟩ := C60_pipeline_partial (φ := Unit) platIns platIns_sorts rfl rfl Fix.pipeText Fix.pipeOut Fix.pipeOk Fix.pipeMsgs Fix.pipeSorted Fix.pipeDrv true 8 0 (by decide +kernel)
  have hg : ∀ s ∈ Fix.gear.sigs, s = Fix.ratio := fun s hs => List.mem_singleton.1 hs
  have h5 := h4 Fix.target Fix.pipeHash 77 Fix.pipeTarget Fix.gear Fix.gearStated Fix.gearOk (by decide) (by decide)
    (fun s hs _ => by rw [hg s hs]; exact ⟨Fix.ratioScale, Fix.ratioOwn⟩) (Or.inl (by decide))
  refine ⟨hops, sops, is, h1, h2, h3, ?_, fun N hN => ?_⟩
  · have hst : StartIn is Fix.gear { Fix.cst0 with dat := [50, 0] } := by
      refine ⟨fun _ _ n t w _ => ?_, fun _ _ => Int.le_refl _, ?_, by decide, rfl, rfl⟩
      · cases t <;> rfl
      · intro b hb
        revert b
        decide
    obtain ⟨r, r1, -, r2⟩ := (h5 _ hst 256 (Nat.le_refl _)).1 ⟨.u8, 2⟩
    refine ⟨r, r1, ?_⟩
    exact ((r2 Fix.ratio (List.mem_singleton.2 rfl) (by decide)).1 (by decide)).trans (by decide +kernel)
  · have hst : StartIn is Fix.gear { Fix.cst0 with dat := [7, 7], fld := fun n => if n = "Ratio_phys".toList then 60 else 0 } := by
      refine ⟨fun _ _ n t w _ => ?_, fun _ _ => Int.le_refl _, ?_, by decide, rfl, rfl⟩
      · dsimp only
        split <;> cases t <;> rfl
      · intro b hb
        revert b
        decide
    obtain ⟨r, r1, -, r2, -⟩ := (h5 _ hst 256 (Nat.le_refl _)).2 N (fun _ => hN) (fun _ s hs => by rw [hg s hs]; exact ⟨Int.le_refl _, by decide⟩) (fun _ => 50)
      (fun s hs _ => by rw [hg s hs]; exact ⟨⟨by decide, by decide⟩, fun _ => by decide, fun q => absurd (show Fix.ratio.whole by decide) q⟩)
    exact ⟨r, r1, r2 Fix.ratio (List.mem_singleton.2 rfl) (by decide)⟩

end Verif
