import Verif.Props.EndToEnd
import Verif.Props.Macros
import Verif.Proofs.PhysTotal
/-
C60: physical values, for the compiled text of the generated files.
-/
namespace Verif
open Spec

variable {φ : Type} {drv : Str} {file : Source} {hi lo maxDlc : Nat} {msgs : List Msg} {D0 : Defs} {tick hash : Hook} {maxW initW : Str}

/-- Conditions on a message for calls with physical conversions: those of C55, and for every scaled signal
with an integer member that the conversion macro is right on every raw value (C14). -/
structure Spec.PhysGood (msgs : List Msg) (cfg : Cfg) (m : Msg) : Prop where
  layout : MsgOk m
  type : ∀ s ∈ m.signals, s.TypeOk
  signed : ∀ s ∈ m.signals, s.signed = true → s.lengthBit ≤ 32
  csm : ∀ s, m.sigAt m.csmSig = some s → s.isSimple = true ∧ s.inByte
  init : cfg.initByte < 256
  float : cfg.flag .useSigFloat = true
  phys : ∀ s ∈ m.signals, s.isSimple = false → m.hasPhys = true ∧ s.aligned ∧ OwnMacro msgs s ∧
    (s.isDouble = false → ∃ f o, IntConv s f o ∧ ∀ x, InSigRange s.signed s.lengthBit x → FromSOk s f o x)

/-- The value of a signal in a payload. -/
def Spec.sigValue (s : Sig) (d : List Nat) : Int :=
  if s.signed then signedOf s.lengthBit (rawValue (s.order == .intel) s.startBit s.lengthBit d)
  else (rawValue (s.order == .intel) s.startBit s.lengthBit d : Nat)

/-- The physical members after a call of Unpack: `raw * factor + offset`, computed exactly for integer
members and with the operations of the target for floating members. -/
def Spec.PhysRead (F : Flt φ) (m : Msg) (cst : CSt φ) (r : CSt φ) : Prop :=
  ∀ s ∈ m.signals, s.isSimple = false →
    (s.isDouble = false → ∀ f o, IntConv s f o → r.fld s.nameFloat = sigValue s cst.dat * f + o) ∧
    (s.isDouble = true → r.flt s.nameFloat = F.add (F.mul (F.ofInt (sigValue s cst.dat)) (constF F true s.factor)) (constF F true s.offset))

/-- The physical members of the state are physical values of the signals: for integer members the quotient of
C46 is a raw value and the macro can compute it, for floating members the target converts the quotient to a
raw value. -/
def Spec.PhysWritable (F : Flt φ) (m : Msg) (cst : CSt φ) (raw : Sig → Int) : Prop :=
  ∀ s ∈ m.signals, s.isSimple = false → InSigRange s.signed s.lengthBit (raw s) ∧
    (s.isDouble = false → ∃ f o, IntConv s f o ∧ f ≠ 0 ∧ (CTy.common s.typePhys .i32).InRange (cst.fld s.nameFloat - o) ∧
      (CTy.common s.typePhys .i32).InRange (raw s) ∧ ((CTy.common s.typePhys .i32).signed = false → 0 < f) ∧
      raw s = Int.tdiv (cst.fld s.nameFloat - o) f) ∧
    (s.isDouble = true → (fltOps F).toS s (cst.flt s.nameFloat) = some (raw s))

theorem fromS_same {F : Flt φ} {a b : Sig} (h : SameConv a b) (z : Int) : (fltOps F).fromS a z = (fltOps F).fromS b z := by
  show F.add (F.mul _ (constF F true a.factor)) (constF F true a.offset) = F.add (F.mul _ (constF F true b.factor)) (constF F true b.offset)
  rw [h.1, h.2.1]

theorem toS_same {F : Flt φ} {a b : Sig} (h : SameConv a b) (x : φ) : (fltOps F).toS a x = (fltOps F).toS b x := by
  have hk : convKind a = convKind b := by
    unfold convKind
    rw [h.1, h.2.1, h.2.2.1]
  show F.toInt a.typeRo _ = F.toInt b.typeRo _
  rw [hk, h.1, h.2.1, h.2.2.1, h.2.2.2]

/-- What the functions of a unit do with physical values, if they do what the model does. -/
theorem runs_phys {g : GenDesc} {cfg : Cfg} {K : Look} {mono : Bool} {is : List Spec.Item} (h : DriverOk drv file hi lo maxDlc msgs D0 tick hash maxW initW)
    (hfl : cfg.flag = fun f => (D0.lookup (flagName (driverDesc drv file hi lo) f)).isSome) (h4 : RunsModel φ g msgs mono cfg K is)
    (T : Target φ) (hashF : List Nat → Nat → Nat → Str → Nat → Nat) (now : Nat) (hT : TargetOk g msgs mono cfg K T hashF now)
    (m : Msg) (hm : m ∈ msgs) (hne : m.frameNotEmpty = true) (hg : PhysGood msgs cfg m) (cst : CSt φ) (hs : Start cfg.flag m cst) (f : Nat) (hf : 256 ≤ f) :
    (∀ v : CVal, ∃ r, callUnit f T is (unpackName g m) (unpackArgs v) cst = some r ∧ UnpackDone m cst r ∧ PhysRead T.F m cst r.1) ∧
    (∀ N : OutNames, (cfg.flag .useCanStruct = true → N.len = "DLC".toList ∧ N.ide = "IDE".toList) →
      (cfg.flag .autoRoll = true → ∀ r, m.sigAt m.rollSig = some r → InSigRange r.signed r.lengthBit (cst.fld r.name)) →
      ∀ raw, PhysWritable T.F m cst raw →
      ∃ r, callUnit f T is (packName g m) (packArgs (cfg.flag .useCanStruct) N) cst = some r ∧ PackDone cfg m N { cst with fld := r.1.fld } r ∧
        (∀ s ∈ m.signals, s.isSimple = false → r.1.fld s.name = raw s) ∧
        ∀ n, (∀ s ∈ m.signals, s.isSimple = false → n ≠ s.name) →
          (cfg.flag .autoRoll = true → ∀ s, m.sigAt m.rollSig = some s → n ≠ s.name) →
          (cfg.flag .autoCsm = true → ∀ s, m.sigAt m.csmSig = some s → n ≠ s.name) → r.1.fld n = cst.fld n) := by
  have hfr := h.frame m hm hne
  have hro : RollOk m := by
    obtain ⟨xs, tb, hp⟩ := hfr.print
    exact hp.roll
  have hdec : ∀ dlcArg, (mkCtx cfg msgs m (fltOps T.F) hashF now dlcArg).declsOk = true := fun _ => decide_eq_true (decls_nodup (cfg := cfg) (by rw [hfl]; exact hfr.members))
  have hcs : CsmHyp cfg m := fun _ => hg.csm
  constructor
  · intro v
    have hvr : 0 ≤ CTy.u8.conv v.val ∧ CTy.u8.conv v.val < 256 := by
      show 0 ≤ v.val % 256 ∧ v.val % 256 < 256
      omega
    obtain ⟨d, hd⟩ := Int.eq_ofNat_of_zero_le hvr.1
    have hd2 : d < 256 := by omega
    obtain ⟨N⟩ : Nonempty { N : OutNames // N.len = "DLC".toList ∧ N.ide = "IDE".toList } :=
      ⟨⟨⟨"DLC".toList, "IDE".toList, by decide, by decide, by decide⟩, rfl, rfl⟩⟩
    have q := (h4 T hashF now hT m hm hne d v hd2 hd N.1 (fun _ => N.2) (startSt cst) cst (start_obs hs K N.1) (start_typed hs _ _ _ _) f hf).1
    obtain ⟨st', hst⟩ := C14_defined_partial cfg msgs m (fltOps T.F) hashF now d (startSt cst) hg.layout hs.dat hs.len (hdec d) hro hg.type hm hne hg.signed
      (fun s hss hsc => (hg.phys s hss hsc).2)
    rw [hst] at q
    cases hr : callUnit f T is (unpackName g m) (unpackArgs v) cst with
    | none => rw [hr] at q; exact q.elim
    | some r =>
      rw [hr] at q
      obtain ⟨q1, q2, q3⟩ := q
      have hval : ∀ s ∈ m.signals, s.aligned → st'.fld s.name = sigValue s cst.dat := fun s hss ha =>
        unpack_value (c := mkCtx cfg msgs m (fltOps T.F) hashF now d) rfl hg.layout hs.dat hs.len hst hss (hg.type s hss) ha
      refine ⟨r, rfl, ⟨q3, ?_, ?_⟩, ?_⟩
      · rw [q1.dat]
        exact (unpack_fields (c := mkCtx cfg msgs m (fltOps T.F) hashF now d) rfl hg.layout hs.dat hs.len hst).1
      · intro s hss ha
        rw [q1.fld]
        exact hval s hss ha
      · intro s hss hsc
        obtain ⟨-, ha, hown, hint⟩ := hg.phys s hss hsc
        constructor
        · intro hdb f o hi
          rw [q1.fld, ← hval s hss ha]
          refine (C14_unpack_partial cfg msgs m (fltOps T.F) hashF now d (startSt cst) st' hg.layout hs.dat hs.len hst hg.float hm hne s hss hsc hdb hown f o hi).2 ?_
          obtain ⟨f', o', hi', hok⟩ := hint hdb
          have e1 : f' = f := congrArg Dec.num (hi'.factor.symm.trans hi.factor)
          have e2 : o' = o := congrArg Dec.num (hi'.offset.symm.trans hi.offset)
          subst e1 e2
          refine hok _ ?_
          rw [hval s hss ha]
          exact raw_inRange s cst.dat (hg.layout.2 s hss).1
        · intro hdb
          obtain ⟨s0, l1, l2, -, -⟩ := C16_own_partial msgs m s hm hne hss hsc hown
          rw [q1.flt, unpack_float (c := mkCtx cfg msgs m (fltOps T.F) hashF now d) rfl rfl hg.layout hst hss hsc hg.float hdb l1 (l2.2.2.1.trans hdb), ← hval s hss ha]
          exact fromS_same l2 _
  · intro N hN hroll raw hraw
    have q := (h4 T hashF now hT m hm hne 0 ⟨.u8, 0⟩ (by decide) rfl N hN (startSt cst) cst (start_obs hs K N) (start_typed hs _ _ _ _) f hf).2
    have hpr : ∀ s ∈ m.signals, s.isSimple = false → s.isDouble = false → s.typePhys.InRange (cst.fld s.nameFloat) := by
      intro s hss hsc hdb
      have hd := physDecl_of_mem (c := mkCtx cfg msgs m (fltOps T.F) hashF now 0) (m := m) rfl (nodup_of_declsOk (hdec 0)) hss hsc hg.float hdb
      have ht := start_typed (msgs := msgs) hs (fltOps T.F) hashF now 0 _ _ hd
      have ht' : s.typePhys.conv (cst.fld s.nameFloat) = cst.fld s.nameFloat := ht
      rw [← ht']
      exact CTy.inRange_conv _ _
    obtain ⟨st', hst⟩ := pack_phys_total (c := mkCtx cfg msgs m (fltOps T.F) hashF now 0) (st := startSt cst) rfl rfl hg.layout hg.type hg.csm hg.init (hdec 0) hro
      (fun s hss => by
        cases hsc : s.isSimple
        case true => exact Or.inl hsc
        refine Or.inr (Or.inr ?_)
        obtain ⟨-, ha, hown, hint⟩ := hg.phys s hss hsc
        obtain ⟨w1, w2, w3⟩ := hraw s hss hsc
        obtain ⟨s0, l1, l2, -, l4⟩ := C16_own_partial msgs m s hm hne hss hsc hown
        refine ⟨s0, l1, ?_⟩
        cases hdb : s.isDouble
        · refine Or.inr ⟨rfl, l2.2.2.1.trans hdb, ?_⟩
          obtain ⟨f, o, hi, hf0, t1, t2, t3, t4⟩ := w2 hdb
          rw [l4]
          exact ⟨_, macroToS_value hi hf0 (hpr s hss hsc hdb) t1 (show CTy.InRange _ (Int.tdiv (cst.fld s.nameFloat - o) f) by rw [← t4]; exact t2) t3⟩
        · refine Or.inl ⟨rfl, raw s, ?_⟩
          exact (toS_same l2 _).trans (w3 hdb))
      hs.dat hs.len fun hfr r hrr => sigRange_bound (hro r hrr) (hroll hfr r hrr)
    rw [hst] at q
    cases hr : callUnit f T is (packName g m) (packArgs (cfg.flag .useCanStruct) N) cst with
    | none => rw [hr] at q; exact q.elim
    | some r =>
      rw [hr] at q
      obtain ⟨q1, q2, q3⟩ := q
      obtain ⟨p1, p2, -, -, -, -, p3, p4, p5⟩ := pack_bits (c := mkCtx cfg msgs m (fltOps T.F) hashF now 0) rfl hg.layout hg.type hcs hg.init hs.dat hs.len hst
      refine ⟨r, rfl, ⟨q3, ?_, ?_, ?_, ?_, pack_outs hg.layout q1 p3 p4 p5, fun _ _ _ => rfl⟩, ?_, ?_⟩
      · intro hmax
        rw [q1.dat, q1.fld]
        exact (C05_pack_bits cfg msgs m (fltOps T.F) hashF now 0 (startSt cst) st' hg.layout hg.type hcs hg.init hmax hs.dat hs.len hst).1
      · intro hmax
        rw [q1.dat]
        exact (C05_pack_bits cfg msgs m (fltOps T.F) hashF now 0 (startSt cst) st' hg.layout hg.type hcs hg.init hmax hs.dat hs.len hst).2.1
      · rw [q1.dat]; exact p1
      · rw [q1.dat]; exact p2
      · intro s hss hsc
        obtain ⟨hhp, ha, hown, hint⟩ := hg.phys s hss hsc
        obtain ⟨w1, w2, w3⟩ := hraw s hss hsc
        rw [q1.fld]
        cases hdb : s.isDouble
        · obtain ⟨f, o, hi, hf0, t1, t2, t3, t4⟩ := w2 hdb
          rw [t4]
          exact C46_pack_phys_partial cfg msgs m (fltOps T.F) hashF now 0 (startSt cst) st' hg.layout hg.type hcs hg.init hs.dat hs.len hst hg.float hhp hm hne s hss hsc hdb hown
            f o hi hf0 (hpr s hss hsc hdb) t1 (show CTy.InRange _ (Int.tdiv (cst.fld s.nameFloat - o) f) by rw [← t4]; exact t2) t3
            (show InSigRange _ _ (Int.tdiv (cst.fld s.nameFloat - o) f) by rw [← t4]; exact w1)
        · obtain ⟨s0, l1, l2, -, -⟩ := C16_own_partial msgs m s hm hne hss hsc hown
          obtain ⟨z, hz, e⟩ := pack_float (c := mkCtx cfg msgs m (fltOps T.F) hashF now 0) rfl rfl hg.layout hg.type hcs hg.init hs.dat hs.len hst hhp hss hsc hg.float hdb l1
          have hz' : z = raw s := by
            have := hz.symm.trans ((toS_same l2 _).trans (w3 hdb))
            exact Option.some.inj this
          rw [e, hz', conv_of_sigRange (hg.type s hss) (hg.layout.2 s hss).1 w1]
          exact store_of_sigRange (hg.type s hss) (hg.layout.2 s hss).1 w1
      · intro n n1 n2 n3
        rw [q1.fld]
        refine C05_fields_kept cfg msgs m (fltOps T.F) hashF now 0 (startSt cst) st' hg.layout hg.type hcs hg.init hs.dat hs.len hst n n2 n3 ?_
        intro _ t ht hts
        exact n1 t ht hts

/-- **C60**.  For every driver that can be read (C54), compiled with physical conversions: every call of
`Unpack_M` is defined and leaves in the physical members the values `raw * factor + offset` of the payload;
every call of `Pack_M` with physical values in the physical members is defined and sends their raw values,
whatever the raw members held before. -/
theorem C60_compiled_partial (h : DriverOk drv file hi lo maxDlc msgs D0 tick hash maxW initW) (ext64 : Bool) (maxV initV : Nat) :
    let g := driverDesc drv file hi lo
    let cfg := cfgOf g D0 ext64 maxV initV
    let K := lookOf g D0 msgs tick hash maxW initW
    ∃ hops sops is, mainHeaderOps g maxDlc msgs = some hops ∧ mainSourceOps g msgs = some sops ∧
      (∃ F, ∀ f, F ≤ f → compile f (genFiles g hops msgs) D0 (opsText sops) = some is) ∧
      ∀ (T : Target φ) (hashF : List Nat → Nat → Nat → Str → Nat → Nat) (now : Nat),
        TargetOk g msgs (D0.lookup (monoName g)).isSome cfg K T hashF now →
        ∀ m ∈ msgs, m.frameNotEmpty = true → PhysGood msgs cfg m → ∀ (cst : CSt φ), Start cfg.flag m cst → ∀ f, 256 ≤ f →
          (∀ v : CVal, ∃ r, callUnit f T is (unpackName g m) (unpackArgs v) cst = some r ∧ UnpackDone m cst r ∧ PhysRead T.F m cst r.1) ∧
          (∀ N : OutNames, (cfg.flag .useCanStruct = true → N.len = "DLC".toList ∧ N.ide = "IDE".toList) →
            (cfg.flag .autoRoll = true → ∀ r, m.sigAt m.rollSig = some r → InSigRange r.signed r.lengthBit (cst.fld r.name)) →
            ∀ raw, PhysWritable T.F m cst raw →
            ∃ r, callUnit f T is (packName g m) (packArgs (cfg.flag .useCanStruct) N) cst = some r ∧ PackDone cfg m N { cst with fld := r.1.fld } r ∧
              (∀ s ∈ m.signals, s.isSimple = false → r.1.fld s.name = raw s) ∧
              ∀ n, (∀ s ∈ m.signals, s.isSimple = false → n ≠ s.name) →
                (cfg.flag .autoRoll = true → ∀ s, m.sigAt m.rollSig = some s → n ≠ s.name) →
                (cfg.flag .autoCsm = true → ∀ s, m.sigAt m.csmSig = some s → n ≠ s.name) → r.1.fld n = cst.fld n) := by
  intro g cfg K
  obtain ⟨hops, sops, is, h1, h2, h3, h4⟩ := C54_model_partial (φ := φ) h ext64 maxV initV
  exact ⟨hops, sops, is, h1, h2, h3, fun T hashF now hT m hm hne hg cst hs f hf => runs_phys h rfl h4 T hashF now hT m hm hne hg cst hs f hf⟩

end Verif
