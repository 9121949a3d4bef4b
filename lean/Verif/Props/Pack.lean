import Verif.Proofs.RoundTrip
import Verif.Props.Fixtures
/-
C05-C09: the frames Pack produces.
-/
namespace Verif
open Spec
variable {φ : Type}

section
variable (cfg : Cfg) (msgs : List Msg) (m : Msg) (fl : FloatOps φ)
  (hash : List Nat → Nat → Nat → Str → Nat → Nat) (tick dlcArg : Nat)

/-! ### C05 -/

/-- **C05**: after Pack, payload bit `p` of the message is set exactly when the initial byte has it
set or some signal has a set bit that the DBC puts at `p`; bytes after the message are untouched.
Any number of signals, any layouts inside the payload (overlapping ones included), any field
values, every configuration. -/
theorem C05_pack_bits (st st' : St φ) (hm : MsgOk m) (hty : ∀ s ∈ m.signals, s.TypeOk)
    (hcs : CsmHyp cfg m) (hi : cfg.initByte < 256) (hmax : m.dlc ≤ cfg.maxDlc)
    (hd : IsPayload st.dat) (hlen : m.dlc ≤ st.dat.length)
    (h : runPack (mkCtx cfg msgs m fl hash tick dlcArg) m st = .ok st') :
    (∀ p, p < 8 * m.dlc → (payloadBit st'.dat p = true ↔
      cfg.initByte.testBit (p % 8) = true ∨
      ∃ s ∈ m.signals, ∃ k, k < s.lengthBit ∧
        bitPos (s.order == .intel) s.startBit s.lengthBit k = p ∧ intBit (st'.fld s.name) k = true)) ∧
    (∀ p, 8 * m.dlc ≤ p → payloadBit st'.dat p = payloadBit st.dat p) ∧
    st'.dat.length = st.dat.length ∧ IsPayload st'.dat := by
  obtain ⟨h1, h2, h3, -⟩ := pack_bits (c := mkCtx cfg msgs m fl hash tick dlcArg) rfl hm hty hcs hi hd hlen h
  refine ⟨?_, ?_, h1, h2⟩
  · intro p hp
    rw [h3]
    have : baseBit (mkCtx cfg msgs m fl hash tick dlcArg).cfg m.dlc st.dat p = cfg.initByte.testBit (p % 8) := by
      unfold baseBit
      rw [if_pos]
      · rfl
      · show p / 8 < min m.dlc cfg.maxDlc
        omega
    rw [this]
    rfl
  · intro p hp
    have hbase : baseBit (mkCtx cfg msgs m fl hash tick dlcArg).cfg m.dlc st.dat p = payloadBit st.dat p := by
      unfold baseBit
      rw [if_neg]
      show ¬ p / 8 < min m.dlc cfg.maxDlc
      omega
    rw [Bool.eq_iff_iff, h3, hbase]
    constructor
    · rintro (h | ⟨s, hs, k, hk, hpos, -⟩)
      · exact h
      · have := (hm.2 s hs).2.2 k hk
        unfold Sig.pos at hpos
        omega
    · exact Or.inl

/-- **C05**: members that are not automatic fields (rolling counter, checksum, or raw members that
are computed from physical ones) are packed as they are and not modified. -/
theorem C05_fields_kept (st st' : St φ) (hm : MsgOk m) (hty : ∀ s ∈ m.signals, s.TypeOk)
    (hcs : CsmHyp cfg m) (hi : cfg.initByte < 256)
    (hd : IsPayload st.dat) (hlen : m.dlc ≤ st.dat.length)
    (h : runPack (mkCtx cfg msgs m fl hash tick dlcArg) m st = .ok st')
    (n : Str)
    (h1 : cfg.flag .autoRoll = true → ∀ s, m.sigAt m.rollSig = some s → n ≠ s.name)
    (h2 : cfg.flag .autoCsm = true → ∀ s, m.sigAt m.csmSig = some s → n ≠ s.name)
    (h3 : cfg.flag .useSigFloat = true → ∀ s ∈ m.signals, s.isSimple = false → n ≠ s.name) :
    st'.fld n = st.fld n := by
  obtain ⟨-, -, -, hk, -⟩ := pack_bits (c := mkCtx cfg msgs m fl hash tick dlcArg) rfl hm hty hcs hi hd hlen h
  apply hk
  rintro (⟨hf, s, hs, e⟩ | ⟨hf, s, hs, e⟩ | ⟨hf, s, hs, hsim, e⟩)
  · exact h1 hf s hs e
  · exact h2 hf s hs e
  · exact h3 hf s hs hsim e

/-- **C05**: Pack has no undefined behaviour (physical conversions off or not needed; see C14/C15). -/
theorem C05_pack_defined (st : St φ) (hm : MsgOk m) (hty : ∀ s ∈ m.signals, s.TypeOk)
    (hcs : ∀ s, m.sigAt m.csmSig = some s → s.isSimple = true ∧ s.inByte)
    (hi : cfg.initByte < 256)
    (hnames : (mkCtx cfg msgs m fl hash tick dlcArg).declsOk = true)
    (hr : RollOk m) (hph : NoPhys cfg m)
    (hd : IsPayload st.dat) (hlen : m.dlc ≤ st.dat.length)
    (hroll : ∀ r, m.sigAt m.rollSig = some r → InSigRange r.signed r.lengthBit (st.fld r.name)) :
    ∃ st', runPack (mkCtx cfg msgs m fl hash tick dlcArg) m st = .ok st' :=
  pack_total (c := mkCtx cfg msgs m fl hash tick dlcArg) rfl hm hty hcs hi hnames hr hph hd hlen
    fun _ r hrr => sigRange_bound (hr r hrr) (hroll r hrr)

example : ∃ st', runPack (mkCtx Fix.full [Fix.msg] Fix.msg Fix.fl Fix.hash 5 8) Fix.msg
    { Fix.st [1, 2, 3, 4, 5, 6, 7, 8] with fld := fun _ => 3 } = .ok st' :=
  C05_pack_defined _ _ _ _ _ _ _ _ Fix.msgOk Fix.typeOk Fix.csmHyp (by decide) (by decide) Fix.rollOk
    (Fix.noPhys _) (by intro b hb; revert b; decide) (by decide) (by
      intro r hr
      have : Fix.msg.sigAt Fix.msg.rollSig = some Fix.sigR := rfl
      rw [this] at hr; cases hr
      exact ⟨by decide, by decide⟩)

/-! ### C06 -/

/-- **C06**: unpacking a packed frame returns every member as it was packed.  `cfg'`, `msgs'`, `st2`:
the receiver may be built with another configuration and start from any structure content. -/
theorem C06_pack_unpack (cfg' : Cfg) (msgs' : List Msg) (tick' dlcArg' : Nat)
    (hash' : List Nat → Nat → Nat → Str → Nat → Nat)
    (st st' st2 st2' : St φ) (hm : MsgOk m) (hov : NoOverlap m)
    (hty : ∀ s ∈ m.signals, s.TypeOk)
    (hcs : CsmHyp cfg m) (hi : cfg.initByte < 256) (hmax : m.dlc ≤ cfg.maxDlc) (hic : InitClear cfg m)
    (hd : IsPayload st.dat) (hlen : m.dlc ≤ st.dat.length)
    (h : runPack (mkCtx cfg msgs m fl hash tick dlcArg) m st = .ok st')
    (hdat : st2.dat = st'.dat)
    (h2 : runUnpack (mkCtx cfg' msgs' m fl hash' tick' dlcArg') m st2 = .ok st2')
    (s : Sig) (hs : s ∈ m.signals) (ha : s.aligned)
    (hrange : InSigRange s.signed s.lengthBit (st'.fld s.name)) :
    st2'.fld s.name = st'.fld s.name := by
  obtain ⟨hl1, hp1, -⟩ := pack_bits (c := mkCtx cfg msgs m fl hash tick dlcArg) rfl hm hty hcs hi hd hlen h
  rw [unpack_value (c := mkCtx cfg' msgs' m fl hash' tick' dlcArg') rfl hm (by rw [hdat]; exact hp1)
    (by rw [hdat, hl1]; exact hlen) h2 hs (hty s hs) ha, hdat]
  apply value_of_bits (hm.2 s hs).1 hrange
  intro k hk
  exact pack_signal_bits (c := mkCtx cfg msgs m fl hash tick dlcArg) rfl hm hty hcs hi hmax hov hic hd hlen h hs hk

/-- **C06**, without automatic fields and conversions: what Unpack returns is what the user put into
the structure before Pack. -/
theorem C06_user_values (cfg' : Cfg) (msgs' : List Msg) (tick' dlcArg' : Nat)
    (hash' : List Nat → Nat → Nat → Str → Nat → Nat)
    (st st' st2 st2' : St φ) (hm : MsgOk m) (hov : NoOverlap m)
    (hty : ∀ s ∈ m.signals, s.TypeOk)
    (hroll : cfg.flag .autoRoll = false ∨ m.rollSig = none)
    (hcsm : cfg.flag .autoCsm = false ∨ m.csmSig = none)
    (hph : NoPhys cfg m)
    (hi : cfg.initByte < 256) (hmax : m.dlc ≤ cfg.maxDlc) (hic : InitClear cfg m)
    (hd : IsPayload st.dat) (hlen : m.dlc ≤ st.dat.length)
    (h : runPack (mkCtx cfg msgs m fl hash tick dlcArg) m st = .ok st')
    (hdat : st2.dat = st'.dat)
    (h2 : runUnpack (mkCtx cfg' msgs' m fl hash' tick' dlcArg') m st2 = .ok st2')
    (s : Sig) (hs : s ∈ m.signals) (ha : s.aligned)
    (hrange : InSigRange s.signed s.lengthBit (st.fld s.name)) :
    st2'.fld s.name = st.fld s.name := by
  have hcs : CsmHyp cfg m := by
    intro hf t ht
    rcases hcsm with hx | hx
    · rw [hx] at hf; cases hf
    · rw [hx] at ht; cases ht
  have hk := C05_fields_kept cfg msgs m fl hash tick dlcArg st st' hm hty hcs hi hd hlen h s.name
    (by
      intro hf t ht
      rcases hroll with hx | hx
      · rw [hx] at hf; cases hf
      · rw [hx] at ht; cases ht)
    (by
      intro hf t ht
      rcases hcsm with hx | hx
      · rw [hx] at hf; cases hf
      · rw [hx] at ht; cases ht)
    (by
      intro hf t ht hts
      rcases hph with hx | hx
      · rw [hx] at hf; cases hf
      · rw [hx t ht] at hts; cases hts)
  rw [← hk] at hrange ⊢
  exact C06_pack_unpack cfg msgs m fl hash tick dlcArg cfg' msgs' tick' dlcArg' hash' st st' st2 st2' hm hov hty hcs hi hmax hic
    hd hlen h hdat h2 s hs ha hrange

/-! ### C07 -/

/-- **C07**: unpack a payload, pack the structure again into any buffer: every bit that belongs to a
signal is reproduced, every other bit of the message is the initial value.  Overlapping signals
are allowed. -/
theorem C07_unpack_pack (cfg' : Cfg) (msgs' : List Msg) (tick' dlcArg' : Nat)
    (hash' : List Nat → Nat → Nat → Str → Nat → Nat)
    (st1 st1' st2 st2' : St φ) (hm : MsgOk m)
    (hty : ∀ s ∈ m.signals, s.TypeOk) (hal : ∀ s ∈ m.signals, s.aligned)
    (hroll : cfg.flag .autoRoll = false ∨ m.rollSig = none)
    (hcsm : cfg.flag .autoCsm = false ∨ m.csmSig = none)
    (hph : NoPhys cfg m)
    (hi : cfg.initByte < 256) (hmax : m.dlc ≤ cfg.maxDlc) (hic : InitClear cfg m)
    (hd1 : IsPayload st1.dat) (hlen1 : m.dlc ≤ st1.dat.length)
    (hd2 : IsPayload st2.dat) (hlen2 : m.dlc ≤ st2.dat.length)
    (h1 : runUnpack (mkCtx cfg' msgs' m fl hash' tick' dlcArg') m st1 = .ok st1')
    (hfld : ∀ s ∈ m.signals, st2.fld s.name = st1'.fld s.name)
    (h2 : runPack (mkCtx cfg msgs m fl hash tick dlcArg) m st2 = .ok st2') :
    ∀ p, p < 8 * m.dlc →
      ((∃ s ∈ m.signals, ∃ k, k < s.lengthBit ∧
          bitPos (s.order == .intel) s.startBit s.lengthBit k = p) →
        payloadBit st2'.dat p = payloadBit st1.dat p) ∧
      ((∀ s ∈ m.signals, ∀ k, k < s.lengthBit →
          bitPos (s.order == .intel) s.startBit s.lengthBit k ≠ p) →
        payloadBit st2'.dat p = cfg.initByte.testBit (p % 8)) := by
  have hcs : CsmHyp cfg m := by
    intro hf t ht
    rcases hcsm with hx | hx
    · rw [hx] at hf; cases hf
    · rw [hx] at ht; cases ht
  have hkeep : ∀ s ∈ m.signals, st2'.fld s.name = st1'.fld s.name := by
    intro s hs
    rw [← hfld s hs]
    exact C05_fields_kept cfg msgs m fl hash tick dlcArg st2 st2' hm hty hcs hi hd2 hlen2 h2 s.name
      (by
        intro hf t ht
        rcases hroll with hx | hx
        · rw [hx] at hf; cases hf
        · rw [hx] at ht; cases ht)
      (by
        intro hf t ht
        rcases hcsm with hx | hx
        · rw [hx] at hf; cases hf
        · rw [hx] at ht; cases ht)
      (by
        intro hf t ht hts
        rcases hph with hx | hx
        · rw [hx] at hf; cases hf
        · rw [hx t ht] at hts; cases hts)
  have hbits := (C05_pack_bits cfg msgs m fl hash tick dlcArg st2 st2' hm hty hcs hi hmax hd2 hlen2 h2).1
  have hsig : ∀ s ∈ m.signals, ∀ k, k < s.lengthBit →
      intBit (st2'.fld s.name) k = payloadBit st1.dat (s.pos k) := by
    intro s hs k hk
    rw [hkeep s hs, unpack_value (c := mkCtx cfg' msgs' m fl hash' tick' dlcArg') rfl hm hd1 hlen1 h1 hs
      (hty s hs) (hal s hs)]
    rw [← intBit_natMod _ _ _ hk]
    have hr := s.raw_lt st1.dat
    have hc : ((2 ^ s.lengthBit : Nat) : Int) = 2 ^ s.lengthBit := by push_cast; rfl
    have : ((if s.signed then signedOf s.lengthBit (s.raw st1.dat) else (s.raw st1.dat : Int)) %
        (2 ^ s.lengthBit : Nat)).toNat = s.raw st1.dat := by
      have e0 : (s.raw st1.dat : Int) % (2 ^ s.lengthBit : Nat) = s.raw st1.dat :=
        Int.emod_eq_of_lt (by omega) (by omega)
      split
      · unfold signedOf
        split
        · omega
        · rw [← hc, Int.sub_emod_right]; omega
      · omega
    rw [this, s.testBit_raw]
    simp [hk]
  intro p hp
  constructor
  · rintro ⟨s, hs, k, hk, rfl⟩
    have hclr : cfg.initByte.testBit (bitPos (s.order == .intel) s.startBit s.lengthBit k % 8) = false :=
      hic s hs k hk
    rw [Bool.eq_iff_iff, hbits _ hp, hclr]
    simp only [Bool.false_eq_true, false_or]
    constructor
    · rintro ⟨t, ht, k', hk', hpos, hb⟩
      rw [hsig t ht k' hk'] at hb
      unfold Sig.pos at hb
      rw [show bitPos t.intel t.startBit t.lengthBit k' = _ from hpos] at hb
      exact hb
    · intro hb
      exact ⟨s, hs, k, hk, rfl, by rw [hsig s hs k hk]; exact hb⟩
  · intro hno
    rw [Bool.eq_iff_iff, hbits p hp]
    constructor
    · rintro (hb | ⟨s, hs, k, hk, hpos, -⟩)
      · exact hb
      · exact absurd hpos (hno s hs k hk)
    · exact Or.inl

/-! ### C08 -/

/-- **C08**: two structures that differ in one member only give frames that differ only in bits of
that signal (automatic checksum off; physical conversions off or not needed; overlapping layouts
included). -/
theorem C08_no_interference (stA stA' stB stB' : St φ) (hm : MsgOk m)
    (hty : ∀ s ∈ m.signals, s.TypeOk)
    (hcsm : cfg.flag .autoCsm = false ∨ m.csmSig = none)
    (hph : NoPhys cfg m) (hr : RollOk m)
    (hi : cfg.initByte < 256)
    (hd : IsPayload stA.dat) (hlen : m.dlc ≤ stA.dat.length) (hdat : stB.dat = stA.dat)
    (hrollA : ∀ r, m.sigAt m.rollSig = some r → InSigRange r.signed r.lengthBit (stA.fld r.name))
    (hrollB : ∀ r, m.sigAt m.rollSig = some r → InSigRange r.signed r.lengthBit (stB.fld r.name))
    (s : Sig) (hs : s ∈ m.signals) (hsame : ∀ n, n ≠ s.name → stA.fld n = stB.fld n)
    (hA : runPack (mkCtx cfg msgs m fl hash tick dlcArg) m stA = .ok stA')
    (hB : runPack (mkCtx cfg msgs m fl hash tick dlcArg) m stB = .ok stB') :
    ∀ p, (∀ k, k < s.lengthBit → bitPos (s.order == .intel) s.startBit s.lengthBit k ≠ p) →
      payloadBit stA'.dat p = payloadBit stB'.dat p := by
  have hcs : CsmHyp cfg m := by
    intro hf t ht
    rcases hcsm with hx | hx
    · rw [hx] at hf; cases hf
    · rw [hx] at ht; cases ht
  have hdB : IsPayload stB.dat := by rw [hdat]; exact hd
  have hlB : m.dlc ≤ stB.dat.length := by rw [hdat]; exact hlen
  obtain ⟨-, -, bA, kA, -⟩ := pack_bits (c := mkCtx cfg msgs m fl hash tick dlcArg) rfl hm hty hcs hi hd hlen hA
  obtain ⟨-, -, bB, kB, -⟩ := pack_bits (c := mkCtx cfg msgs m fl hash tick dlcArg) rfl hm hty hcs hi hdB hlB hB
  obtain ⟨hdo, -⟩ := runPack_parts hm hA
  have hn' : ((structDecls cfg m).map (·.1)).Nodup := nodup_of_declsOk hdo
  have hf : ∀ t ∈ m.signals, t ≠ s → stA'.fld t.name = stB'.fld t.name := by
    intro t ht hne
    have hnm : t.name ≠ s.name := fun e => hne (names_inj hn' ht hs e)
    by_cases hw : PackWrites cfg m t.name
    · rcases hw with ⟨hfl, r, hrr, e⟩ | ⟨hfl, r, hrr, e⟩ | ⟨hfl, r, hrm, hsim, e⟩
      · have hrt : t = r := names_inj hn' ht (sigAt_mem hrr) e
        subst hrt
        have hnc : cfg.flag .autoCsm = true → m.sigAt m.csmSig ≠ some t := by
          intro hf hx
          rcases hcsm with hy | hy
          · rw [hy] at hf; cases hf
          · rw [hy] at hx; cases hx
        have hsimp : cfg.flag .useSigFloat = true → t.isSimple = true := by
          intro hf
          rcases hph with hy | hy
          · rw [hy] at hf; cases hf
          · exact hy t ht
        rw [pack_roll (c := mkCtx cfg msgs m fl hash tick dlcArg) rfl hm hty hcs hi hd hlen hrr hfl hnc hsimp
            (sigRange_bound (hr t hrr) (hrollA t hrr)) hA,
          pack_roll (c := mkCtx cfg msgs m fl hash tick dlcArg) rfl hm hty hcs hi hdB hlB hrr hfl hnc hsimp
            (sigRange_bound (hr t hrr) (hrollB t hrr)) hB, hsame _ hnm]
      · rcases hcsm with hy | hy
        · rw [hy] at hfl; cases hfl
        · rw [hy] at hrr; cases hrr
      · rcases hph with hy | hy
        · rw [hy] at hfl; cases hfl
        · rw [hy r hrm] at hsim; cases hsim
    · rw [kA _ hw, kB _ hw, hsame _ hnm]
  intro p hp
  rw [Bool.eq_iff_iff, bA, bB, hdat]
  have : (∃ t ∈ m.signals, SigBit t (stA'.fld t.name) p) ↔ (∃ t ∈ m.signals, SigBit t (stB'.fld t.name) p) := by
    constructor
    · rintro ⟨t, ht, k, hk, hpos, hb⟩
      have hne : t ≠ s := by rintro rfl; exact hp k hk hpos
      exact ⟨t, ht, k, hk, hpos, by rw [← hf t ht hne]; exact hb⟩
    · rintro ⟨t, ht, k, hk, hpos, hb⟩
      have hne : t ≠ s := by rintro rfl; exact hp k hk hpos
      exact ⟨t, ht, k, hk, hpos, by rw [hf t ht hne]; exact hb⟩
  rw [this]

/-! ### C09 -/

/-- The part of **C09** that holds, and its exact limit: the bits of a signal after Pack are the bits
that were packed, for all structures, if and only if the initial byte is zero on the bits of this
signal.  (Missing: fill values with ones on signal bits, where the claim is false.) -/
theorem C09_exact_partial (hm : MsgOk m) (hov : NoOverlap m)
    (hty : ∀ s ∈ m.signals, s.TypeOk)
    (hroll : m.rollSig = none) (hcsm : m.csmSig = none)
    (hph : NoPhys cfg m) (hi : cfg.initByte < 256) (hmax : m.dlc ≤ cfg.maxDlc)
    (hnames : (mkCtx cfg msgs m fl hash tick dlcArg).declsOk = true)
    (flt0 : Str → φ) (mon0 : Mon)
    (s : Sig) (hs : s ∈ m.signals) :
    (∀ st st', IsPayload st.dat → m.dlc ≤ st.dat.length →
        runPack (mkCtx cfg msgs m fl hash tick dlcArg) m st = .ok st' →
        ∀ k, k < s.lengthBit →
          payloadBit st'.dat (bitPos (s.order == .intel) s.startBit s.lengthBit k) = intBit (st.fld s.name) k) ↔
      (∀ k, k < s.lengthBit →
        cfg.initByte.testBit (bitPos (s.order == .intel) s.startBit s.lengthBit k % 8) = false) := by
  have hcs : CsmHyp cfg m := by intro _ t ht; rw [hcsm] at ht; cases ht
  have hkept : ∀ st st', IsPayload st.dat → m.dlc ≤ st.dat.length →
      runPack (mkCtx cfg msgs m fl hash tick dlcArg) m st = .ok st' →
      ∀ n, st'.fld n = st.fld n := by
    intro st st' hd hlen h n
    exact C05_fields_kept cfg msgs m fl hash tick dlcArg st st' hm hty hcs hi hd hlen h n
      (by intro _ t ht; rw [hroll] at ht; cases ht) (by intro _ t ht; rw [hcsm] at ht; cases ht)
      (by
        intro hf t ht hts
        rcases hph with hx | hx
        · rw [hx] at hf; cases hf
        · rw [hx t ht] at hts; cases hts)
  have hfit : ∀ k, k < s.lengthBit → s.pos k < 8 * m.dlc := (hm.2 s hs).2.2
  constructor
  · intro h k hk
    let st0 : St φ := { fld := fun _ => 0, flt := flt0, mon := mon0, dat := List.replicate m.dlc 0 }
    have hd0 : IsPayload st0.dat := by intro b hb; rw [(List.mem_replicate.1 hb).2]; decide
    have hl0 : m.dlc ≤ st0.dat.length := by simp [st0]
    obtain ⟨st', h'⟩ := C05_pack_defined cfg msgs m fl hash tick dlcArg st0 hm hty
      (by intro t ht; rw [hcsm] at ht; cases ht) hi hnames (by intro t ht; rw [hroll] at ht; cases ht) hph hd0 hl0
      (by intro t ht; rw [hroll] at ht; cases ht)
    have e := h st0 st' hd0 hl0 h' k hk
    have hz : intBit (st0.fld s.name) k = false := by simp [st0, intBit]
    rw [hz] at e
    have hb := (C05_pack_bits cfg msgs m fl hash tick dlcArg st0 st' hm hty hcs hi hmax hd0 hl0 h').1 _ (hfit k hk)
    cases hx : cfg.initByte.testBit (bitPos (s.order == .intel) s.startBit s.lengthBit k % 8)
    · rfl
    · have := hb.2 (Or.inl hx)
      unfold Sig.pos at this
      rw [show bitPos s.intel s.startBit s.lengthBit k = bitPos (s.order == .intel) s.startBit s.lengthBit k from rfl,
        e] at this
      cases this
  · intro h st st' hd hlen hrun k hk
    have hb := (C05_pack_bits cfg msgs m fl hash tick dlcArg st st' hm hty hcs hi hmax hd hlen hrun).1 _ (hfit k hk)
    rw [Bool.eq_iff_iff]
    refine hb.trans ?_
    have hc := h k hk
    have : cfg.initByte.testBit (s.pos k % 8) = false := hc
    rw [this]
    simp only [Bool.false_eq_true, false_or]
    constructor
    · rintro ⟨t, ht, k', hk', hpos, hbit⟩
      have := overlap_eq hov hs ht hk hk' hpos.symm
      subst this
      have : k' = k := bitPos_inj hk' hk hpos
      subst this
      rw [hkept st st' hd hlen hrun] at hbit
      exact hbit
    · intro hbit
      exact ⟨s, hs, k, hk, rfl, by rw [hkept st st' hd hlen hrun]; exact hbit⟩

end

/-- Bits set by a configuration with fill value `0xFF`. -/
def ffCfg : Cfg := { Fix.plain with initByte := 0xFF }

/-- **C09** is false: with fill value `0xFF` a structure of zeros is packed into a frame in which the
12-bit signal `Speed` reads as 4095. -/
theorem C09_refuted :
    ∃ st st' : St Unit,
      runPack (mkCtx ffCfg [Fix.msg0] Fix.msg0 Fix.fl Fix.hash 0 0) Fix.msg0 st = .ok st' ∧
      st'.fld Fix.sigA.name = 0 ∧
      rawValue (Fix.sigA.order == .intel) Fix.sigA.startBit Fix.sigA.lengthBit st'.dat = 4095 := by
  have h : ∀ r, (match runPack (mkCtx ffCfg [Fix.msg0] Fix.msg0 Fix.fl Fix.hash 0 0) Fix.msg0
      (Fix.st (List.replicate 8 0)) with
    | .ok st' => some (st'.fld Fix.sigA.name,
        rawValue (Fix.sigA.order == .intel) Fix.sigA.startBit Fix.sigA.lengthBit st'.dat)
    | _ => none) = some r → ∃ st', runPack (mkCtx ffCfg [Fix.msg0] Fix.msg0 Fix.fl Fix.hash 0 0) Fix.msg0
      (Fix.st (List.replicate 8 0)) = .ok st' ∧ (st'.fld Fix.sigA.name,
        rawValue (Fix.sigA.order == .intel) Fix.sigA.startBit Fix.sigA.lengthBit st'.dat) = r := by
    intro r hr
    split at hr
    next st' h => exact ⟨st', h, by simpa using hr⟩
    next => cases hr
  obtain ⟨st', h1, h2⟩ := h (0, 4095) (by decide)
  simp only [Prod.mk.injEq] at h2
  exact ⟨_, st', h1, h2.1, h2.2⟩

/-! Non-vacuity: the hypotheses of C06-C08 hold for a concrete message, and the round trip is not
about zeros only. -/

theorem Fix.noOverlap : NoOverlap Fix.msg := by
  have h : (List.range 64).all (fun j => (List.range 64).all fun k =>
      decide (Fix.msg.signals.Pairwise fun s t => (j < s.lengthBit → k < t.lengthBit → s.pos j ≠ t.pos k))) = true := by
    decide +kernel
  have hall : ∀ j k, j < 64 → k < 64 →
      Fix.msg.signals.Pairwise fun s t => (j < s.lengthBit → k < t.lengthBit → s.pos j ≠ t.pos k) := by
    intro j k hj hk
    exact of_decide_eq_true (List.all_eq_true.1 (List.all_eq_true.1 h j (List.mem_range.2 hj)) k (List.mem_range.2 hk))
  have hlt : ∀ s ∈ Fix.msg.signals, s.lengthBit ≤ 64 := by decide
  unfold NoOverlap
  apply List.Pairwise.imp_of_mem (R := fun s t => ∀ j k, j < 64 → k < 64 → j < s.lengthBit → k < t.lengthBit → s.pos j ≠ t.pos k)
  · intro s t hs ht h j hj k hk
    exact h j k (Nat.lt_of_lt_of_le hj (hlt s hs)) (Nat.lt_of_lt_of_le hk (hlt t ht)) hj hk
  · have : Fix.msg.signals.Pairwise fun s t => ∀ x : Fin 64 × Fin 64, x.1.1 < s.lengthBit → x.2.1 < t.lengthBit → s.pos x.1.1 ≠ t.pos x.2.1 := by
      rw [List.pairwise_iff_getElem]
      intro i j hi hj hij x
      exact (List.pairwise_iff_getElem.1 (hall x.1.1 x.2.1 x.1.2 x.2.2)) i j hi hj hij
    refine this.imp ?_
    intro s t h j k hj hk
    exact h (⟨j, hj⟩, ⟨k, hk⟩)

example : MsgOk Fix.msg ∧ NoOverlap Fix.msg ∧ (∀ s ∈ Fix.msg.signals, s.TypeOk) ∧ InitClear Fix.full Fix.msg ∧
    (∀ s ∈ Fix.msg.signals, s.aligned) :=
  ⟨Fix.msgOk, Fix.noOverlap, Fix.typeOk, by intro s _ k _; exact Nat.zero_testBit _, by
    intro s hs
    simp only [Fix.msg, List.mem_cons, List.not_mem_nil, or_false] at hs
    rcases hs with rfl | rfl | rfl | rfl <;> exact Or.inl (by decide)⟩

/-- Pack of a structure whose members are all `-3` or `5`, then Unpack (test of the model). -/
example : (match runPack (mkCtx Fix.plain [Fix.msg0] Fix.msg0 Fix.fl Fix.hash 0 0) Fix.msg0
      { Fix.st (List.replicate 8 0) with fld := fun n => if n = Fix.sigB.name then -3 else 5 } with
    | .ok s1 => match runUnpack (mkCtx Fix.plain [Fix.msg0] Fix.msg0 Fix.fl Fix.hash 0 0) Fix.msg0 { Fix.st [] with dat := s1.dat } with
      | .ok s2 => some (s1.dat, Fix.msg0.signals.map fun s => s2.fld s.name)
      | _ => none
    | _ => none) = some ([0x55, 0, 3, 0xFD, 0, 0, 0, 5], [5, 5, -3, 5]) := by decide

end Verif
