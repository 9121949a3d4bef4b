import Verif.Proofs.MonRun2
import Verif.Props.Pack
/-
C17-C21: frame monitor, rolling counter, checksum, the two Pack signatures.
-/
namespace Verif
open Spec
variable {φ : Type}

/-! ### C17 -/

section
variable (cfg : Cfg) (msgs : List Msg) (m : Msg) (fl : FloatOps φ)
  (hash : List Nat → Nat → Nat → Str → Nat → Nat)

theorem mon_one {c : Ctx φ} {m : Msg} (hu : c.cfg.flag .useMon = true) {st st' : St φ}
    (h : runUnpack c m st = .ok st') :
    st'.mon.frameCnt = (st.mon.frameCnt + 1) % 2 ^ 32 ∧ st'.mon.lastCycle = c.tick % 2 ^ 32 ∧
    st'.mon.dlcError = (if c.dlcArg < m.dlc then 1 else 0) ∧
    st'.mon.timeoutCycle = st.mon.timeoutCycle ∧ st'.mon.cycleError = st.mon.cycleError ∧
    ((m.sigAt m.rollSig = none ∨ c.cfg.flag .autoRoll = false) → st'.mon.rollError = st.mon.rollError) ∧
    ((m.sigAt m.csmSig = none ∨ c.cfg.flag .autoCsm = false) → st'.mon.csmError = st.mon.csmError) := by
  obtain ⟨-, -, st1, st2, hmon, h2, rfl⟩ := runUnpack_any h
  obtain ⟨sa, sb, ha, hb, rfl⟩ := mon_parts hu h2
  obtain ⟨⟨x, hx, -, hx2⟩, -⟩ := monRoll_effect ha
  obtain ⟨⟨y, hy, -, hy2⟩, -⟩ := monCsm_effect hb
  have hmon' : sb.mon = { (st1.seen c m).mon with rollError := x, csmError := y } := by rw [hy, hx]
  refine ⟨?_, ?_, ?_, ?_, ?_, ?_, ?_⟩
  iterate 5 (simp only [hmon', St.seen, hmon])
  · intro hh; simp only [hmon', hx2 hh]; show st1.mon.rollError = _; rw [hmon]
  · intro hh; simp only [hmon', hy2 hh, hx]; show st1.mon.csmError = _; rw [hmon]

/-- **C17**: in every history of Unpack calls (arbitrary payloads, arbitrary structure contents,
any message for which code is generated), the monitor counts the calls modulo 2^32, holds the tick
sampled at the last call, and flags exactly a too short last frame.  The timeout fields are not
touched. -/
theorem C17_monitor (hu : cfg.flag .useMon = true) (mon0 mon : Mon) (calls : List (Nat × Nat))
    (h : UnpackHist (mkCtx cfg msgs m fl hash) m mon0 calls mon) :
    mon.frameCnt % 2 ^ 32 = (mon0.frameCnt + calls.length) % 2 ^ 32 ∧
    (calls ≠ [] → mon.frameCnt < 2 ^ 32) ∧
    (∀ pre tick dlc, calls = pre ++ [(tick, dlc)] →
      mon.lastCycle = tick % 2 ^ 32 ∧ (mon.dlcError = 1 ↔ dlc < m.dlc) ∧ (mon.dlcError = 0 ↔ m.dlc ≤ dlc)) ∧
    mon.timeoutCycle = mon0.timeoutCycle ∧ mon.cycleError = mon0.cycleError := by
  induction h with
  | nil =>
    refine ⟨rfl, by simp, ?_, rfl, rfl⟩
    intro pre tick dlc hx
    have := congrArg List.length hx
    simp at this
  | @snoc calls mon1 tick dlc st st' hist hmon hrun ih =>
    obtain ⟨h1, h2, h3, h4, h5, -⟩ := mon_one (c := mkCtx cfg msgs m fl hash tick dlc) hu hrun
    rw [hmon] at h1 h4 h5
    obtain ⟨i1, -, -, i4, i5⟩ := ih
    refine ⟨?_, ?_, ?_, by rw [h4, i4], by rw [h5, i5]⟩
    · rw [h1, List.length_append, List.length_singleton]; omega
    · intro _; rw [h1]; exact Nat.mod_lt _ (by decide)
    · intro pre tick' dlc' hx
      obtain ⟨-, hx⟩ := List.append_inj' hx rfl
      cases hx
      refine ⟨h2, ?_, ?_⟩
      · rw [h3]; show (if dlc < m.dlc then 1 else 0) = 1 ↔ _; split <;> simp_all
      · rw [h3]; show (if dlc < m.dlc then 1 else 0) = 0 ↔ _; split <;> simp_all

/-- **C17**, monitors disabled: Unpack does not touch the monitor. -/
theorem C17_monitor_off (tick dlc : Nat) (hu : cfg.flag .useMon = false) (st st' : St φ)
    (h : runUnpack (mkCtx cfg msgs m fl hash tick dlc) m st = .ok st') : st'.mon = st.mon := by
  obtain ⟨-, -, st1, st2, hmon, h2, rfl⟩ := runUnpack_any h
  rw [monStmts_off (by exact hu)] at h2
  simp only [execAll, Option.some.injEq] at h2
  subst h2
  exact hmon

example : ∃ mon, UnpackHist (mkCtx Fix.full [Fix.msg] Fix.msg Fix.fl Fix.hash) Fix.msg Fix.mon0 [(5, 8), (7, 6)] mon := by
  have hrun : ∀ tick dlc (st : St Unit), st.dat = [1, 2, 3, 4, 5, 6, 7, 8] → ∃ st',
      runUnpack (mkCtx Fix.full [Fix.msg] Fix.msg Fix.fl Fix.hash tick dlc) Fix.msg st = .ok st' := by
    intro tick dlc st hst
    refine unpack_total (c := mkCtx Fix.full [Fix.msg] Fix.msg Fix.fl Fix.hash tick dlc) rfl Fix.msgOk (show (mkCtx Fix.full [Fix.msg] Fix.msg Fix.fl Fix.hash 0 0).declsOk = true by decide) Fix.rollOk (Fix.noPhys _) (by decide) Fix.typeOk ?_ ?_
    · rw [hst]; intro b hb; revert b; decide
    · rw [hst]; decide
  obtain ⟨st1, h1⟩ := hrun 5 8 (Fix.st [1, 2, 3, 4, 5, 6, 7, 8]) rfl
  obtain ⟨st2, h2⟩ := hrun 7 6 st1
    (unpack_fields rfl Fix.msgOk (by intro b hb; revert b; decide) (by decide) h1).1
  exact ⟨_, .snoc 7 6 _ _ (.snoc 5 8 _ _ .nil rfl h1) rfl h2⟩

end

/-! ### C18 -/

section
variable (cfg : Cfg) (msgs : List Msg) (m : Msg) (fl : FloatOps φ)
  (hash : List Nat → Nat → Nat → Str → Nat → Nat) (tick dlcArg : Nat)

theorem mod_toNat (z : Int) (n : Nat) : (((z % (2 ^ n : Nat)).toNat : Nat) : Int) = z % 2 ^ n := by
  have hp : (0:Int) < (2 ^ n : Nat) := by exact_mod_cast Nat.two_pow_pos n
  rw [Int.toNat_of_nonneg (Int.emod_nonneg _ (by omega))]
  congr 1

/-- **C18**: with AUTO_ROLL the `k`-th Pack call of any history transmits `(initial + k) mod 2^width`
in the payload bits of the rolling counter, whatever the user does to the other members and the
buffer between the calls.  (Widths from 31 on: see `C18_wide_counter`.) -/
theorem C18_rolling_counter (r : Sig) (hr : m.sigAt m.rollSig = some r) (hf : cfg.flag .autoRoll = true)
    (hm : MsgOk m) (hov : NoOverlap m) (hty : ∀ s ∈ m.signals, s.TypeOk) (hcs : CsmHyp cfg m)
    (hnc : cfg.flag .autoCsm = true → m.sigAt m.csmSig ≠ some r)
    (hi : cfg.initByte < 256) (hmax : m.dlc ≤ cfg.maxDlc) (hic : InitClear cfg m)
    (z0 : Int) (hz0 : InSigRange r.signed r.lengthBit z0) (k : Nat) (st : St φ)
    (h : PackHist (mkCtx cfg msgs m fl hash tick dlcArg) m r.name z0 k st) :
    (rawValue (r.order == .intel) r.startBit r.lengthBit st.dat : Int) = (z0 + k) % 2 ^ r.lengthBit := by
  have hrm := sigAt_mem hr
  have hl := (hm.2 r hrm).1
  have ht := hty r hrm
  have hpos : (0:Int) < 2 ^ r.lengthBit := by exact_mod_cast Nat.two_pow_pos r.lengthBit
  -- one call
  have step : ∀ st st' : St φ, IsPayload st.dat → m.dlc ≤ st.dat.length →
      runPack (mkCtx cfg msgs m fl hash tick dlcArg) m st = .ok st' →
      (-(2:Int) ^ 30 ≤ st.fld r.name ∧ st.fld r.name < 2 ^ 30) →
      (r.raw st'.dat : Int) = (st.fld r.name + 1) % 2 ^ r.lengthBit ∧
      st'.fld r.name % 2 ^ r.lengthBit = (st.fld r.name + 1) % 2 ^ r.lengthBit ∧
      (-(2:Int) ^ 30 ≤ st'.fld r.name ∧ st'.fld r.name < 2 ^ 30) := by
    intro st st' hd hlen hrun hb
    have hdo := runPack_declsOk hrun
    have hsim := fun hs => roll_simple (c := mkCtx cfg msgs m fl hash tick dlcArg) rfl rfl hdo hr hf hs
    have hfld := pack_roll (c := mkCtx cfg msgs m fl hash tick dlcArg) rfl hm hty hcs hi hd hlen hr hf hnc hsim hb hrun
    have h31 := (runPack_parts hm hrun).2.1 r hr
    have hmod : st'.fld r.name % 2 ^ r.lengthBit = (st.fld r.name + 1) % 2 ^ r.lengthBit := by
      rw [hfld, emod_store ht.2, Int.emod_emod]
    refine ⟨?_, hmod, ?_⟩
    · rw [raw_of_bits fun k hk => pack_signal_bits (c := mkCtx cfg msgs m fl hash tick dlcArg) rfl hm hty hcs hi hmax
        hov hic hd hlen hrun hrm hk, mod_toNat, hmod]
    · rw [hfld]
      exact store_range ht hl h31 ⟨Int.emod_nonneg _ (by omega), Int.emod_lt_of_pos _ hpos⟩
  have key : ∀ k (st : St φ), PackHist (mkCtx cfg msgs m fl hash tick dlcArg) m r.name z0 k st →
      (r.raw st.dat : Int) = (z0 + k) % 2 ^ r.lengthBit ∧
      st.fld r.name % 2 ^ r.lengthBit = (z0 + k) % 2 ^ r.lengthBit ∧
      (-(2:Int) ^ 30 ≤ st.fld r.name ∧ st.fld r.name < 2 ^ 30) := by
    intro k st hk
    induction hk with
    | first st st' hd hlen hz hrun =>
      have h31 := (runPack_parts hm hrun).2.1 r hr
      have := step st st' hd hlen hrun (by rw [hz]; exact sigRange_bound h31 hz0)
      rw [hz] at this
      exact this
    | @next k prev st st' _ hd hlen hz hrun ih =>
      obtain ⟨-, i2, i3⟩ := ih
      have := step st st' hd hlen hrun (by rw [hz]; exact i3)
      rw [hz] at this
      have e : (prev.fld r.name + 1) % 2 ^ r.lengthBit = (z0 + ((k + 1 : Nat) : Int)) % 2 ^ r.lengthBit := by
        rw [Int.add_emod, i2, ← Int.add_emod]
        congr 1
        push_cast; omega
      rw [e] at this
      exact this
  exact (key k st h).1

/-- **C18**, limit: for rolling counters of 31 bits or more the generator computes the mask with an
undefined shift; no code is obtained at all. -/
theorem C18_wide_counter (r : Sig) (hr : m.sigAt m.rollSig = some r) (hm : MsgOk m) (hw : 31 ≤ r.lengthBit)
    (st : St φ) : runPack (mkCtx cfg msgs m fl hash tick dlcArg) m st = .genUB ∧
      runUnpack (mkCtx cfg msgs m fl hash tick dlcArg) m st = .genUB := by
  have hno : ¬ RollOk m := by
    intro h
    have := h r hr
    omega
  exact ⟨(runPack_eq _ hm st).1 (fun h => hno h.1), (runUnpack_eq _ hm st).1 hno⟩

/-! ### C19 -/

/-- **C19**: of two consecutive receptions (any payloads; between them the user leaves the expected
counter alone), the second one reports `roll_error = 0` exactly when its counter is the successor of
the first, modulo 2^width. -/
theorem C19_consecutive_partial (hu : cfg.flag .useMon = true) (hf : cfg.flag .autoRoll = true)
    (r : Sig) (hr : m.sigAt m.rollSig = some r) (hm : MsgOk m) (ht : r.TypeOk)
    (hcan : CounterCanonical cfg r) (tick' dlcArg' : Nat)
    (st1 st1' st2 st2' : St φ)
    (hd1 : IsPayload st1.dat) (hlen1 : m.dlc ≤ st1.dat.length)
    (hd2 : IsPayload st2.dat) (hlen2 : m.dlc ≤ st2.dat.length)
    (h1 : runUnpack (mkCtx cfg msgs m fl hash tick dlcArg) m st1 = .ok st1')
    (hkeep : st2.fld (exptName r.name) = st1'.fld (exptName r.name))
    (h2 : runUnpack (mkCtx cfg msgs m fl hash tick' dlcArg') m st2 = .ok st2') :
    (st2'.mon.rollError = 0 ↔
      rawValue (r.order == .intel) r.startBit r.lengthBit st2.dat =
        (rawValue (r.order == .intel) r.startBit r.lengthBit st1.dat + 1) % 2 ^ r.lengthBit) ∧
    (st2'.mon.rollError = 0 ∨ st2'.mon.rollError = 1) := by
  have hrm := sigAt_mem hr
  have hl := (hm.2 r hrm).1
  obtain ⟨-, e1⟩ := unpack_roll (c := mkCtx cfg msgs m fl hash tick dlcArg) rfl hm hu hf hr ht hd1 hlen1 h1
  obtain ⟨e2, -⟩ := unpack_roll (c := mkCtx cfg msgs m fl hash tick' dlcArg') rfl hm hu hf hr ht hd2 hlen2 h2
  have hpos : (0:Int) < 2 ^ r.lengthBit := by exact_mod_cast Nat.two_pow_pos r.lengthBit
  have hc : ((2 ^ r.lengthBit : Nat) : Int) = 2 ^ r.lengthBit := by push_cast; rfl
  rw [hkeep, e1] at e2
  have hin1 : InSigRange r.signed r.lengthBit (r.value st2.dat) := raw_inRange r st2.dat hl
  have hz : 0 ≤ (r.value st1.dat + 1) % 2 ^ r.lengthBit ∧ (r.value st1.dat + 1) % 2 ^ r.lengthBit < 2 ^ r.lengthBit :=
    ⟨Int.emod_nonneg _ (by omega), Int.emod_lt_of_pos _ hpos⟩
  have hin2 := store_canonical (cfg := cfg) ht hl hcan hz
  have hiff : r.value st2.dat = (sigDecl cfg r).store ((r.value st1.dat + 1) % 2 ^ r.lengthBit) ↔
      r.raw st2.dat = (r.raw st1.dat + 1) % 2 ^ r.lengthBit := by
    have hmod : (sigDecl cfg r).store ((r.value st1.dat + 1) % 2 ^ r.lengthBit) % 2 ^ r.lengthBit =
        ((r.raw st1.dat + 1) % 2 ^ r.lengthBit : Nat) := by
      rw [emod_store ht.2, Int.emod_emod, Int.add_emod, r.value_mod]
      push_cast
      rw [Int.add_emod (r.raw st1.dat : Int) 1, Int.emod_eq_of_lt (a := (r.raw st1.dat : Int)) (by omega)
        (by exact_mod_cast r.raw_lt st1.dat)]
    constructor
    · intro h
      have h' := congrArg (· % (2:Int) ^ r.lengthBit) h
      simp only [hmod, r.value_mod] at h'
      exact_mod_cast h'
    · intro h
      apply eq_of_mod hl hin1 hin2
      rw [hmod, r.value_mod, h]
  show (st2'.mon.rollError = 0 ↔ r.raw st2.dat = (r.raw st1.dat + 1) % 2 ^ r.lengthBit) ∧ _
  rw [← hiff, e2]
  show ((if r.value st2.dat = (sigDecl cfg r).store ((r.value st1.dat + 1) % 2 ^ r.lengthBit) then 0 else 1) = 0 ↔ _) ∧
    ((if r.value st2.dat = (sigDecl cfg r).store ((r.value st1.dat + 1) % 2 ^ r.lengthBit) then 0 else 1) = 0 ∨
      (if r.value st2.dat = (sigDecl cfg r).store ((r.value st1.dat + 1) % 2 ^ r.lengthBit) then 0 else 1) = 1)
  split <;> simp_all

/-- **C19**, sender and receiver together: the sender packs with AUTO_ROLL; the receiver gets the
frame of call `n` and then the frame of call `n + 1 + lost`.  `roll_error` is 0 exactly when `lost` is
a multiple of 2^width; in particular it is 0 if nothing was lost. -/
theorem C19_lost_frames_partial (cfgR : Cfg) (msgsR : List Msg) (hashR : List Nat → Nat → Nat → Str → Nat → Nat)
    (r : Sig) (hr : m.sigAt m.rollSig = some r)
    (hf : cfg.flag .autoRoll = true) (hfR : cfgR.flag .autoRoll = true) (huR : cfgR.flag .useMon = true)
    (hcan : CounterCanonical cfgR r)
    (hm : MsgOk m) (hov : NoOverlap m) (hty : ∀ s ∈ m.signals, s.TypeOk) (hcs : CsmHyp cfg m)
    (hnc : cfg.flag .autoCsm = true → m.sigAt m.csmSig ≠ some r)
    (hi : cfg.initByte < 256) (hmax : m.dlc ≤ cfg.maxDlc) (hic : InitClear cfg m)
    (z0 : Int) (hz0 : InSigRange r.signed r.lengthBit z0) (n lost : Nat) (sentA sentB : St φ)
    (hA : PackHist (mkCtx cfg msgs m fl hash tick dlcArg) m r.name z0 n sentA)
    (hB : PackHist (mkCtx cfg msgs m fl hash tick dlcArg) m r.name z0 (n + 1 + lost) sentB)
    (tickA dlcA tickB dlcB : Nat) (st1 st1' st2 st2' : St φ)
    (hdA : st1.dat = sentA.dat) (hdB : st2.dat = sentB.dat)
    (h1 : runUnpack (mkCtx cfgR msgsR m fl hashR tickA dlcA) m st1 = .ok st1')
    (hkeep : st2.fld (exptName r.name) = st1'.fld (exptName r.name))
    (h2 : runUnpack (mkCtx cfgR msgsR m fl hashR tickB dlcB) m st2 = .ok st2') :
    st2'.mon.rollError = 0 ↔ 2 ^ r.lengthBit ∣ lost := by
  have hrm := sigAt_mem hr
  have pay : ∀ k (st : St φ), PackHist (mkCtx cfg msgs m fl hash tick dlcArg) m r.name z0 k st →
      IsPayload st.dat ∧ m.dlc ≤ st.dat.length := by
    intro k st hk
    cases hk with
    | first s0 _ hd hlen hz hrun =>
      obtain ⟨p1, p2, -⟩ := pack_bits (c := mkCtx cfg msgs m fl hash tick dlcArg) rfl hm hty hcs hi hd hlen hrun
      exact ⟨p2, by omega⟩
    | next s0 _ _ hd hlen hz hrun =>
      obtain ⟨p1, p2, -⟩ := pack_bits (c := mkCtx cfg msgs m fl hash tick dlcArg) rfl hm hty hcs hi hd hlen hrun
      exact ⟨p2, by omega⟩
  have vA := C18_rolling_counter cfg msgs m fl hash tick dlcArg r hr hf hm hov hty hcs hnc hi hmax hic z0 hz0 _ _ hA
  have vB := C18_rolling_counter cfg msgs m fl hash tick dlcArg r hr hf hm hov hty hcs hnc hi hmax hic z0 hz0 _ _ hB
  obtain ⟨pA1, pA2⟩ := pay _ _ hA
  obtain ⟨pB1, pB2⟩ := pay _ _ hB
  rw [(C19_consecutive_partial cfgR msgsR m fl hashR tickA dlcA huR hfR r hr hm (hty r hrm) hcan tickB dlcB
    st1 st1' st2 st2' (by rw [hdA]; exact pA1) (by rw [hdA]; exact pA2) (by rw [hdB]; exact pB1)
    (by rw [hdB]; exact pB2) h1 hkeep h2).1]
  rw [hdA, hdB]
  have hc : ((2 ^ r.lengthBit : Nat) : Int) = 2 ^ r.lengthBit := by push_cast; rfl
  have e1 : (((rawValue (r.order == .intel) r.startBit r.lengthBit sentA.dat + 1) % 2 ^ r.lengthBit : Nat) : Int) =
      (z0 + n + 1) % 2 ^ r.lengthBit := by
    push_cast
    rw [vA, Int.emod_add_emod]
  have e2 : (rawValue (r.order == .intel) r.startBit r.lengthBit sentB.dat : Int) =
      (z0 + n + 1 + lost) % 2 ^ r.lengthBit := by
    rw [vB]; congr 1; push_cast; omega
  constructor
  · intro h
    have : (z0 + n + 1 + lost) % (2:Int) ^ r.lengthBit = (z0 + n + 1) % 2 ^ r.lengthBit := by
      rw [← e1, ← e2, h]
    have hd : (2:Int) ^ r.lengthBit ∣ (z0 + n + 1 + lost) - (z0 + n + 1) := by
      apply Int.dvd_of_emod_eq_zero
      rw [Int.sub_emod, this]; simp
    have he : (z0 + n + 1 + lost) - (z0 + n + 1) = (lost : Int) := by omega
    rw [he, ← hc] at hd
    exact Int.natCast_dvd_natCast.1 hd
  · intro h
    have hd : (2:Int) ^ r.lengthBit ∣ (lost : Int) := by rw [← hc]; exact Int.natCast_dvd_natCast.2 h
    have : (z0 + n + 1 + lost) % (2:Int) ^ r.lengthBit = (z0 + n + 1) % 2 ^ r.lengthBit := by
      rw [Int.add_emod, Int.emod_eq_zero_of_dvd hd, Int.add_zero, Int.emod_emod]
    rw [← e1, ← e2] at this
    exact_mod_cast this

/-- **C19** is false for signed counters in members wider than the counter (no bit-fields): the
reception that follows the largest positive value reports an error although nothing was lost.
Together with `C19_consecutive_partial` this characterises the counters for which C19 holds. -/
theorem C19_refuted_signed (hu : cfg.flag .useMon = true) (hf : cfg.flag .autoRoll = true)
    (r : Sig) (hr : m.sigAt m.rollSig = some r) (hm : MsgOk m) (ht : r.TypeOk)
    (hcan : ¬ CounterCanonical cfg r) (tick' dlcArg' : Nat)
    (st1 st1' st2 st2' : St φ)
    (hd1 : IsPayload st1.dat) (hlen1 : m.dlc ≤ st1.dat.length)
    (hd2 : IsPayload st2.dat) (hlen2 : m.dlc ≤ st2.dat.length)
    (h1 : runUnpack (mkCtx cfg msgs m fl hash tick dlcArg) m st1 = .ok st1')
    (hkeep : st2.fld (exptName r.name) = st1'.fld (exptName r.name))
    (h2 : runUnpack (mkCtx cfg msgs m fl hash tick' dlcArg') m st2 = .ok st2')
    (hv1 : rawValue (r.order == .intel) r.startBit r.lengthBit st1.dat = 2 ^ (r.lengthBit - 1) - 1)
    (hv2 : rawValue (r.order == .intel) r.startBit r.lengthBit st2.dat = 2 ^ (r.lengthBit - 1)) :
    st2'.mon.rollError = 1 := by
  have hrm := sigAt_mem hr
  have hl := (hm.2 r hrm).1
  obtain ⟨-, e1⟩ := unpack_roll (c := mkCtx cfg msgs m fl hash tick dlcArg) rfl hm hu hf hr ht hd1 hlen1 h1
  obtain ⟨e2, -⟩ := unpack_roll (c := mkCtx cfg msgs m fl hash tick' dlcArg') rfl hm hu hf hr ht hd2 hlen2 h2
  rw [hkeep, e1] at e2
  unfold CounterCanonical at hcan
  simp only [not_or, not_and, Nat.not_lt, Bool.not_eq_false] at hcan
  obtain ⟨hs, hb, hw⟩ := hcan
  have hlt : r.lengthBit < r.typeRo.bits := by have := ht.2; omega
  have hp : (2:Int) ^ r.lengthBit = 2 * 2 ^ (r.lengthBit - 1) := by
    obtain ⟨k, hk⟩ : ∃ k, r.lengthBit = k + 1 := ⟨r.lengthBit - 1, by omega⟩
    rw [hk, Int.pow_succ]; simp [Int.mul_comm]
  have hpos : 0 < 2 ^ (r.lengthBit - 1) := Nat.two_pow_pos _
  have hc : ((2 ^ (r.lengthBit - 1) : Nat) : Int) = 2 ^ (r.lengthBit - 1) := by push_cast; rfl
  have v1 : r.value st1.dat = 2 ^ (r.lengthBit - 1) - 1 := by
    unfold Sig.value signedOf Sig.raw
    rw [if_pos hs, show rawValue r.intel r.startBit r.lengthBit st1.dat = _ from hv1, if_pos (by omega)]
    omega
  have v2 : r.value st2.dat = -(2 ^ (r.lengthBit - 1)) := by
    unfold Sig.value signedOf Sig.raw
    rw [if_pos hs, show rawValue r.intel r.startBit r.lengthBit st2.dat = _ from hv2, if_neg (by omega)]
    omega
  have hexp : (sigDecl cfg r).store ((r.value st1.dat + 1) % 2 ^ r.lengthBit) = 2 ^ (r.lengthBit - 1) := by
    have e : (r.value st1.dat + 1) % 2 ^ r.lengthBit = 2 ^ (r.lengthBit - 1) := by
      rw [v1, Int.emod_eq_of_lt (by omega) (by omega)]; omega
    rw [e]
    have hwd : (cfg.flag .useBits && decide (r.lengthBit < 8)) = false := by
      cases hub : cfg.flag .useBits
      · rfl
      · have := hb hub
        simp; omega
    unfold sigDecl FDecl.store
    simp only [hwd, Bool.false_eq_true, if_false]
    apply conv_id
    unfold CTy.InRange CTy.minV CTy.maxV
    rw [ht.1, hs]
    simp only [if_true]
    have hp2 : (2:Int) ^ r.lengthBit ≤ 2 ^ (r.typeRo.bits - 1) := by
      exact_mod_cast Nat.pow_le_pow_right (n := 2) (by decide) (by omega)
    omega
  rw [e2]
  show (if r.value st2.dat = (sigDecl cfg r).store ((r.value st1.dat + 1) % 2 ^ r.lengthBit) then 0 else 1) = 1
  rw [hexp, v2, if_neg (by omega)]

/-! ### C20 -/

theorem inByte_len {s : Sig} (h : s.inByte) : s.lengthBit ≤ 8 := by
  obtain ⟨i, -, hk⟩ := h
  -- the positions of the bits are distinct and inside one byte
  apply Classical.byContradiction
  intro hgt
  have key : ∀ j k, j < s.lengthBit → k < s.lengthBit → s.pos j = s.pos k → j = k := by
    intro j k hj hk e
    have := congrArg lin e
    unfold Sig.pos bitPos at this e
    split at e
    · omega
    · rename_i hi'
      rw [if_neg hi', if_neg hi', lin_iter, lin_iter] at this
      omega
  have : (List.map (fun k => s.pos k % 8) (List.range 9)).Nodup := by
    rw [List.nodup_iff_pairwise_ne, List.pairwise_map]
    refine List.Pairwise.imp_of_mem ?_ (List.nodup_iff_pairwise_ne.1 (List.nodup_range (n := 9)))
    intro a b ha hb hab he
    have ha' := List.mem_range.1 ha
    have hb' := List.mem_range.1 hb
    apply hab
    apply key a b (by omega) (by omega)
    have h1 := hk a (by omega)
    have h2 := hk b (by omega)
    omega
  have hsub := List.Nodup.length_le_of_subset this (l₂ := List.range 8) (by
    intro x hx
    obtain ⟨k, -, rfl⟩ := List.mem_map.1 hx
    exact List.mem_range.2 (Nat.mod_lt _ (by decide)))
  simp at hsub

/-- **C20**: exact meaning of `csm_error`: it is 0 iff the low byte of the user's hash of the received
frame equals the value of the checksum signal. -/
theorem C20_csm_error (hu : cfg.flag .useMon = true) (hf : cfg.flag .autoCsm = true)
    (s : Sig) (hs : m.sigAt m.csmSig = some s) (hm : MsgOk m) (ht : s.TypeOk) (ha : s.aligned)
    (st st' : St φ) (hd : IsPayload st.dat) (hlen : m.dlc ≤ st.dat.length)
    (h : runUnpack (mkCtx cfg msgs m fl hash tick dlcArg) m st = .ok st') :
    st'.mon.csmError = 0 ↔
      ((hash st.dat m.dlc m.msgId m.csmMethod m.csmOp % 256 : Nat) : Int) =
        (if s.signed then signedOf s.lengthBit (rawValue (s.order == .intel) s.startBit s.lengthBit st.dat)
         else (rawValue (s.order == .intel) s.startBit s.lengthBit st.dat : Int)) := by
  have := unpack_csm (c := mkCtx cfg msgs m fl hash tick dlcArg) rfl hm hu hf hs ht ha hd hlen h
  rw [this]
  show (if ((hash st.dat m.dlc m.msgId m.csmMethod m.csmOp % 256 : Nat) : Int) = s.value st.dat then 0 else 1) = 0 ↔ _
  show _ ↔ ((hash st.dat m.dlc m.msgId m.csmMethod m.csmOp % 256 : Nat) : Int) = s.value st.dat
  split <;> simp_all

/-- **C20**: a frame produced by Pack with AUTO_CSM is unpacked (by any configuration with monitors
and AUTO_CSM) with `csm_error = 0`, provided the hash does not depend on the checksum bits and fits
the checksum signal. -/
theorem C20_checksum_partial (cfgR : Cfg) (msgsR : List Msg) (tickR dlcR : Nat)
    (huR : cfgR.flag .useMon = true) (hfR : cfgR.flag .autoCsm = true)
    (hf : cfg.flag .autoCsm = true) (s : Sig) (hs : m.sigAt m.csmSig = some s)
    (hm : MsgOk m) (hov : NoOverlap m) (hty : ∀ s ∈ m.signals, s.TypeOk) (hcs : CsmHyp cfg m)
    (hi : cfg.initByte < 256) (hmax : m.dlc ≤ cfg.maxDlc) (hic : InitClear cfg m)
    (hign : ∀ d d', IsPayload d → IsPayload d' → AgreeOutside s d d' →
      hash d m.dlc m.msgId m.csmMethod m.csmOp = hash d' m.dlc m.msgId m.csmMethod m.csmOp)
    (hfit : ∀ d, InSigRange s.signed s.lengthBit ((hash d m.dlc m.msgId m.csmMethod m.csmOp % 256 : Nat) : Int))
    (st st' st2 st2' : St φ) (hd : IsPayload st.dat) (hlen : m.dlc ≤ st.dat.length)
    (h : runPack (mkCtx cfg msgs m fl hash tick dlcArg) m st = .ok st') (hdat : st2.dat = st'.dat)
    (h2 : runUnpack (mkCtx cfgR msgsR m fl hash tickR dlcR) m st2 = .ok st2') :
    st2'.mon.csmError = 0 := by
  have hsm := sigAt_mem hs
  have hl := (hm.2 s hsm).1
  have hin : s.lengthBit ≤ 8 := inByte_len (hcs hf s hs).2
  have ha : s.aligned := Or.inl (by omega)
  obtain ⟨d0, hp0, hag, hv⟩ := pack_csm (c := mkCtx cfg msgs m fl hash tick dlcArg) rfl hm hty hcs hi hd hlen hf hs h
  obtain ⟨hl1, hp1, -⟩ := pack_bits (c := mkCtx cfg msgs m fl hash tick dlcArg) rfl hm hty hcs hi hd hlen h
  have hv' : st'.fld s.name = ((hash st'.dat m.dlc m.msgId m.csmMethod m.csmOp % 256 : Nat) : Int) := by
    rw [hv]
    show (sigDecl cfg s).store ((hash d0 m.dlc m.msgId m.csmMethod m.csmOp % 256 : Nat) : Int) = _
    rw [store_of_sigRange (hty s hsm) hl (hfit d0), hign d0 st'.dat hp0 hp1 hag]
  rw [C20_csm_error cfgR msgsR m fl hash tickR dlcR huR hfR s hs hm (hty s hsm) ha st2 st2'
    (by rw [hdat]; exact hp1) (by rw [hdat, hl1]; exact hlen) h2, hdat, ← hv']
  refine (value_of_bits (s := s) hl (by rw [hv']; exact hfit _) ?_).symm
  intro k hk
  exact pack_signal_bits (c := mkCtx cfg msgs m fl hash tick dlcArg) rfl hm hty hcs hi hmax hov hic hd hlen h hsm hk

end


/-- XOR of all bytes. -/
def xorHash (d : List Nat) (_dlc _id : Nat) (_m : Str) (_op : Nat) : Nat := d.foldl (· ^^^ ·) 0

/-- **C20** is false for hashes that include the checksum byte, e.g. XOR over the frame: Pack hashes
the frame with a zero checksum, Unpack hashes it with the checksum in place. -/
theorem C20_refuted :
    ∃ st st' st2' : St Unit,
      runPack (mkCtx Fix.full [Fix.msg] Fix.msg Fix.fl xorHash 0 0) Fix.msg st = .ok st' ∧
      runUnpack (mkCtx Fix.full [Fix.msg] Fix.msg Fix.fl xorHash 0 0) Fix.msg st' = .ok st2' ∧
      st2'.mon.csmError = 1 := by
  let st0 : St Unit := { Fix.st (List.replicate 8 0) with fld := fun _ => 3 }
  have h : (match runPack (mkCtx Fix.full [Fix.msg] Fix.msg Fix.fl xorHash 0 0) Fix.msg st0 with
    | .ok st' => (match runUnpack (mkCtx Fix.full [Fix.msg] Fix.msg Fix.fl xorHash 0 0) Fix.msg st' with
      | .ok st2' => some st2'.mon.csmError
      | _ => none)
    | _ => none) = some 1 := by decide
  split at h
  next st' h1 =>
    split at h
    next st2' h2 => exact ⟨st0, st', st2', h1, h2, by simpa using h⟩
    next => cases h
  next => cases h

/-- A signed 4-bit rolling counter in a one byte message. -/
def sgnRoll : Msg :=
  { name := "M".toList, dlc := 1, msgId := 1,
    signals := [{ name := "RC".toList, startBit := 0, lengthBit := 4, order := .intel, signed := true,
                  typeRo := .i8, isSimple := true }],
    frameNotEmpty := true, rollSig := some 0 }

/-- `full` without bit-fields. -/
def noBits : Cfg := { Fix.full with flag := fun f => match f with | .useBits => false | f => Fix.full.flag f }

/-- **C19** is false: two consecutive frames (counter 7, then 8 = -8) and yet `roll_error = 1`. -/
theorem C19_refuted :
    ∃ st1 st1' st2' : St Unit,
      runUnpack (mkCtx noBits [sgnRoll] sgnRoll Fix.fl Fix.hash 0 1) sgnRoll st1 = .ok st1' ∧
      runUnpack (mkCtx noBits [sgnRoll] sgnRoll Fix.fl Fix.hash 0 1) sgnRoll { st1' with dat := [8] } = .ok st2' ∧
      st1.dat = [7] ∧ st2'.mon.rollError = 1 := by
  have h : (match runUnpack (mkCtx noBits [sgnRoll] sgnRoll Fix.fl Fix.hash 0 1) sgnRoll (Fix.st [7]) with
    | .ok st' => (match runUnpack (mkCtx noBits [sgnRoll] sgnRoll Fix.fl Fix.hash 0 1) sgnRoll { st' with dat := [8] } with
      | .ok st2' => some st2'.mon.rollError
      | _ => none)
    | _ => none) = some 1 := by decide
  split at h
  next st' h1 =>
    split at h
    next st2' h2 => exact ⟨Fix.st [7], st', st2', h1, h2, rfl, by simpa using h⟩
    next => cases h
  next => cases h

/-! Non-vacuity of C18-C20. -/

theorem Fix.initClear : InitClear Fix.full Fix.msg := by
  intro s _ k _; exact Nat.zero_testBit _

/-- All members hold `z`. -/
def Fix.stz (z : Int) : St Unit := { Fix.st (List.replicate 8 0) with fld := fun _ => z }

theorem Fix.zeros : IsPayload (List.replicate 8 0) := by intro b hb; revert b; decide

/-- Pack of the fixture message. -/
theorem Fix.packs (z : Int) (hz : -(2:Int) ^ 30 ≤ z ∧ z < 2 ^ 30) : ∃ st',
    runPack (mkCtx Fix.full [Fix.msg] Fix.msg Fix.fl Fix.hash 0 0) Fix.msg (Fix.stz z) = .ok st' ∧
    -(2:Int) ^ 30 ≤ st'.fld Fix.sigR.name ∧ st'.fld Fix.sigR.name < 2 ^ 30 := by
  have hs : (Fix.msg.sigAt Fix.msg.rollSig) = some Fix.sigR := rfl
  obtain ⟨st', h⟩ := pack_total (c := mkCtx Fix.full [Fix.msg] Fix.msg Fix.fl Fix.hash 0 0) rfl Fix.msgOk Fix.typeOk
    Fix.csmHyp (by decide) (by decide) Fix.rollOk (Fix.noPhys _) (st := Fix.stz z) Fix.zeros
    (by show 8 ≤ 8; decide) (fun _ r hr => hz)
  refine ⟨st', h, ?_⟩
  have := pack_roll (c := mkCtx Fix.full [Fix.msg] Fix.msg Fix.fl Fix.hash 0 0) rfl Fix.msgOk Fix.typeOk
    (fun _ => Fix.csmHyp) (by decide) (st := Fix.stz z) Fix.zeros (by show 8 ≤ 8; decide) hs rfl
    (by intro _; decide) (by intro _; rfl) hz h
  rw [this]
  exact store_range ⟨by decide, by decide⟩ (by decide) (by decide)
    ⟨Int.emod_nonneg _ (by decide), Int.emod_lt_of_pos _ (by decide)⟩

/-- Histories of any length exist. -/
theorem Fix.packHist (k : Nat) : ∃ st, PackHist (mkCtx Fix.full [Fix.msg] Fix.msg Fix.fl Fix.hash 0 0) Fix.msg
    Fix.sigR.name 14 (k + 1) st ∧ -(2:Int) ^ 30 ≤ st.fld Fix.sigR.name ∧ st.fld Fix.sigR.name < 2 ^ 30 := by
  induction k with
  | zero =>
    obtain ⟨st', h, hb⟩ := Fix.packs 14 (by decide)
    exact ⟨st', .first (Fix.stz 14) st' Fix.zeros (by decide) rfl h, hb⟩
  | succ k ih =>
    obtain ⟨st, hst, hb⟩ := ih
    obtain ⟨st', h, hb'⟩ := Fix.packs _ hb
    exact ⟨st', .next (Fix.stz (st.fld Fix.sigR.name)) st' hst Fix.zeros (by show 8 ≤ 8; decide) rfl h, hb'⟩

/-- All hypotheses of C19 and C20 hold together for the fixture: the counter wraps from 15 to 0. -/
example : ∃ sentA sentB st1' st2' : St Unit,
    PackHist (mkCtx Fix.full [Fix.msg] Fix.msg Fix.fl Fix.hash 0 0) Fix.msg Fix.sigR.name 14 1 sentA ∧
    PackHist (mkCtx Fix.full [Fix.msg] Fix.msg Fix.fl Fix.hash 0 0) Fix.msg Fix.sigR.name 14 2 sentB ∧
    runUnpack (mkCtx Fix.full [Fix.msg] Fix.msg Fix.fl Fix.hash 3 8) Fix.msg sentA = .ok st1' ∧
    runUnpack (mkCtx Fix.full [Fix.msg] Fix.msg Fix.fl Fix.hash 4 8) Fix.msg { st1' with dat := sentB.dat } = .ok st2' ∧
    st2'.mon.rollError = 0 := by
  obtain ⟨a, ha, -⟩ := Fix.packHist 0
  obtain ⟨b, hb, -⟩ := Fix.packHist 1
  have hs : (Fix.msg.sigAt Fix.msg.rollSig) = some Fix.sigR := rfl
  have pay : ∀ k (st : St Unit), PackHist (mkCtx Fix.full [Fix.msg] Fix.msg Fix.fl Fix.hash 0 0) Fix.msg Fix.sigR.name 14 k st →
      IsPayload st.dat ∧ Fix.msg.dlc ≤ st.dat.length := by
    intro k st hk
    cases hk with
    | first s0 _ hd hlen hz hrun =>
      obtain ⟨p1, p2, -⟩ := pack_bits (c := mkCtx Fix.full [Fix.msg] Fix.msg Fix.fl Fix.hash 0 0) rfl Fix.msgOk Fix.typeOk
        (fun _ => Fix.csmHyp) (by decide) hd hlen hrun
      exact ⟨p2, by omega⟩
    | next s0 _ _ hd hlen hz hrun =>
      obtain ⟨p1, p2, -⟩ := pack_bits (c := mkCtx Fix.full [Fix.msg] Fix.msg Fix.fl Fix.hash 0 0) rfl Fix.msgOk Fix.typeOk
        (fun _ => Fix.csmHyp) (by decide) hd hlen hrun
      exact ⟨p2, by omega⟩
  have un : ∀ tick (st : St Unit), IsPayload st.dat → Fix.msg.dlc ≤ st.dat.length → ∃ st',
      runUnpack (mkCtx Fix.full [Fix.msg] Fix.msg Fix.fl Fix.hash tick 8) Fix.msg st = .ok st' := fun tick st h1 h2 =>
    unpack_total (c := mkCtx Fix.full [Fix.msg] Fix.msg Fix.fl Fix.hash tick 8) rfl Fix.msgOk
      (show (mkCtx Fix.full [Fix.msg] Fix.msg Fix.fl Fix.hash 0 0).declsOk = true by decide) Fix.rollOk
      (Fix.noPhys _) (by decide) Fix.typeOk h1 h2
  obtain ⟨st1', h1⟩ := un 3 a (pay _ _ ha).1 (pay _ _ ha).2
  obtain ⟨st2', h2⟩ := un 4 { st1' with dat := b.dat } (pay _ _ hb).1 (pay _ _ hb).2
  refine ⟨a, b, st1', st2', ha, hb, h1, h2, ?_⟩
  rw [C19_lost_frames_partial Fix.full [Fix.msg] Fix.msg Fix.fl Fix.hash 0 0 Fix.full [Fix.msg] Fix.hash Fix.sigR hs rfl
    rfl rfl (Or.inl rfl) Fix.msgOk Fix.noOverlap Fix.typeOk (fun _ => Fix.csmHyp) (by intro _; decide) (by decide)
    (by decide) Fix.initClear 14 ⟨by decide, by decide⟩ 1 0 a b ha hb 3 8 4 8 a st1' { st1' with dat := b.dat } st2'
    rfl rfl h1 rfl h2]
  exact ⟨0, rfl⟩

/-- The hash of the fixture meets the conditions of C20. -/
example : (∀ d d', IsPayload d → IsPayload d' → AgreeOutside Fix.sigC d d' → Fix.hash d 8 0x123 Fix.msg.csmMethod 3 = Fix.hash d' 8 0x123 Fix.msg.csmMethod 3) ∧
    ∀ d, InSigRange Fix.sigC.signed Fix.sigC.lengthBit ((Fix.hash d 8 0x123 Fix.msg.csmMethod 3 % 256 : Nat) : Int) := by
  constructor
  · intro d d' hp hp' ⟨hl, hb⟩
    unfold Fix.hash
    have : d.take 7 = d'.take 7 := by
      apply List.ext_getElem
      · simp [hl]
      · intro i h1 h2
        simp only [List.length_take] at h1 h2
        simp only [List.getElem_take]
        have hbyte : ∀ (e : List Nat), IsPayload e → (h : i < e.length) → e[i] < 2 ^ 8 := fun e he h =>
          he _ (List.getElem_mem h)
        apply nat_eq_of_bits (hbyte d hp (by omega)) (hbyte d' hp' (by omega))
        intro k hk
        have := hb (8 * i + k) (by
          intro j hj
          have : Fix.sigC.pos j = 56 + j := rfl
          omega)
        unfold payloadBit at this
        rw [show (8 * i + k) / 8 = i by omega, show (8 * i + k) % 8 = k by omega] at this
        simpa [List.getD, List.getElem?_eq_getElem (show i < d.length by omega),
          List.getElem?_eq_getElem (show i < d'.length by omega)] using this
    rw [this]
  · intro d
    show 0 ≤ ((_ % 256 : Nat) : Int) ∧ ((_ % 256 : Nat) : Int) < 2 ^ 8
    omega

/-! ### C21 -/

section
variable (msgs : List Msg) (m : Msg) (fl : FloatOps φ)
  (hash : List Nat → Nat → Nat → Str → Nat → Nat) (tick dlcArg : Nat)

theorem exec_cfg {cA cB : Ctx φ} (h1 : cA.cfg.ext64 = cB.cfg.ext64) (h2 : cA.cfg.maxDlc = cB.cfg.maxDlc)
    (h3 : cA.cfg.initByte = cB.cfg.initByte) (h4 : cA.decls = cB.decls) (h5 : cA.floats = cB.floats)
    (h6 : cA.macros = cB.macros) (h7 : cA.fl = cB.fl) (h8 : cA.hash = cB.hash) (h9 : cA.tick = cB.tick)
    (h10 : cA.dlcArg = cB.dlcArg) (st : St φ) (x : CStmt) : exec cA st x = exec cB st x := by
  have hread : cA.read = cB.read := by
    funext st n; simp only [Ctx.read, Ctx.decl, h4]
  cases x <;>
    simp only [exec, hread, Ctx.assign, Ctx.read, Ctx.decl, Ctx.env, h1, h2, h3, h4, h5, h6, h7, h8, h9, h10]

theorem execAll_cfg {cA cB : Ctx φ} (h : ∀ st x, exec cA st x = exec cB st x) (l : List CStmt) :
    ∀ st : St φ, execAll cA st l = execAll cB st l := by
  induction l with
  | nil => intro st; rfl
  | cons x l ih => intro st; simp only [execAll, h, ih]

/-- Two results with the same observable effects except for the id output. -/
def SameFrame (a b : St φ) : Prop :=
  a.dat = b.dat ∧ a.fld = b.fld ∧ a.flt = b.flt ∧ a.mon = b.mon ∧ a.outDlc = b.outDlc ∧ a.outIde = b.outIde ∧
  a.retv = b.retv ∧ a.calls = b.calls

/-- **C21**: for every message, configuration and input, the `USE_CANSTRUCT` variant and the array
variant of Pack behave the same: same payload, same DLC, same IDE, same return value, same
structure afterwards; the struct variant also stores the id it returns. -/
theorem C21_same_frame (cfgA cfgB : Cfg) (hA : cfgA.flag .useCanStruct = true) (hB : cfgB.flag .useCanStruct = false)
    (hflag : ∀ f, f ≠ .useCanStruct → cfgA.flag f = cfgB.flag f)
    (h1 : cfgA.ext64 = cfgB.ext64) (h2 : cfgA.maxDlc = cfgB.maxDlc) (h3 : cfgA.initByte = cfgB.initByte)
    (st : St φ) :
    match runPack (mkCtx cfgA msgs m fl hash tick dlcArg) m st,
      runPack (mkCtx cfgB msgs m fl hash tick dlcArg) m st with
    | .ok a, .ok b => SameFrame a b ∧ a.outId = some (m.msgId % 2 ^ 32) ∧ a.retv = some m.msgId ∧
        a.outDlc = some (m.dlc % 256)
    | .bad, .bad => True
    | .genUB, .genUB => True
    | _, _ => False := by
  have hsigDecl : ∀ s, sigDecls cfgA s = sigDecls cfgB s := by
    intro s
    unfold sigDecls sigDecl
    rw [hflag .useBits (by decide), hflag .useSigFloat (by decide)]
  have hsigFl : ∀ s, sigFloats cfgA s = sigFloats cfgB s := by
    intro s
    unfold sigFloats
    rw [hflag .useSigFloat (by decide)]
  have hss : structSigs cfgA m = structSigs cfgB m := by
    unfold structSigs
    rw [hflag .autoRoll (by decide)]
  have hdecls : structDecls cfgA m = structDecls cfgB m := by
    unfold structDecls; rw [hss]; exact congrArg (fun f => List.flatMap f _) (funext hsigDecl)
  have hfloats : floatDecls cfgA m = floatDecls cfgB m := by
    unfold floatDecls; rw [hss]; exact congrArg (fun f => List.flatMap f _) (funext hsigFl)
  have hexec : ∀ st x, exec (mkCtx cfgA msgs m fl hash tick dlcArg) st x =
      exec (mkCtx cfgB msgs m fl hash tick dlcArg) st x :=
    exec_cfg h1 h2 h3 hdecls hfloats rfl rfl rfl rfl rfl
  have hok : (mkCtx cfgA msgs m fl hash tick dlcArg).declsOk = (mkCtx cfgB msgs m fl hash tick dlcArg).declsOk := by
    unfold Ctx.declsOk
    show decide ((structDecls cfgA m).map (·.1) ++ floatDecls cfgA m).Nodup =
      decide ((structDecls cfgB m).map (·.1) ++ floatDecls cfgB m).Nodup
    rw [hdecls, hfloats]
  unfold runPack
  cases buildExprs m with
  | oob => trivial
  | ok sx tb =>
    dsimp only
    show match (match (if cfgA.flag .useCanStruct then writePackStructBody m tb else writePackArrayBody m tb) with
        | none => CallRes.genUB
        | some lines => runBody (mkCtx cfgA msgs m fl hash tick dlcArg) lines st),
      (match (if cfgB.flag .useCanStruct then writePackStructBody m tb else writePackArrayBody m tb) with
        | none => CallRes.genUB
        | some lines => runBody (mkCtx cfgB msgs m fl hash tick dlcArg) lines st) with
      | .ok a, .ok b => _
      | .bad, .bad => True
      | .genUB, .genUB => True
      | _, _ => False
    rw [hA, hB]
    simp only [if_true, Bool.false_eq_true, if_false]
    unfold writePackStructBody writePackArrayBody
    obtain ⟨g1, g2⟩ := printPackCommonText_eq cfgA m tb
    obtain ⟨k1, k2⟩ := printPackCommonText_eq cfgB m tb
    by_cases hro : RollOk m ∧ CsmOk m
    · obtain ⟨lines, e1, e2, e3⟩ := g2 hro
      obtain ⟨lines', e1', e2', e3'⟩ := k2 hro
      rw [e1, Option.some.injEq] at e1'
      subst e1'
      rw [e1]
      simp only [Option.bind_eq_bind, Option.bind_some, pure]
      have hsame : preprocess cfgA.flag [] lines = preprocess cfgB.flag [] lines := by
        rw [e3, e3']
        unfold prePackStmts csmStmts
        rw [hflag .autoRoll (by decide), hflag .autoCsm (by decide), hflag .useSigFloat (by decide)]
      unfold runBody
      rw [hok]
      cases (mkCtx cfgB msgs m fl hash tick dlcArg).declsOk with
      | false => simp only [Bool.false_eq_true, if_false]
      | true =>
        simp only [if_true]
        have pA : preprocess (mkCtx cfgA msgs m fl hash tick dlcArg).cfg.flag []
            (lines ++ [.stmt (.outId m.msgId), .stmt (.outDlc m.dlc), .stmt (.outIde m.ide), .stmt (.ret m.msgId)]) =
            preprocess cfgB.flag [] lines ++ [.outId m.msgId, .outDlc m.dlc, .outIde m.ide, .ret m.msgId] := by
          show preprocess cfgA.flag [] _ = _
          rw [preprocess_append e2, hsame]; rfl
        have pB : preprocess (mkCtx cfgB msgs m fl hash tick dlcArg).cfg.flag []
            (lines ++ [.stmt (.outDlc m.dlc), .stmt (.outIde m.ide), .stmt (.ret m.msgId)]) =
            preprocess cfgB.flag [] lines ++ [.outDlc m.dlc, .outIde m.ide, .ret m.msgId] := by
          show preprocess cfgB.flag [] _ = _
          rw [preprocess_append e2]; rfl
        rw [pA, pB, execAll_cfg hexec, execAll_append, execAll_append]
        cases execAll (mkCtx cfgB msgs m fl hash tick dlcArg) st (preprocess cfgB.flag [] lines) with
        | none => trivial
        | some st1 => exact ⟨⟨rfl, rfl, rfl, rfl, rfl, rfl, rfl, rfl⟩, rfl, rfl, rfl⟩
    · rw [g1 hro]; trivial

example : ∃ a b : St Unit,
    runPack (mkCtx Fix.full [Fix.msg] Fix.msg Fix.fl Fix.hash 0 0) Fix.msg (Fix.stz 3) = .ok b ∧
    runPack (mkCtx { Fix.full with flag := fun f => f == .useCanStruct || Fix.full.flag f } [Fix.msg] Fix.msg Fix.fl Fix.hash 0 0)
      Fix.msg (Fix.stz 3) = .ok a := by
  obtain ⟨b, hb, -⟩ := Fix.packs 3 (by decide)
  have := C21_same_frame [Fix.msg] Fix.msg Fix.fl Fix.hash 0 0
    { Fix.full with flag := fun f => f == .useCanStruct || Fix.full.flag f } Fix.full rfl rfl
    (by intro f hf; cases f <;> simp_all) rfl rfl rfl (Fix.stz 3)
  rw [hb] at this
  split at this
  next a b' h1 h2 => exact ⟨a, b, hb, h1⟩
  next h => cases h
  next h => cases h
  next => exact this.elim

end

end Verif
