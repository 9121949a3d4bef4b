import Verif.Proofs.MonRun
import Verif.Spec.Histories
/- Rolling counters and checksums across calls. -/
namespace Verif
open Spec
variable {φ : Type}

theorem eq_of_mod {sg : Bool} {n : Nat} {a b : Int} (hn : 0 < n) (ha : InSigRange sg n a) (hb : InSigRange sg n b)
    (h : a % 2 ^ n = b % 2 ^ n) : a = b := by
  have hp : (2:Int) ^ n = 2 * 2 ^ (n - 1) := by
    obtain ⟨k, rfl⟩ : ∃ k, n = k + 1 := ⟨n - 1, by omega⟩
    rw [Int.pow_succ]; simp [Int.mul_comm]
  have hpos : (0:Int) < 2 ^ (n - 1) := by exact_mod_cast Nat.two_pow_pos (n - 1)
  have hd : (2:Int) ^ n ∣ a - b := Int.dvd_of_emod_eq_zero (by rw [Int.sub_emod, h]; simp)
  obtain ⟨k, hk⟩ := hd
  have hk0 : k = 0 := by
    unfold InSigRange at ha hb
    generalize (2:Int) ^ (n - 1) = P at *
    rw [hp] at hk ha hb
    apply Classical.byContradiction
    intro hne
    have : k ≥ 1 ∨ k ≤ -1 := by omega
    rcases this with hk1 | hk1
    · have : 2 * P * k ≥ 2 * P * 1 := Int.mul_le_mul_of_nonneg_left hk1 (by omega)
      split at ha <;> simp only [*, if_true, if_false, Bool.false_eq_true] at hb <;> omega
    · have : 2 * P * k ≤ 2 * P * (-1) := Int.mul_le_mul_of_nonneg_left hk1 (by omega)
      split at ha <;> simp only [*, if_true, if_false, Bool.false_eq_true] at hb <;> omega
  rw [hk0, Int.mul_zero] at hk
  omega

theorem Sig.value_mod (s : Sig) (d : List Nat) : s.value d % 2 ^ s.lengthBit = (s.raw d : Int) := by
  have h := s.raw_lt d
  have hc : (s.raw d : Int) < 2 ^ s.lengthBit := by exact_mod_cast h
  have e0 : (s.raw d : Int) % 2 ^ s.lengthBit = s.raw d := Int.emod_eq_of_lt (by omega) hc
  unfold Sig.value
  split
  · unfold signedOf
    split
    · exact e0
    · rw [Int.sub_emod_right, e0]
  · exact e0

theorem store_canonical {cfg : Cfg} {r : Sig} (ht : r.TypeOk) (hl : 0 < r.lengthBit)
    (hcan : CounterCanonical cfg r) {z : Int} (hz : 0 ≤ z ∧ z < 2 ^ r.lengthBit) :
    InSigRange r.signed r.lengthBit ((sigDecl cfg r).store z) := by
  cases hs : r.signed with
  | false =>
    have hr : InSigRange r.signed r.lengthBit z := by unfold InSigRange; rw [hs]; exact hz
    rw [store_of_sigRange ht hl hr, ← hs]
    exact hr
  | true =>
    rcases hcan with h | ⟨h1, h2⟩ | h
    · rw [h] at hs; cases hs
    · unfold sigDecl FDecl.store
      have hsg := ht.1
      rw [hs] at hsg
      simp only [h1, h2, decide_true, Bool.and_self, if_true, hsg]
      unfold InSigRange
      simp only [if_true]
      have hpn : 0 < 2 ^ r.lengthBit := Nat.two_pow_pos _
      have := Int.le_bmod (x := r.typeRo.conv z) hpn
      have := Int.bmod_lt (x := r.typeRo.conv z) hpn
      have hp : (2:Int) ^ r.lengthBit = 2 * 2 ^ (r.lengthBit - 1) := by
        obtain ⟨k, hk⟩ : ∃ k, r.lengthBit = k + 1 := ⟨r.lengthBit - 1, by omega⟩
        rw [hk, Int.pow_succ]; simp [Int.mul_comm]
      have hc : ((2 ^ r.lengthBit : Nat) : Int) = 2 ^ r.lengthBit := by push_cast; rfl
      omega
    · unfold sigDecl FDecl.store
      have hsg := ht.1
      rw [hs] at hsg
      have hw : ¬ (r.lengthBit < 8) := by have := CTy.bits_ge_8 r.typeRo; omega
      simp only [hw, decide_false, Bool.and_false, Bool.false_eq_true, if_false]
      unfold CTy.conv InSigRange
      rw [hsg]
      simp only [if_true]
      rw [h]
      rw [h] at hl
      generalize r.typeRo.bits = B at *
      have hpn : 0 < 2 ^ B := Nat.two_pow_pos _
      have := Int.le_bmod (x := z) hpn
      have := Int.bmod_lt (x := z) hpn
      have hp : (2:Int) ^ B = 2 * 2 ^ (B - 1) := by
        obtain ⟨k, hk⟩ : ∃ k, B = k + 1 := ⟨B - 1, by omega⟩
        rw [hk, Int.pow_succ]; simp [Int.mul_comm]
      have hc : ((2 ^ B : Nat) : Int) = 2 ^ B := by push_cast; rfl
      omega

theorem expt_decl {c : Ctx φ} {m : Msg} (hc : c.decls = structDecls c.cfg m)
    (hn : (c.decls.map (·.1)).Nodup) {r : Sig} (hr : m.sigAt m.rollSig = some r)
    (hf : c.cfg.flag .autoRoll = true) : c.decl (exptName r.name) = some (sigDecl c.cfg r) := by
  have : ({ r with name := exptName r.name } : Sig) ∈ structSigs c.cfg m := by
    unfold structSigs; rw [hr]; dsimp only; rw [if_pos hf]; simp
  exact decl_of_mem hc hn this

theorem expt_not_written {c : Ctx φ} {m : Msg} (hc : c.decls = structDecls c.cfg m)
    (hn : (c.decls.map (·.1)).Nodup) {r : Sig} (hr : m.sigAt m.rollSig = some r)
    (hf : c.cfg.flag .autoRoll = true) :
    exptName r.name ∉ (unpackSigStmts c.cfg m.signals).flatMap CStmt.writes := by
  rw [unpackSigStmts_writes]
  rw [hc] at hn
  have hss : structSigs c.cfg m = m.signals ++ [{ r with name := exptName r.name }] := by
    unfold structSigs; rw [hr]; dsimp only; rw [if_pos hf]
  unfold structDecls at hn
  rw [hss, List.flatMap_append, List.map_append, List.nodup_append] at hn
  intro h
  exact hn.2.2 _ h (exptName r.name) (by simp [sigDecls]) rfl

/-- One Unpack call with monitors and AUTO_ROLL. -/
theorem unpack_roll {c : Ctx φ} {m : Msg} (hc : c.decls = structDecls c.cfg m) (hm : MsgOk m)
    (hu : c.cfg.flag .useMon = true) (hf : c.cfg.flag .autoRoll = true)
    {r : Sig} (hr : m.sigAt m.rollSig = some r) (ht : r.TypeOk)
    {st st' : St φ} (hd : IsPayload st.dat) (hlen : m.dlc ≤ st.dat.length)
    (h : runUnpack c m st = .ok st') :
    st'.mon.rollError = (if r.value st.dat = st.fld (exptName r.name) then 0 else 1) ∧
    st'.fld (exptName r.name) = (sigDecl c.cfg r).store ((r.value st.dat + 1) % 2 ^ r.lengthBit) := by
  obtain ⟨hdo, hro, st1, st2, h1, h2, rfl⟩ := runUnpack_parts hm h
  have hn := nodup_of_declsOk hdo
  have hrm := sigAt_mem hr
  have h31 := hro r hr
  have hl := (hm.2 r hrm).1
  have hv : st1.fld r.name = r.value st.dat := by
    have := unpack_value hc hm hd hlen h hrm ht (Or.inl (by omega))
    rw [Sig.value, ← this]
    have hfr := (execAll_frame h2).1 r.name
    rw [hfr]
    intro hx
    obtain ⟨r', hr', _, _, e⟩ := monStmts_writes hx
    rw [hr] at hr'
    cases hr'
    have : (exptName r.name).length = r.name.length := by rw [← e]
    simp [exptName] at this
  have hex : st1.fld (exptName r.name) = st.fld (exptName r.name) :=
    (execAll_frame h1).1 _ (expt_not_written hc hn hr hf)
  obtain ⟨sa, sb, ha, hb, e⟩ := mon_parts hu h2
  obtain ⟨⟨x, hx, hx1, -⟩, hdat, hfld, hexpt⟩ := monRoll_effect ha
  obtain ⟨⟨y, hy, -⟩, hfy, -⟩ := monCsm_effect hb
  have hrange := raw_inRange r st.dat hl
  have hbnd := sigRange_bound h31 hrange
  rw [e]
  constructor
  · show sb.mon.rollError = _
    rw [hy, hx]
    show x = _
    rw [hx1 r hr hf]
    show (if st1.fld r.name = st1.fld (exptName r.name) then 0 else 1) = _
    rw [hv, hex]
  · show sb.fld (exptName r.name) = _
    rw [hfy]
    have := hexpt r hr hf h31 (by show -(2:Int) ^ 30 ≤ st1.fld r.name ∧ st1.fld r.name < 2 ^ 30; rw [hv]; exact hbnd)
      _ (expt_decl hc hn hr hf)
    rw [this]
    show (sigDecl c.cfg r).store ((st1.fld r.name + 1) % 2 ^ r.lengthBit) = _
    rw [hv]

/-- One Unpack call with monitors and AUTO_CSM. -/
theorem unpack_csm {c : Ctx φ} {m : Msg} (hc : c.decls = structDecls c.cfg m) (hm : MsgOk m)
    (hu : c.cfg.flag .useMon = true) (hf : c.cfg.flag .autoCsm = true)
    {s : Sig} (hs : m.sigAt m.csmSig = some s) (ht : s.TypeOk) (ha : s.aligned)
    {st st' : St φ} (hd : IsPayload st.dat) (hlen : m.dlc ≤ st.dat.length)
    (h : runUnpack c m st = .ok st') :
    st'.mon.csmError = (if ((c.hash st.dat m.dlc m.msgId m.csmMethod m.csmOp % 256 : Nat) : Int) = s.value st.dat
      then 0 else 1) := by
  obtain ⟨hdo, hro, st1, st2, h1, h2, rfl⟩ := runUnpack_parts hm h
  have hn := nodup_of_declsOk hdo
  have hsm := sigAt_mem hs
  have hne : ∀ r, m.sigAt m.rollSig = some r → c.cfg.flag .autoRoll = true → s.name ≠ exptName r.name := by
    intro r hr hfr e
    refine expt_not_written hc hn hr hfr ?_
    rw [unpackSigStmts_writes, ← e]
    exact List.mem_map.2 ⟨(s.name, sigDecl c.cfg s), List.mem_flatMap.2 ⟨s, hsm, by simp [sigDecls]⟩, rfl⟩
  have hv : st1.fld s.name = s.value st.dat := by
    have := unpack_value hc hm hd hlen h hsm ht ha
    rw [Sig.value, ← this]
    have hfr := (execAll_frame h2).1 s.name
    rw [hfr]
    intro hx
    obtain ⟨r', hr', hfr', _, e⟩ := monStmts_writes hx
    exact hne r' hr' hfr' e
  have hdat1 : st1.dat = st.dat := (execAll_frame h1).2.1 fun x hx => (unpackSigStmts_dat hx).1
  obtain ⟨sa, sb, hra, hcb, e⟩ := mon_parts hu h2
  obtain ⟨-, hdat, hfld, -⟩ := monRoll_effect hra
  obtain ⟨⟨y, hy, hy1, -⟩, -, -⟩ := monCsm_effect hcb
  rw [e]
  show sb.mon.csmError = _
  rw [hy]
  show y = _
  rw [hy1 s hs hf, hdat, hfld s.name hne]
  show (if ((c.hash st1.dat m.dlc m.msgId m.csmMethod m.csmOp % 256 : Nat) : Int) = st1.fld s.name then 0 else 1) = _
  rw [hv, hdat1]

/-- The checksum Pack stores is the hash of a frame that differs from the result at most in the
checksum bits. -/
theorem pack_csm {c : Ctx φ} {m : Msg} (hc : c.decls = structDecls c.cfg m) (hm : MsgOk m)
    (hty : ∀ s ∈ m.signals, s.TypeOk) (hcs : CsmHyp c.cfg m) (hi : c.cfg.initByte < 256)
    {st st' : St φ} (hd : IsPayload st.dat) (hlen : m.dlc ≤ st.dat.length)
    (hf : c.cfg.flag .autoCsm = true) {s : Sig} (hs : m.sigAt m.csmSig = some s)
    (h : runPack c m st = .ok st') :
    ∃ d0, IsPayload d0 ∧ AgreeOutside s d0 st'.dat ∧
      st'.fld s.name = (sigDecl c.cfg s).store ((c.hash d0 m.dlc m.msgId m.csmMethod m.csmOp % 256 : Nat) : Int) := by
  obtain ⟨hdo, hro, hco, stA, stB, stC, stD, hA, hB, hC, hD, rfl⟩ := runPack_parts hm h
  have hn := nodup_of_declsOk hdo
  have hn' : ((structDecls c.cfg m).map (·.1)).Nodup := hc ▸ hn
  have hsm := sigAt_mem hs
  have hdecl : ∀ s ∈ m.signals, c.decl s.name = some (sigDecl c.cfg s) :=
    fun s hs => decl_of_mem hc hn (structSigs_mem hs)
  obtain ⟨dA, rfl, lA, pA, bA, -⟩ := exec_init hi hd hA
  have hz := prePack_csm hn' hdecl hcs hB
  obtain ⟨fB1, fB2, fB3⟩ := prePack_frame hB
  obtain ⟨dC, eC, lC, pC, bC⟩ := bytePart (st := stB) hm hty hdecl (by rw [fB1]; exact pA)
    (by rw [fB1]; simp only [lA]; exact hlen)
  rw [eC, Option.some.injEq] at hC
  subst hC
  obtain ⟨lD, pD, bD, cD, fD⟩ := csmPart (st := { stB with dat := dC }) hm hty hn' hdecl hcs pC hz hD
  refine ⟨dC, pC, ⟨lD.symm, ?_⟩, ?_⟩
  · intro p hp
    rw [Bool.eq_iff_iff]
    constructor
    · intro hx; exact (bD p).2 (Or.inl hx)
    · intro hx
      rcases (bD p).1 hx with hx | ⟨t, htm, hne, k, hk, hpos, -⟩
      · exact hx
      · exfalso
        have : t = s := by
          apply Classical.byContradiction
          intro hts
          apply hne
          apply fD
          intro _ s' hs' e
          rw [hs] at hs'
          cases hs'
          exact hts (names_inj hn' htm hsm e)
        subst this
        exact hp k hk hpos
  · simp only
    exact cD hf s hs

end Verif
