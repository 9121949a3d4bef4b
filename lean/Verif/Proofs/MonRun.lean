import Verif.Proofs.RoundTrip
/- The monitor part of Unpack, and both variants of Pack. -/
namespace Verif
open Spec
variable {φ : Type}

/-- Rolling counter statements of the monitor part. -/
def monRollStmts (cfg : Cfg) (m : Msg) : List CStmt :=
  match m.sigAt m.rollSig with
  | some r => if cfg.flag .autoRoll then
      [.monRoll r.name, .incr (exptName r.name) r.name (2 ^ r.lengthBit - 1)] else []
  | none => []

/-- Checksum statements of the monitor part. -/
def monCsmStmts (cfg : Cfg) (m : Msg) : List CStmt :=
  match m.sigAt m.csmSig with
  | some s => if cfg.flag .autoCsm then [.monCsm m.dlc m.msgId m.csmMethod m.csmOp s.name] else []
  | none => []

theorem monStmts_eq {cfg : Cfg} {m : Msg} (h : cfg.flag .useMon = true) :
    monStmts cfg m = [.monDlc m.dlc, .monTick, .monCnt] ++ monRollStmts cfg m ++ monCsmStmts cfg m ++
      [.fmon m.name m.msgId] := by
  unfold monStmts
  rw [if_pos h]
  rfl

theorem monStmts_off {cfg : Cfg} {m : Msg} (h : cfg.flag .useMon = false) : monStmts cfg m = [] := by
  unfold monStmts; rw [h]; rfl

/-- State after the three unconditional monitor assignments. -/
def St.seen (st : St φ) (c : Ctx φ) (m : Msg) : St φ :=
  { st with mon := { st.mon with
      dlcError := if c.dlcArg < m.dlc then 1 else 0
      lastCycle := c.tick % 2 ^ 32
      frameCnt := (st.mon.frameCnt + 1) % 2 ^ 32 } }

theorem mon_parts {c : Ctx φ} {m : Msg} {st st' : St φ} (hu : c.cfg.flag .useMon = true)
    (h : execAll c st (monStmts c.cfg m) = some st') :
    ∃ st1 st2, execAll c (st.seen c m) (monRollStmts c.cfg m) = some st1 ∧
      execAll c st1 (monCsmStmts c.cfg m) = some st2 ∧
      st' = { st2 with calls := st2.calls ++ [(m.name, m.msgId)] } := by
  rw [monStmts_eq hu, execAll_append, execAll_append, execAll_append] at h
  have h0 : execAll c st [.monDlc m.dlc, .monTick, .monCnt] = some (st.seen c m) := rfl
  rw [h0, Option.bind_some] at h
  rw [Option.bind_eq_some_iff] at h
  obtain ⟨st2, h, hf⟩ := h
  rw [Option.bind_eq_some_iff] at h
  obtain ⟨st1, h1, h2⟩ := h
  refine ⟨st1, st2, h1, h2, ?_⟩
  have : execAll c st2 [.fmon m.name m.msgId] = some { st2 with calls := st2.calls ++ [(m.name, m.msgId)] } := rfl
  rw [this, Option.some.injEq] at hf
  exact hf.symm

/-- Effect of the rolling counter part. -/
theorem monRoll_effect {c : Ctx φ} {m : Msg} {st st1 : St φ}
    (h : execAll c st (monRollStmts c.cfg m) = some st1) :
    (∃ x, st1.mon = { st.mon with rollError := x } ∧
      (∀ r, m.sigAt m.rollSig = some r → c.cfg.flag .autoRoll = true →
        x = if st.fld r.name = st.fld (exptName r.name) then 0 else 1) ∧
      ((m.sigAt m.rollSig = none ∨ c.cfg.flag .autoRoll = false) → x = st.mon.rollError)) ∧
    st1.dat = st.dat ∧
    (∀ n, (∀ r, m.sigAt m.rollSig = some r → c.cfg.flag .autoRoll = true → n ≠ exptName r.name) →
      st1.fld n = st.fld n) ∧
    (∀ r, m.sigAt m.rollSig = some r → c.cfg.flag .autoRoll = true → r.lengthBit < 31 →
      (-(2:Int) ^ 30 ≤ st.fld r.name ∧ st.fld r.name < 2 ^ 30) →
      ∀ d, c.decl (exptName r.name) = some d →
      st1.fld (exptName r.name) = d.store ((st.fld r.name + 1) % 2 ^ r.lengthBit)) := by
  have hwr := execAll_frame h
  have nil_case : monRollStmts c.cfg m = [] → st1 = st := by
    intro e; rw [e] at h; simp only [execAll, Option.some.injEq] at h; exact h.symm
  cases hr : m.sigAt m.rollSig with
  | none =>
    have := nil_case (by unfold monRollStmts; rw [hr])
    subst this
    exact ⟨⟨st1.mon.rollError, rfl, by simp, by simp⟩, rfl, by simp, by simp⟩
  | some r =>
    cases hf : c.cfg.flag .autoRoll with
    | false =>
      have := nil_case (by unfold monRollStmts; rw [hr, hf]; rfl)
      subst this
      exact ⟨⟨st1.mon.rollError, rfl, by simp, by simp⟩, rfl, by simp, by simp⟩
    | true =>
      have e : monRollStmts c.cfg m =
          [.monRoll r.name, .incr (exptName r.name) r.name (2 ^ r.lengthBit - 1)] := by
        unfold monRollStmts; rw [hr, hf]; rfl
      rw [e] at h hwr
      obtain ⟨s1, s2, x1, x2, x3⟩ := execAll_split (a := []) h
      simp only [execAll, Option.some.injEq] at x1
      subst x1
      obtain ⟨s3, s4, y1, y2, y3⟩ := execAll_split (a := []) x3
      simp only [execAll, Option.some.injEq] at y1 y3
      subst y1 y3
      simp only [exec, Option.bind_eq_bind, Option.bind_eq_some_iff, pure, Option.some.injEq] at x2
      obtain ⟨a, ha, b, hb, rfl⟩ := x2
      have fa : a.val = st.fld r.name := by
        unfold Ctx.read at ha
        rw [Option.map_eq_some_iff] at ha
        obtain ⟨d, -, rfl⟩ := ha; rfl
      have fb : b.val = st.fld (exptName r.name) := by
        unfold Ctx.read at hb
        rw [Option.map_eq_some_iff] at hb
        obtain ⟨d, -, rfl⟩ := hb; rfl
      obtain ⟨g1, g2, g3⟩ := exec_frame y2
      refine ⟨⟨if a.val = b.val then 0 else 1, ?_, ?_, ?_⟩, ?_, ?_, ?_⟩
      · rw [g3 rfl]
      · intro r' hr' _
        cases hr'
        rw [fa, fb]
      · rintro (h | h) <;> cases h
      · rw [g2 rfl]
      · intro n hn
        rw [g1 n (by simpa [CStmt.writes] using hn r rfl rfl)]
      · intro r' hr' _ hlen hb d hd
        cases hr'
        have ha' : ∃ d', c.decl r.name = some d' := by
          unfold Ctx.read at ha
          rw [Option.map_eq_some_iff] at ha
          obtain ⟨d', hd', -⟩ := ha
          exact ⟨d', hd'⟩
        obtain ⟨d', hd'⟩ := ha'
        rw [exec_incr (src := r.name) hd' hd hlen (by exact hb), Option.some.injEq] at y2
        rw [← y2, upd_same]

/-- Effect of the checksum part. -/
theorem monCsm_effect {c : Ctx φ} {m : Msg} {st st1 : St φ}
    (h : execAll c st (monCsmStmts c.cfg m) = some st1) :
    (∃ x, st1.mon = { st.mon with csmError := x } ∧
      (∀ s, m.sigAt m.csmSig = some s → c.cfg.flag .autoCsm = true →
        x = if ((c.hash st.dat m.dlc m.msgId m.csmMethod m.csmOp % 256 : Nat) : Int) = st.fld s.name then 0 else 1) ∧
      ((m.sigAt m.csmSig = none ∨ c.cfg.flag .autoCsm = false) → x = st.mon.csmError)) ∧
    st1.fld = st.fld ∧ st1.dat = st.dat := by
  have nil_case : monCsmStmts c.cfg m = [] → st1 = st := by
    intro e; rw [e] at h; simp only [execAll, Option.some.injEq] at h; exact h.symm
  cases hr : m.sigAt m.csmSig with
  | none =>
    have := nil_case (by unfold monCsmStmts; rw [hr])
    subst this
    exact ⟨⟨st1.mon.csmError, rfl, by simp, by simp⟩, rfl, rfl⟩
  | some r =>
    cases hf : c.cfg.flag .autoCsm with
    | false =>
      have := nil_case (by unfold monCsmStmts; rw [hr, hf]; rfl)
      subst this
      exact ⟨⟨st1.mon.csmError, rfl, by simp, by simp⟩, rfl, rfl⟩
    | true =>
      have e : monCsmStmts c.cfg m = [.monCsm m.dlc m.msgId m.csmMethod m.csmOp r.name] := by
        unfold monCsmStmts; rw [hr, hf]; rfl
      rw [e] at h
      obtain ⟨s1, s2, x1, x2, x3⟩ := execAll_split (a := []) h
      simp only [execAll, Option.some.injEq] at x1 x3
      subst x1 x3
      simp only [exec, Option.bind_eq_bind, Option.bind_eq_some_iff, pure, Option.some.injEq] at x2
      obtain ⟨a, ha, rfl⟩ := x2
      have fa : a.val = st.fld r.name := by
        unfold Ctx.read at ha
        rw [Option.map_eq_some_iff] at ha
        obtain ⟨d, -, rfl⟩ := ha; rfl
      refine ⟨⟨_, rfl, ?_, ?_⟩, rfl, rfl⟩
      · intro r' hr' _
        cases hr'
        rw [fa]
      · rintro (h | h) <;> cases h

/-! ### Unpack of an arbitrary message -/

theorem sigStmts_mon {cfg : Cfg} {s : Sig} {e : SigText} {x : CStmt} (h : x ∈ sigStmts cfg s e) :
    x.writesMon = false := by
  unfold sigStmts at h
  rw [List.mem_cons] at h
  rcases h with h | h
  · subst h; split <;> rfl
  · split at h
    · simp only [List.mem_singleton] at h
      subst h; split <;> rfl
    · cases h

theorem runUnpack_any {c : Ctx φ} {m : Msg} {st st' : St φ} (h : runUnpack c m st = .ok st') :
    c.declsOk = true ∧ RollOk m ∧ ∃ st1 st2, st1.mon = st.mon ∧ execAll c st1 (monStmts c.cfg m) = some st2 ∧
      st' = { st2 with retv := some m.msgId } := by
  unfold runUnpack at h
  cases hb : buildExprs m with
  | oob => rw [hb] at h; cases h
  | ok sx tb =>
    rw [hb] at h
    dsimp only at h
    obtain ⟨w1, w2⟩ := writeUnpackBody_eq c.cfg m sx
    by_cases hr : RollOk m
    · obtain ⟨lines, e1, e2⟩ := w2 hr
      rw [e1] at h
      dsimp only at h
      unfold runBody at h
      split at h
      next hdo =>
        refine ⟨hdo, hr, ?_⟩
        rw [e2, execAll_append, execAll_append] at h
        split at h
        · cases h
        next st3 he =>
          cases h
          rw [Option.bind_eq_some_iff] at he
          obtain ⟨st2, he, hret⟩ := he
          rw [Option.bind_eq_some_iff] at he
          obtain ⟨st1, he1, he2⟩ := he
          refine ⟨st1, st2, ?_, he2, ?_⟩
          · apply (execAll_frame he1).2.2
            intro x hx
            obtain ⟨p, -, hp⟩ := List.mem_flatMap.1 hx
            exact sigStmts_mon hp
          · have : execAll c st2 [.ret m.msgId] = some { st2 with retv := some m.msgId } := rfl
            rw [this, Option.some.injEq] at hret
            exact hret.symm
      · cases h
    · rw [w1 hr] at h; cases h

/-! ### Storing modulo the signal width -/

theorem emod_conv {t : CTy} {z : Int} {n : Nat} (h : n ≤ t.bits) : t.conv z % 2 ^ n = z % 2 ^ n := by
  have hd := pow_dvd_int h
  unfold CTy.conv
  split
  · rw [← Int.emod_emod_of_dvd (Int.bmod z (2 ^ t.bits)) hd, Int.bmod_emod, Int.emod_emod_of_dvd _ hd]
  · rw [Int.emod_emod_of_dvd _ hd]

theorem emod_store {cfg : Cfg} {s : Sig} {z : Int} (h : s.lengthBit ≤ s.typeRo.bits) :
    (sigDecl cfg s).store z % 2 ^ s.lengthBit = z % 2 ^ s.lengthBit := by
  unfold sigDecl FDecl.store
  dsimp only
  split
  next => exact emod_conv h
  next w hw =>
    split at hw
    · simp only [Option.some.injEq] at hw
      subst hw
      have hc : ((2 ^ s.lengthBit : Nat) : Int) = 2 ^ s.lengthBit := by push_cast; rfl
      split
      · rw [← hc, Int.bmod_emod, hc, emod_conv h]
      · rw [← hc, Int.emod_emod, hc, emod_conv h]
    · cases hw

/-- A counter value as the DBC value of an unsigned or signed signal of the given width. -/
theorem store_range {cfg : Cfg} {s : Sig} (ht : s.TypeOk) (hl : 0 < s.lengthBit) (h31 : s.lengthBit < 31)
    {z : Int} (hz : 0 ≤ z ∧ z < 2 ^ s.lengthBit) :
    -(2:Int) ^ 30 ≤ (sigDecl cfg s).store z ∧ (sigDecl cfg s).store z < 2 ^ 30 := by
  have hp : (2:Int) ^ s.lengthBit ≤ 2 ^ 30 := by
    exact_mod_cast Nat.pow_le_pow_right (n := 2) (by decide) (by omega)
  have hpos : (0:Int) < 2 ^ s.lengthBit := by exact_mod_cast Nat.two_pow_pos s.lengthBit
  -- conversion to the member type keeps the number within -2^30..2^30
  have hconv : -(2:Int) ^ 30 ≤ s.typeRo.conv z ∧ s.typeRo.conv z < 2 ^ 30 := by
    have hb := ht.2
    unfold CTy.conv
    by_cases hbits : s.typeRo.bits < 31
    · have hp2 : (2:Int) ^ s.typeRo.bits ≤ 2 ^ 30 := by
        exact_mod_cast Nat.pow_le_pow_right (n := 2) (by decide) (by omega)
      have hc : ((2 ^ s.typeRo.bits : Nat) : Int) = 2 ^ s.typeRo.bits := by push_cast; rfl
      have hpos2 : 0 < 2 ^ s.typeRo.bits := Nat.two_pow_pos _
      split
      · have := Int.le_bmod (x := z) hpos2
        have := Int.bmod_lt (x := z) hpos2
        omega
      · rw [hc]
        have := Int.emod_nonneg z (b := (2:Int) ^ s.typeRo.bits) (by omega)
        have := Int.emod_lt_of_pos z (b := (2:Int) ^ s.typeRo.bits) (by omega)
        omega
    · have hin : s.typeRo.InRange z := by
        have hp3 : (2:Int) ^ 30 ≤ 2 ^ (s.typeRo.bits - 1) := by
          exact_mod_cast Nat.pow_le_pow_right (n := 2) (by decide) (by omega)
        have hp4 : (2:Int) ^ 30 ≤ 2 ^ s.typeRo.bits := by
          exact_mod_cast Nat.pow_le_pow_right (n := 2) (by decide) (by omega)
        unfold CTy.InRange CTy.minV CTy.maxV
        split <;> omega
      have := CTy.conv_inRange hin
      unfold CTy.conv at this
      rw [this]
      omega
  unfold sigDecl FDecl.store
  dsimp only
  split
  next => exact hconv
  next w hw =>
    split at hw
    · simp only [Option.some.injEq] at hw
      subst hw
      have hc : ((2 ^ s.lengthBit : Nat) : Int) = 2 ^ s.lengthBit := by push_cast; rfl
      have hpn : 0 < 2 ^ s.lengthBit := Nat.two_pow_pos _
      split
      · have := Int.le_bmod (x := s.typeRo.conv z) hpn
        have := Int.bmod_lt (x := s.typeRo.conv z) hpn
        omega
      · rw [hc]
        have := Int.emod_nonneg (s.typeRo.conv z) (b := (2:Int) ^ s.lengthBit) (by omega)
        have := Int.emod_lt_of_pos (s.typeRo.conv z) (b := (2:Int) ^ s.lengthBit) (by omega)
        omega
    · cases hw

/-- The member of a rolling counter with physical conversion would be declared twice. -/
theorem roll_simple {c : Ctx φ} {m : Msg} (hc : c.decls = structDecls c.cfg m)
    (hfl : c.floats = floatDecls c.cfg m) (hdo : c.declsOk = true)
    {r : Sig} (hr : m.sigAt m.rollSig = some r) (hf : c.cfg.flag .autoRoll = true)
    (hs : c.cfg.flag .useSigFloat = true) : r.isSimple = true := by
  cases hsim : r.isSimple with
  | true => rfl
  | false =>
    exfalso
    unfold Ctx.declsOk at hdo
    have hn := of_decide_eq_true hdo
    rw [hc, hfl] at hn
    have hss : structSigs c.cfg m = m.signals ++ [{ r with name := exptName r.name }] := by
      unfold structSigs; rw [hr]; dsimp only; rw [if_pos hf]
    have hrm := sigAt_mem hr
    cases hdbl : r.isDouble with
    | false =>
      have hn1 := (List.nodup_append.1 hn).1
      unfold structDecls at hn1
      rw [hss, List.flatMap_append, List.map_append, List.nodup_append] at hn1
      refine hn1.2.2 r.nameFloat ?_ r.nameFloat ?_ rfl
      · refine List.mem_map.2 ⟨(r.nameFloat, ⟨r.typePhys, none⟩), List.mem_flatMap.2 ⟨r, hrm, ?_⟩, rfl⟩
        simp [sigDecls, hsim, hs, hdbl]
      · simp [sigDecls, hsim, hs, hdbl]
    | true =>
      have hn1 := (List.nodup_append.1 hn).2.1
      unfold floatDecls at hn1
      rw [hss, List.flatMap_append, List.nodup_append] at hn1
      refine hn1.2.2 r.nameFloat ?_ r.nameFloat ?_ rfl
      · refine List.mem_flatMap.2 ⟨r, hrm, ?_⟩
        simp [sigFloats, hsim, hs, hdbl]
      · simp [sigFloats, hsim, hs, hdbl]

theorem runPack_declsOk {c : Ctx φ} {m : Msg} {st st' : St φ} (h : runPack c m st = .ok st') :
    c.declsOk = true := by
  unfold runPack at h
  split at h
  · cases h
  · split at h
    · cases h
    · unfold runBody at h
      split at h
      next hd => exact hd
      · cases h

end Verif
