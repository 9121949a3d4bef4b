import Verif.Proofs.PackRun3
/- Lemmas for the round trip theorems. -/
namespace Verif
open Spec
variable {φ : Type}

theorem intBit_natMod (z : Int) (n k : Nat) (hk : k < n) :
    ((z % (2 ^ n : Nat)).toNat).testBit k = intBit z k := by
  have hpos : (0:Int) < ((2 ^ n : Nat) : Int) := by exact_mod_cast Nat.two_pow_pos n
  have hnn := Int.emod_nonneg z (Int.ne_of_gt hpos)
  rw [Nat.testBit_eq_decide_div_mod_eq]
  unfold intBit
  apply decide_eq_decide.2
  have e : ((z % (2 ^ n : Nat)).toNat : Int) = z % (2 ^ n : Nat) := Int.toNat_of_nonneg hnn
  have key : ((((z % (2 ^ n : Nat)).toNat / 2 ^ k % 2 : Nat)) : Int) = z / 2 ^ k % 2 := by
    rw [Int.natCast_emod, Int.natCast_ediv, e]
    have hsplit : ((2 ^ n : Nat) : Int) = 2 ^ k * (2 * 2 ^ (n - k - 1)) := by
      push_cast
      rw [← Int.pow_succ', ← Int.pow_add]; congr 1; omega
    have hz : z = z % ((2 ^ n : Nat) : Int) + 2 ^ k * (2 * 2 ^ (n - k - 1) * (z / ((2 ^ n : Nat) : Int))) := by
      have := Int.emod_add_mul_ediv z ((2 ^ n : Nat) : Int)
      rw [← Int.mul_assoc (2 ^ k), ← hsplit]; omega
    have h2 : (2:Int) ^ k ≠ 0 := by
      have := Nat.two_pow_pos k
      have : (0:Int) < 2 ^ k := by exact_mod_cast this
      omega
    conv => rhs; rw [hz, Int.add_mul_ediv_left _ _ h2, Int.mul_assoc, Int.add_mul_emod_self_left]
    push_cast
    rfl
  constructor
  · intro h; rw [h] at key; simpa using key.symm
  · intro h; rw [h] at key; exact_mod_cast key

/-- If the payload bits of the signal are the bits of `z`, its raw value is `z` modulo `2^len`. -/
theorem raw_of_bits {s : Sig} {d : List Nat} {z : Int}
    (h : ∀ k, k < s.lengthBit → payloadBit d (s.pos k) = intBit z k) :
    s.raw d = (z % (2 ^ s.lengthBit : Nat)).toNat := by
  have hpos : (0:Int) < ((2 ^ s.lengthBit : Nat) : Int) := by exact_mod_cast Nat.two_pow_pos _
  have hnn := Int.emod_nonneg z (Int.ne_of_gt hpos)
  have hlt := Int.emod_lt_of_pos z hpos
  apply nat_eq_of_bits (s.raw_lt d) (by omega)
  intro k hk
  rw [s.testBit_raw, intBit_natMod z _ _ hk, h k hk]
  simp [hk]

theorem signedOf_mod {n : Nat} (hn : 0 < n) {z : Int} (h1 : -(2 ^ (n - 1)) ≤ z) (h2 : z < 2 ^ (n - 1)) :
    signedOf n (z % (2 ^ n : Nat)).toNat = z := by
  have e : (2:Int) ^ n = 2 * 2 ^ (n - 1) := by rw [← Int.pow_succ']; congr 1; omega
  have hp : (0:Int) < 2 ^ (n - 1) := by have := Nat.two_pow_pos (n - 1); exact_mod_cast this
  have hc : ((2 ^ n : Nat) : Int) = 2 * 2 ^ (n - 1) := by push_cast; exact e
  have hc1 : ((2 ^ (n - 1) : Nat) : Int) = 2 ^ (n - 1) := by push_cast; rfl
  unfold signedOf
  by_cases hz : 0 ≤ z
  · rw [Int.emod_eq_of_lt hz (by omega)]
    rw [if_pos (by omega)]
    omega
  · have : z % ((2 ^ n : Nat) : Int) = z + 2 * 2 ^ (n - 1) := by
      rw [← Int.add_emod_right, hc, Int.emod_eq_of_lt (by omega) (by omega)]
    rw [this, if_neg (by omega), e]
    omega

/-- The value of an in-range field is determined by its payload bits. -/
theorem value_of_bits {s : Sig} {d : List Nat} {z : Int} (hl : 0 < s.lengthBit)
    (hz : InSigRange s.signed s.lengthBit z)
    (h : ∀ k, k < s.lengthBit → payloadBit d (s.pos k) = intBit z k) :
    (if s.signed then signedOf s.lengthBit (s.raw d) else (s.raw d : Int)) = z := by
  rw [raw_of_bits h]
  unfold InSigRange at hz
  cases hs : s.signed
  · rw [hs] at hz
    simp only [Bool.false_eq_true, if_false] at hz ⊢
    have hc : ((2 ^ s.lengthBit : Nat) : Int) = 2 ^ s.lengthBit := by push_cast; rfl
    rw [Int.emod_eq_of_lt hz.1 (by omega)]
    omega
  · rw [hs] at hz
    simp only [if_true] at hz ⊢
    exact signedOf_mod hl hz.1 hz.2

theorem overlap_eq {m : Msg} (h : NoOverlap m) {s t : Sig} (hs : s ∈ m.signals) (ht : t ∈ m.signals)
    {j k : Nat} (hj : j < s.lengthBit) (hk : k < t.lengthBit) (e : s.pos j = t.pos k) : s = t := by
  apply pairwise_eq h hs ht
  · intro hx; exact hx j hj k hk e
  · intro hx; exact hx k hk j hj e.symm

/-- Bits of a signal after Pack. -/
theorem pack_signal_bits {c : Ctx φ} {m : Msg} (hc : c.decls = structDecls c.cfg m) (hm : MsgOk m)
    (hty : ∀ s ∈ m.signals, s.TypeOk) (hcs : CsmHyp c.cfg m) (hi : c.cfg.initByte < 256)
    (hmax : m.dlc ≤ c.cfg.maxDlc) (hov : NoOverlap m) (hic : InitClear c.cfg m)
    {st st' : St φ} (hd : IsPayload st.dat) (hlen : m.dlc ≤ st.dat.length)
    (h : runPack c m st = .ok st') {s : Sig} (hs : s ∈ m.signals) {k : Nat} (hk : k < s.lengthBit) :
    payloadBit st'.dat (s.pos k) = intBit (st'.fld s.name) k := by
  obtain ⟨-, -, hb, -⟩ := pack_bits hc hm hty hcs hi hd hlen h
  have hp : s.pos k < 8 * m.dlc := (hm.2 s hs).2.2 k hk
  have hbase : baseBit c.cfg m.dlc st.dat (s.pos k) = false := by
    unfold baseBit
    rw [if_pos (by omega)]
    exact hic s hs k hk
  rw [Bool.eq_iff_iff, hb, hbase]
  simp only [Bool.false_eq_true, false_or]
  constructor
  · rintro ⟨t, ht, k', hk', hpos, hbit⟩
    have := overlap_eq hov hs ht hk hk' hpos.symm
    subst this
    have : k' = k := bitPos_inj hk' hk hpos
    subst this
    exact hbit
  · intro hbit
    exact ⟨s, hs, k, hk, rfl, hbit⟩

/-- Value of a member after Unpack, for layouts on which Unpack is right. -/
theorem unpack_value {c : Ctx φ} {m : Msg} (hc : c.decls = structDecls c.cfg m) (hm : MsgOk m)
    {st st' : St φ} (hd : IsPayload st.dat) (hlen : m.dlc ≤ st.dat.length)
    (h : runUnpack c m st = .ok st') {s : Sig} (hs : s ∈ m.signals) (ht : s.TypeOk) (ha : s.aligned) :
    st'.fld s.name = if s.signed then signedOf s.lengthBit (s.raw st.dat) else (s.raw st.dat : Int) := by
  obtain ⟨-, -, h2⟩ := unpack_fields hc hm hd hlen h
  obtain ⟨z, hz, e⟩ := h2 s hs
  obtain ⟨hl, hl2, -⟩ := hm.2 s hs
  have hr := raw_inRange s st.dat hl
  have hzz : z = s.typeRo.conv (if s.signed then signedOf s.lengthBit (s.raw st.dat) else (s.raw st.dat : Int)) := by
    unfold Sig.unpacked at hz
    cases hsg : s.signed
    · rw [hsg] at hz
      simp only [Bool.false_eq_true, if_false, Option.some.injEq] at hz ⊢
      rw [← hz, orFrags_eq_raw st.dat hl hl2 ha]
    · rw [hsg] at hz
      simp only [if_true, Option.ite_none_right_eq_some, Option.some.injEq] at hz ⊢
      exact hz.2.symm
  rw [e, hzz, conv_of_sigRange ht hl hr, store_of_sigRange ht hl hr]

end Verif
