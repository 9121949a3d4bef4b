import Verif.Model.SigType
import Verif.Proofs.Values
/-
C12, C13: the integer types chosen by the parser.
-/
namespace Verif
open Spec

/-! ### Raw type -/

/-- The type that should be chosen for a width. -/
def idealType (sg : Bool) (n : Nat) : CTy :=
  if sg then (if n ≤ 8 then .i8 else if n ≤ 16 then .i16 else if n ≤ 32 then .i32 else .i64)
  else (if n ≤ 8 then .u8 else if n ≤ 16 then .u16 else if n ≤ 32 then .u32 else .u64)

theorem pick_unsigned_table : ∀ n : Nat, n < 63 → 0 < n →
    (-(2:Int) ^ 63 ≤ powM1 n ∧ powM1 n < 2 ^ 63) ∧
    pickUnsigned (CTy.toU .u64 (powM1 n)) = idealType false n := by
  decide

theorem pick_signed_table : ∀ n : Nat, n < 64 → 0 < n →
    (-(2:Int) ^ 63 ≤ powM1 ((n : Int) - 1) ∧ powM1 ((n : Int) - 1) < 2 ^ 63) ∧
    pickSigned ⟨127, none⟩ 0 (CTy.toU .u64 (powM1 ((n : Int) - 1))) = idealType true n := by
  decide

theorem pickSigned_host {h : Host} (hc : h.charMax = 127) (a v : Nat) :
    pickSigned h a v = pickSigned ⟨127, none⟩ a v := by
  unfold pickSigned; rw [hc]

theorem getSigType_fields {h : Host} {s s' : Sig} (hg : getSigType h s = some s') :
    ∃ mx mn ro ph, rawLimits h s = some (mx, mn, ro) ∧ s' = { s with typeRo := ro, typePhys := ph } ∧
      (s.isSimple = false → s.isDouble = false → physType h s mx mn = some ph) := by
  simp only [getSigType, Option.bind_eq_bind, Option.bind_eq_some_iff] at hg
  obtain ⟨_, _, ⟨mx, mn, ro⟩, hr, hg⟩ := hg
  dsimp only at hg
  by_cases h1 : s.isSimple = true
  · rw [if_pos h1] at hg
    simp only [pure, Option.some.injEq] at hg
    exact ⟨mx, mn, ro, ro, hr, hg.symm, fun h => by rw [h1] at h; cases h⟩
  · rw [if_neg h1] at hg
    by_cases h2 : s.isDouble = true
    · have h2n : ¬ (!s.isDouble) = true := by simp [h2]
      rw [if_neg h2n] at hg
      simp only [pure, Option.some.injEq] at hg
      exact ⟨mx, mn, ro, s.typePhys, hr, hg.symm, fun _ h => by rw [h2] at h; cases h⟩
    · have h2' : s.isDouble = false := by simpa using h2
      have h2n : (!s.isDouble) = true := by simp [h2]
      rw [if_pos h2n] at hg
      simp only [pure, Option.bind_eq_some_iff, Option.some.injEq] at hg
      obtain ⟨ph, hp, hg⟩ := hg
      exact ⟨mx, mn, ro, ph, hr, hg.symm, fun _ _ => hp⟩

theorem rawLimits_type {h : Host} (hc : h.charMax = 127)
    (hoob : ∀ v, h.oob = some v → 2 ^ 32 ≤ CTy.toU .u64 v) {s : Sig} (h1 : 1 ≤ s.lengthBit) (h2 : s.lengthBit ≤ 64)
    {mx mn : Int} {ro : CTy} (hr : rawLimits h s = some (mx, mn, ro)) :
    ro = idealType s.signed s.lengthBit := by
  unfold rawLimits at hr
  cases hs : s.signed
  · rw [hs] at hr
    simp only [Bool.false_eq_true, if_false, Option.bind_eq_bind, Option.bind_eq_some_iff, pure,
      Option.some.injEq, Prod.mk.injEq] at hr
    obtain ⟨x, hx, rfl, rfl, rfl⟩ := hr
    by_cases hn : s.lengthBit < 63
    · obtain ⟨b, t⟩ := pick_unsigned_table s.lengthBit hn h1
      unfold castI64 at hx
      rw [if_pos b] at hx
      cases hx
      exact t
    · have hx' : h.oob = some x := by
        unfold castI64 at hx
        rw [if_neg] at hx
        · exact hx
        · have : s.lengthBit = 63 ∨ s.lengthBit = 64 := by omega
          rcases this with e | e <;> rw [e] <;> decide
      have := hoob x hx'
      unfold pickUnsigned idealType
      rw [if_neg (by omega), if_neg (by omega), if_neg (by omega)]
      rw [if_neg (by decide), if_neg (by omega), if_neg (by omega), if_neg (by omega)]
  · rw [hs] at hr
    simp only [if_true, Option.bind_eq_bind, Option.bind_eq_some_iff, pure,
      Option.some.injEq, Prod.mk.injEq] at hr
    obtain ⟨x, hx, y, hy, w, hw, rfl, rfl, rfl⟩ := hr
    rw [pickSigned_host hc]
    by_cases hn : s.lengthBit < 64
    · obtain ⟨b, t⟩ := pick_signed_table s.lengthBit hn h1
      unfold castI64 at hx
      rw [if_pos b] at hx
      cases hx
      exact t
    · have e : s.lengthBit = 64 := by omega
      have hx' : h.oob = some x := by
        unfold castI64 at hx
        rw [if_neg] at hx
        · exact hx
        · rw [e]; decide
      have := hoob x hx'
      unfold pickSigned idealType
      dsimp only
      rw [if_neg (by omega), if_neg (by omega), if_neg (by omega)]
      rw [if_pos (by decide), if_neg (by omega), if_neg (by omega), if_neg (by omega)]

theorem inRange_iff_width {sg : Bool} {n : Nat} (hn : 1 ≤ n) {t : CTy} (ht : t.signed = sg) :
    (∀ z, InSigRange sg n z → t.InRange z) ↔ n ≤ t.bits := by
  constructor
  · intro h
    refine Nat.le_of_not_lt fun hlt => ?_
    cases sg
    · have hz : InSigRange false n (2 ^ n - 1) := by
        unfold InSigRange
        have : (0:Int) < 2 ^ n := Int.pow_pos (by decide)
        simp; omega
      have := (h _ hz).2
      unfold CTy.maxV at this
      rw [ht] at this
      simp only [Bool.false_eq_true, if_false] at this
      have h3 : (2:Int) ^ t.bits * 2 ≤ 2 ^ n := by
        rw [← Int.pow_succ]; exact_mod_cast Nat.pow_le_pow_right (n := 2) (by decide) (by omega)
      have : (0:Int) < 2 ^ t.bits := Int.pow_pos (by decide)
      omega
    · have hz : InSigRange true n (2 ^ (n - 1) - 1) := by
        unfold InSigRange
        have : (0:Int) < 2 ^ (n - 1) := Int.pow_pos (by decide)
        simp; omega
      have := (h _ hz).2
      unfold CTy.maxV at this
      rw [ht] at this
      simp only [if_true] at this
      have hb := CTy.bits_pos t
      have h3 : (2:Int) ^ (t.bits - 1) * 2 ≤ 2 ^ (n - 1) := by
        rw [← Int.pow_succ]; exact_mod_cast Nat.pow_le_pow_right (n := 2) (by decide) (by omega)
      have : (0:Int) < 2 ^ (t.bits - 1) := Int.pow_pos (by decide)
      omega
  · intro h z hz
    unfold InSigRange at hz
    unfold CTy.InRange CTy.minV CTy.maxV
    rw [ht]
    cases sg <;> simp only [if_true, if_false, Bool.false_eq_true] at hz ⊢
    · have : (2:Int) ^ n ≤ 2 ^ t.bits := by exact_mod_cast Nat.pow_le_pow_right (by decide) h
      omega
    · have : (2:Int) ^ (n - 1) ≤ 2 ^ (t.bits - 1) := by
        exact_mod_cast Nat.pow_le_pow_right (n := 2) (by decide) (by omega)
      omega

/-- **C12**: on a host with signed `char` on which out-of-range conversions to `int64_t` either
count as undefined (`oob = none`) or give a value that is at least 2^32 as unsigned (x86-64 and
AArch64), the raw type chosen for every signal of 1..64 bits represents every raw value, and no
narrower type of this signedness does; nothing but the two type fields of the descriptor changes. -/
theorem C12_raw_type (h : Host) (hc : h.charMax = 127)
    (hoob : ∀ v, h.oob = some v → 2 ^ 32 ≤ CTy.toU .u64 v)
    (s s' : Sig) (h1 : 1 ≤ s.lengthBit) (h2 : s.lengthBit ≤ 64) (hg : getSigType h s = some s') :
    s'.typeRo.signed = s.signed ∧
    (∀ z, InSigRange s.signed s.lengthBit z → s'.typeRo.InRange z) ∧
    (∀ t : CTy, t.signed = s.signed → (∀ z, InSigRange s.signed s.lengthBit z → t.InRange z) →
      s'.typeRo.bits ≤ t.bits) ∧
    s' = { s with typeRo := s'.typeRo, typePhys := s'.typePhys } := by
  obtain ⟨mx, mn, ro, ph, hr, rfl, _⟩ := getSigType_fields hg
  have e := rawLimits_type hc hoob h1 h2 hr
  dsimp only
  have hsg : ro.signed = s.signed := by
    rw [e]; unfold idealType; cases s.signed <;> simp only [if_true, if_false, Bool.false_eq_true]
      <;> (repeat' split) <;> rfl
  have hbits : s.lengthBit ≤ ro.bits := by
    rw [e]; unfold idealType; cases s.signed <;> simp only [if_true, if_false, Bool.false_eq_true]
      <;> (repeat' split) <;> simp only [CTy.bits] <;> omega
  refine ⟨hsg, (inRange_iff_width h1 hsg).2 hbits, ?_, rfl⟩
  intro t ht hall
  have hw := (inRange_iff_width h1 ht).1 hall
  rw [e]
  unfold idealType
  rw [← ht]
  generalize hb : t.bits = b at hw ⊢
  have hb' : b = 8 ∨ b = 16 ∨ b = 32 ∨ b = 64 := by
    rw [← hb]; cases t <;> simp [CTy.bits]
  cases t.signed <;> simp only [if_true, if_false, Bool.false_eq_true] <;>
    (repeat' split) <;> simp only [CTy.bits] <;> omega

/-- The parser's type choice makes the condition `TypeOk` of the Pack/Unpack theorems true. -/
theorem C12_typeOk (h : Host) (hc : h.charMax = 127)
    (hoob : ∀ v, h.oob = some v → 2 ^ 32 ≤ CTy.toU .u64 v)
    (s s' : Sig) (h1 : 1 ≤ s.lengthBit) (h2 : s.lengthBit ≤ 64) (hg : getSigType h s = some s') :
    s'.TypeOk := by
  obtain ⟨a, b, _, e⟩ := C12_raw_type h hc hoob s s' h1 h2 hg
  have hn : s'.signed = s.signed := by rw [e]
  have hl : s'.lengthBit = s.lengthBit := by rw [e]
  refine ⟨a.trans hn.symm, ?_⟩
  rw [hl]
  exact (inRange_iff_width h1 a).1 b

/-- The widths at which the choice needs a conversion that C++ leaves undefined. -/
theorem C12_undefined_widths (h : Host) (hu : h.oob = none) (s : Sig) (h2 : s.lengthBit ≤ 64)
    (hw : (s.signed = true ∧ s.lengthBit = 64) ∨ (s.signed = false ∧ 63 ≤ s.lengthBit)) :
    getSigType h s = none := by
  have hr : rawLimits h s = none := by
    unfold rawLimits
    rcases hw with ⟨a, b⟩ | ⟨a, b⟩
    · rw [a, b]
      have : castI64 h (powM1 (((64 : Nat) : Int) - 1)) = none := by
        unfold castI64; rw [if_neg (by decide), hu]
      simp only [if_true, this, Option.bind_eq_bind, Option.bind_none]
    · rw [a]
      have : castI64 h (powM1 (s.lengthBit : Int)) = none := by
        have e : s.lengthBit = 63 ∨ s.lengthBit = 64 := by omega
        unfold castI64
        rcases e with e | e <;> rw [e] <;> rw [if_neg (by decide), hu]
      simp only [Bool.false_eq_true, if_false, this, Option.bind_eq_bind, Option.bind_none]
  unfold getSigType
  rw [hr]
  cases rOffset h s <;> rfl

/-- On a host with unsigned `char` the choice is wrong: a signed signal of 9 bits gets `int8_t`. -/
theorem C12_unsigned_char : ∃ (s s' : Sig), s.signed = true ∧ s.lengthBit = 9 ∧
    getSigType ⟨255, none⟩ s = some s' ∧ s'.typeRo = .i8 :=
  ⟨{ lengthBit := 9, signed := true }, { lengthBit := 9, signed := true, typeRo := .i8, typePhys := .i8 },
    rfl, rfl, by decide, rfl⟩

/-- The hypotheses of C12 are met, on x86-64 even by 64-bit signals. -/
example : (getSigType ⟨127, some (-(2 ^ 63))⟩ { lengthBit := 64, signed := false, isDouble := true }).map (·.typeRo) = some .u64 ∧
    (∀ v, (⟨127, some (-(2 ^ 63))⟩ : Host).oob = some v → 2 ^ 32 ≤ CTy.toU .u64 v) ∧
    (getSigType ⟨127, none⟩ { lengthBit := 17, signed := true }).map (·.typeRo) = some .i32 :=
  ⟨by decide, by intro v hv; cases hv; decide, by decide⟩

/-! ### Physical type -/

theorem chk64_some {z w : Int} (h : chk64 z = some w) : w = z ∧ -(2 ^ 63) ≤ z ∧ z < 2 ^ 63 := by
  unfold chk64 at h
  split at h
  next hz => cases h; exact ⟨rfl, hz⟩
  · cases h

theorem castI64_some {h : Host} (hu : h.oob = none) {z w : Int} (he : castI64 h z = some w) :
    w = z ∧ -(2 ^ 63) ≤ z ∧ z < 2 ^ 63 := by
  unfold castI64 at he
  split at he
  next hz => cases he; exact ⟨rfl, hz⟩
  · rw [hu] at he; cases he

/-- The signed selection loop finds a type for every magnitude below 2^63 (2^63 with addon). -/
theorem pickSigned_spec {h : Host} (hc : h.charMax = 127) {a v : Nat} (hv : v < 2 ^ 63 + a) :
    (pickSigned h a v).signed = true ∧ (v : Int) ≤ (pickSigned h a v).maxV + a ∧
    (pickSigned h a v).minV = -((pickSigned h a v).maxV + 1) := by
  unfold pickSigned
  rw [hc]
  split
  · refine ⟨rfl, ?_, by decide⟩
    simp [CTy.maxV, CTy.signed, CTy.bits]; omega
  · split
    · refine ⟨rfl, ?_, by decide⟩
      simp [CTy.maxV, CTy.signed, CTy.bits]; omega
    · split
      · refine ⟨rfl, ?_, by decide⟩
        simp [CTy.maxV, CTy.signed, CTy.bits]; omega
      · refine ⟨rfl, ?_, by decide⟩
        simp [CTy.maxV, CTy.signed, CTy.bits]; omega

theorem pickUnsigned_spec {v : Nat} (hv : v < 2 ^ 64) :
    (pickUnsigned v).InRange (v : Int) ∧ (pickUnsigned v).minV = 0 := by
  unfold pickUnsigned
  split
  · exact ⟨⟨by simp [CTy.minV, CTy.signed], by simp [CTy.maxV, CTy.signed, CTy.bits]; omega⟩, by decide⟩
  · split
    · exact ⟨⟨by simp [CTy.minV, CTy.signed], by simp [CTy.maxV, CTy.signed, CTy.bits]; omega⟩, by decide⟩
    · split
      · exact ⟨⟨by simp [CTy.minV, CTy.signed], by simp [CTy.maxV, CTy.signed, CTy.bits]; omega⟩, by decide⟩
      · exact ⟨⟨by simp [CTy.minV, CTy.signed], by simp [CTy.maxV, CTy.signed, CTy.bits]; omega⟩, by decide⟩

/-- The chosen physical type represents the image of the largest raw value; with a non-negative
factor also that of the smallest. -/
theorem physType_ok {h : Host} (hc : h.charMax = 127) (hu : h.oob = none) {s : Sig} {mx mn f o : Int} {t : CTy}
    (hf : s.factor.trunc = f) (ho : s.offset.trunc = o) (ht : physType h s mx mn = some t) :
    t.InRange (mx * f + o) ∧ (mn * f ≤ mx * f → t.InRange (mn * f + o)) := by
  simp only [physType, Option.bind_eq_bind, Option.bind_eq_some_iff] at ht
  obtain ⟨io, h1, jf, h2, p0, h3, p, h4, q0, h5, q, h6, ht⟩ := ht
  rw [ho] at h1
  rw [hf] at h2
  obtain ⟨e1, _⟩ := castI64_some hu h1
  obtain ⟨e2, _⟩ := castI64_some hu h2
  obtain ⟨e3, _⟩ := chk64_some h3
  obtain ⟨e4, pb⟩ := chk64_some h4
  obtain ⟨e5, _⟩ := chk64_some h5
  obtain ⟨e6, qb⟩ := chk64_some h6
  rw [← e4] at pb
  rw [← e6] at qb
  have hQ : mn * f ≤ mx * f → q ≤ p := by rw [e4, e6, e3, e5, e1, e2]; omega
  have eP : mx * f + o = p := by rw [e4, e3, e1, e2]
  have eQ : mn * f + o = q := by rw [e6, e5, e1, e2]
  rw [eP, eQ]
  clear h3 h4 h5 h6 e3 e4 e5 e6 eP eQ
  split at ht
  next hcond =>
    simp only [Option.bind_eq_some_iff] at ht
    obtain ⟨a, ha, b, hb, ht⟩ := ht
    obtain ⟨rfl, ab⟩ := chk64_some ha
    obtain ⟨rfl, bb⟩ := chk64_some hb
    simp only [Int.toNat_natCast, pure] at ht
    split at ht
    next hlt =>
      simp only [Option.some.injEq] at ht
      obtain ⟨g1, g2, g3⟩ := pickSigned_spec hc (a := 1) (v := q.natAbs) (by omega)
      rw [ht] at g1 g2 g3
      exact ⟨⟨by omega, by omega⟩, fun hle => ⟨by omega, by omega⟩⟩
    next hlt =>
      simp only [Option.some.injEq] at ht
      obtain ⟨g1, g2, g3⟩ := pickSigned_spec hc (a := 0) (v := p.natAbs) (by omega)
      rw [ht] at g1 g2 g3
      exact ⟨⟨by omega, by omega⟩, fun hle => ⟨by omega, by omega⟩⟩
  next hcond =>
    simp only [pure, Option.some.injEq] at ht
    simp only [Bool.or_eq_true, decide_eq_true_eq, not_or] at hcond
    obtain ⟨g1, g2⟩ := pickUnsigned_spec (v := p.toNat) (by omega)
    rw [ht] at g1 g2
    have : ((p.toNat : Nat) : Int) = p := Int.toNat_of_nonneg (by omega)
    rw [this] at g1
    exact ⟨g1, fun hle => ⟨by omega, by have := g1.2; omega⟩⟩


theorem Dec.trunc_ofInt (z : Int) : (Dec.ofInt z).trunc = z := by
  simp [Dec.ofInt, Dec.trunc]

/-- Largest raw value. -/
def rawMax (sg : Bool) (n : Nat) : Int := if sg then 2 ^ (n - 1) - 1 else 2 ^ n - 1
/-- Smallest raw value. -/
def rawMin (sg : Bool) (n : Nat) : Int := if sg then -(2 ^ (n - 1)) else 0

theorem inSigRange_iff (sg : Bool) (n : Nat) (z : Int) :
    InSigRange sg n z ↔ rawMin sg n ≤ z ∧ z ≤ rawMax sg n := by
  unfold InSigRange rawMin rawMax
  cases sg <;> simp only [if_true, if_false, Bool.false_eq_true] <;> omega

theorem rawMin_le (sg : Bool) (n : Nat) : rawMin sg n ≤ rawMax sg n := by
  unfold rawMin rawMax
  have h1 : (0:Int) < 2 ^ n := Int.pow_pos (by decide)
  have h2 : (0:Int) < 2 ^ (n - 1) := Int.pow_pos (by decide)
  cases sg <;> simp only [if_true, if_false, Bool.false_eq_true] <;> omega

theorem powM1_ge (n : Nat) : (2:Int) ^ n - 1 ≤ powM1 n := by
  unfold powM1
  rw [if_neg (by omega)]
  split <;> simp <;> omega

theorem powM1_eq {n : Nat} (h : n ≤ 53) : powM1 n = (2:Int) ^ n - 1 := by
  unfold powM1
  rw [if_neg (by omega), if_pos (by omega)]
  simp

/-- The limits the parser computes enclose the raw values, and are exact for narrow signals. -/
theorem rawLimits_bounds {h : Host} (hu : h.oob = none) {s : Sig} (h1 : 1 ≤ s.lengthBit)
    {mx mn : Int} {ro : CTy} (hr : rawLimits h s = some (mx, mn, ro)) :
    mn ≤ rawMin s.signed s.lengthBit ∧ rawMax s.signed s.lengthBit ≤ mx ∧
    (s.lengthBit ≤ (if s.signed then 54 else 53) →
      mn = rawMin s.signed s.lengthBit ∧ rawMax s.signed s.lengthBit = mx) := by
  unfold rawLimits at hr
  unfold rawMin rawMax
  cases hs : s.signed
  · rw [hs] at hr
    simp only [Bool.false_eq_true, if_false, Option.bind_eq_bind, Option.bind_eq_some_iff, pure,
      Option.some.injEq, Prod.mk.injEq] at hr ⊢
    obtain ⟨x, hx, rfl, rfl, rfl⟩ := hr
    obtain ⟨rfl, _⟩ := castI64_some hu hx
    exact ⟨Int.le_refl _, powM1_ge _, fun hn => ⟨rfl, (powM1_eq hn).symm⟩⟩
  · rw [hs] at hr
    simp only [if_true, Option.bind_eq_bind, Option.bind_eq_some_iff, pure,
      Option.some.injEq, Prod.mk.injEq] at hr ⊢
    obtain ⟨x, hx, y, hy, w, hw, rfl, rfl, rfl⟩ := hr
    obtain ⟨rfl, _⟩ := castI64_some hu hx
    obtain ⟨rfl, _⟩ := chk64_some hy
    obtain ⟨rfl, _⟩ := chk64_some hw
    have e : (s.lengthBit : Int) - 1 = ((s.lengthBit - 1 : Nat) : Int) := by omega
    rw [e]
    have hge := powM1_ge (s.lengthBit - 1)
    refine ⟨by omega, by omega, fun hn => ?_⟩
    have := powM1_eq (n := s.lengthBit - 1) (by omega)
    omega

theorem affine_between {a b z f o : Int} (h1 : a ≤ z) (h2 : z ≤ b) :
    (a * f + o ≤ z * f + o ∧ z * f + o ≤ b * f + o) ∨ (b * f + o ≤ z * f + o ∧ z * f + o ≤ a * f + o) := by
  by_cases hf : 0 ≤ f
  · left
    have := Int.mul_le_mul_of_nonneg_right h1 hf
    have := Int.mul_le_mul_of_nonneg_right h2 hf
    omega
  · right
    have := Int.mul_le_mul_of_nonpos_right h1 (show f ≤ 0 by omega)
    have := Int.mul_le_mul_of_nonpos_right h2 (show f ≤ 0 by omega)
    omega

theorem inRange_between {t : CTy} {a b z f o : Int} (h1 : a ≤ z) (h2 : z ≤ b)
    (ha : t.InRange (a * f + o)) (hb : t.InRange (b * f + o)) : t.InRange (z * f + o) := by
  obtain ⟨a1, a2⟩ := ha
  obtain ⟨b1, b2⟩ := hb
  rcases affine_between (f := f) (o := o) h1 h2 with ⟨c1, c2⟩ | ⟨c1, c2⟩ <;> exact ⟨by omega, by omega⟩

/-- **C13**, positive factors: the integer type of the physical member represents the physical value
of every raw value, for all widths for which the selection itself is defined.  (Missing from C13:
negative factors, where it is false; see `C13_exact_partial` and `C13_refuted`.) -/
theorem C13_positive_partial (h : Host) (hc : h.charMax = 127) (hu : h.oob = none)
    (s s' : Sig) (f o : Int) (h1 : 1 ≤ s.lengthBit)
    (hs : s.isSimple = false) (hd : s.isDouble = false)
    (hf : s.factor = Dec.ofInt f) (ho : s.offset = Dec.ofInt o) (hpos : 0 < f)
    (hg : getSigType h s = some s') (z : Int) (hz : InSigRange s.signed s.lengthBit z) :
    s'.typePhys.InRange (z * f + o) := by
  obtain ⟨mx, mn, ro, ph, hr, rfl, hp⟩ := getSigType_fields hg
  obtain ⟨b1, b2, _⟩ := rawLimits_bounds hu h1 hr
  obtain ⟨hP, hQ⟩ := physType_ok hc hu (f := f) (o := o) (by rw [hf, Dec.trunc_ofInt]) (by rw [ho, Dec.trunc_ofInt])
    (hp hs hd)
  rw [inSigRange_iff] at hz
  have hmm := rawMin_le s.signed s.lengthBit
  have hle : mn * f ≤ mx * f := Int.mul_le_mul_of_nonneg_right (by omega) (by omega)
  exact inRange_between (show mn ≤ z by omega) (show z ≤ mx by omega) (hQ hle) hP

/-- **C13**, exact for every factor and offset (up to 53 bits unsigned, 54 bits signed, where the
parser's `double` arithmetic is exact): the image of the largest raw value always fits the chosen
type, and all images do if and only if the image of the smallest raw value does. -/
theorem C13_exact_partial (h : Host) (hc : h.charMax = 127) (hu : h.oob = none)
    (s s' : Sig) (f o : Int) (h1 : 1 ≤ s.lengthBit) (h2 : s.lengthBit ≤ if s.signed then 54 else 53)
    (hs : s.isSimple = false) (hd : s.isDouble = false)
    (hf : s.factor = Dec.ofInt f) (ho : s.offset = Dec.ofInt o)
    (hg : getSigType h s = some s') :
    s'.typePhys.InRange ((if s.signed then 2 ^ (s.lengthBit - 1) - 1 else 2 ^ s.lengthBit - 1) * f + o) ∧
    ((∀ z, InSigRange s.signed s.lengthBit z → s'.typePhys.InRange (z * f + o)) ↔
      s'.typePhys.InRange ((if s.signed then -(2 ^ (s.lengthBit - 1)) else 0) * f + o)) := by
  obtain ⟨mx, mn, ro, ph, hr, rfl, hp⟩ := getSigType_fields hg
  obtain ⟨_, _, b3⟩ := rawLimits_bounds hu h1 hr
  obtain ⟨e1, e2⟩ := b3 h2
  obtain ⟨hP, _⟩ := physType_ok hc hu (f := f) (o := o) (by rw [hf, Dec.trunc_ofInt]) (by rw [ho, Dec.trunc_ofInt])
    (hp hs hd)
  rw [← e2] at hP
  refine ⟨hP, ?_⟩
  constructor
  · intro hall
    exact hall (rawMin s.signed s.lengthBit)
      ((inSigRange_iff _ _ _).2 ⟨Int.le_refl _, rawMin_le _ _⟩)
  · intro hQ z hz
    rw [inSigRange_iff] at hz
    exact inRange_between hz.1 hz.2 hQ hP

/-- A signed 8-bit signal with factor -1. -/
def negSig : Sig :=
  { name := "N_ro".toList, nameFloat := "N_phys".toList, lengthBit := 8, signed := true,
    factor := Dec.ofInt (-1), offset := Dec.ofInt 0 }

/-- An unsigned 4-bit signal with factor -10 and offset 300. -/
def negSig2 : Sig :=
  { name := "N_ro".toList, nameFloat := "N_phys".toList, lengthBit := 4, signed := false,
    factor := Dec.ofInt (-10), offset := Dec.ofInt 300 }

/-- **C13** is false: signed 8 bits with factor -1 gets `int8_t`, raw -128 has physical value 128;
unsigned 4 bits with factor -10, offset 300 gets `uint8_t`, raw 0 has physical value 300. -/
theorem C13_refuted :
    (∃ s', getSigType ⟨127, none⟩ negSig = some s' ∧ InSigRange true 8 (-128) ∧
      s'.typePhys = .i8 ∧ ¬ s'.typePhys.InRange (-128 * -1 + 0)) ∧
    (∃ s', getSigType ⟨127, none⟩ negSig2 = some s' ∧ InSigRange false 4 0 ∧
      s'.typePhys = .u8 ∧ ¬ s'.typePhys.InRange (0 * -10 + 300)) := by
  refine ⟨⟨{ negSig with typeRo := .i8, typePhys := .i8 }, by decide, by simp [InSigRange], rfl, by decide⟩,
    ⟨{ negSig2 with typeRo := .u8, typePhys := .u8 }, by decide, by simp [InSigRange], rfl, by decide⟩⟩

/-- A factor of zero makes the parser divide by zero and convert the result to an integer. -/
theorem C13_zero_factor (h : Host) (hu : h.oob = none) (s : Sig) (hf : s.factor = Dec.ofInt 0) :
    getSigType h s = none := by
  unfold getSigType rOffset
  rw [hf, hu]
  rfl

/-- The hypotheses of the C13 theorems are met: 12 bits, factor 5, offset -40; and factor -3. -/
example : ((getSigType ⟨127, none⟩
      { lengthBit := 12, signed := false, factor := Dec.ofInt 5, offset := Dec.ofInt (-40) }).map (·.typePhys)) = some .i16 ∧
    ((getSigType ⟨127, none⟩
      { lengthBit := 60, signed := false, factor := Dec.ofInt 2, offset := Dec.ofInt 0 }).map (·.typePhys)) = some .u64 ∧
    ((getSigType ⟨127, none⟩
      { lengthBit := 6, signed := true, factor := Dec.ofInt (-3), offset := Dec.ofInt 10 }).map (·.typePhys)) = some .i8 ∧
    CTy.InRange .i8 (-(2 ^ 5) * -3 + 10) := by decide

end Verif
