import Verif.Proofs.Stated
import Verif.Props.Macros
/-
The conversion macros of stated signals.
-/
namespace Verif
open Spec

/-- Factor and offset are whole numbers. -/
def Spec.SigDesc.whole (d : SigDesc) : Prop := d.factor.frac = [] ∧ d.offset.frac = []

instance (d : SigDesc) : Decidable d.whole := inferInstanceAs (Decidable (_ ∧ _))

/-- Factor of a signal with whole factor. -/
def Spec.SigDesc.f (d : SigDesc) : Int := d.factor.value.num

/-- Offset of a signal with whole offset. -/
def Spec.SigDesc.o (d : SigDesc) : Int := d.offset.value.num

/-- Conditions on a scaled signal: a fragment as in C03, and for whole factor and offset: a positive factor,
both of type `int`; up to 16 bits and for signed signals all values of the conversion are of type `int`; for
unsigned signals of 17 to 32 bits the largest value is of type `unsigned`, or with negative offset the largest
product of type `int`. -/
structure Spec.ScaleOk (d : SigDesc) : Prop where
  aligned : d.len ≤ 32 ∨ bitPos d.intel d.start d.len 0 % 8 = 0
  pos : d.whole → 0 < d.f ∧ d.f < 2 ^ 31 ∧ -(2 ^ 31) < d.o ∧ d.o < 2 ^ 31
  small : d.whole → d.signed = true ∨ d.len ≤ 16 → ∀ x, InSigRange d.signed d.len x →
    -(2 ^ 31) ≤ x * d.f ∧ x * d.f < 2 ^ 31 ∧ -(2 ^ 31) ≤ x * d.f + d.o ∧ x * d.f + d.o < 2 ^ 31
  word : d.whole → d.signed = false → 17 ≤ d.len → d.len ≤ 32 →
    if 0 ≤ d.o then (2 ^ d.len - 1) * d.f + d.o < 2 ^ 32 else (2 ^ d.len - 1) * d.f < 2 ^ 31

theorem lit_int {l : Lit} (h : l.frac = []) : l.value = Dec.ofInt l.value.num := by
  unfold Lit.value Dec.ofInt
  rw [h]
  rfl

theorem i32_iff (z : Int) : CTy.InRange .i32 z ↔ -(2 ^ 31) ≤ z ∧ z < 2 ^ 31 := by
  unfold CTy.InRange CTy.minV CTy.maxV
  simp only [CTy.signed, CTy.bits, if_true]
  omega

/-- A value of type `int` is a value of the type of the macros, unless that is unsigned and it is negative. -/
theorem common_int {t : CTy} {z : Int} (h : CTy.InRange .i32 z) (h0 : t.signed = false → 0 ≤ z) : (CTy.common t .i32).InRange z := by
  have h2 : z ≤ CTy.maxV (CTy.common t .i32) := Int.le_trans h.2 (by cases t <;> decide)
  refine ⟨?_, h2⟩
  cases hs : t.signed
  · have := h0 hs
    have hz : CTy.minV (CTy.common t .i32) ≤ 0 := by cases t <;> decide
    exact Int.le_trans hz this
  · exact Int.le_trans (by cases t <;> first | decide | exact absurd hs (by decide)) h.1

theorem pickSigned_bits {h : Host} {k v : Nat} (hv : v < 2 ^ 31) : (pickSigned h k v).bits ≤ 32 := by
  unfold pickSigned
  rw [if_pos (c := v ≤ 2147483647 + k) (by omega)]
  split
  · decide
  · split <;> decide

theorem pickSigned_wide {h : Host} (hc : h.charMax = 127) {v : Nat} (hv : 2 ^ 31 ≤ v) : pickSigned h 0 v = .i64 := by
  unfold pickSigned
  rw [hc, if_neg (by omega), if_neg (by omega), if_neg (by omega)]

/-- What the selection of the physical type does on signed results. -/
theorem physType_signed {h : Host} (hu : h.oob = none) {s : Sig} {mx mn f o : Int} {t : CTy}
    (hf : s.factor.trunc = f) (ho : s.offset.trunc = o) (ht : physType h s mx mn = some t) :
    mx * f < 2 ^ 63 ∧ (s.signed = true → t.signed = true) ∧
    (mn * f + o < 0 → t = if (mx * f + o).natAbs + 1 < (mn * f + o).natAbs then pickSigned h 1 (mn * f + o).natAbs else pickSigned h 0 (mx * f + o).natAbs) := by
  simp only [physType, Option.bind_eq_bind, Option.bind_eq_some_iff] at ht
  obtain ⟨io, h1, jf, h2, p0, h3, p, h4, q0, h5, q, h6, ht⟩ := ht
  rw [ho] at h1
  rw [hf] at h2
  obtain ⟨rfl, _⟩ := castI64_some hu h1
  obtain ⟨rfl, _⟩ := castI64_some hu h2
  obtain ⟨rfl, b3⟩ := chk64_some h3
  obtain ⟨rfl, b4⟩ := chk64_some h4
  obtain ⟨rfl, b5⟩ := chk64_some h5
  obtain ⟨rfl, b6⟩ := chk64_some h6
  have hpk : ∀ k v, (pickSigned h k v).signed = true := by
    intro k v
    unfold pickSigned
    split
    · rfl
    · split
      · rfl
      · split <;> rfl
  refine ⟨b3.2, fun hs => ?_, fun hq => ?_⟩
  · rw [hs, Bool.true_or, Bool.true_or, if_pos rfl] at ht
    simp only [Option.bind_eq_some_iff] at ht
    obtain ⟨a, -, b, -, ht⟩ := ht
    split at ht
    · cases ht; exact hpk _ _
    · cases ht; exact hpk _ _
  · rw [decide_eq_true hq, Bool.or_true, if_pos rfl] at ht
    simp only [Option.bind_eq_some_iff] at ht
    obtain ⟨a, ha, b, hb, ht⟩ := ht
    obtain ⟨rfl, _⟩ := chk64_some ha
    obtain ⟨rfl, _⟩ := chk64_some hb
    rw [Int.toNat_natCast, Int.toNat_natCast] at ht
    split at ht
    · rename_i hlt; rw [if_pos hlt]; cases ht; rfl
    · rename_i hlt; rw [if_neg hlt]; cases ht; rfl

/-- For a stated scaled signal with whole factor and offset both macros are right on every raw value. -/
theorem scale_ok {P : Platform} (hc : P.charMax = 127) (hu : P.oob = none) {d : SigDesc} {s : Sig} (h1 : 1 ≤ d.len) (h2 : d.len ≤ 64)
    (hsg : d.signed = true → d.len ≤ 32) (hd : ScaleOk d) (hw : d.whole) (hs : FromDesc P d s) :
    IntConv s d.f d.o ∧ ∀ x, InSigRange d.signed d.len x → FromSOk s d.f d.o x ∧ ToSOk s d.f x := by
  obtain ⟨s1, hg, t1, t2⟩ := hs.type
  obtain ⟨p1, p2, p3, p4⟩ := hd.pos hw
  have ef : s.factor = Dec.ofInt d.f := hs.factor.trans (lit_int hw.1)
  have eo : s.offset = Dec.ofInt d.o := hs.offset.trans (lit_int hw.2)
  have hcv : IntConv s d.f d.o := ⟨ef, eo, ⟨by omega, p2⟩, ⟨p3, p4⟩⟩
  refine ⟨hcv, fun x hx => ?_⟩
  have hdb : (SigDesc.sig d).isDouble = false := by
    show (decide (d.factor.frac ≠ []) || decide (d.offset.frac ≠ [])) = false
    rw [decide_eq_false (fun q => q hw.1), decide_eq_false (fun q => q hw.2)]
    rfl
  have hph : s.typePhys.InRange (x * d.f + d.o) := by
    rw [t2]
    exact C13_positive_partial P.toHost hc hu (SigDesc.sig d) s1 d.f d.o h1 rfl hdb (lit_int hw.1) (lit_int hw.2) p1 hg x hx
  have hph0 : d.signed = false → s.typePhys.InRange d.o := by
    intro q
    rw [t2]
    have hz : InSigRange d.signed d.len 0 := by
      unfold InSigRange
      rw [q]
      exact ⟨Int.le_refl _, Int.pow_pos (by decide)⟩
    have := C13_positive_partial P.toHost hc hu (SigDesc.sig d) s1 d.f d.o h1 rfl hdb (lit_int hw.1) (lit_int hw.2) p1 hg 0 hz
    rwa [Int.zero_mul, Int.zero_add] at this
  obtain ⟨mx, mn, ro, ph, hrl, e, hpt⟩ := getSigType_fields hg
  have hpt := hpt rfl hdb
  have hro := rawLimits_type (h := P.toHost) hc (by rw [hu]; intro v hv; cases hv) h1 h2 hrl
  obtain ⟨b1, b2, b3⟩ := rawLimits_bounds (h := P.toHost) hu h1 hrl
  have ero : s.typeRo = idealType d.signed d.len := by rw [t1, e]; exact hro
  have eph : s.typePhys = ph := by rw [t2, e]
  obtain ⟨s3, s4, s5⟩ := physType_signed (h := P.toHost) hu (f := d.f) (o := d.o)
    (by rw [show (SigDesc.sig d).factor = Dec.ofInt d.f from lit_int hw.1, Dec.trunc_ofInt])
    (by rw [show (SigDesc.sig d).offset = Dec.ofInt d.o from lit_int hw.2, Dec.trunc_ofInt]) hpt
  have hmn : d.signed = false → mn = 0 := by
    intro q
    unfold rawLimits at hrl
    rw [show (SigDesc.sig d).signed = false from q] at hrl
    simp only [Bool.false_eq_true, if_false, Option.bind_eq_bind, Option.bind_eq_some_iff, pure, Option.some.injEq, Prod.mk.injEq] at hrl
    obtain ⟨_, _, _, h0, _⟩ := hrl
    exact h0.symm
  by_cases hA : d.signed = true ∨ d.len ≤ 16
  · obtain ⟨c1, c2, c3, c4⟩ := hd.small hw hA x hx
    have hl32 : d.len ≤ 32 := by
      rcases hA with q | q
      · exact hsg q
      · omega
    refine ⟨⟨hph, ?_⟩, by omega, common_int ?_ ?_, common_int ((i32_iff _).2 ⟨c1, c2⟩) ?_, fun _ => p1⟩
    · have hr : s.typeRo = .i8 ∨ s.typeRo = .i16 ∨ s.typeRo = .i32 ∨ s.typeRo = .u8 ∨ s.typeRo = .u16 := by
        rw [ero]
        unfold idealType
        cases hq : d.signed
        · have : d.len ≤ 16 := by
            rcases hA with q | q
            · rw [hq] at q; cases q
            · exact q
          rw [if_neg (by decide)]
          split
          · simp
          · simp
        · rw [if_pos rfl]
          split
          · simp
          · split
            · simp
            · simp
      have hb : CTy.InRange .i32 (x * d.f) ∧ CTy.InRange .i32 (x * d.f + d.o) := ⟨(i32_iff _).2 ⟨c1, c2⟩, (i32_iff _).2 ⟨c3, c4⟩⟩
      rcases hr with r | r | r | r | r <;> rw [r] <;> exact hb
    · have hq : -(2 ^ 31) ≤ x ∧ x < 2 ^ 31 := by
        rcases Int.le_total 0 x with h0 | h0
        · have := Int.mul_le_mul_of_nonneg_left (show 1 ≤ d.f by omega) h0
          omega
        · have := Int.mul_le_mul_of_nonpos_left h0 (show 1 ≤ d.f by omega)
          omega
      exact (i32_iff _).2 hq
    · intro q
      rw [eph] at q
      cases hq : d.signed
      · unfold InSigRange at hx
        rw [hq] at hx
        exact hx.1
      · rw [s4 hq] at q; cases q
    · intro q
      rw [eph] at q
      cases hq : d.signed
      · unfold InSigRange at hx
        rw [hq] at hx
        exact Int.mul_nonneg hx.1 (by omega)
      · rw [s4 hq] at q; cases q
  · have hq : d.signed = false := by
      cases hq : d.signed
      · rfl
      · exact absurd (Or.inl hq) hA
    have hl : 17 ≤ d.len := by
      have : ¬ d.len ≤ 16 := fun q => hA (Or.inr q)
      omega
    unfold InSigRange at hx
    rw [hq, if_neg (by decide)] at hx
    obtain ⟨x0, x1⟩ := hx
    have hxf : x ≤ x * d.f := by
      have := Int.mul_le_mul_of_nonneg_left (show 1 ≤ d.f by omega) x0
      omega
    have hxm : x * d.f ≤ (2 ^ d.len - 1) * d.f := Int.mul_le_mul_of_nonneg_right (by omega) (by omega)
    have hbig : rawMax (SigDesc.sig d).signed (SigDesc.sig d).lengthBit = 2 ^ d.len - 1 := by
      unfold rawMax
      rw [show (SigDesc.sig d).signed = false from hq]
      rfl
    rw [hbig] at b2 b3
    have hmn := hmn hq
    subst hmn
    rw [Int.zero_mul, Int.zero_add] at s5
    have hmin : CTy.minV (CTy.common s.typePhys .i32) ≤ 0 := by cases s.typePhys <;> decide
    have hw' := hd.word hw hq hl
    have etr : s.typeRo = if d.len ≤ 32 then .u32 else .u64 := by
      rw [ero, hq]
      unfold idealType
      rw [if_neg (by decide), if_neg (by omega), if_neg (by omega)]
    by_cases ho : 0 ≤ d.o
    · have hm := (CTy.InRange.macroTy hph).2
      refine ⟨⟨hph, ?_⟩, by omega, ⟨Int.le_trans hmin x0, ?_⟩, ⟨Int.le_trans hmin (by omega), ?_⟩, fun _ => p1⟩
      · rw [etr]
        by_cases h32 : d.len ≤ 32
        · rw [if_pos h32]
          have := hw' h32
          rw [if_pos ho] at this
          exact Or.inr ⟨by omega, by omega⟩
        · rw [if_neg h32]
          trivial
      · exact Int.le_trans (by omega) hm
      · exact Int.le_trans (by omega) hm
    · have s5 := s5 (by omega)
      by_cases h32 : d.len ≤ 32
      · have hwd := hw' h32
        rw [if_neg ho] at hwd
        refine ⟨⟨hph, ?_⟩, by omega, common_int ((i32_iff _).2 ⟨by omega, by omega⟩) fun _ => x0,
          common_int ((i32_iff _).2 ⟨by omega, by omega⟩) fun _ => by omega, fun _ => p1⟩
        rw [etr, if_pos h32]
        refine Or.inl ?_
        have hmx := (b3 (by rw [show (SigDesc.sig d).signed = false from hq]; show d.len ≤ 53; omega)).2
        have hmp : (0:Int) ≤ (2 ^ d.len - 1) * d.f := by omega
        rw [eph, s5, ← hmx]
        split
        · exact pickSigned_bits (by omega)
        · exact pickSigned_bits (by omega)
      · have hpow : (2:Int) ^ 33 ≤ 2 ^ d.len := by exact_mod_cast Nat.pow_le_pow_right (n := 2) (by decide) (show 33 ≤ d.len by omega)
        have hmf : mx ≤ mx * d.f := by
          have := Int.mul_le_mul_of_nonneg_left (show 1 ≤ d.f by omega) (show 0 ≤ mx by omega)
          omega
        have hxx : x * d.f ≤ mx * d.f := Int.mul_le_mul_of_nonneg_right (by omega) (by omega)
        have hi : s.typePhys = .i64 := by
          rw [eph, s5, if_neg (by omega)]
          exact pickSigned_wide hc (by omega)
        refine ⟨⟨hph, ?_⟩, by omega, ?_, ?_, fun _ => p1⟩
        · rw [etr, if_neg h32]
          trivial
        · rw [hi]
          refine ⟨Int.le_trans (by decide) x0, ?_⟩
          show x ≤ 2 ^ 63 - 1
          omega
        · rw [hi]
          refine ⟨Int.le_trans (by decide) (show 0 ≤ x * d.f by omega), ?_⟩
          show x * d.f ≤ 2 ^ 63 - 1
          omega

end Verif
