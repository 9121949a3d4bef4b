import Verif.Proofs.UnpackRun
/- The conversion macros: values and selection. -/
namespace Verif
open Spec
variable {φ : Type}

/-! ### Conversions -/

theorem CTy.conv_mod (t : CTy) (z : Int) : t.conv z % (2 ^ t.bits : Nat) = z % (2 ^ t.bits : Nat) := by
  unfold CTy.conv
  split
  · exact Int.bmod_emod
  · exact Int.emod_emod_of_dvd _ (Int.dvd_refl _)

theorem CTy.conv_congr (t : CTy) {a b : Int} (h : a % (2 ^ t.bits : Nat) = b % (2 ^ t.bits : Nat)) :
    t.conv a = t.conv b := by
  unfold CTy.conv
  split
  · rw [← Int.emod_bmod (x := a), ← Int.emod_bmod (x := b), h]
  · exact h

/-- Conversion to a narrower type forgets conversions to wider ones. -/
theorem CTy.conv_conv {t u : CTy} (h : t.bits ≤ u.bits) (z : Int) : t.conv (u.conv z) = t.conv z := by
  apply t.conv_congr
  have hd : ((2 ^ t.bits : Nat) : Int) ∣ ((2 ^ u.bits : Nat) : Int) := by
    exact_mod_cast Nat.pow_dvd_pow 2 h
  rw [← Int.emod_emod_of_dvd (u.conv z) hd, u.conv_mod, Int.emod_emod_of_dvd z hd]

theorem CTy.inRange_conv (t : CTy) (z : Int) : t.InRange (t.conv z) := by
  unfold CTy.InRange CTy.minV CTy.maxV CTy.conv
  cases t <;> simp only [CTy.signed, CTy.bits, if_true, if_false, Bool.false_eq_true] <;>
    constructor <;> simp only [Nat.reducePow, Nat.reduceSub, Int.reducePow, Int.bmod] <;> omega

/-- The type in which a macro computes with an `int` literal. -/
def CTy.macroTy (t : CTy) : CTy := CTy.common t .i32

theorem CTy.macroTy_idem (t : CTy) : CTy.common t.macroTy .i32 = t.macroTy := by cases t <;> decide

theorem CTy.InRange.mono {t u : CTy} (h1 : u.minV ≤ t.minV) (h2 : t.maxV ≤ u.maxV) {z : Int}
    (h : t.InRange z) : u.InRange z := ⟨by have := h.1; omega, by have := h.2; omega⟩

theorem CTy.InRange.macroTy {t : CTy} {z : Int} (h : t.InRange z) : t.macroTy.InRange z :=
  h.mono (by cases t <;> decide) (by cases t <;> decide)

theorem CTy.lit_macroTy {t : CTy} {z : Int} (hs : t.macroTy.signed = true) (h : CTy.InRange .i32 z) :
    t.macroTy.InRange z :=
  h.mono (by cases t <;> first | decide | exact absurd hs (by decide)) (by cases t <;> first | decide | exact absurd hs (by decide))

/-! ### fromS -/

/-- Factor and offset are integers whose literals are of type `int`. -/
structure IntConv (s : Sig) (f o : Int) : Prop where
  factor : s.factor = Dec.ofInt f
  offset : s.offset = Dec.ofInt o
  rf : -(2 ^ 31) < f ∧ f < 2 ^ 31
  ro : -(2 ^ 31) < o ∧ o < 2 ^ 31

theorem litVal_int {z : Int} (h : -(2 ^ 31) < z ∧ z < 2 ^ 31) : litVal z = ⟨.i32, z⟩ := by
  unfold litVal; rw [if_neg (by omega)]

theorem i32_inRange {z : Int} (h : -(2 ^ 31) < z ∧ z < 2 ^ 31) : CTy.InRange .i32 z :=
  ⟨by simp [CTy.minV, CTy.signed, CTy.bits]; omega, by simp [CTy.maxV, CTy.signed, CTy.bits]; omega⟩

theorem IntConv.truncs {s : Sig} {f o : Int} (h : IntConv s f o) :
    s.factor.trunc = f ∧ s.offset.trunc = o ∧ s.offset.eqInt 0 = (o == 0) ∧ s.factor.eqInt 1 = (f == 1) := by
  rw [h.factor, h.offset]
  simp [Dec.ofInt, Dec.trunc, Dec.eqInt]

theorem arith_signed {t : CTy} (h : t.signed = true) (z : Int) :
    CVal.arith t z = if t.InRange z then some ⟨t, z⟩ else none := by
  unfold CVal.arith; rw [if_pos h]

theorem arith_unsigned {t : CTy} (h : t.signed = false) (z : Int) :
    CVal.arith t z = some ⟨t, t.conv z⟩ := by
  unfold CVal.arith; rw [if_neg (by simp [h])]

theorem mul_signed {t : CTy} {x f : Int} (hs : t.macroTy.signed = true)
    (hx : t.macroTy.InRange x) (hf : CTy.InRange .i32 f) :
    (⟨t, x⟩ : CVal).mul ⟨.i32, f⟩ = if t.macroTy.InRange (x * f) then some ⟨t.macroTy, x * f⟩ else none := by
  show CVal.arith t.macroTy (t.macroTy.conv x * t.macroTy.conv f) = _
  rw [CTy.conv_inRange hx, CTy.conv_inRange (CTy.lit_macroTy hs hf), arith_signed hs]

theorem add_signed {t : CTy} {x f : Int} (hs : t.macroTy.signed = true)
    (hx : t.macroTy.InRange x) (hf : CTy.InRange .i32 f) :
    (⟨t, x⟩ : CVal).add ⟨.i32, f⟩ = if t.macroTy.InRange (x + f) then some ⟨t.macroTy, x + f⟩ else none := by
  show CVal.arith t.macroTy (t.macroTy.conv x + t.macroTy.conv f) = _
  rw [CTy.conv_inRange hx, CTy.conv_inRange (CTy.lit_macroTy hs hf), arith_signed hs]

theorem sub_signed {t : CTy} {x f : Int} (hs : t.macroTy.signed = true)
    (hx : t.macroTy.InRange x) (hf : CTy.InRange .i32 f) :
    (⟨t, x⟩ : CVal).sub ⟨.i32, f⟩ = if t.macroTy.InRange (x - f) then some ⟨t.macroTy, x - f⟩ else none := by
  show CVal.arith t.macroTy (t.macroTy.conv x - t.macroTy.conv f) = _
  rw [CTy.conv_inRange hx, CTy.conv_inRange (CTy.lit_macroTy hs hf), arith_signed hs]

theorem macroTy_macroTy (t : CTy) : t.macroTy.macroTy = t.macroTy := CTy.macroTy_idem t

/-- The `fromS` macro on a type for which it computes in a signed type. -/
theorem macroFromS_signed {s : Sig} {f o : Int} (h : IntConv s f o) {t : CTy} {x : Int}
    (hs : t.macroTy.signed = true) (hx : t.InRange x) :
    macroFromS s ⟨t, x⟩ =
      if t.macroTy.InRange (x * f) ∧ t.macroTy.InRange (x * f + o) then some ⟨t.macroTy, x * f + o⟩ else none := by
  obtain ⟨t1, t2, t3, t4⟩ := h.truncs
  have hxm := hx.macroTy
  have hf := i32_inRange h.rf
  have ho := i32_inRange h.ro
  unfold macroFromS
  rw [t1, t2, t3, t4, litVal_int h.rf, litVal_int h.ro]
  by_cases h0 : o = 0
  · subst h0
    simp only [beq_self_eq_true, if_true]
    rw [mul_signed hs hxm hf]
    simp only [Int.add_zero, and_self]
  · rw [if_neg (by simpa using h0)]
    by_cases h1 : f = 1
    · subst h1
      simp only [beq_self_eq_true, if_true, Int.mul_one]
      rw [add_signed hs hxm ho]
      simp only [hxm, true_and]
    · rw [if_neg (by simpa using h1), mul_signed hs hxm hf]
      by_cases hm : t.macroTy.InRange (x * f)
      · rw [if_pos hm]
        simp only [Option.bind_eq_bind, Option.bind_some]
        have := add_signed (t := t.macroTy) (x := x * f) (f := o) (by rw [macroTy_macroTy]; exact hs)
          (by rw [macroTy_macroTy]; exact hm) ho
        rw [macroTy_macroTy] at this
        rw [this]
        simp only [hm, true_and]
      · rw [if_neg hm, if_neg (fun hh => hm hh.1)]
        rfl

theorem mod_mul_conv (T : CTy) (a b : Int) :
    T.conv (T.conv a * T.conv b) = T.conv (a * b) := by
  apply T.conv_congr
  rw [Int.mul_emod, T.conv_mod, T.conv_mod, ← Int.mul_emod]

theorem mod_add_conv (T : CTy) (a b : Int) :
    T.conv (T.conv a + T.conv b) = T.conv (a + b) := by
  apply T.conv_congr
  rw [Int.add_emod, T.conv_mod, T.conv_mod, ← Int.add_emod]

/-- The `fromS` macro on a type for which it computes in an unsigned type: modular arithmetic. -/
theorem macroFromS_unsigned {s : Sig} {f o : Int} (h : IntConv s f o) {t : CTy} {x : Int}
    (hs : t.macroTy.signed = false) :
    macroFromS s ⟨t, x⟩ = some ⟨t.macroTy, t.macroTy.conv (x * f + o)⟩ := by
  obtain ⟨t1, t2, t3, t4⟩ := h.truncs
  have hmul : ∀ y g : Int, (⟨t, y⟩ : CVal).mul ⟨.i32, g⟩ = some ⟨t.macroTy, t.macroTy.conv (y * g)⟩ := by
    intro y g
    show CVal.arith t.macroTy (t.macroTy.conv y * t.macroTy.conv g) = _
    rw [arith_unsigned hs, mod_mul_conv]
  have hadd : ∀ (u : CTy), u.macroTy = t.macroTy → ∀ y g : Int,
      (⟨u, y⟩ : CVal).add ⟨.i32, g⟩ = some ⟨t.macroTy, t.macroTy.conv (y + g)⟩ := by
    intro u hu y g
    show CVal.arith u.macroTy (u.macroTy.conv y + u.macroTy.conv g) = _
    rw [hu, arith_unsigned hs, mod_add_conv]
  unfold macroFromS
  rw [t1, t2, t3, t4, litVal_int h.rf, litVal_int h.ro]
  by_cases h0 : o = 0
  · subst h0
    simp only [beq_self_eq_true, if_true, Int.add_zero]
    rw [hmul]
  · rw [if_neg (by simpa using h0)]
    by_cases h1 : f = 1
    · subst h1
      simp only [beq_self_eq_true, if_true, Int.mul_one]
      rw [hadd t rfl]
    · rw [if_neg (by simpa using h1), hmul]
      simp only [Option.bind_eq_bind, Option.bind_some]
      rw [hadd _ (macroTy_macroTy t)]
      congr 2
      apply t.macroTy.conv_congr
      rw [Int.add_emod, t.macroTy.conv_mod, ← Int.add_emod]

/-! ### Selection of macros -/

theorem headerMacros_lookup (l : List Sig) : ∀ (acc : List (Str × Sig)) (n : Str),
    (headerMacros l acc).lookup n =
      (acc.lookup n).or ((l.filter (fun s => !s.isSimple)).find? (fun s => s.name == n)) := by
  induction l with
  | nil => intro acc n; simp [headerMacros]
  | cons s l ih =>
    intro acc n
    have hfl : ∀ a : List (Str × Sig), a.find? (fun p => p.1 == s.name) = none ↔ a.lookup s.name = none := by
      intro a
      induction a with
      | nil => simp
      | cons p a iha =>
        obtain ⟨k, v⟩ := p
        by_cases hk : k = s.name
        · subst hk; simp [List.lookup]
        · have h1 : (k == s.name) = false := by simpa using hk
          have h2 : (s.name == k) = false := by simpa using fun h => hk h.symm
          rw [List.find?_cons, List.lookup_cons]
          simp only [h1, h2]
          exact iha
    have happ : ∀ (a b : List (Str × Sig)) (n : Str), (a ++ b).lookup n = (a.lookup n).or (b.lookup n) := by
      intro a b n
      induction a with
      | nil => simp
      | cons p a iha =>
        obtain ⟨k, v⟩ := p
        rw [List.cons_append, List.lookup_cons, List.lookup_cons]
        by_cases hk : (n == k) = true
        · simp [hk]
        · simp only [Bool.not_eq_true] at hk; simp only [hk]; exact iha
    unfold headerMacros
    cases hsim : s.isSimple
    · by_cases hin : acc.lookup s.name = none
      · have h1 : (acc.find? (fun p => p.1 == s.name)).isNone = true := by
          rw [Option.isNone_iff_eq_none]; exact (hfl acc).2 hin
        simp only [h1, Bool.not_false, Bool.and_self, if_true]
        rw [ih, happ]
        simp only [List.filter_cons, hsim, Bool.not_false, if_true, List.find?_cons, Option.or_assoc]
        congr 1
        by_cases hk : n = s.name
        · subst hk; simp [List.lookup]
        · have a1 : (n == s.name) = false := by simpa using hk
          have a2 : (s.name == n) = false := by simpa using fun h => hk h.symm
          simp [List.lookup, a1, a2]
      · have h1 : (acc.find? (fun p => p.1 == s.name)).isNone = false := by
          rw [Option.isNone_eq_false_iff, Option.isSome_iff_ne_none]; exact fun h => hin ((hfl acc).1 h)
        simp only [h1, Bool.not_false, Bool.and_false, Bool.false_eq_true, if_false]
        rw [ih]
        simp only [List.filter_cons, hsim, Bool.not_false, if_true, List.find?_cons]
        by_cases hk : n = s.name
        · subst hk
          obtain ⟨v, hv⟩ := Option.ne_none_iff_exists'.1 hin
          simp [hv]
        · have a2 : (s.name == n) = false := by simpa using fun h => hk h.symm
          simp [a2]
    · simp only [Bool.not_true, Bool.false_and, Bool.false_eq_true, if_false]
      rw [ih]
      simp [List.filter_cons, hsim]

/-- The signals for which macros are printed, in order. -/
def macroSigs (msgs : List Msg) : List Sig :=
  ((msgs.filter (·.frameNotEmpty)).flatMap (·.signals)).filter (fun s => !s.isSimple)

theorem driverMacros_lookup (msgs : List Msg) (n : Str) :
    (driverMacros msgs).lookup n = (macroSigs msgs).find? (fun s => s.name == n) := by
  unfold driverMacros macroSigs
  rw [headerMacros_lookup]
  simp

theorem mem_macroSigs {msgs : List Msg} {s : Sig} :
    s ∈ macroSigs msgs ↔ ∃ m ∈ msgs, m.frameNotEmpty = true ∧ s ∈ m.signals ∧ s.isSimple = false := by
  unfold macroSigs
  simp only [List.mem_filter, List.mem_flatMap, Bool.not_eq_true', decide_eq_true_eq]
  constructor
  · rintro ⟨⟨m, ⟨h1, h2⟩, h3⟩, h4⟩
    exact ⟨m, h1, h2, h3, h4⟩
  · rintro ⟨m, h1, h2, h3, h4⟩
    exact ⟨⟨m, ⟨h1, h2⟩, h3⟩, h4⟩

end Verif
