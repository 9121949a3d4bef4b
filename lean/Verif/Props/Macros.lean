import Verif.Proofs.PhysPack
import Verif.Proofs.RoundTrip
import Verif.Props.Types
import Verif.Props.Fixtures
/-
C14-C16, C46: the conversion macros.
-/
namespace Verif
open Spec
variable {φ : Type}

/-! ### C16: which macro is used -/

/-- The conversions of two signals are the same. -/
def SameConv (a b : Sig) : Prop :=
  a.factor = b.factor ∧ a.offset = b.offset ∧ a.isDouble = b.isDouble ∧ a.typeRo = b.typeRo

/-- All scaled signals of the driver with the name of `s` have the conversion of `s`. -/
def OwnMacro (msgs : List Msg) (s : Sig) : Prop :=
  ∀ m ∈ msgs, m.frameNotEmpty = true → ∀ t ∈ m.signals, t.isSimple = false → t.name = s.name → SameConv t s

theorem macroFromS_same {a b : Sig} (h : SameConv a b) (x : CVal) : macroFromS a x = macroFromS b x := by
  unfold macroFromS; rw [h.1, h.2.1]

theorem macroToS_same {a b : Sig} (h : SameConv a b) (x : CVal) : macroToS a x = macroToS b x := by
  unfold macroToS; rw [h.1, h.2.1, h.2.2.2]

/-- **C16**, what holds in general: a scaled signal is converted by the macros printed for the first
scaled signal of this name, in the order of the messages that have signals. -/
theorem C16_first_partial (msgs : List Msg) (pre post : List Msg) (m : Msg) (a b : List Sig) (s : Sig)
    (hm : msgs = pre ++ m :: post) (hs : m.signals = a ++ s :: b)
    (hne : m.frameNotEmpty = true) (hsc : s.isSimple = false)
    (hpre : ∀ k ∈ pre, k.frameNotEmpty = true → ∀ t ∈ k.signals, t.isSimple = false → t.name ≠ s.name)
    (ha : ∀ t ∈ a, t.isSimple = false → t.name ≠ s.name) :
    (driverMacros msgs).lookup s.name = some s := by
  rw [driverMacros_lookup, hm]
  have e : macroSigs (pre ++ m :: post) =
      (macroSigs pre ++ a.filter (fun s => !s.isSimple)) ++ s :: (b.filter (fun s => !s.isSimple) ++ macroSigs post) := by
    unfold macroSigs
    simp [List.filter_append, hne, hs, hsc]
  rw [e, List.find?_append]
  have hnone : (macroSigs pre ++ a.filter (fun s => !s.isSimple)).find? (fun t => t.name == s.name) = none := by
    rw [List.find?_eq_none]
    intro t ht
    rw [List.mem_append] at ht
    rcases ht with ht | ht
    · obtain ⟨k, k1, k2, k3, k4⟩ := mem_macroSigs.1 ht
      simpa using hpre k k1 k2 t k3 k4
    · simp only [List.mem_filter, Bool.not_eq_true'] at ht
      simpa using ha t ht.1 ht.2
  rw [hnone]
  simp

/-- **C16** when all scaled signals of a name have the same conversion: the macros in scope are those
of the signal itself. -/
theorem C16_own_partial (msgs : List Msg) (m : Msg) (s : Sig) (hm : m ∈ msgs) (hne : m.frameNotEmpty = true)
    (hs : s ∈ m.signals) (hsc : s.isSimple = false) (hown : OwnMacro msgs s) :
    ∃ s0, (driverMacros msgs).lookup s.name = some s0 ∧ SameConv s0 s ∧
      (∀ x, macroFromS s0 x = macroFromS s x) ∧ (∀ x, macroToS s0 x = macroToS s x) := by
  rw [driverMacros_lookup]
  cases hf : (macroSigs msgs).find? (fun t => t.name == s.name) with
  | none =>
    have := List.find?_eq_none.1 hf s (mem_macroSigs.2 ⟨m, hm, hne, hs, hsc⟩)
    simp at this
  | some s0 =>
    have h1 := List.find?_some hf
    obtain ⟨k, k1, k2, k3, k4⟩ := mem_macroSigs.1 (List.mem_of_find?_eq_some hf)
    have hsame := hown k k1 k2 s0 k3 k4 (by simpa using h1)
    exact ⟨s0, rfl, hsame, macroFromS_same hsame, macroToS_same hsame⟩

/-! ### C14: values of the physical members -/

/-- **C14**, exact at macro level.  For integer factor and offset (representable as `int` literals) and
every value of the raw member, the macro followed by the cast to the physical type is defined and
gives `raw * factor + offset` if and only if the physical type holds this number and

* raw members narrower than 32 bits, and `int32_t`: product and sum are `int` values,
* `int64_t`: product and sum are `int64_t` values,
* `uint32_t`: the physical type has at most 32 bits, or the result is a `uint32_t` value,
* `uint64_t`: always. -/
theorem C14_exact_partial (s : Sig) (f o : Int) (h : IntConv s f o) (x : Int) (hx : s.typeRo.InRange x) :
    (∃ y, macroFromS s ⟨s.typeRo, x⟩ = some y ∧ (y.cast s.typePhys).val = x * f + o) ↔
    s.typePhys.InRange (x * f + o) ∧
    (match s.typeRo with
     | .u64 => True
     | .u32 => s.typePhys.bits ≤ 32 ∨ (0 ≤ x * f + o ∧ x * f + o < 2 ^ 32)
     | .i64 => CTy.InRange .i64 (x * f) ∧ CTy.InRange .i64 (x * f + o)
     | _ => CTy.InRange .i32 (x * f) ∧ CTy.InRange .i32 (x * f + o)) := by
  have hfwd : ∀ {y : CVal}, (y.cast s.typePhys).val = x * f + o → s.typePhys.InRange (x * f + o) := by
    intro y hy; rw [← hy]; exact CTy.inRange_conv _ _
  have sgn : s.typeRo.macroTy.signed = true →
      ((∃ y, macroFromS s ⟨s.typeRo, x⟩ = some y ∧ (y.cast s.typePhys).val = x * f + o) ↔
       s.typePhys.InRange (x * f + o) ∧
       (s.typeRo.macroTy.InRange (x * f) ∧ s.typeRo.macroTy.InRange (x * f + o))) := by
    intro hs
    rw [macroFromS_signed h hs hx]
    constructor
    · rintro ⟨y, hy, hv⟩
      refine ⟨hfwd hv, ?_⟩
      apply Classical.byContradiction
      intro hn
      rw [if_neg hn] at hy
      cases hy
    · rintro ⟨hp, hr⟩
      exact ⟨_, if_pos hr, CTy.conv_inRange hp⟩
  cases ht : s.typeRo with
  | u64 =>
    have hs : s.typeRo.macroTy.signed = false := by rw [ht]; decide
    have e := macroFromS_unsigned (x := x) h hs
    rw [ht] at e
    rw [e]
    constructor
    · rintro ⟨y, hy, hv⟩; exact ⟨hfwd hv, trivial⟩
    · rintro ⟨hp, -⟩
      refine ⟨_, rfl, ?_⟩
      show s.typePhys.conv (CTy.conv .u64 (x * f + o)) = _
      rw [CTy.conv_conv s.typePhys.bits_le_64, CTy.conv_inRange hp]
  | u32 =>
    have hs : s.typeRo.macroTy.signed = false := by rw [ht]; decide
    have e := macroFromS_unsigned (x := x) h hs
    rw [ht, show CTy.macroTy .u32 = .u32 by decide] at e
    rw [e]
    constructor
    · rintro ⟨y, hy, hv⟩
      refine ⟨hfwd hv, ?_⟩
      cases hy
      by_cases hb : s.typePhys.bits ≤ 32
      · exact Or.inl hb
      · right
        have hr : CTy.InRange .u32 (CTy.conv .u32 (x * f + o)) := CTy.inRange_conv _ _
        have hr' : s.typePhys.InRange (CTy.conv .u32 (x * f + o)) := by
          refine hr.mono ?_ ?_ <;> revert hb <;> cases s.typePhys <;> decide
        have : s.typePhys.conv (CTy.conv .u32 (x * f + o)) = x * f + o := hv
        rw [CTy.conv_inRange hr'] at this
        rw [this] at hr
        have b1 := hr.1
        have b2 := hr.2
        simp only [CTy.minV, CTy.maxV, CTy.signed, CTy.bits, Bool.false_eq_true, if_false] at b1 b2
        omega
    · rintro ⟨hp, hb⟩
      refine ⟨_, rfl, ?_⟩
      show s.typePhys.conv (CTy.conv .u32 (x * f + o)) = _
      rcases hb with hb | hb
      · rw [CTy.conv_conv hb, CTy.conv_inRange hp]
      · rw [CTy.conv_inRange (t := .u32) ⟨hb.1, by simp only [CTy.maxV, CTy.signed, CTy.bits, Bool.false_eq_true, if_false]; omega⟩,
          CTy.conv_inRange hp]
  | _ =>
    have hs : s.typeRo.macroTy.signed = true := by rw [ht]; decide
    have := sgn hs
    rw [ht] at this
    exact this

/-- Condition under which the macro of a signal is right on a raw value. -/
def FromSOk (s : Sig) (f o x : Int) : Prop :=
  s.typePhys.InRange (x * f + o) ∧
  match s.typeRo with
  | .u64 => True
  | .u32 => s.typePhys.bits ≤ 32 ∨ (0 ≤ x * f + o ∧ x * f + o < 2 ^ 32)
  | .i64 => CTy.InRange .i64 (x * f) ∧ CTy.InRange .i64 (x * f + o)
  | _ => CTy.InRange .i32 (x * f) ∧ CTy.InRange .i32 (x * f + o)

/-- **C14**, message level: after Unpack with physical conversions enabled, the integer physical member
is `raw * factor + offset` of the raw member, if and only if the condition of `C14_exact_partial` holds
for the raw value. -/
theorem C14_unpack_partial (cfg : Cfg) (msgs : List Msg) (m : Msg) (fl : FloatOps φ)
    (hash : List Nat → Nat → Nat → Str → Nat → Nat) (tick dlcArg : Nat) (st st' : St φ)
    (hm : MsgOk m) (hd : IsPayload st.dat) (hlen : m.dlc ≤ st.dat.length)
    (h : runUnpack (mkCtx cfg msgs m fl hash tick dlcArg) m st = .ok st')
    (hfl : cfg.flag .useSigFloat = true) (hmem : m ∈ msgs) (hne : m.frameNotEmpty = true)
    (s : Sig) (hs : s ∈ m.signals) (hsc : s.isSimple = false) (hdb : s.isDouble = false)
    (hown : OwnMacro msgs s) (f o : Int) (hi : IntConv s f o) :
    st'.fld s.nameFloat = st'.fld s.name * f + o ↔ FromSOk s f o (st'.fld s.name) := by
  obtain ⟨s0, l1, l2, l3, -⟩ := C16_own_partial msgs m s hmem hne hs hsc hown
  obtain ⟨y, hy, hv⟩ := unpack_phys rfl hm h hs hsc hfl hdb l1 (l2.2.2.1.trans hdb)
  rw [l3] at hy
  obtain ⟨-, -, hf⟩ := unpack_fields rfl hm hd hlen h
  obtain ⟨z, -, hz⟩ := hf s hs
  have hx : s.typeRo.InRange (st'.fld s.name) := by rw [hz]; exact store_inRange _ _ _
  have hex := C14_exact_partial s f o hi _ hx
  rw [hv, CTy.conv_conv (Nat.le_refl _)]
  constructor
  · intro e
    exact hex.1 ⟨y, hy, e⟩
  · intro hok
    obtain ⟨y', hy', e⟩ := hex.2 hok
    rw [hy] at hy'
    cases hy'
    exact e

/-- **C14**: the physical members do not make Unpack undefined when every conversion is defined on the
raw values of its signal. -/
theorem C14_defined_partial (cfg : Cfg) (msgs : List Msg) (m : Msg) (fl : FloatOps φ)
    (hash : List Nat → Nat → Nat → Str → Nat → Nat) (tick dlcArg : Nat) (st : St φ)
    (hm : MsgOk m) (hd : IsPayload st.dat) (hlen : m.dlc ≤ st.dat.length)
    (hnames : (mkCtx cfg msgs m fl hash tick dlcArg).declsOk = true) (hr : RollOk m)
    (hty : ∀ s ∈ m.signals, s.TypeOk) (hmem : m ∈ msgs) (hne : m.frameNotEmpty = true)
    (hsg : ∀ s ∈ m.signals, s.signed = true → s.lengthBit ≤ 32)
    (hph : ∀ s ∈ m.signals, s.isSimple = false → s.aligned ∧ OwnMacro msgs s ∧
      (s.isDouble = false → ∃ f o, IntConv s f o ∧ ∀ x, InSigRange s.signed s.lengthBit x → FromSOk s f o x)) :
    ∃ st', runUnpack (mkCtx cfg msgs m fl hash tick dlcArg) m st = .ok st' := by
  refine unpack_phys_total rfl rfl hm hnames hr ?_ hsg hty hd hlen
  intro s hs
  cases hsc : s.isSimple
  case true => exact Or.inl hsc
  obtain ⟨ha, hown, hint⟩ := hph s hs hsc
  obtain ⟨s0, l1, l2, l3, -⟩ := C16_own_partial msgs m s hmem hne hs hsc hown
  refine Or.inr (Or.inr ⟨ha, s0, l1, ?_⟩)
  cases hdb : s.isDouble
  · refine Or.inr ⟨rfl, l2.2.2.1.trans hdb, ?_⟩
    intro x hx
    obtain ⟨f, o, hi, hok⟩ := hint hdb
    have hxr : s.typeRo.InRange x := by
      rw [← conv_of_sigRange (hty s hs) (hm.2 s hs).1 hx]; exact CTy.inRange_conv _ _
    obtain ⟨y, hy, -⟩ := (C14_exact_partial s f o hi x hxr).2 (hok x hx)
    exact ⟨y, by rw [l3]; exact hy⟩
  · exact Or.inl ⟨rfl, l2.2.2.1.trans hdb⟩

/-- **C14** for what the parser produces: signals of at most 16 bits with positive integer factor whose
products and results are `int` values satisfy the condition for every raw value. -/
theorem C14_parser_partial (h : Host) (hc : h.charMax = 127) (hu : h.oob = none)
    (s s' : Sig) (f o : Int) (h1 : 1 ≤ s.lengthBit) (h16 : s.lengthBit ≤ 16)
    (hs : s.isSimple = false) (hd : s.isDouble = false) (hi : IntConv s f o) (hpos : 0 < f)
    (hg : getSigType h s = some s')
    (x : Int) (hx : InSigRange s.signed s.lengthBit x)
    (hr : CTy.InRange .i32 (x * f) ∧ CTy.InRange .i32 (x * f + o)) : FromSOk s' f o x := by
  refine ⟨C13_positive_partial h hc hu s s' f o h1 hs hd hi.factor hi.offset hpos hg x hx, ?_⟩
  obtain ⟨mx, mn, ro, ph, hrl, rfl, -⟩ := getSigType_fields hg
  have e := rawLimits_type hc (by rw [hu]; intro v hv; cases hv) h1 (by omega) hrl
  have hro : ro = .i8 ∨ ro = .i16 ∨ ro = .u8 ∨ ro = .u16 := by
    rw [e]; unfold idealType
    cases s.signed <;> simp only [if_true, if_false, Bool.false_eq_true] <;> split <;> simp
  dsimp only
  rcases hro with r | r | r | r <;> rw [r] <;> exact hr

/-- Names for the examples. -/
def physSig (len : Nat) (f o : Int) (ro ph : CTy) : Sig :=
  { name := "T_ro".toList, nameFloat := "T_phys".toList, startBit := 0, lengthBit := len,
    factor := Dec.ofInt f, offset := Dec.ofInt o, typeRo := ro, typePhys := ph }

/-- A message with one scaled signal. -/
def physMsg (s : Sig) : Msg :=
  { name := "M".toList, dlc := 4, msgId := 1, signals := [s], hasPhys := true, frameNotEmpty := true }

/-- Configuration with physical conversions. -/
def physCfg : Cfg := { Fix.plain with flag := fun f => f == .useSigFloat }

/-- The physical member after Unpack of the last of the messages. -/
def physAfter (msgs : List Msg) (m : Msg) (d : List Nat) : Option Int :=
  match runUnpack (mkCtx physCfg msgs m Fix.fl Fix.hash 0 8) m (Fix.st d) with
  | .ok st => some (st.fld "T_phys".toList)
  | _ => none

/-- **C14** is false: an unsigned 32-bit signal with factor 1 and offset -40.  The parser chooses
`int64_t`, and raw value 0 gives 4294967256 instead of -40. -/
theorem C14_refuted :
    ∃ s', getSigType ⟨127, none⟩ (physSig 32 1 (-40) .u8 .u8) = some s' ∧
      s' = physSig 32 1 (-40) .u32 .i64 ∧ s'.typePhys.InRange (0 * 1 + -40) ∧
      physAfter [physMsg s'] (physMsg s') [0, 0, 0, 0] = some 4294967256 :=
  ⟨physSig 32 1 (-40) .u32 .i64, by decide, rfl, by decide, by decide⟩

/-- **C14**, undefined behaviour: a 16-bit signal with factor 100000; the product overflows `int`. -/
theorem C14_refuted_overflow :
    ∃ s', getSigType ⟨127, none⟩ (physSig 16 100000 0 .u8 .u8) = some s' ∧
      s' = physSig 16 100000 0 .u16 .u64 ∧ s'.typePhys.InRange (65535 * 100000 + 0) ∧
      physAfter [physMsg s'] (physMsg s') [255, 255, 0, 0] = none :=
  ⟨physSig 16 100000 0 .u16 .u64, by decide, rfl, by decide, by decide⟩

/-- **C16** is false: two messages with a signal of the same name, scaled by 2 and by 3.  Unpack of the
second message scales by 2. -/
theorem C16_refuted :
    ∃ m1 m2 : Msg, m1.signals = [physSig 8 2 0 .u8 .u16] ∧ m2.signals = [physSig 8 3 0 .u8 .u16] ∧
      physAfter [m1, m2] m2 [10, 0, 0, 0] = some 20 :=
  ⟨physMsg (physSig 8 2 0 .u8 .u16), physMsg (physSig 8 3 0 .u8 .u16), rfl, rfl, by decide⟩

/-- The hypotheses of C14 and C16 are met: raw 10 with factor 5 and offset -40 gives 10. -/
example : physAfter [physMsg (physSig 8 2 0 .u8 .u16), physMsg (physSig 12 5 (-40) .u16 .i16)]
      (physMsg (physSig 8 2 0 .u8 .u16)) [10, 0, 0, 0] = some 20 ∧
    physAfter [physMsg (physSig 12 5 (-40) .u16 .i16)] (physMsg (physSig 12 5 (-40) .u16 .i16)) [10, 0, 0, 0] = some 10 ∧
    FromSOk (physSig 12 5 (-40) .u16 .i16) 5 (-40) 10 :=
  ⟨by decide, by decide, by decide, (by decide : CTy.InRange .i32 (10 * 5) ∧ CTy.InRange .i32 (10 * 5 + -40))⟩

theorem physSig_intConv (len : Nat) (f o : Int) (ro ph : CTy) (hf : -(2 ^ 31) < f ∧ f < 2 ^ 31)
    (ho : -(2 ^ 31) < o ∧ o < 2 ^ 31) : IntConv (physSig len f o ro ph) f o := ⟨rfl, rfl, hf, ho⟩

/-- All hypotheses of `C14_defined_partial` together. -/
example : ∃ st', runUnpack (mkCtx physCfg [physMsg (physSig 12 5 (-40) .u16 .i16)]
    (physMsg (physSig 12 5 (-40) .u16 .i16)) Fix.fl Fix.hash 0 8) (physMsg (physSig 12 5 (-40) .u16 .i16))
    (Fix.st [255, 255, 0, 0]) = .ok st' := by
  have hsig : ∀ s ∈ (physMsg (physSig 12 5 (-40) .u16 .i16)).signals, s = physSig 12 5 (-40) .u16 .i16 := by
    intro s hs; simpa [physMsg] using hs
  refine C14_defined_partial _ _ _ _ _ _ _ _ ⟨by decide, ?_⟩ (by intro b hb; revert b; decide) (by decide) (by decide)
    (by intro r hr; cases hr) ?_ (List.mem_singleton.2 rfl) rfl ?_ ?_
  · intro s hs; rw [hsig s hs]
    exact ⟨by decide, by decide, Fix.fits_of_all (by decide)⟩
  · intro s hs; rw [hsig s hs]; exact ⟨by decide, by decide⟩
  · intro s hs h; rw [hsig s hs] at h ⊢; decide
  · intro s hs hsc
    rw [hsig s hs]
    refine ⟨Or.inl (by decide), ?_, ?_⟩
    · intro m hm _ t ht _ _
      rw [List.mem_singleton.1 hm] at ht
      rw [hsig t ht]
      exact ⟨rfl, rfl, rfl, rfl⟩
    · intro _
      refine ⟨5, -40, physSig_intConv _ _ _ _ _ (by decide) (by decide), ?_⟩
      intro x hx
      simp only [physSig, InSigRange, Bool.false_eq_true, if_false] at hx
      unfold FromSOk
      simp only [physSig, CTy.InRange, CTy.minV, CTy.maxV, CTy.signed, CTy.bits, if_true]
      omega


/-! ### C15: toS inverts fromS -/

/-- Condition under which `toS` recovers raw value `x`: the type in which the macro computes (the
promoted physical type, or `unsigned`/64-bit) holds `x` and `x * factor`, and if it is unsigned, the
factor is positive. -/
def ToSOk (s : Sig) (f x : Int) : Prop :=
  f ≠ 0 ∧ (CTy.common s.typePhys .i32).InRange x ∧ (CTy.common s.typePhys .i32).InRange (x * f) ∧
  ((CTy.common s.typePhys .i32).signed = false → 0 < f)

/-- **C15**, macro level: converting with `fromS`, storing into the physical member and converting back
with `toS` gives the raw value.  (Missing: the unsigned cases with negative factor or a wrapping
product, where it is false.) -/
theorem C15_inverse_partial (s : Sig) (f o : Int) (h : IntConv s f o) (x : Int) (hx : s.typeRo.InRange x)
    (hok : FromSOk s f o x) (hto : ToSOk s f x) :
    ∃ y, macroFromS s ⟨s.typeRo, x⟩ = some y ∧ macroToS s (y.cast s.typePhys) = some ⟨s.typeRo, x⟩ := by
  obtain ⟨y, hy, hv⟩ := (C14_exact_partial s f o h x hx).2 hok
  refine ⟨y, hy, ?_⟩
  have : y.cast s.typePhys = ⟨s.typePhys, x * f + o⟩ := by
    rw [← hv]; rfl
  rw [this]
  exact macroToS_inverse h hx hto.1 hok.1 hto.2.1 hto.2.2.1 hto.2.2.2

/-- **C15** for the types the parser chooses: signals of at most 16 bits with positive integer factor,
non-negative offset or a signed physical type, products and results in `int`. -/
theorem C15_parser_partial (h : Host) (hc : h.charMax = 127) (hu : h.oob = none)
    (s s' : Sig) (f o : Int) (h1 : 1 ≤ s.lengthBit) (h16 : s.lengthBit ≤ 16)
    (hs : s.isSimple = false) (hd : s.isDouble = false) (hi : IntConv s f o) (hpos : 0 < f)
    (hg : getSigType h s = some s')
    (x : Int) (hx : InSigRange s.signed s.lengthBit x)
    (hr : CTy.InRange .i32 (x * f) ∧ CTy.InRange .i32 (x * f + o))
    (hsgn : s'.typePhys.signed = true ∨ 0 ≤ x) :
    ∃ y, macroFromS s' ⟨s'.typeRo, x⟩ = some y ∧ macroToS s' (y.cast s'.typePhys) = some ⟨s'.typeRo, x⟩ := by
  have hok := C14_parser_partial h hc hu s s' f o h1 h16 hs hd hi hpos hg x hx hr
  have hoob : ∀ v, h.oob = some v → 2 ^ 32 ≤ CTy.toU .u64 v := by rw [hu]; intro v hv; cases hv
  have hxr := (C12_raw_type h hc hoob s s' h1 (by omega) hg).2.1 x hx
  obtain ⟨-, -, -, e⟩ := C12_raw_type h hc hoob s s' h1 (by omega) hg
  have hi' : IntConv s' f o := by rw [e]; exact ⟨hi.factor, hi.offset, hi.rf, hi.ro⟩
  refine C15_inverse_partial s' f o hi' x hxr hok ⟨by omega, ?_, ?_, fun _ => hpos⟩
  all_goals
    have hx32 : -(2:Int) ^ 16 ≤ x ∧ x < 2 ^ 16 := by
      have hp : (2:Int) ^ s.lengthBit ≤ 2 ^ 16 := by exact_mod_cast Nat.pow_le_pow_right (n := 2) (by decide) h16
      have hp' : (2:Int) ^ (s.lengthBit - 1) ≤ 2 ^ 16 := by
        exact_mod_cast Nat.pow_le_pow_right (n := 2) (by decide) (by omega)
      unfold InSigRange at hx
      split at hx <;> omega
    have hxf := hr.1
    simp only [CTy.InRange, CTy.minV, CTy.maxV, CTy.signed, CTy.bits, if_true] at hxf
    have hnn : 0 ≤ x → 0 ≤ x * f := fun h => Int.mul_nonneg h (by omega)
    rcases hsgn with hsg | hsg
    · revert hsg
      cases s'.typePhys <;> intro hsg <;> first
        | exact absurd hsg (by decide)
        | (simp only [CTy.InRange, CTy.minV, CTy.maxV, CTy.common, CTy.promote, CTy.usual, CTy.signed, CTy.bits]
           simp
           omega)
    · have := hnn hsg
      cases s'.typePhys <;>
        (simp only [CTy.InRange, CTy.minV, CTy.maxV, CTy.common, CTy.promote, CTy.usual, CTy.signed, CTy.bits]
         simp
         omega)

/-- **C15** is false: unsigned 16 bits, factor -1, offset 200000.  The parser chooses `uint32_t` for the
physical member, which holds all physical values; raw 5 becomes 199995 and is converted back to 0,
because the division is unsigned. -/
theorem C15_refuted :
    ∃ s', getSigType ⟨127, none⟩ (physSig 16 (-1) 200000 .u8 .u8) = some s' ∧
      s' = physSig 16 (-1) 200000 .u16 .u32 ∧ (∀ x, InSigRange false 16 x → FromSOk s' (-1) 200000 x) ∧
      macroFromS s' ⟨.u16, 5⟩ = some ⟨.i32, 199995⟩ ∧
      macroToS s' ((⟨.i32, 199995⟩ : CVal).cast .u32) = some ⟨.u16, 0⟩ := by
  refine ⟨physSig 16 (-1) 200000 .u16 .u32, by decide, rfl, ?_, by decide, by decide⟩
  intro x hx
  simp only [InSigRange, Bool.false_eq_true, if_false] at hx
  unfold FromSOk
  simp only [physSig, CTy.InRange, CTy.minV, CTy.maxV, CTy.signed, CTy.bits, if_true, Bool.false_eq_true, if_false]
  omega

/-! ### C46: physical values sent -/

/-- **C46**: Pack with physical conversions sends `(phys - offset) / factor`, rounded towards zero, for
every scaled integer signal, when the difference is a value of the type in which the macro computes and
the quotient is a raw value of the signal (for unsigned computation with positive factors; see
`C15_refuted` for the others). -/
theorem C46_pack_phys_partial (cfg : Cfg) (msgs : List Msg) (m : Msg) (fl : FloatOps φ)
    (hash : List Nat → Nat → Nat → Str → Nat → Nat) (tick dlcArg : Nat) (st st' : St φ)
    (hm : MsgOk m) (hty : ∀ s ∈ m.signals, s.TypeOk) (hcs : CsmHyp cfg m) (hi : cfg.initByte < 256)
    (hd : IsPayload st.dat) (hlen : m.dlc ≤ st.dat.length)
    (h : runPack (mkCtx cfg msgs m fl hash tick dlcArg) m st = .ok st')
    (hfl : cfg.flag .useSigFloat = true) (hph : m.hasPhys = true) (hmem : m ∈ msgs) (hne : m.frameNotEmpty = true)
    (s : Sig) (hs : s ∈ m.signals) (hsc : s.isSimple = false) (hdb : s.isDouble = false)
    (hown : OwnMacro msgs s) (f o : Int) (hic : IntConv s f o) (hf0 : f ≠ 0)
    (hpr : s.typePhys.InRange (st.fld s.nameFloat))
    (hT1 : (CTy.common s.typePhys .i32).InRange (st.fld s.nameFloat - o))
    (hT2 : (CTy.common s.typePhys .i32).InRange (Int.tdiv (st.fld s.nameFloat - o) f))
    (hpos : (CTy.common s.typePhys .i32).signed = false → 0 < f)
    (hr : InSigRange s.signed s.lengthBit (Int.tdiv (st.fld s.nameFloat - o) f)) :
    st'.fld s.name = Int.tdiv (st.fld s.nameFloat - o) f := by
  obtain ⟨s0, l1, l2, -, l4⟩ := C16_own_partial msgs m s hmem hne hs hsc hown
  obtain ⟨y, hy, hv⟩ := pack_phys rfl hm hty hcs hi hd hlen h hph hs hsc hfl hdb l1 (l2.2.2.1.trans hdb)
  rw [l4, macroToS_value hic hf0 hpr hT1 hT2 hpos] at hy
  cases hy
  have hl := (hm.2 s hs).1
  rw [hv]
  dsimp only
  rw [CTy.conv_conv (Nat.le_refl _), conv_of_sigRange (hty s hs) hl hr, store_of_sigRange (hty s hs) hl hr]

/-- **C15**, message level: a raw value that was unpacked, converted to its physical member, and packed
from there, is transmitted unchanged. -/
theorem C15_roundtrip_partial (cfg cfg' : Cfg) (msgs : List Msg) (m : Msg) (fl : FloatOps φ)
    (hash hash' : List Nat → Nat → Nat → Str → Nat → Nat) (tick dlcArg tick' dlcArg' : Nat)
    (st1 st1' st2 st2' : St φ)
    (hm : MsgOk m) (hty : ∀ s ∈ m.signals, s.TypeOk) (hcs : CsmHyp cfg m) (hi : cfg.initByte < 256)
    (hd1 : IsPayload st1.dat) (hlen1 : m.dlc ≤ st1.dat.length)
    (hd2 : IsPayload st2.dat) (hlen2 : m.dlc ≤ st2.dat.length)
    (h1 : runUnpack (mkCtx cfg' msgs m fl hash' tick' dlcArg') m st1 = .ok st1')
    (h2 : runPack (mkCtx cfg msgs m fl hash tick dlcArg) m st2 = .ok st2')
    (hfl : cfg.flag .useSigFloat = true) (hfl' : cfg'.flag .useSigFloat = true)
    (hph : m.hasPhys = true) (hmem : m ∈ msgs) (hne : m.frameNotEmpty = true)
    (s : Sig) (hs : s ∈ m.signals) (hsc : s.isSimple = false) (hdb : s.isDouble = false) (hal : s.aligned)
    (hown : OwnMacro msgs s) (f o : Int) (hic : IntConv s f o)
    (hcopy : st2.fld s.nameFloat = st1'.fld s.nameFloat)
    (hok : FromSOk s f o (st1'.fld s.name)) (hto : ToSOk s f (st1'.fld s.name)) :
    st2'.fld s.name = st1'.fld s.name := by
  have hv := (C14_unpack_partial cfg' msgs m fl hash' tick' dlcArg' st1 st1' hm hd1 hlen1 h1 hfl' hmem hne s hs hsc hdb
    hown f o hic).2 hok
  have e : st2.fld s.nameFloat - o = st1'.fld s.name * f := by rw [hcopy, hv]; omega
  have hq : Int.tdiv (st2.fld s.nameFloat - o) f = st1'.fld s.name := by rw [e, Int.mul_tdiv_cancel _ hto.1]
  have hval := unpack_value (c := mkCtx cfg' msgs m fl hash' tick' dlcArg') rfl hm hd1 hlen1 h1 hs (hty s hs) hal
  have hrange : InSigRange s.signed s.lengthBit (st1'.fld s.name) := by
    rw [hval]; exact raw_inRange s st1.dat (hm.2 s hs).1
  have := C46_pack_phys_partial cfg msgs m fl hash tick dlcArg st2 st2' hm hty hcs hi hd2 hlen2 h2 hfl hph hmem hne s hs
    hsc hdb hown f o hic hto.1 (by rw [hcopy, hv]; exact hok.1) (by rw [e]; exact hto.2.2.1)
    (by rw [hq]; exact hto.2.1) hto.2.2.2 (by rw [hq]; exact hrange)
  rw [this, hq]

/-- The physical value of the examples packed and the payload. -/
def physPacked (m : Msg) (v : Int) : Option (Int × List Nat) :=
  match runPack (mkCtx physCfg [m] m Fix.fl Fix.hash 0 8) m
    { Fix.st [0, 0, 0, 0] with fld := fun n => if n = "T_phys".toList then v else 0 } with
  | .ok st => some (st.fld "T_ro".toList, st.dat)
  | _ => none

/-- The hypotheses of C15 and C46 are met; 12 and 13 are sent as the same raw value. -/
example : physPacked (physMsg (physSig 12 5 (-40) .u16 .i16)) 10 = some (10, [10, 0, 0, 0]) ∧
    physPacked (physMsg (physSig 12 5 (-40) .u16 .i16)) 13 = some (10, [10, 0, 0, 0]) ∧
    ToSOk (physSig 12 5 (-40) .u16 .i16) 5 10 :=
  ⟨by decide, by decide, by decide, by decide, by decide, by decide⟩

end Verif
