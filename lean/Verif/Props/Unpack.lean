import Verif.Proofs.UnpackRun
import Verif.Props.Fixtures
/-
C01-C04: the values Unpack delivers.
-/
namespace Verif
open Spec
variable {φ : Type}

/-! ### C01 -/

/-- **C01**, expression level.  For every signal of at most 32 bits, or of at most 64 bits with byte
aligned low end, that lies inside a payload of `tb.length ≤ 64` bytes, the generator prints a
to-signal expression, and on every payload this expression evaluates without undefined behaviour to
the DBC raw value. -/
theorem C01_unpack_expression (s : Sig) (tb : List Slot) (h64 : tb.length ≤ 64)
    (h0 : 0 < s.lengthBit) (h1 : s.lengthBit ≤ 64)
    (hfit : Fits (s.order == .intel) s.startBit s.lengthBit tb.length)
    (ha : s.lengthBit ≤ 32 ∨ bitPos (s.order == .intel) s.startBit s.lengthBit 0 % 8 = 0) :
    ∃ e tb', printSignalExpr s tb = .ok (.expr e) tb' ∧
      ∀ env : CEnv, IsPayload env.dat → tb.length ≤ env.dat.length →
        ∃ t, e.eval env = some ⟨t, (rawValue (s.order == .intel) s.startBit s.lengthBit env.dat : Nat)⟩ := by
  have hb := frags_lt_of_fits (s := s) h0 hfit
  refine ⟨_, _, printSignalExpr_ok h64 h0 (by omega) hb, ?_⟩
  intro env hd hlen
  obtain ⟨t, -, -, h⟩ := eval_joinFrags (s := s) hd h0 h1 (fun f hf => Nat.lt_of_lt_of_le (hb f hf) hlen)
  exact ⟨t, by rw [h, orFrags_eq_raw env.dat h0 h1 ha]; rfl⟩

example : ∃ s : Sig, 0 < s.lengthBit ∧ s.lengthBit ≤ 64 ∧ s.fits 8 ∧ s.aligned ∧ s.intel = false :=
  ⟨Fix.sigB, by decide, by decide, Fix.fits_of_all (by decide), Or.inl (by decide), rfl⟩

/-- **C01**, message level: the raw member of every unsigned signal holds the DBC raw value after
Unpack, whatever else the message contains and whatever the configuration. -/
theorem C01_unpack_field (cfg : Cfg) (msgs : List Msg) (m : Msg) (fl : FloatOps φ)
    (hash : List Nat → Nat → Nat → Str → Nat → Nat) (tick dlcArg : Nat) (st st' : St φ)
    (hm : MsgOk m) (hd : IsPayload st.dat) (hlen : m.dlc ≤ st.dat.length)
    (h : runUnpack (mkCtx cfg msgs m fl hash tick dlcArg) m st = .ok st')
    (s : Sig) (hs : s ∈ m.signals) (hu : s.signed = false) (ht : s.TypeOk) (ha : s.aligned) :
    st'.fld s.name = (rawValue (s.order == .intel) s.startBit s.lengthBit st.dat : Nat) ∧ st'.dat = st.dat := by
  obtain ⟨h1, -, h2⟩ := unpack_fields rfl hm hd hlen h
  refine ⟨?_, h1⟩
  obtain ⟨z, hz, e⟩ := h2 s hs
  obtain ⟨hl, hl2, -⟩ := hm.2 s hs
  unfold Sig.unpacked at hz
  rw [hu] at hz
  simp only [Bool.false_eq_true, if_false, Option.some.injEq] at hz
  rw [orFrags_eq_raw st.dat hl hl2 ha] at hz
  have hr := raw_inRange s st.dat hl
  rw [hu, ← hu] at hr
  simp only [hu, Bool.false_eq_true, if_false] at hr
  rw [← hu] at hr
  rw [e, ← hz, conv_of_sigRange ht hl hr, store_of_sigRange ht hl hr]
  rfl

/-- **C01**: Unpack has no undefined behaviour, for every payload of at least `dlc` bytes (physical
conversions off or not needed; these are C14). -/
theorem C01_unpack_defined (cfg : Cfg) (msgs : List Msg) (m : Msg) (fl : FloatOps φ)
    (hash : List Nat → Nat → Nat → Str → Nat → Nat) (tick dlcArg : Nat) (st : St φ)
    (hm : MsgOk m) (hty : ∀ s ∈ m.signals, s.TypeOk)
    (hnames : (mkCtx cfg msgs m fl hash tick dlcArg).declsOk = true)
    (hr : RollOk m) (hph : NoPhys cfg m)
    (hsg : ∀ s ∈ m.signals, s.signed = true → s.lengthBit ≤ 32)
    (hd : IsPayload st.dat) (hlen : m.dlc ≤ st.dat.length) :
    ∃ st', runUnpack (mkCtx cfg msgs m fl hash tick dlcArg) m st = .ok st' :=
  unpack_total rfl hm hnames hr hph hsg hty hd hlen

example : ∃ st', runUnpack (mkCtx Fix.full [Fix.msg] Fix.msg Fix.fl Fix.hash 5 8) Fix.msg
    (Fix.st [0xAB, 0xCD, 3, 0, 0, 0, 0, 0x55]) = .ok st' :=
  C01_unpack_defined _ _ _ _ _ _ _ _ Fix.msgOk Fix.typeOk (by decide) Fix.rollOk (Fix.noPhys _)
    (by
      intro s hs
      simp only [Fix.msg, List.mem_cons, List.not_mem_nil, or_false] at hs
      rcases hs with rfl | rfl | rfl | rfl <;> decide)
    (by intro b hb; revert b; decide) (by decide)

/-! ### C02 -/

/-- A 40-bit Intel signal at bit 4. -/
def wide : Sig :=
  { name := "W".toList, startBit := 4, lengthBit := 40, order := .intel, signed := false, typeRo := .u64,
    isSimple := true }

/-- What the generator prints for it. -/
def wideExpr : CExpr × List Slot :=
  match printSignalExpr wide (List.replicate 8 .empty) with
  | .ok (.expr e) tb => (e, tb)
  | _ => default

/-- **C02** is false: a signal of 40 bits at bit 4, inside an 8 byte payload, and a payload on which
the printed expression evaluates to something else than the DBC value. -/
theorem C02_refuted :
    ∃ (s : Sig) (e : CExpr) (tb : List Slot) (d : List Nat) (v : CVal),
      0 < s.lengthBit ∧ s.lengthBit ≤ 64 ∧ Fits (s.order == .intel) s.startBit s.lengthBit 8 ∧
      printSignalExpr s (List.replicate 8 .empty) = .ok (.expr e) tb ∧ IsPayload d ∧ d.length = 8 ∧
      e.eval ⟨d, fun _ => none⟩ = some v ∧
      v.val ≠ (rawValue (s.order == .intel) s.startBit s.lengthBit d : Nat) := by
  refine ⟨wide, wideExpr.1, wideExpr.2, [0, 0, 0, 0, 0x10, 0, 0, 0], ⟨.u64, 0⟩, by decide, by decide,
    Fix.fits_of_all (s := wide) (by decide), by decide,
    by intro b hb; revert b; decide, rfl, by decide, by decide⟩

/-- **C02**, exact: for every signal of 1..64 bits inside the payload, the printed expression is
right on all payloads if and only if the signal has at most 32 bits or a byte aligned low end. -/
theorem C02_exact_partial (s : Sig) (n : Nat) (hn : n ≤ 64)
    (h0 : 0 < s.lengthBit) (h1 : s.lengthBit ≤ 64)
    (hfit : Fits (s.order == .intel) s.startBit s.lengthBit n) :
    ∃ e tb, printSignalExpr s (List.replicate n .empty) = .ok (.expr e) tb ∧
      ((∀ d, IsPayload d → d.length = n → ∃ t, e.eval ⟨d, fun _ => none⟩ =
          some ⟨t, (rawValue (s.order == .intel) s.startBit s.lengthBit d : Nat)⟩) ↔
        (s.lengthBit ≤ 32 ∨ bitPos (s.order == .intel) s.startBit s.lengthBit 0 % 8 = 0)) := by
  have hb := frags_lt_of_fits (s := s) h0 hfit
  refine ⟨_, _, printSignalExpr_ok (by simpa using hn) h0 (by omega) (by simpa using hb), ?_⟩
  constructor
  · intro h
    apply Classical.byContradiction
    intro hna
    have h32 : ¬ s.lengthBit ≤ 32 := fun hh => hna (Or.inl hh)
    have hal : ¬ s.pos 0 % 8 = 0 := fun hh => hna (Or.inr hh)
    have hlow : 0 < lowBits s := by
      unfold lowBits
      have h8 : s.pos 0 % 8 < 8 := Nat.mod_lt _ (by decide)
      rw [Nat.mod_eq_of_lt (by omega)]; omega
    let d := List.replicate n 255
    have hd : IsPayload d := by intro b hb; rw [(List.mem_replicate.1 hb).2]; decide
    obtain ⟨t, he⟩ := h d hd (by simp [d])
    obtain ⟨t', -, -, he'⟩ := eval_joinFrags (env := ⟨d, fun _ => none⟩) (s := s) hd h0 h1 (by simpa [d] using hb)
    rw [he'] at he
    have hv : orFrags d (frags s) = s.raw d := by
      simp only [Option.some.injEq, CVal.mk.injEq] at he
      exact_mod_cast he.2
    have hbit := congrArg (fun x => x.testBit 32) hv
    simp only [testBit_unpack d h0 h1, s.testBit_raw] at hbit
    have hp : payloadBit d (s.pos 32) = true := by
      have : s.pos 32 < 8 * n := hfit 32 (by omega)
      unfold payloadBit
      simp only [d, List.getD, List.getElem?_replicate, if_pos (show s.pos 32 / 8 < n by omega), Option.getD_some]
      have h8 : s.pos 32 % 8 < 8 := Nat.mod_lt _ (by decide)
      generalize s.pos 32 % 8 = x at h8
      match x, h8 with
      | 0, _ | 1, _ | 2, _ | 3, _ | 4, _ | 5, _ | 6, _ | 7, _ => rfl
    rw [hp] at hbit
    simp [show 32 < s.lengthBit by omega, hlow] at hbit
  · intro ha d hd hlen
    obtain ⟨t, -, -, h⟩ := eval_joinFrags (env := ⟨d, fun _ => none⟩) (s := s) hd h0 h1
      (fun f hf => by rw [hlen]; exact hb f hf)
    exact ⟨t, by rw [h, orFrags_eq_raw d h0 h1 ha]; rfl⟩

example : wide.fits 8 ∧ ¬ wide.aligned := ⟨Fix.fits_of_all (by decide), by unfold Sig.aligned; decide⟩

/-! ### C03 -/

/-- **C03**: the member of every signed signal of 1..32 bits holds the two's complement reading of
its payload bits after Unpack, for both widths of `bitext_t`. -/
theorem C03_sign_extension (cfg : Cfg) (msgs : List Msg) (m : Msg) (fl : FloatOps φ)
    (hash : List Nat → Nat → Nat → Str → Nat → Nat) (tick dlcArg : Nat) (st st' : St φ)
    (hm : MsgOk m) (hd : IsPayload st.dat) (hlen : m.dlc ≤ st.dat.length)
    (h : runUnpack (mkCtx cfg msgs m fl hash tick dlcArg) m st = .ok st')
    (s : Sig) (hs : s ∈ m.signals) (hsg : s.signed = true) (ht : s.TypeOk) (h32 : s.lengthBit ≤ 32) :
    st'.fld s.name =
      signedOf s.lengthBit (rawValue (s.order == .intel) s.startBit s.lengthBit st.dat) := by
  obtain ⟨-, -, h2⟩ := unpack_fields rfl hm hd hlen h
  obtain ⟨z, hz, e⟩ := h2 s hs
  obtain ⟨hl, hl2, -⟩ := hm.2 s hs
  unfold Sig.unpacked at hz
  rw [hsg] at hz
  simp only [if_true, if_pos h32, Option.some.injEq] at hz
  have hr := raw_inRange s st.dat hl
  simp only [hsg, if_true] at hr
  rw [← hsg] at hr
  rw [e, ← hz, conv_of_sigRange ht hl hr, store_of_sigRange ht hl hr]
  rfl

/-- **C03**: `__ext_sig__` itself, for an argument of any type. -/
theorem C03_ext_sig (ext64 : Bool) (t : CTy) (bits v : Nat) (h0 : 0 < bits) (h32 : bits ≤ 32)
    (hv : v < 2 ^ bits) :
    (extSig ext64 ⟨t, (v : Nat)⟩ bits).map CVal.val = some (signedOf bits v) := by
  rw [extSig_ok ext64 h0 h32 hv]; rfl

example : (extSig true ⟨.u32, 0x3FD⟩ 10).map CVal.val = some (-3) := by decide
example : Fix.sigB ∈ Fix.msg.signals ∧ Fix.sigB.signed = true ∧ Fix.sigB.TypeOk ∧ Fix.sigB.lengthBit ≤ 32 :=
  ⟨by decide, rfl, ⟨by decide, by decide⟩, by decide⟩

/-! ### C04 -/

/-- **C04** is false for every width above 32: `__ext_sig__` has undefined behaviour for every
argument and both widths of `bitext_t`. -/
theorem C04_refuted (ext64 : Bool) (v : CVal) (bits : Nat) (h : 32 < bits) (h2 : bits < 256) :
    extSig ext64 v bits = none :=
  extSig_undef ext64 v (Or.inr h) h2

/-- **C04** is false at message level: Unpack of a message containing any signed signal wider than
32 bits never completes without undefined behaviour. -/
theorem C04_unpack_never_defined (cfg : Cfg) (msgs : List Msg) (m : Msg) (fl : FloatOps φ)
    (hash : List Nat → Nat → Nat → Str → Nat → Nat) (tick dlcArg : Nat) (st st' : St φ)
    (hm : MsgOk m) (hd : IsPayload st.dat) (hlen : m.dlc ≤ st.dat.length)
    (s : Sig) (hs : s ∈ m.signals) (hsg : s.signed = true) (h32 : 32 < s.lengthBit) :
    runUnpack (mkCtx cfg msgs m fl hash tick dlcArg) m st ≠ .ok st' := by
  intro h
  obtain ⟨-, -, h2⟩ := unpack_fields rfl hm hd hlen h
  obtain ⟨z, hz, -⟩ := h2 s hs
  unfold Sig.unpacked at hz
  rw [hsg] at hz
  simp [show ¬ s.lengthBit ≤ 32 by omega] at hz

example : ∃ (m : Msg) (s : Sig), MsgOk m ∧ s ∈ m.signals ∧ s.signed = true ∧ 32 < s.lengthBit :=
  ⟨{ dlc := 8, signals := [{ wide with signed := true, typeRo := .i64 }] }, { wide with signed := true, typeRo := .i64 },
    ⟨by decide, by
      intro s hs
      rw [List.mem_singleton] at hs
      subst hs
      exact ⟨by decide, by decide, Fix.fits_of_all (by decide)⟩⟩, by simp, rfl, by decide⟩

/-- The part of **C04** that holds: signed signals of at most 32 bits (C03).  Missing: widths 33..64,
where the claim is false (`C04_refuted`). -/
theorem C04_partial (ext64 : Bool) (t : CTy) (bits v : Nat) (h0 : 0 < bits) (h2 : bits < 256)
    (hv : v < 2 ^ bits) :
    (extSig ext64 ⟨t, (v : Nat)⟩ bits).map CVal.val = some (signedOf bits v) ↔ bits ≤ 32 := by
  constructor
  · intro h
    apply Classical.byContradiction
    intro hn
    rw [extSig_undef ext64 _ (Or.inr (by omega)) h2] at h
    cases h
  · intro h; exact C03_ext_sig ext64 t bits v h0 h hv

end Verif
