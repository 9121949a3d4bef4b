import Verif.Spec.Signals
/-
Concrete messages used by the non-vacuity examples and by the counterexamples.
-/
namespace Verif.Fix
open Spec

/-- Nothing defined, 32-bit `bitext_t`. -/
def plain : Cfg := { flag := fun _ => false, ext64 := false, maxDlc := 64, initByte := 0 }

/-- Everything defined except `USE_CANSTRUCT` and `USE_SIGFLOAT`. -/
def full : Cfg :=
  { flag := fun f => match f with | .useCanStruct => false | .useSigFloat => false | _ => true
    ext64 := true, maxDlc := 8, initByte := 0 }

/-- Trivial floating point operations. -/
def fl : FloatOps Unit :=
  { fromS := fun _ _ => (), toS := fun _ _ => none, ofInt := fun _ => (), toInt := fun _ _ => none }

/-- 12-bit Intel signal at bit 4. -/
def sigA : Sig :=
  { name := "Speed".toList, startBit := 4, lengthBit := 12, order := .intel, signed := false,
    typeRo := .u16, isSimple := true }

/-- Signed 10-bit Motorola signal starting at bit 17. -/
def sigB : Sig :=
  { name := "Angle".toList, startBit := 17, lengthBit := 10, order := .motorolla, signed := true,
    typeRo := .i16, isSimple := true }

/-- 4-bit rolling counter. -/
def sigR : Sig :=
  { name := "RC".toList, startBit := 0, lengthBit := 4, order := .intel, signed := false,
    typeRo := .u8, isSimple := true }

/-- 8-bit checksum in byte 7. -/
def sigC : Sig :=
  { name := "CS".toList, startBit := 56, lengthBit := 8, order := .intel, signed := false,
    typeRo := .u8, isSimple := true }

/-- A message with the four signals. -/
def msg : Msg :=
  { name := "MSG".toList, dlc := 8, msgId := 0x123, signals := [sigR, sigA, sigB, sigC],
    frameNotEmpty := true, rollSig := some 0, csmSig := some 3, csmMethod := "XOR8".toList, csmOp := 3 }

/-- The same message without automatic fields. -/
def msg0 : Msg := { msg with rollSig := none, csmSig := none }

/-- Monitor in reset state. -/
def mon0 : Mon := ⟨0, 0, 0, 0, 0, 0, 0⟩

/-- A state with a given payload. -/
def st (d : List Nat) : St Unit := { fld := fun _ => 0, flt := fun _ => (), mon := mon0, dat := d }

/-- Hash that ignores the last byte. -/
def hash (d : List Nat) (dlc _id : Nat) (_m : Str) (_op : Nat) : Nat := (d.take (dlc - 1)).foldl (· + ·) 0

/-- Decidable form of the layout condition. -/
theorem fits_of_all {s : Sig} {n : Nat}
    (h : (List.range s.lengthBit).all (fun k => decide (s.pos k < 8 * n)) = true) : s.fits n := by
  intro k hk
  have := List.all_eq_true.1 h k (List.mem_range.2 hk)
  exact of_decide_eq_true this

theorem msgOk : MsgOk msg := by
  refine ⟨by decide, ?_⟩
  intro s hs
  simp only [msg, List.mem_cons, List.not_mem_nil, or_false] at hs
  rcases hs with rfl | rfl | rfl | rfl <;>
    exact ⟨by decide, by decide, fits_of_all (by decide)⟩

theorem msg0Ok : MsgOk msg0 := msgOk

theorem typeOk : ∀ s ∈ msg.signals, s.TypeOk := by
  intro s hs
  simp only [msg, List.mem_cons, List.not_mem_nil, or_false] at hs
  rcases hs with rfl | rfl | rfl | rfl <;> exact ⟨by decide, by decide⟩

theorem csmIn : sigC.inByte := ⟨7, by decide, by
  intro k hk
  have : (List.range 8).all (fun k => decide (sigC.pos k / 8 = 7)) = true := by decide
  exact of_decide_eq_true (List.all_eq_true.1 this k (List.mem_range.2 hk))⟩

theorem csmHyp : ∀ s, msg.sigAt msg.csmSig = some s → s.isSimple = true ∧ s.inByte := by
  intro s hs
  have : msg.sigAt msg.csmSig = some sigC := rfl
  rw [this] at hs
  cases hs
  exact ⟨rfl, csmIn⟩

theorem rollOk : RollOk msg := by
  intro s hs
  have : msg.sigAt msg.rollSig = some sigR := rfl
  rw [this] at hs
  cases hs
  decide

theorem noPhys (cfg : Cfg) : NoPhys cfg msg := by
  refine Or.inr ?_
  intro s hs
  simp only [msg, List.mem_cons, List.not_mem_nil, or_false] at hs
  rcases hs with rfl | rfl | rfl | rfl <;> rfl

end Verif.Fix
