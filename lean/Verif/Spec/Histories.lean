import Verif.Spec.Signals
/-
Histories of calls to the generated functions, for the properties about state that persists between
calls.  Between two calls the user may change everything except the member the property is about.
-/
namespace Verif
open Spec
variable {φ : Type}

/-- A history of Unpack calls with arguments `(tick, dlc_)`; the monitor is only touched by Unpack.
Everything else in the structure, and the payload, is arbitrary at each call. -/
inductive UnpackHist (mk : Nat → Nat → Ctx φ) (m : Msg) (mon0 : Mon) : List (Nat × Nat) → Mon → Prop where
  | nil : UnpackHist mk m mon0 [] mon0
  | snoc {calls : List (Nat × Nat)} {mon : Mon} (tick dlc : Nat) (st st' : St φ) :
      UnpackHist mk m mon0 calls mon → st.mon = mon →
      runUnpack (mk tick dlc) m st = .ok st' → UnpackHist mk m mon0 (calls ++ [(tick, dlc)]) st'.mon

/-- `PackHist c m n z0 k st`: `st` is the result of the `k`-th Pack call of a history that started
with member `n` holding `z0`, in which `n` is only touched by Pack. -/
inductive PackHist (c : Ctx φ) (m : Msg) (n : Str) (z0 : Int) : Nat → St φ → Prop where
  | first (st st' : St φ) : IsPayload st.dat → m.dlc ≤ st.dat.length → st.fld n = z0 →
      runPack c m st = .ok st' → PackHist c m n z0 1 st'
  | next {k : Nat} {prev : St φ} (st st' : St φ) : PackHist c m n z0 k prev →
      IsPayload st.dat → m.dlc ≤ st.dat.length → st.fld n = prev.fld n →
      runPack c m st = .ok st' → PackHist c m n z0 (k + 1) st'

/-- The struct members of the rolling counter represent counter values uniquely. -/
def CounterCanonical (cfg : Cfg) (r : Sig) : Prop :=
  r.signed = false ∨ (cfg.flag .useBits = true ∧ r.lengthBit < 8) ∨ r.lengthBit = r.typeRo.bits

/-- Two payloads agree outside the bits of a signal. -/
def AgreeOutside (s : Sig) (d d' : List Nat) : Prop :=
  d.length = d'.length ∧
  ∀ p, (∀ k, k < s.lengthBit → s.pos k ≠ p) → payloadBit d p = payloadBit d' p

end Verif
