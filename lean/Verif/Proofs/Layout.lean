import Verif.Proofs.Frags
/-
The fragments are the DBC layout: fragment bits are at the specified positions, and every signal
bit is in exactly one fragment.
-/
namespace Verif
open Spec

/-- Byte-order aware linear coordinate of a position (bit 7 of a byte first). -/
def lin (p : Nat) : Nat := 8 * (p / 8) + (7 - p % 8)

theorem lin_next (p : Nat) : lin (motorolaNext p) = lin p + 1 := by
  unfold lin motorolaNext; split <;> omega

theorem lin_iter (n p : Nat) : lin (iter motorolaNext n p) = lin p + n := by
  induction n generalizing p with
  | zero => rfl
  | succ n ih => rw [iter, ih, lin_next]; omega

theorem lin_inj {p q : Nat} (h : lin p = lin q) : p = q := by unfold lin at h; omega

/-- Position invariant of the loop: `slen` bits remain, the next one is bit 7 of the next byte. -/
def PosInv (s : Sig) (slen bn : Nat) : Prop :=
  slen ≤ s.lengthBit ∧
  match s.order with
  | .intel => s.startBit + slen = 8 * bn
  | .motorolla => lin s.startBit + (s.lengthBit - slen) = 8 * (bn + 1)

theorem posInv_next {s : Sig} {slen bn : Nat} (h : PosInv s slen bn) (h8 : 8 ≤ slen) :
    PosInv s (slen - 8) (nextByte s.order bn) := by
  unfold PosInv nextByte at *
  cases ho : s.order <;> simp only [ho] at * <;> omega

theorem pos_of_posInv {s : Sig} {slen bn w off shift j : Nat} (h : PosInv s slen bn) (hw : 0 < w)
    (hs : shift + w = slen) (hoff : off + w = 8) (hj : j < w) :
    s.pos (shift + j) = 8 * nextByte s.order bn + off + j := by
  unfold PosInv at h
  unfold Sig.pos bitPos Sig.intel nextByte
  cases ho : s.order <;> simp only [ho] at h ⊢
  · simp only [beq_self_eq_true, if_true]; omega
  · simp only [show (BitLayout.motorolla == BitLayout.intel) = false from rfl, Bool.false_eq_true, if_false]
    apply lin_inj
    rw [lin_iter]
    have : lin (8 * (bn + 1) + off + j) = 8 * (bn + 1) + (7 - (off + j)) := by unfold lin; omega
    rw [this]; omega

theorem tailFrags_spec (s : Sig) (slen : Nat) : ∀ bn, PosInv s slen bn →
    (∀ f ∈ tailFrags s.order slen bn, 0 < f.width ∧ f.off + f.width ≤ 8 ∧ f.shift + f.width ≤ slen ∧
      (f.off = 0 ∨ f.shift = 0) ∧
      ∀ j, j < f.width → s.pos (f.shift + j) = 8 * f.byte + f.off + j) ∧
    (∀ k, k < slen → ∃ f ∈ tailFrags s.order slen bn, f.shift ≤ k ∧ k < f.shift + f.width) ∧
    (tailFrags s.order slen bn).Pairwise (fun f g => g.shift + g.width ≤ f.shift) := by
  induction slen using Nat.strongRecOn with
  | _ slen ih =>
    intro bn hinv
    rw [tailFrags]
    split
    next h8 =>
      obtain ⟨ih1, ih2, ih3⟩ := ih (slen - 8) (by omega) _ (posInv_next hinv h8)
      refine ⟨?_, ?_, ?_⟩
      · intro f hf
        rcases List.mem_cons.1 hf with rfl | hf
        · refine ⟨by simp, by simp, by simp; omega, by simp, ?_⟩
          intro j hj
          exact pos_of_posInv hinv (w := 8) (by decide) (by simp; omega) rfl hj
        · have := ih1 f hf
          refine ⟨this.1, this.2.1, by omega, this.2.2.2⟩
      · intro k hk
        by_cases hk8 : slen - 8 ≤ k
        · exact ⟨_, List.mem_cons_self .., hk8, by simp; omega⟩
        · obtain ⟨f, hf, h1, h2⟩ := ih2 k (by omega)
          exact ⟨f, List.mem_cons_of_mem _ hf, h1, h2⟩
      · refine List.pairwise_cons.2 ⟨?_, ih3⟩
        intro g hg; have := ih1 g hg; simp; omega
    next h8 =>
      split
      next h0 =>
        refine ⟨?_, ?_, by simp⟩
        · intro f hf
          rw [List.mem_singleton] at hf; subst hf
          refine ⟨h0, by simp; omega, by simp, by simp, ?_⟩
          intro j hj
          exact pos_of_posInv hinv (w := slen) h0 (by simp) (by simp; omega) hj
        · intro k hk; exact ⟨_, List.mem_singleton.2 rfl, by simp, by simpa using hk⟩
      next h0 =>
        refine ⟨by simp, ?_, by simp⟩
        intro k hk; omega

/-- Fragments of a (non-empty) signal: widths, bounds, positions, cover, disjointness. -/
theorem frags_spec (s : Sig) (hl : 0 < s.lengthBit) :
    (∀ f ∈ frags s, 0 < f.width ∧ f.off + f.width ≤ 8 ∧ f.shift + f.width ≤ s.lengthBit ∧
      (f.off = 0 ∨ f.shift = 0) ∧
      ∀ j, j < f.width → s.pos (f.shift + j) = 8 * f.byte + f.off + j) ∧
    (∀ k, k < s.lengthBit → ∃ f ∈ frags s, f.shift ≤ k ∧ k < f.shift + f.width) ∧
    (frags s).Pairwise (fun f g => g.shift + g.width ≤ f.shift) := by
  unfold frags fragsAt
  dsimp only
  split
  next h =>
    refine ⟨?_, ?_, by simp⟩
    · intro f hf
      rw [List.mem_singleton] at hf; subst hf
      refine ⟨hl, by simp; omega, by simp, by simp, ?_⟩
      intro j hj
      simp only [Nat.zero_add] at hj ⊢
      unfold Sig.pos bitPos Sig.intel
      unfold msbPos at h ⊢
      cases ho : s.order <;> simp only [ho] at h ⊢
      · simp only [beq_self_eq_true, if_true]; omega
      · simp only [show (BitLayout.motorolla == BitLayout.intel) = false from rfl, Bool.false_eq_true, if_false]
        apply lin_inj; rw [lin_iter]; unfold lin; omega
    · intro k hk; exact ⟨_, List.mem_singleton.2 rfl, by simp, by simpa using hk⟩
  next h =>
    have hinv : PosInv s (s.lengthBit - (msbPos s % 8 + 1)) (msbPos s / 8) := by
      unfold PosInv
      refine ⟨by omega, ?_⟩
      unfold msbPos at *
      cases ho : s.order <;> simp only [ho, lin] at * <;> omega
    obtain ⟨h1, h2, h3⟩ := tailFrags_spec s _ _ hinv
    refine ⟨?_, ?_, ?_⟩
    · intro f hf
      rcases List.mem_cons.1 hf with rfl | hf
      · refine ⟨by simp, by simp; omega, by simp; omega, by simp, ?_⟩
        intro j hj
        dsimp only at hj ⊢
        unfold Sig.pos bitPos Sig.intel
        unfold msbPos at *
        cases ho : s.order <;> simp only [ho] at h hj ⊢
        · simp only [beq_self_eq_true, if_true]; omega
        · simp only [show (BitLayout.motorolla == BitLayout.intel) = false from rfl, Bool.false_eq_true, if_false]
          apply lin_inj; rw [lin_iter]; unfold lin; omega
      · have := h1 f hf
        exact ⟨this.1, this.2.1, by omega, this.2.2.2⟩
    · intro k hk
      by_cases hk8 : s.lengthBit - (msbPos s % 8 + 1) ≤ k
      · exact ⟨_, List.mem_cons_self .., hk8, by simp; omega⟩
      · obtain ⟨f, hf, h4, h5⟩ := h2 k (by omega)
        exact ⟨f, List.mem_cons_of_mem _ hf, h4, h5⟩
    · refine List.pairwise_cons.2 ⟨?_, h3⟩
      intro g hg; have := h1 g hg; simp; omega

/-- If the signal fits, the fragments stay inside. -/
theorem frags_lt_of_fits {s : Sig} {n : Nat} (hl : 0 < s.lengthBit) (hf : s.fits n) :
    ∀ f ∈ frags s, f.byte < n := by
  intro f hm
  obtain ⟨h1, -, -⟩ := frags_spec s hl
  obtain ⟨hw, ho, hs, -, hp⟩ := h1 f hm
  have := hp 0 hw
  have hfit := hf f.shift (by omega)
  unfold Sig.pos at this
  rw [Nat.add_zero] at this
  omega

/-- If the fragments stay inside, the signal fits. -/
theorem fits_of_frags_lt {s : Sig} {n : Nat} (hl : 0 < s.lengthBit)
    (h : ∀ f ∈ frags s, f.byte < n) : s.fits n := by
  intro k hk
  obtain ⟨h1, h2, -⟩ := frags_spec s hl
  obtain ⟨f, hf, hk1, hk2⟩ := h2 k hk
  obtain ⟨hw, ho, hs, -, hp⟩ := h1 f hf
  have := hp (k - f.shift) (by omega)
  unfold Sig.pos at this
  rw [show f.shift + (k - f.shift) = k by omega] at this
  have := h f hf
  omega

/-- Different bits of a signal are at different positions. -/
theorem bitPos_inj {intel : Bool} {start len k k' : Nat} (hk : k < len) (hk' : k' < len)
    (h : bitPos intel start len k = bitPos intel start len k') : k = k' := by
  unfold bitPos at h
  cases intel <;> simp at h
  · have := congrArg lin h; rw [lin_iter, lin_iter] at this; omega
  · exact h

end Verif
