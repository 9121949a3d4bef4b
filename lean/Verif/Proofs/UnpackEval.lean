import Verif.Proofs.Layout
import Verif.Proofs.CIntLemmas
/- Value of the printed to-signal expression. -/
namespace Verif
open Spec

/-- Type of a to-signal fragment. -/
def Frag.ty (f : Frag) : CTy := if f.shift > 31 then .u64 else .u32

/-- Value of a to-signal fragment. -/
def Frag.val (d : List Nat) (f : Frag) : Nat :=
  ((d.getD f.byte 0 / 2 ^ f.off) % 2 ^ f.width * 2 ^ f.shift) % 2 ^ f.ty.bits

/-- `|` of fragment values. -/
def orFrags (d : List Nat) : List Frag → Nat
  | [] => 0
  | f :: fs => f.val d ||| orFrags d fs

theorem Frag.val_lt (d : List Nat) (f : Frag) : f.val d < 2 ^ f.ty.bits :=
  Nat.mod_lt _ (Nat.two_pow_pos _)

theorem eval_toSig {env : CEnv} {f : Frag} (hd : ∀ b ∈ env.dat, b < 256)
    (hlen : f.byte < env.dat.length) (hw : 0 < f.width) (how : f.off + f.width ≤ 8)
    (hz : f.off = 0 ∨ f.shift = 0) (hs : f.shift < 64) :
    f.toSig.eval env = some ⟨f.ty, (f.val env.dat : Nat)⟩ := by
  have hb : env.dat[f.byte] < 256 := hd _ (List.getElem_mem hlen)
  have hget : env.dat.getD f.byte 0 = env.dat[f.byte] := by
    simp [List.getD, List.getElem?_eq_getElem hlen]
  have hw8 : f.width ≤ 8 := by omega
  have h256 := two_pow_le_256 hw8
  have hmask : maskVal f.width = some ⟨.u32, 2 ^ f.width - 1⟩ := by
    unfold maskVal; rw [if_neg (by omega), if_pos hw8]
  have hcm : CTy.common .u8 .u32 = .u32 := by decide
  have hci : CTy.common .i32 .u32 = .u32 := by decide
  have hp8 : CTy.promote .u8 = .i32 := by decide
  have key : ∀ x : Nat, (((x : Int) % 2 ^ f.width).toNat : Int) = ((x % 2 ^ f.width : Nat) : Int) := by
    intro x; norm_cast
  unfold Frag.toSig Frag.val Frag.ty
  rw [hget]
  split
  next h0 =>
    have hsh : f.shift = 0 := by omega
    have e1 : CVal.shr ⟨.u8, (env.dat[f.byte] : Nat)⟩ f.off
        = some ⟨.i32, ((env.dat[f.byte] / 2 ^ f.off : Nat) : Int)⟩ := by
      unfold CVal.shr
      dsimp only
      rw [hp8, if_pos (by show f.off < 32; omega)]
      norm_cast
    simp only [CExpr.eval, List.getElem?_eq_getElem hlen, hmask]
    simp only [bind, Option.bind, pure, e1, hsh]
    rw [CVal.land_mask _ hw8]
    simp only [hci, key]
    simp only [Nat.pow_zero, Nat.mul_one]
    have hm : env.dat[f.byte] / 2 ^ f.off % 2 ^ f.width < 2 ^ f.width := Nat.mod_lt _ (Nat.two_pow_pos _)
    rw [if_neg (by omega), Nat.mod_eq_of_lt (a := _ % _)]
    show _ < 2 ^ 32
    have : (256:Nat) < 2 ^ 32 := by decide
    omega
  next h0 =>
    have ho0 : f.off = 0 := by omega
    have hm : env.dat[f.byte] % 2 ^ f.width < 2 ^ f.width := Nat.mod_lt _ (Nat.two_pow_pos _)
    have e2 : CExpr.eval env (.band (.dat f.byte) (.mask f.width)) =
        some ⟨.u32, ((env.dat[f.byte] % 2 ^ f.width : Nat) : Int)⟩ := by
      simp only [CExpr.eval, List.getElem?_eq_getElem hlen, hmask]
      simp only [bind, Option.bind, pure]
      rw [CVal.land_mask _ hw8]
      simp only [hcm, key]
    rw [ho0]
    simp only [Nat.pow_zero, Nat.div_one]
    split
    next hs0 =>
      unfold t64
      split
      next h31 =>
        simp only [CExpr.eval] at e2 ⊢
        rw [e2]
        simp only [bind, Option.bind, pure, CVal.cast]
        rw [CTy.conv_nat_lt (t := .u64) (by
          show _ < 2 ^ 63
          have : (256:Nat) < 2 ^ 63 := by decide
          omega)]
        rw [CVal.shl_unsigned rfl (by show f.shift < 64; exact hs) rfl]
        rfl
      next h31 =>
        simp only [CExpr.eval] at e2 ⊢
        rw [e2]
        simp only [bind, Option.bind]
        rw [CVal.shl_unsigned rfl (by show f.shift < 32; omega) rfl]
        rfl
    next hs0 =>
      have : f.shift = 0 := by omega
      rw [e2, this]
      simp only [Nat.pow_zero, Nat.mul_one]
      rw [if_neg (by omega), Nat.mod_eq_of_lt (a := _ % _)]
      show _ < 2 ^ 32
      have : (256:Nat) < 2 ^ 32 := by decide
      omega

/-- The two unsigned types of to-signal expressions. -/
def IsU (t : CTy) : Prop := t = .u32 ∨ t = .u64

theorem Frag.isU (f : Frag) : IsU f.ty := by unfold Frag.ty IsU; split <;> simp

theorem IsU.common {a b : CTy} (ha : IsU a) (hb : IsU b) :
    IsU (CTy.common a b) ∧ a.bits ≤ (CTy.common a b).bits ∧ b.bits ≤ (CTy.common a b).bits ∧
      (CTy.common a b).signed = false := by
  rcases ha with rfl | rfl <;> rcases hb with rfl | rfl <;> simp [IsU] <;> decide

theorem eval_foldl {env : CEnv} (hd : ∀ b ∈ env.dat, b < 256) (fs : List Frag) :
    ∀ (acc : CExpr) (t : CTy) (n : Nat), IsU t → n < 2 ^ t.bits →
    acc.eval env = some ⟨t, (n : Int)⟩ →
    (∀ f ∈ fs, f.byte < env.dat.length ∧ 0 < f.width ∧ f.off + f.width ≤ 8 ∧
      (f.off = 0 ∨ f.shift = 0) ∧ f.shift < 64) →
    ∃ t', IsU t' ∧ n ||| orFrags env.dat fs < 2 ^ t'.bits ∧
      (fs.foldl (fun acc f => CExpr.bor acc f.toSig) acc).eval env =
        some ⟨t', ((n ||| orFrags env.dat fs : Nat) : Int)⟩ := by
  induction fs with
  | nil =>
    intro acc t n ht hn he _
    exact ⟨t, ht, by simpa [orFrags] using hn, by simpa [orFrags] using he⟩
  | cons f fs ih =>
    intro acc t n ht hn he hf
    obtain ⟨h1, h2, h3, h4, h5⟩ := hf f (List.mem_cons_self ..)
    obtain ⟨hc1, hc2, hc3, hc4⟩ := ht.common f.isU
    have hn' : n < 2 ^ (CTy.common t f.ty).bits :=
      Nat.lt_of_lt_of_le hn (Nat.pow_le_pow_right (by decide) hc2)
    have hv' : f.val env.dat < 2 ^ (CTy.common t f.ty).bits :=
      Nat.lt_of_lt_of_le (f.val_lt _) (Nat.pow_le_pow_right (by decide) hc3)
    have hstep : (CExpr.bor acc f.toSig).eval env =
        some ⟨CTy.common t f.ty, ((n ||| f.val env.dat : Nat) : Int)⟩ := by
      simp only [CExpr.eval, he, eval_toSig hd h1 h2 h3 h4 h5, bind, Option.bind, pure]
      rw [CVal.lor_nat rfl rfl hn' hv' (Or.inr ⟨hc4, Nat.le_refl _⟩)]
    have := ih _ _ _ hc1 (Nat.or_lt_two_pow hn' hv') hstep
      (fun g hg => hf g (List.mem_cons_of_mem _ hg))
    simpa [orFrags, Nat.or_assoc] using this

theorem frags_ne_nil (s : Sig) : frags s ≠ [] := by
  unfold frags fragsAt; dsimp only; split <;> simp

/-- The to-signal expression evaluates to the `|` of the fragments. -/
theorem eval_joinFrags {env : CEnv} {s : Sig} (hd : ∀ b ∈ env.dat, b < 256)
    (hl : 0 < s.lengthBit) (hl2 : s.lengthBit ≤ 64) (hb : ∀ f ∈ frags s, f.byte < env.dat.length) :
    ∃ t, IsU t ∧ orFrags env.dat (frags s) < 2 ^ t.bits ∧
      (joinFrags (frags s)).eval env = some ⟨t, (orFrags env.dat (frags s) : Nat)⟩ := by
  obtain ⟨h1, -, -⟩ := frags_spec s hl
  cases hfs : frags s with
  | nil => exact absurd hfs (frags_ne_nil s)
  | cons f fs =>
    rw [hfs] at h1 hb
    have hall : ∀ g ∈ f :: fs, g.byte < env.dat.length ∧ 0 < g.width ∧ g.off + g.width ≤ 8 ∧
        (g.off = 0 ∨ g.shift = 0) ∧ g.shift < 64 := by
      intro g hg
      obtain ⟨a, b, c, e, -⟩ := h1 g hg
      exact ⟨hb g hg, a, b, e, by omega⟩
    obtain ⟨a1, a2, a3, a4, a5⟩ := hall f (List.mem_cons_self ..)
    have := eval_foldl hd fs f.toSig f.ty (f.val env.dat) f.isU (f.val_lt _)
      (eval_toSig hd a1 a2 a3 a4 a5) (fun g hg => hall g (List.mem_cons_of_mem _ hg))
    simpa [joinFrags, orFrags] using this

theorem testBit_orFrags (d : List Nat) (fs : List Frag) (k : Nat) :
    (orFrags d fs).testBit k = fs.any (fun f => (f.val d).testBit k) := by
  induction fs with
  | nil => simp [orFrags]
  | cons f fs ih => simp [orFrags, Nat.testBit_or, ih]

theorem testBit_val (d : List Nat) (f : Frag) (k : Nat) :
    (f.val d).testBit k = (decide (k < f.ty.bits) && decide (f.shift ≤ k) &&
      decide (k < f.shift + f.width) && (d.getD f.byte 0).testBit (f.off + (k - f.shift))) := by
  unfold Frag.val
  rw [Nat.testBit_mod_two_pow, Nat.testBit_mul_two_pow, Nat.testBit_mod_two_pow,
    Nat.testBit_div_two_pow]
  by_cases h1 : f.shift ≤ k
  · have : (k - f.shift < f.width) = (k < f.shift + f.width) := by apply propext; omega
    simp [h1, this, Bool.and_assoc, Nat.add_comm]
  · simp [h1]

/-- Number of signal bits below the first byte boundary above the least significant bit
(0 when the low end is byte aligned). -/
def lowBits (s : Sig) : Nat := (8 - s.pos 0 % 8) % 8

theorem shift_mod {s : Sig} (hl : 0 < s.lengthBit) {f : Frag} (hf : f ∈ frags s)
    (hs : 0 < f.shift) : (s.pos 0 + f.shift) % 8 = 0 := by
  obtain ⟨h1, -, -⟩ := frags_spec s hl
  obtain ⟨hw, ho, hs', hz, hp⟩ := h1 f hf
  have ho0 : f.off = 0 := by omega
  have := hp 0 hw
  rw [ho0] at this
  unfold Sig.pos bitPos at *
  split
  next hi => rw [if_pos hi] at this; omega
  next hi =>
    rw [if_neg hi] at this
    have e1 := lin_iter (s.lengthBit - 1 - (f.shift + 0)) s.startBit
    have e2 := lin_iter (s.lengthBit - 1 - 0) s.startBit
    rw [this] at e1
    generalize iter motorolaNext (s.lengthBit - 1 - 0) s.startBit = q at *
    unfold lin at *
    omega

theorem pairwise_eq {α : Type} {R : α → α → Prop} {l : List α} (h : l.Pairwise R) {a b : α}
    (ha : a ∈ l) (hb : b ∈ l) (h1 : ¬ R a b) (h2 : ¬ R b a) : a = b := by
  induction h with
  | nil => cases ha
  | cons hx _ ih =>
    rcases List.mem_cons.1 ha with ha' | ha' <;> rcases List.mem_cons.1 hb with hb' | hb'
    · rw [ha', hb']
    · subst ha'; exact absurd (hx _ hb') h1
    · subst hb'; exact absurd (hx _ ha') h2
    · exact ih ha' hb'

/-- Bits of the value computed by the printed to-signal expression. -/
theorem testBit_unpack {s : Sig} (d : List Nat) (hl : 0 < s.lengthBit) (hl2 : s.lengthBit ≤ 64)
    (k : Nat) :
    (orFrags d (frags s)).testBit k =
      (decide (k < s.lengthBit) && payloadBit d (s.pos k) &&
        !decide (32 ≤ k ∧ k < 32 + lowBits s)) := by
  obtain ⟨h1, h2, h3⟩ := frags_spec s hl
  rw [testBit_orFrags]
  by_cases hk : k < s.lengthBit
  · obtain ⟨f, hf, hk1, hk2⟩ := h2 k hk
    obtain ⟨hw, ho, hs', hz, hp⟩ := h1 f hf
    have hpos := hp (k - f.shift) (by omega)
    rw [show f.shift + (k - f.shift) = k by omega] at hpos
    have hbit : payloadBit d (s.pos k) = (d.getD f.byte 0).testBit (f.off + (k - f.shift)) := by
      unfold payloadBit
      rw [hpos, show (8 * f.byte + f.off + (k - f.shift)) / 8 = f.byte by omega,
        show (8 * f.byte + f.off + (k - f.shift)) % 8 = f.off + (k - f.shift) by omega]
    have hbits : decide (k < f.ty.bits) = !decide (32 ≤ k ∧ k < 32 + lowBits s) := by
      have hsm := fun h => shift_mod hl hf h
      have hlow : (s.pos 0 % 8 = 0 ∧ lowBits s = 0) ∨
          (0 < s.pos 0 % 8 ∧ lowBits s = 8 - s.pos 0 % 8) := by unfold lowBits; omega
      generalize lowBits s = r at *
      unfold Frag.ty
      split
      next hsh =>
        have := hsm (by omega)
        have h' : ¬ (32 ≤ k ∧ k < 32 + r) := by omega
        rw [decide_eq_false h', decide_eq_true (show k < CTy.u64.bits by show k < 64; omega)]; rfl
      next hsh =>
        simp only [CTy.bits]
        by_cases h32 : k < 32
        · have h' : ¬ (32 ≤ k ∧ k < 32 + r) := by omega
          simp [h', h32]
        · have := hsm (by omega)
          have h' : (32 ≤ k ∧ k < 32 + r) := by omega
          simp [h', h32]
    have hval : (f.val d).testBit k = (payloadBit d (s.pos k) &&
        !decide (32 ≤ k ∧ k < 32 + lowBits s)) := by
      rw [testBit_val, hbits, ← hbit]
      simp [hk1, hk2, Bool.and_comm]
    have huniq : ∀ g ∈ frags s, g.shift ≤ k → k < g.shift + g.width → g = f := by
      intro g hg hg1 hg2
      exact pairwise_eq h3 hg hf (by omega) (by omega)
    simp only [hk, decide_true, Bool.true_and]
    rw [← hval]
    rw [Bool.eq_iff_iff, List.any_eq_true]
    constructor
    · rintro ⟨g, hg, hgb⟩
      have : g = f := by
        rw [testBit_val] at hgb
        simp only [Bool.and_eq_true, decide_eq_true_eq] at hgb
        exact huniq g hg hgb.1.1.2 hgb.1.2
      rw [← this]; exact hgb
    · intro h; exact ⟨f, hf, h⟩
  · simp only [hk, decide_false, Bool.false_and]
    rw [List.any_eq_false]
    intro f hf
    obtain ⟨hw, ho, hs', hz, hp⟩ := h1 f hf
    rw [testBit_val]
    simp only [Bool.and_eq_true, decide_eq_true_eq]
    omega

end Verif
