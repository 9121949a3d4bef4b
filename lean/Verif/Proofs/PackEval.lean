import Verif.Proofs.UnpackEval
/- Value of the printed to-byte expressions. -/
namespace Verif
open Spec

theorem emod_div_mod {x : Int} {w i : Nat} (h : i < w) :
    x % 2 ^ w / 2 ^ i % 2 = x / 2 ^ i % 2 := by
  have hp : (2:Int) ^ w = 2 ^ i * (2 * 2 ^ (w - i - 1)) := by
    rw [← Int.pow_succ', ← Int.pow_add]; congr 1; omega
  have hpi : (2:Int) ^ i ≠ 0 := by
    have := Nat.two_pow_pos i
    have h2 : (0:Int) < 2 ^ i := by exact_mod_cast this
    omega
  rw [Int.emod_def x (2 ^ w), hp]
  have : x - 2 ^ i * (2 * 2 ^ (w - i - 1)) * (x / (2 ^ i * (2 * 2 ^ (w - i - 1)))) =
      x + (- (2 * 2 ^ (w - i - 1) * (x / (2 ^ i * (2 * 2 ^ (w - i - 1)))))) * 2 ^ i := by grind
  rw [this, Int.add_mul_ediv_right _ _ hpi]
  generalize (x / (2 ^ i * (2 * 2 ^ (w - i - 1)))) = q
  have : x / 2 ^ i + -(2 * 2 ^ (w - i - 1) * q) = x / 2 ^ i + 2 * (-(2 ^ (w - i - 1) * q)) := by grind
  rw [this, Int.add_mul_emod_self_left]

theorem toNat_emod_lt (z : Int) (w : Nat) : (z % 2 ^ w).toNat < 2 ^ w := by
  have hp' : (0:Int) < 2 ^ w := by have := Nat.two_pow_pos w; exact_mod_cast this
  have h0 := Int.emod_nonneg z (b := (2:Int) ^ w) (by omega)
  have h1 := Int.emod_lt_of_pos z hp'
  have : ((z % 2 ^ w).toNat : Int) < ((2 ^ w : Nat) : Int) := by
    rw [Int.toNat_of_nonneg h0]; push_cast; exact h1
  exact_mod_cast this

theorem testBit_toNat_emod (z : Int) (w i : Nat) :
    ((z % 2 ^ w).toNat).testBit i = (decide (i < w) && intBit z i) := by
  by_cases h : i < w
  · have hp' : (0:Int) < 2 ^ w := by have := Nat.two_pow_pos w; exact_mod_cast this
    have h0 := Int.emod_nonneg z (b := (2:Int) ^ w) (by omega)
    rw [Nat.testBit_eq_decide_div_mod_eq]
    simp only [h, decide_true, Bool.true_and, intBit]
    apply decide_eq_decide.2
    rw [← emod_div_mod h]
    have e : (((z % 2 ^ w).toNat / 2 ^ i % 2 : Nat) : Int) = z % 2 ^ w / 2 ^ i % 2 := by
      push_cast; rw [Int.toNat_of_nonneg h0]
    omega
  · simp only [h, decide_false, Bool.false_and]
    apply Nat.testBit_lt_two_pow
    exact Nat.lt_of_lt_of_le (toNat_emod_lt z w) (Nat.pow_le_pow_right (by decide) (by omega))

theorem intBit_div (z : Int) (s k : Nat) : intBit (z / 2 ^ s) k = intBit z (s + k) := by
  unfold intBit
  rw [Int.ediv_ediv_of_nonneg (by have := Nat.two_pow_pos s; have h2 : (0:Int) < 2 ^ s := by exact_mod_cast this
                                  omega), ← Int.pow_add]

/-- Value contributed to a byte by a fragment of a field with value `z`. -/
def Frag.byteVal (f : Frag) (z : Int) : Nat := ((z / 2 ^ f.shift) % 2 ^ f.width).toNat * 2 ^ f.off

theorem Frag.byteVal_lt {f : Frag} (h : f.off + f.width ≤ 8) (z : Int) : f.byteVal z < 2 ^ 8 := by
  have h1 := toNat_emod_lt (z / 2 ^ f.shift) f.width
  have h2 : 2 ^ f.width * 2 ^ f.off ≤ 2 ^ 8 := by
    rw [← Nat.pow_add]; exact Nat.pow_le_pow_right (by decide) (by omega)
  unfold byteVal
  exact Nat.lt_of_lt_of_le (Nat.mul_lt_mul_of_pos_right h1 (Nat.two_pow_pos _)) h2

theorem Frag.testBit_byteVal (f : Frag) (z : Int) (j : Nat) :
    (f.byteVal z).testBit j =
      (decide (f.off ≤ j ∧ j < f.off + f.width) && intBit z (f.shift + (j - f.off))) := by
  unfold byteVal
  rw [Nat.testBit_mul_two_pow, testBit_toNat_emod, intBit_div]
  by_cases h : f.off ≤ j
  · have : (j - f.off < f.width) = (j < f.off + f.width) := by apply propext; omega
    simp [h, this]
  · simp [h]

theorem eval_toByte {env : CEnv} {f : Frag} {name : Str} {v : CVal} (hv : env.fld name = some v)
    (hw : 0 < f.width) (how : f.off + f.width ≤ 8)
    (hz : f.off = 0 ∨ f.shift = 0) (hs : f.shift < v.ty.promote.bits) :
    ∃ t : CTy, 32 ≤ t.bits ∧ (f.toByte name).eval env = some ⟨t, (f.byteVal v.val : Nat)⟩ := by
  have hw8 : f.width ≤ 8 := by omega
  have h256 := two_pow_le_256 hw8
  have hmask : maskVal f.width = some ⟨.u32, 2 ^ f.width - 1⟩ := by
    unfold maskVal; rw [if_neg (by omega), if_pos hw8]
  have hlt := Frag.byteVal_lt how v.val
  unfold Frag.toByte
  split
  next h0 =>
    have hsh : f.shift = 0 := by omega
    have hpc := CTy.promote_common v.ty .u32
    have hcb := CTy.common_bits v.ty .u32
    refine ⟨CTy.common v.ty .u32, hcb, ?_⟩
    simp only [CExpr.eval, hv, hmask, bind, Option.bind, pure]
    rw [CVal.land_mask _ hw8]
    unfold Frag.byteVal at hlt ⊢
    rw [hsh] at hlt ⊢
    simp only [Int.pow_zero, Int.ediv_one] at hlt ⊢
    rw [CVal.shl_nat rfl hlt (by rw [hpc]; omega) (by rw [hpc]; omega)]
    simp only [hpc]
  next h0 =>
    have ho0 : f.off = 0 := by omega
    split
    next hs0 =>
      refine ⟨CTy.common v.ty.promote .u32, CTy.common_bits _ _, ?_⟩
      have e1 : v.shr f.shift = some ⟨v.ty.promote, v.val / 2 ^ f.shift⟩ := by
        unfold CVal.shr; simp [hs]
      simp only [CExpr.eval, hv, hmask, bind, Option.bind, pure, e1]
      rw [CVal.land_mask _ hw8]
      unfold Frag.byteVal
      simp [ho0]
    next hs0 =>
      refine ⟨CTy.common v.ty .u32, CTy.common_bits _ _, ?_⟩
      simp only [CExpr.eval, hv, hmask, bind, Option.bind, pure]
      rw [CVal.land_mask _ hw8]
      unfold Frag.byteVal
      simp [ho0, show f.shift = 0 by omega]

/-- A to-byte item: a fragment of a named field. -/
abbrev Item := Str × Frag

/-- Append one item to the byte lines. -/
def Item.apply (tb : List Slot) (it : Item) : List Slot := it.2.apply it.1 tb

theorem foldl_apply_length (items : List Item) (tb : List Slot) :
    (items.foldl Item.apply tb).length = tb.length := by
  induction items generalizing tb with
  | nil => rfl
  | cons it items ih => simp [ih, Item.apply, Frag.apply_length]

/-- The line of byte `i` only depends on the items of that byte. -/
theorem foldl_apply_get (items : List Item) (tb : List Slot) (i : Nat) (hi : i < tb.length) :
    (items.foldl Item.apply tb).getD i .empty =
      (items.filter (fun it => it.2.byte == i)).foldl
        (fun sl it => sl.append (it.2.toByte it.1)) (tb.getD i .empty) := by
  induction items generalizing tb with
  | nil => rfl
  | cons it items ih =>
    rw [List.foldl_cons, ih _ (by simpa [Item.apply, Frag.apply_length] using hi)]
    by_cases hb : it.2.byte = i
    · subst hb
      simp [Item.apply, Frag.apply, List.getD, hi]
    · simp [Item.apply, Frag.apply, List.getD, hb]

/-- Value of an item. -/
def Item.val (env : CEnv) (it : Item) : Nat :=
  match env.fld it.1 with
  | some v => it.2.byteVal v.val
  | none => 0

/-- `|` of item values. -/
def orItems (env : CEnv) : List Item → Nat
  | [] => 0
  | it :: items => it.val env ||| orItems env items

/-- An item is evaluable. -/
def Item.Ok (env : CEnv) (it : Item) : Prop :=
  ∃ v, env.fld it.1 = some v ∧ 0 < it.2.width ∧ it.2.off + it.2.width ≤ 8 ∧
    (it.2.off = 0 ∨ it.2.shift = 0) ∧ it.2.shift < v.ty.promote.bits

theorem Item.val_lt {env : CEnv} {it : Item} (h : it.Ok env) : it.val env < 2 ^ 8 := by
  obtain ⟨v, hv, hw, how, hz, hs⟩ := h
  unfold Item.val; rw [hv]; exact Frag.byteVal_lt how _

theorem orItems_lt {env : CEnv} {items : List Item} (h : ∀ it ∈ items, it.Ok env) :
    orItems env items < 2 ^ 8 := by
  induction items with
  | nil => simp [orItems]
  | cons it items ih =>
    exact Nat.or_lt_two_pow (Item.val_lt (h it (List.mem_cons_self ..)))
      (ih fun x hx => h x (List.mem_cons_of_mem _ hx))

theorem testBit_orItems (env : CEnv) (items : List Item) (j : Nat) :
    (orItems env items).testBit j = items.any (fun it => (it.val env).testBit j) := by
  induction items with
  | nil => simp [orItems]
  | cons it items ih => simp [orItems, Nat.testBit_or, ih]

theorem Item.eval_ok {env : CEnv} {it : Item} (h : it.Ok env) :
    ∃ t : CTy, 32 ≤ t.bits ∧ (it.2.toByte it.1).eval env = some ⟨t, (it.val env : Nat)⟩ := by
  obtain ⟨v, hv, hw, how, hz, hs⟩ := h
  have := eval_toByte hv hw how hz hs
  unfold Item.val; rw [hv]; exact this

theorem eval_append_foldl {env : CEnv} (items : List Item) (h : ∀ it ∈ items, it.Ok env) :
    ∀ (e : CExpr) (t : CTy) (n : Nat), 32 ≤ t.bits → n < 2 ^ 8 → e.eval env = some ⟨t, (n : Int)⟩ →
    ∃ e' t', items.foldl (fun sl it => sl.append (it.2.toByte it.1)) (Slot.expr e) = .expr e' ∧
      32 ≤ t'.bits ∧ e'.eval env = some ⟨t', ((n ||| orItems env items : Nat) : Int)⟩ := by
  induction items with
  | nil => intro e t n ht _ he; exact ⟨e, t, rfl, ht, by simpa [orItems] using he⟩
  | cons it items ih =>
    intro e t n ht hn he
    obtain ⟨t1, ht1, he1⟩ := Item.eval_ok (h it (List.mem_cons_self ..))
    have hlt := Item.val_lt (h it (List.mem_cons_self ..))
    have hcb := CTy.common_bits t t1
    have hstep : (CExpr.bor e (it.2.toByte it.1)).eval env =
        some ⟨CTy.common t t1, ((n ||| it.val env : Nat) : Int)⟩ := by
      simp only [CExpr.eval, he, he1, bind, Option.bind, pure]
      rw [CVal.lor_nat rfl rfl hn hlt (Or.inl (by simp only; omega))]
    have := ih (fun x hx => h x (List.mem_cons_of_mem _ hx)) _ _ _ hcb (Nat.or_lt_two_pow hn hlt) hstep
    simpa [orItems, Nat.or_assoc, Slot.append] using this

/-- The line of a byte with items evaluates to the `|` of the item values; without items it is
empty. -/
theorem eval_slot {env : CEnv} (items : List Item) (h : ∀ it ∈ items, it.Ok env) :
    (items = [] ∧ items.foldl (fun sl it => sl.append (it.2.toByte it.1)) Slot.empty = .empty) ∨
    ∃ e t, items.foldl (fun sl it => sl.append (it.2.toByte it.1)) Slot.empty = .expr e ∧
      32 ≤ t.bits ∧ e.eval env = some ⟨t, (orItems env items : Nat)⟩ := by
  cases items with
  | nil => left; exact ⟨rfl, rfl⟩
  | cons it items =>
    right
    obtain ⟨t1, ht1, he1⟩ := Item.eval_ok (h it (List.mem_cons_self ..))
    have hlt := Item.val_lt (h it (List.mem_cons_self ..))
    have := eval_append_foldl items (fun x hx => h x (List.mem_cons_of_mem _ hx)) _ _ _ ht1 hlt he1
    simpa [orItems, Slot.append] using this

/-- Items of a signal list, in printing order. -/
def itemsOf (sigs : List Sig) : List Item := sigs.flatMap fun s => (frags s).map fun f => (s.name, f)

theorem buildLoop_ok (sigs : List Sig) : ∀ (sx : List SigText) (tb : List Slot), tb.length ≤ 64 →
    (∀ s ∈ sigs, PrintableSig tb.length s) →
    buildLoop sigs sx tb =
      .ok (sx ++ sigs.map fun s => .expr (joinFrags (frags s))) ((itemsOf sigs).foldl Item.apply tb) := by
  induction sigs with
  | nil => intro sx tb _ _; simp [buildLoop, itemsOf]
  | cons s sigs ih =>
    intro sx tb hn h
    obtain ⟨h1, h2, h3⟩ := h s (List.mem_cons_self ..)
    have hap : ∀ (fs : List Frag) (tb : List Slot),
        fs.foldl (Frag.apply s.name) tb = (fs.map fun f => ((s.name, f) : Item)).foldl Item.apply tb := by
      intro fs
      induction fs with
      | nil => intro tb; rfl
      | cons f fs ih => intro tb; simp [ih, Item.apply]
    have hlen : ((frags s).foldl (Frag.apply s.name) tb).length = tb.length := by
      rw [hap, foldl_apply_length]
    rw [buildLoop, printSignalExpr_ok hn h1 (by omega) (frags_lt_of_fits h1 h3)]
    dsimp only
    rw [ih _ _ (by omega) (by rw [hlen]; exact fun x hx => h x (List.mem_cons_of_mem _ hx)), hap]
    simp [itemsOf]

end Verif
