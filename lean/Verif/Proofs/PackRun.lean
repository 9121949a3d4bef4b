import Verif.Proofs.UnpackRun
/- Running a generated Pack function. -/
namespace Verif
open Spec
variable {φ : Type}

/-! ### Byte statements -/

/-- Slot `sl` is empty and stands for 0, or is an expression of value `w` whatever the payload. -/
def SlotVal (fld : Str → Option CVal) (sl : Slot) (w : Nat) : Prop :=
  (sl = .empty ∧ w = 0) ∨
  ∃ e, sl = .expr e ∧ ∀ d, ∃ t, e.eval ⟨d, fld⟩ = some ⟨t, (w : Int)⟩

theorem exec_orByte {c : Ctx φ} {st : St φ} {i : Nat} {e : CExpr} {t : CTy} {w old : Nat}
    (he : e.eval (c.env st) = some ⟨t, (w : Int)⟩) (hw : w < 256) (hold : st.dat[i]? = some old)
    (ho : old < 256) :
    exec c st (.orByte i (.expr e)) = some { st with dat := st.dat.set i (old ||| w) } := by
  simp only [exec, he, Option.bind_eq_bind, Option.bind_some, hold, pure]
  have h8 : CVal.cast .u8 ⟨t, (w : Int)⟩ = ⟨.u8, (w : Int)⟩ := by
    unfold CVal.cast
    rw [CTy.conv_nat_lt_unsigned rfl hw]
  rw [h8, CVal.lor_nat (na := old) (nb := w) (B := 8) rfl rfl ho hw (Or.inl (show 8 < (CTy.common .u8 .u8).bits by decide))]
  have : old ||| w < 2 ^ 8 := Nat.or_lt_two_pow ho hw
  rw [CTy.toU_nat_lt (t := .u8) this]

theorem zipIdx_filter_cons (sl : Slot) (tb : List Slot) (k : Nat) :
    (((sl :: tb).zipIdx k).filter (fun p => p.1 != .empty)).map (fun p => CStmt.orByte p.2 p.1) =
      (if sl = .empty then [] else [CStmt.orByte k sl]) ++
      ((tb.zipIdx (k + 1)).filter (fun p => p.1 != .empty)).map (fun p => CStmt.orByte p.2 p.1) := by
  rw [List.zipIdx_cons]
  by_cases h : sl = .empty <;> simp [h]

theorem execAll_bytes {c : Ctx φ} (tb : List Slot) : ∀ (k : Nat) (ws : Nat → Nat) (st : St φ),
    k + tb.length ≤ st.dat.length → IsPayload st.dat → (∀ j, j < tb.length → ws j < 256) →
    (∀ j, j < tb.length → SlotVal (c.read st) (tb.getD j .empty) (ws j)) →
    ∃ d', execAll c st (((tb.zipIdx k).filter (fun p => p.1 != .empty)).map
        (fun p => CStmt.orByte p.2 p.1)) = some { st with dat := d' } ∧
      d'.length = st.dat.length ∧ IsPayload d' ∧
      ∀ i, d'.getD i 0 = st.dat.getD i 0 ||| (if k ≤ i ∧ i < k + tb.length then ws (i - k) else 0) := by
  induction tb with
  | nil =>
    intro k ws st hk hp hw hs
    refine ⟨st.dat, rfl, rfl, hp, fun i => ?_⟩
    rw [if_neg (by simp only [List.length_nil]; omega), Nat.or_zero]
  | cons sl tb ih =>
    intro k ws st hk hp hw hs
    simp only [List.length_cons] at hk hw hs
    have hklt : k < st.dat.length := by omega
    have h0 := hs 0 (by omega)
    simp only [List.getD_cons_zero] at h0
    have key : ∃ d1, execAll c st (if sl = .empty then [] else [CStmt.orByte k sl]) = some { st with dat := d1 } ∧
        d1.length = st.dat.length ∧ IsPayload d1 ∧
        ∀ i, d1.getD i 0 = st.dat.getD i 0 ||| (if i = k then ws 0 else 0) := by
      rcases h0 with ⟨rfl, hw0⟩ | ⟨e, rfl, he⟩
      · refine ⟨st.dat, rfl, rfl, hp, fun i => ?_⟩
        simp [hw0]
      · rw [if_neg (by simp)]
        obtain ⟨t, ht⟩ := he st.dat
        have hold : st.dat[k]? = some st.dat[k] := List.getElem?_eq_getElem hklt
        have hob : st.dat[k] < 256 := hp _ (List.getElem_mem hklt)
        have hx := exec_orByte (c := c) (i := k) ht (hw 0 (by omega)) hold hob
        refine ⟨st.dat.set k (st.dat[k] ||| ws 0), by simp only [execAll, hx], by simp, ?_, ?_⟩
        · intro b hb
          rcases List.mem_or_eq_of_mem_set hb with hb | hb
          · exact hp b hb
          · subst hb; exact Nat.or_lt_two_pow (n := 8) hob (hw 0 (by omega))
        · intro i
          by_cases hi : i = k
          · subst hi; simp [List.getD, hklt]
          · have : k ≠ i := fun h => hi h.symm
            simp [List.getD, List.getElem?_set_ne this, hi]
    obtain ⟨d1, e1, l1, p1, g1⟩ := key
    obtain ⟨d2, e2, l2, p2, g2⟩ := ih (k + 1) (fun j => ws (j + 1)) { st with dat := d1 }
      (by simp only [l1]; omega) p1 (fun j hj => hw (j + 1) (by omega)) (fun j hj => by
        have := hs (j + 1) (by omega)
        rw [List.getD_cons_succ] at this
        exact this)
    refine ⟨d2, ?_, by rw [l2]; exact l1, p2, fun i => ?_⟩
    · rw [zipIdx_filter_cons, execAll_append, e1]
      exact e2
    · rw [g2 i, g1 i, Nat.or_assoc]
      congr 1
      by_cases hi : i = k
      · subst hi
        have h1 : ¬ (i + 1 ≤ i ∧ i < i + 1 + tb.length) := by omega
        have h2 : i ≤ i ∧ i < i + (tb.length + 1) := by omega
        simp [h1]
      · by_cases h1 : k + 1 ≤ i ∧ i < k + 1 + tb.length
        · have h2 : k ≤ i ∧ i < k + (sl :: tb).length := by simp only [List.length_cons]; omega
          simp only [hi, if_false, Nat.zero_or, h1, and_self, if_true, h2]
          congr 1; omega
        · have h2 : ¬ (k ≤ i ∧ i < k + (sl :: tb).length) := by simp only [List.length_cons]; omega
          simp only [hi, if_false, h1, h2, Nat.zero_or]

/-! ### Items and signal bits -/

theorem orItems_env (d1 d2 : List Nat) (f : Str → Option CVal) (items : List Item) :
    orItems ⟨d1, f⟩ items = orItems ⟨d2, f⟩ items := by
  induction items with
  | nil => rfl
  | cons it items ih => simp only [orItems, ih]; rfl

theorem Item.Ok_env {d1 d2 : List Nat} {f : Str → Option CVal} {it : Item} (h : it.Ok ⟨d1, f⟩) :
    it.Ok ⟨d2, f⟩ := h

theorem slotVal_items {d : List Nat} {f : Str → Option CVal} (items : List Item)
    (h : ∀ it ∈ items, it.Ok ⟨d, f⟩) :
    SlotVal f (items.foldl (fun sl it => sl.append (it.2.toByte it.1)) Slot.empty) (orItems ⟨d, f⟩ items) := by
  rcases eval_slot items h with ⟨h1, h2⟩ | ⟨e, t, h1, -, -⟩
  · left; subst h1; exact ⟨rfl, rfl⟩
  · right
    refine ⟨e, h1, fun d' => ?_⟩
    rcases eval_slot (env := ⟨d', f⟩) items h with ⟨g1, g2⟩ | ⟨e', t', g1, -, g3⟩
    · rw [g2] at h1; cases h1
    · rw [g1] at h1
      cases h1
      exact ⟨t', by rw [g3, orItems_env d' d]⟩

theorem frags_bit {s : Sig} (hl : 0 < s.lengthBit) (z : Int) (i j : Nat) (hj : j < 8) :
    (∃ f ∈ frags s, f.byte = i ∧ (f.byteVal z).testBit j = true) ↔ SigBit s z (8 * i + j) := by
  obtain ⟨h1, h2, -⟩ := frags_spec s hl
  constructor
  · rintro ⟨f, hf, hb, ht⟩
    obtain ⟨hw, ho, hs, -, hp⟩ := h1 f hf
    rw [Frag.testBit_byteVal, Bool.and_eq_true, decide_eq_true_eq] at ht
    refine ⟨f.shift + (j - f.off), by omega, ?_, ht.2⟩
    rw [hp (j - f.off) (by omega)]
    omega
  · rintro ⟨k, hk, hpos, hbit⟩
    obtain ⟨f, hf, hk1, hk2⟩ := h2 k hk
    obtain ⟨hw, ho, hs, -, hp⟩ := h1 f hf
    have := hp (k - f.shift) (by omega)
    rw [show f.shift + (k - f.shift) = k by omega, hpos] at this
    refine ⟨f, hf, by omega, ?_⟩
    rw [Frag.testBit_byteVal, Bool.and_eq_true, decide_eq_true_eq]
    refine ⟨by omega, ?_⟩
    rw [show f.shift + (j - f.off) = k by omega]
    exact hbit

theorem itemsOf_mem {sigs : List Sig} {it : Item} :
    it ∈ itemsOf sigs ↔ ∃ s ∈ sigs, ∃ f ∈ frags s, it = (s.name, f) := by
  unfold itemsOf
  simp only [List.mem_flatMap, List.mem_map]
  constructor
  · rintro ⟨s, hs, f, hf, rfl⟩; exact ⟨s, hs, f, hf, rfl⟩
  · rintro ⟨s, hs, f, hf, rfl⟩; exact ⟨s, hs, f, hf, rfl⟩

theorem items_ok {c : Ctx φ} {st : St φ} {m : Msg} (hm : MsgOk m)
    (hty : ∀ s ∈ m.signals, s.TypeOk)
    (hdecl : ∀ s ∈ m.signals, c.decl s.name = some (sigDecl c.cfg s)) :
    ∀ it ∈ itemsOf m.signals, it.Ok (c.env st) := by
  intro it hit
  obtain ⟨s, hs, f, hf, rfl⟩ := itemsOf_mem.1 hit
  obtain ⟨h1, -, -⟩ := frags_spec s (hm.2 s hs).1
  obtain ⟨hw, ho, hsh, hz, -⟩ := h1 f hf
  refine ⟨⟨s.typeRo, st.fld s.name⟩, ?_, hw, ho, hz, ?_⟩
  · show c.read st s.name = _
    unfold Ctx.read; rw [hdecl s hs]; rfl
  · have := (hty s hs).2
    have := s.typeRo.bits_le_promote
    show f.shift < s.typeRo.promote.bits
    omega

/-- The bytes written by the signal statements. -/
theorem bytePart {c : Ctx φ} {m : Msg} {st : St φ} (hm : MsgOk m) (hty : ∀ s ∈ m.signals, s.TypeOk)
    (hdecl : ∀ s ∈ m.signals, c.decl s.name = some (sigDecl c.cfg s))
    (hp : IsPayload st.dat) (hlen : m.dlc ≤ st.dat.length) :
    ∃ d', execAll c st (byteStmts ((itemsOf m.signals).foldl Item.apply (List.replicate m.dlc .empty))) =
        some { st with dat := d' } ∧ d'.length = st.dat.length ∧ IsPayload d' ∧
      ∀ p, payloadBit d' p = true ↔
        payloadBit st.dat p = true ∨ (p < 8 * m.dlc ∧ ∃ s ∈ m.signals, SigBit s (st.fld s.name) p) := by
  have hok := items_ok (st := st) hm hty hdecl
  have htl : ((itemsOf m.signals).foldl Item.apply (List.replicate m.dlc Slot.empty)).length = m.dlc := by
    rw [foldl_apply_length]; simp
  obtain ⟨d', e, l, pp, g⟩ := execAll_bytes (c := c)
    ((itemsOf m.signals).foldl Item.apply (List.replicate m.dlc .empty)) 0
    (fun i => orItems (c.env st) ((itemsOf m.signals).filter (fun it => it.2.byte == i))) st
    (by rw [htl]; omega) hp
    (fun j _ => orItems_lt fun it hit => hok it (List.mem_filter.1 hit).1)
    (fun j hj => by
      rw [htl] at hj
      rw [foldl_apply_get _ _ _ (by simpa using hj)]
      have : (List.replicate m.dlc Slot.empty).getD j .empty = .empty := by
        simp [List.getD, hj]
      rw [this]
      exact slotVal_items (d := st.dat) (f := c.read st) _ fun it hit => hok it (List.mem_filter.1 hit).1)
  refine ⟨d', e, l, pp, fun p => ?_⟩
  unfold payloadBit
  rw [g (p / 8), Nat.testBit_or, Bool.or_eq_true]
  apply or_congr Iff.rfl
  rw [htl]
  have hpd : 8 * (p / 8) + p % 8 = p := by omega
  have hp8 : p % 8 < 8 := by omega
  by_cases hlt : p < 8 * m.dlc
  · have h1 : 0 ≤ p / 8 ∧ p / 8 < 0 + m.dlc := by omega
    simp only [h1, and_self, if_true, Nat.sub_zero, hlt, true_and]
    rw [testBit_orItems, List.any_eq_true]
    constructor
    · rintro ⟨it, hit, hb⟩
      obtain ⟨hit, hbyte⟩ := List.mem_filter.1 hit
      obtain ⟨s, hs, f, hf, rfl⟩ := itemsOf_mem.1 hit
      refine ⟨s, hs, ?_⟩
      rw [← hpd]
      refine (frags_bit (hm.2 s hs).1 _ _ _ hp8).1 ⟨f, hf, by simpa using hbyte, ?_⟩
      have hr : (c.env st).fld s.name = some ⟨s.typeRo, st.fld s.name⟩ := by
        show c.read st s.name = _
        unfold Ctx.read; rw [hdecl s hs]; rfl
      unfold Item.val at hb
      rw [hr] at hb
      exact hb
    · rintro ⟨s, hs, hb⟩
      rw [← hpd] at hb
      obtain ⟨f, hf, hbyte, ht⟩ := (frags_bit (hm.2 s hs).1 _ _ _ hp8).2 hb
      refine ⟨(s.name, f), List.mem_filter.2 ⟨itemsOf_mem.2 ⟨s, hs, f, hf, rfl⟩, by simpa using hbyte⟩, ?_⟩
      have hr : (c.env st).fld s.name = some ⟨s.typeRo, st.fld s.name⟩ := by
        show c.read st s.name = _
        unfold Ctx.read; rw [hdecl s hs]; rfl
      unfold Item.val
      rw [hr]
      exact ht
  · have h1 : ¬ (0 ≤ p / 8 ∧ p / 8 < 0 + m.dlc) := by omega
    rw [if_neg h1]
    simp [hlt]

end Verif
