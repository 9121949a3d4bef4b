import Verif.Proofs.BodyText
/-
Which names occur in the printed expressions; the expressions as pieces of a line.
-/
namespace Verif
open Verif.Spec

/-- Payload bytes occur only if `d`, and the members that occur have `P`. -/
def Shape (d : Bool) (P : Str → Prop) : CExpr → Prop
  | .dat _ => d = true
  | .fld n => P n
  | .mask _ => True
  | .band a b => Shape d P a ∧ Shape d P b
  | .bor a b => Shape d P a ∧ Shape d P b
  | .shr a _ => Shape d P a
  | .shl a _ => Shape d P a
  | .cast _ a => Shape d P a

/-- Expressions of Unpack: payload bytes, no members. -/
def SigShape : SigText → Prop
  | .expr e => Shape true (fun _ => False) e
  | .err => True

/-- Expressions of Pack: members, no payload bytes. -/
def SlotShape (P : Str → Prop) : Slot → Prop
  | .expr e => Shape false P e
  | _ => True

variable {P : Str → Prop}

theorem SlotShape.append {sl : Slot} (h : SlotShape P sl) {e : CExpr} (he : Shape false P e) : SlotShape P (sl.append e) := by
  cases sl with
  | empty => exact he
  | expr a => exact ⟨h, he⟩
  | err => trivial

theorem appendAt_shape {tb tb' : List Slot} {bn : Nat} {e : CExpr} (h : appendAt tb bn e = some tb') (hc : ∀ sl ∈ tb, SlotShape P sl)
    (he : Shape false P e) : ∀ sl ∈ tb', SlotShape P sl := by
  unfold appendAt at h
  cases hb : tb[bn]? with
  | none =>
    rw [hb] at h
    cases h
  | some sl =>
    rw [hb] at h
    cases h
    intro x hx
    rcases List.mem_or_eq_of_mem_set hx with hx | rfl
    · exact hc x hx
    · exact (hc sl (List.mem_of_getElem? hb)).append he

theorem setErr_shape {tb : List Slot} (hc : ∀ sl ∈ tb, SlotShape P sl) : ∀ sl ∈ setErr tb, SlotShape P sl := by
  intro x hx
  rcases List.mem_or_eq_of_mem_set hx with hx | rfl
  · exact hc x hx
  · trivial

theorem t64_shape {d : Bool} {e : CExpr} (n : Nat) (h : Shape d P e) : Shape d P (t64 n e) := by
  unfold t64
  split <;> exact h

theorem byteLoop_shape {name : Str} (hn : P name) (o : BitLayout) (fuel : Nat) (acc : CExpr) (tb : List Slot) (slen bn : Nat)
    (hc : ∀ sl ∈ tb, SlotShape P sl) (ha : Shape true (fun _ => False) acc) :
    match byteLoop name o fuel acc tb slen bn with
    | .done acc tb' _ _ => Shape true (fun _ => False) acc ∧ ∀ sl ∈ tb', SlotShape P sl
    | .err tb' => ∀ sl ∈ tb', SlotShape P sl
    | .oob => True := by
  induction fuel generalizing acc tb slen bn with
  | zero =>
    rw [byteLoop]
    exact ⟨ha, hc⟩
  | succ fuel ih =>
    rw [byteLoop]
    by_cases h8 : slen < 8
    · rw [if_pos h8]
      exact ⟨ha, hc⟩
    rw [if_neg h8]
    dsimp only
    by_cases h1 : tb.length < shiftByte o bn
    · rw [if_pos h1]
      exact setErr_shape hc
    rw [if_neg h1]
    by_cases h0 : slen - 8 = 0
    · rw [if_pos h0]
      cases hp : appendAt tb (shiftByte o bn) (.band (.fld name) (.mask 8)) with
      | none => trivial
      | some tb' => exact ih _ tb' _ _ (appendAt_shape hp hc ⟨hn, trivial⟩) ⟨ha, rfl, trivial⟩
    · rw [if_neg h0]
      cases hp : appendAt tb (shiftByte o bn) (.band (.shr (.fld name) (slen - 8)) (.mask 8)) with
      | none => trivial
      | some tb' => exact ih _ tb' _ _ (appendAt_shape hp hc ⟨hn, trivial⟩) ⟨ha, t64_shape _ ⟨rfl, trivial⟩⟩

theorem printSignal_shape (s : Sig) (hn : P s.name) (tb : List Slot) (hc : ∀ sl ∈ tb, SlotShape P sl) :
    match printSignalExpr s tb with
    | .ok x tb' => SigShape x ∧ ∀ sl ∈ tb', SlotShape P sl
    | .oob => True := by
  unfold printSignalExpr
  by_cases h0 : tb.length = 0
  · rw [if_pos h0]
    exact ⟨trivial, hc⟩
  rw [if_neg h0]
  dsimp only
  by_cases h1 : tb.length ≤ startb s / 8
  · rw [if_pos h1]
    exact ⟨trivial, setErr_shape hc⟩
  rw [if_neg h1]
  generalize startb s / 8 = bn at *
  generalize startb s % 8 + 1 = bbc at *
  by_cases h2 : bbc > s.lengthBit
  · rw [if_pos h2]
    cases hp : appendAt tb bn (.shl (.band (.fld s.name) (.mask s.lengthBit)) (bbc - s.lengthBit)) with
    | none => trivial
    | some tb' => exact ⟨⟨rfl, trivial⟩, appendAt_shape hp hc ⟨hn, trivial⟩⟩
  rw [if_neg h2]
  by_cases h3 : bbc = s.lengthBit
  · rw [if_pos h3]
    cases hp : appendAt tb bn (.band (.fld s.name) (.mask s.lengthBit)) with
    | none => trivial
    | some tb' => exact ⟨⟨rfl, trivial⟩, appendAt_shape hp hc ⟨hn, trivial⟩⟩
  rw [if_neg h3]
  cases hp : appendAt tb bn (.band (.shr (.fld s.name) (s.lengthBit - bbc)) (.mask bbc)) with
  | none => trivial
  | some tb' =>
    dsimp only
    have hL := byteLoop_shape (P := P) hn s.order (s.lengthBit - bbc)
      (.shl (t64 (s.lengthBit - bbc) (.band (.dat bn) (.mask bbc))) (s.lengthBit - bbc))
      tb' (s.lengthBit - bbc) bn (appendAt_shape hp hc ⟨hn, trivial⟩) (t64_shape (P := fun _ => False) _ ⟨rfl, trivial⟩)
    revert hL
    generalize byteLoop s.name s.order _ _ _ _ _ = L
    intro hL
    cases L with
    | oob => trivial
    | err tb1 => exact ⟨trivial, hL⟩
    | done acc tb1 slen bn1 =>
      dsimp only
      by_cases h6 : slen > 0
      · rw [if_pos h6]
        cases hp : appendAt tb1 (shiftByte s.order bn1) (.shl (.band (.fld s.name) (.mask slen)) (8 - slen)) with
        | none => trivial
        | some tb2 => exact ⟨⟨hL.1, rfl, trivial⟩, appendAt_shape hp hL.2 ⟨hn, trivial⟩⟩
      · rw [if_neg h6]
        exact hL

theorem buildLoop_shape (ss : List Sig) (hn : ∀ s ∈ ss, P s.name) (xs : List SigText) (tb : List Slot)
    (hx : ∀ x ∈ xs, SigShape x) (hc : ∀ sl ∈ tb, SlotShape P sl) :
    match buildLoop ss xs tb with
    | .ok xs' tb' => (∀ x ∈ xs', SigShape x) ∧ ∀ sl ∈ tb', SlotShape P sl
    | .oob => True := by
  induction ss generalizing xs tb with
  | nil => exact ⟨hx, hc⟩
  | cons s ss ih =>
    rw [buildLoop]
    have hp := printSignal_shape s (hn s (by simp)) tb hc
    revert hp
    generalize printSignalExpr s tb = L
    intro hp
    cases L with
    | oob => trivial
    | ok x tb' =>
      refine ih (fun s hs => hn s (by simp [hs])) (xs ++ [x]) tb' ?_ hp.2
      intro y hy
      rcases List.mem_append.mp hy with hy | hy
      · exact hx y hy
      · rw [List.mem_singleton.mp hy]
        exact hp.1

/-! ### Expressions as pieces of lines -/

variable {D : Defs}

theorem plain_fmtD {n : Nat} (h : n < 2 ^ 31) : PlainT (fmtD n) := by
  rw [fmtD_small h]
  exact plainT_word (numW_decStr n).2

theorem plain_operand {e : CExpr} (h : Operand e) : PlainT (render e) := by
  induction e with
  | dat i =>
    rw [render]
    exact ((plain_lit (by decide)).append (plain_fmtD h)).append (plain_lit (by decide))
  | fld n =>
    rw [render]
    exact (plain_lit (by decide)).append (plainT_word (ident_words h).2.1)
  | mask w =>
    rw [render]
    exact ((plain_lit (by decide)).append (plainT_word (mskText_words w).2.1)).append (plain_lit (by decide))
  | band a b iha ihb =>
    rw [render]
    exact ((((plain_lit (by decide)).append (iha h.1)).append (plain_lit (by decide))).append (ihb h.2)).append (plain_lit (by decide))
  | bor a b => exact h.elim
  | shr a n ih =>
    rw [render]
    exact ((((plain_lit (by decide)).append (ih h.1)).append (plain_lit (by decide))).append (plain_fmtD h.2)).append (plain_lit (by decide))
  | shl a n ih =>
    rw [render]
    exact ((((plain_lit (by decide)).append (ih h.1)).append (plain_lit (by decide))).append (plain_fmtD h.2)).append (plain_lit (by decide))
  | cast t a ih =>
    rw [render]
    exact (((plain_lit (by decide)).append (plainT_word (ctyText_words t).2.1)).append (plain_lit (by decide))).append (ih h)

theorem plain_chain {e : CExpr} (h : Chain e) : PlainT (render e) := by
  induction e with
  | bor a b iha ihb =>
    rw [render]
    exact ((iha h.1).append (plain_lit (by decide))).append (plain_operand h.2)
  | _ => exact plain_operand h

/-- The words of an expression are no macros. -/
theorem toks_words (hB : Base D) {d : Bool} {e : CExpr} (h : Shape d (fun n => D.lookup n = none) e) :
    ∀ w ∈ tokWords (toks e), D.lookup w = none := by
  induction e with
  | dat i =>
    intro w hw
    simp only [toks, tokWords_w, tokWords_p, List.mem_cons] at hw
    rcases hw with rfl | rfl | hw
    · exact hB.code _ (by decide)
    · exact hB.num _ (numW_decStr i).1
    · cases hw
  | fld n =>
    intro w hw
    simp only [toks, tokWords_w, tokWords_p, List.mem_cons] at hw
    rcases hw with rfl | rfl | hw
    · exact hB.code _ (by decide)
    · exact h
    · cases hw
  | mask k =>
    intro w hw
    simp only [toks, tokWords_w, tokWords_p, List.mem_cons] at hw
    rcases hw with rfl | hw
    · exact hB.num _ (mskText_words k).2.2.1
    · cases hw
  | band a b iha ihb =>
    intro w hw
    simp only [toks, tokWords_w, tokWords_p, tokWords_append, List.mem_append, List.cons_append] at hw
    rcases hw with (hw | hw) | hw
    · exact iha h.1 w hw
    · exact ihb h.2 w hw
    · cases hw
  | bor a b iha ihb =>
    intro w hw
    simp only [toks, tokWords_w, tokWords_p, tokWords_append, List.mem_append] at hw
    rcases hw with hw | hw
    · exact iha h.1 w hw
    · exact ihb h.2 w hw
  | shr a n ih =>
    intro w hw
    simp only [toks, tokWords_w, tokWords_p, tokWords_append, List.mem_append, List.mem_cons, List.cons_append] at hw
    rcases hw with hw | rfl | hw
    · exact ih h w hw
    · exact hB.num _ (numW_decStrU n).1
    · cases hw
  | shl a n ih =>
    intro w hw
    simp only [toks, tokWords_w, tokWords_p, tokWords_append, List.mem_append, List.mem_cons, List.cons_append] at hw
    rcases hw with hw | rfl | hw
    · exact ih h w hw
    · exact hB.num _ (numW_decStrU n).1
    · cases hw
  | cast t a ih =>
    intro w hw
    simp only [toks, tokWords_w, tokWords_p, List.mem_cons] at hw
    rcases hw with rfl | hw
    · exact hB.code _ (codeWords_cty t)
    · exact ih h w hw

theorem Shape.mono {d : Bool} {P Q : Str → Prop} {e : CExpr} (h : Shape d P e) (hPQ : ∀ n, P n → Q n) : Shape d Q e := by
  induction e with
  | dat i => exact h
  | fld n => exact hPQ n h
  | mask k => trivial
  | band a b iha ihb => exact ⟨iha h.1, ihb h.2⟩
  | bor a b iha ihb => exact ⟨iha h.1, ihb h.2⟩
  | shr a n ih => exact ih h
  | shl a n ih => exact ih h
  | cast t a ih => exact ih h

theorem toks_notSingle {e : CExpr} (h : Chain e) (r : List Tok) : notSingle (toks e ++ r) = true := by
  induction e generalizing r with
  | bor a b iha ihb =>
    rw [toks, List.append_assoc]
    exact iha h.1 _
  | _ => rfl

theorem expToks (hB : Base D) {d : Bool} {e : CExpr} (h : Shape d (fun n => D.lookup n = none) e) : ExpP D [] (toks e) (toks e) :=
  ExpP.plain fun w hw => .inr (toks_words hB h w hw)

theorem printType_eq (t : CTy) : printType t = ctyText t := by
  cases t <;> rfl

theorem cty_word (t : CTy) : IsWord (ctyText t) := ⟨(ctyText_words t).1, (ctyText_words t).2.1⟩

end Verif
