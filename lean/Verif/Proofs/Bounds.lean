import Verif.Proofs.PackRun3
/- Index bounds of the printer, for arbitrary (also ill-formed) signals. -/
namespace Verif
open Spec
variable {φ : Type}

theorem t64_reads (n : Nat) (e : CExpr) : (t64 n e).reads = e.reads := by
  unfold t64; split <;> rfl

theorem Slot.append_ne (s : Slot) (e : CExpr) : s.append e ≠ .empty := by cases s <;> simp [Slot.append]

/-- Slots stay filled. -/
def Grows (tb tb' : List Slot) : Prop :=
  tb'.length = tb.length ∧ ∀ i, i < tb.length → tb.getD i .empty ≠ .empty → tb'.getD i .empty ≠ .empty

theorem Grows.refl (tb : List Slot) : Grows tb tb := ⟨rfl, fun _ _ h => h⟩

theorem Grows.trans {a b c : List Slot} (h1 : Grows a b) (h2 : Grows b c) : Grows a c :=
  ⟨h2.1.trans h1.1, fun i hi h => h2.2 i (by rw [h1.1]; exact hi) (h1.2 i hi h)⟩

theorem grows_set {tb : List Slot} {i : Nat} {s : Slot} (hs : s ≠ .empty) : Grows tb (tb.set i s) := by
  refine ⟨by simp, ?_⟩
  intro j hj h
  simp only [List.getD, List.getElem?_set] at *
  split
  · split
    · exact hs
    · rw [List.getElem?_eq_none (by omega)] at h; exact absurd rfl h
  · exact h

theorem appendAt_some {tb tb' : List Slot} {bn : Nat} {e : CExpr} (h : appendAt tb bn e = some tb') :
    bn < tb.length ∧ Grows tb tb' ∧ tb'.getD bn .empty ≠ .empty := by
  unfold appendAt at h
  split at h
  next s hs =>
    cases h
    have hb : bn < tb.length := by
      rw [List.getElem?_eq_some_iff] at hs; exact hs.1
    refine ⟨hb, grows_set (Slot.append_ne s e), ?_⟩
    simp [List.getD, hb, Slot.append_ne]
  next => cases h

theorem byteLoop_reads (name : Str) (o : BitLayout) (fuel : Nat) :
    ∀ (acc : CExpr) (tb : List Slot) (slen bn : Nat), (∀ i ∈ acc.reads, i < tb.length) →
    match byteLoop name o fuel acc tb slen bn with
    | .done acc' tb' _ _ => Grows tb tb' ∧ ∀ i ∈ acc'.reads, i < tb.length
    | .err tb' => Grows tb tb' ∧ (0 < tb.length → tb'.getD 0 .empty = .err)
    | .oob => True := by
  induction fuel with
  | zero => intro acc tb slen bn h; exact ⟨Grows.refl _, h⟩
  | succ fuel ih =>
    intro acc tb slen bn h
    unfold byteLoop
    by_cases h8 : slen < 8
    · rw [if_pos h8]; exact ⟨Grows.refl _, h⟩
    · rw [if_neg h8]
      dsimp only
      by_cases hb : tb.length < shiftByte o bn
      · rw [if_pos hb]
        refine ⟨grows_set (by simp), ?_⟩
        intro h0
        simp [setErr, List.getD, h0]
      · rw [if_neg hb]
        by_cases hz : slen - 8 = 0
        · rw [if_pos hz]
          cases ha : appendAt tb (shiftByte o bn) (.band (.fld name) (.mask 8)) with
          | none => trivial
          | some tb1 =>
            obtain ⟨a1, a2, a3⟩ := appendAt_some ha
            dsimp only
            have := ih (.bor acc (.band (.dat (shiftByte o bn)) (.mask 8))) tb1 (slen - 8) (shiftByte o bn) (by
              intro i hi
              simp only [CExpr.reads, List.mem_append, List.mem_singleton, List.not_mem_nil, or_false] at hi
              rw [a2.1]
              rcases hi with hi | rfl
              · exact h i hi
              · exact a1)
            revert this
            cases byteLoop name o fuel (.bor acc (.band (.dat (shiftByte o bn)) (.mask 8))) tb1 (slen - 8) (shiftByte o bn) with
            | done acc' tb' _ _ => intro this; exact ⟨a2.trans this.1, fun i hi => by have := this.2 i hi; rw [a2.1] at this; exact this⟩
            | err tb' => intro this; exact ⟨a2.trans this.1, fun h0 => this.2 (by rw [a2.1]; exact h0)⟩
            | oob => intro _; trivial
        · rw [if_neg hz]
          cases ha : appendAt tb (shiftByte o bn) (.band (.shr (.fld name) (slen - 8)) (.mask 8)) with
          | none => trivial
          | some tb1 =>
            obtain ⟨a1, a2, a3⟩ := appendAt_some ha
            dsimp only
            have := ih (.bor acc (.shl (t64 (slen - 8) (.band (.dat (shiftByte o bn)) (.mask 8))) (slen - 8))) tb1
              (slen - 8) (shiftByte o bn) (by
              intro i hi
              simp only [CExpr.reads, t64_reads, List.mem_append, List.mem_singleton, List.not_mem_nil, or_false] at hi
              rw [a2.1]
              rcases hi with hi | rfl
              · exact h i hi
              · exact a1)
            revert this
            cases byteLoop name o fuel (.bor acc (.shl (t64 (slen - 8) (.band (.dat (shiftByte o bn)) (.mask 8))) (slen - 8))) tb1 (slen - 8) (shiftByte o bn) with
            | done acc' tb' _ _ => intro this; exact ⟨a2.trans this.1, fun i hi => by have := this.2 i hi; rw [a2.1] at this; exact this⟩
            | err tb' => intro this; exact ⟨a2.trans this.1, fun h0 => this.2 (by rw [a2.1]; exact h0)⟩
            | oob => intro _; trivial

/-- What the printer guarantees for every signal. -/
theorem printSignalExpr_bounds {s : Sig} {tb tb' : List Slot} {x : SigText}
    (h : printSignalExpr s tb = .ok x tb') :
    tb'.length = tb.length ∧
    (∀ e, x = .expr e → (∀ i ∈ e.reads, i < tb.length) ∧ startb s / 8 < tb.length) ∧
    (0 < tb.length → tb'.getD 0 .empty = .err ∨
      (startb s / 8 < tb.length ∧ tb'.getD (startb s / 8) .empty ≠ .empty)) := by
  unfold printSignalExpr at h
  split at h
  next h0 =>
    cases h
    refine ⟨rfl, ?_, by omega⟩
    intro e he; cases he
  next h0 =>
    dsimp only at h
    split at h
    next hb =>
      cases h
      refine ⟨by simp [setErr], ?_, ?_⟩
      · intro e he; cases he
      · intro h0; left; simp [setErr, List.getD, h0]
    next hb =>
      split at h
      · split at h
        · cases h
        next tb1 ha =>
          cases h
          obtain ⟨a1, a2, a3⟩ := appendAt_some ha
          refine ⟨a2.1, ?_, fun _ => Or.inr ⟨a1, a3⟩⟩
          intro e he; cases he
          simpa [CExpr.reads] using a1
      · split at h
        · split at h
          · cases h
          next tb1 ha =>
            cases h
            obtain ⟨a1, a2, a3⟩ := appendAt_some ha
            refine ⟨a2.1, ?_, fun _ => Or.inr ⟨a1, a3⟩⟩
            intro e he; cases he
            simpa [CExpr.reads] using a1
        · split at h
          · cases h
          next tb1 ha =>
            obtain ⟨a1, a2, a3⟩ := appendAt_some ha
            have hl := byteLoop_reads s.name s.order (s.lengthBit - (startb s % 8 + 1))
              (.shl (t64 (s.lengthBit - (startb s % 8 + 1)) (.band (.dat (startb s / 8)) (.mask (startb s % 8 + 1))))
                (s.lengthBit - (startb s % 8 + 1))) tb1 (s.lengthBit - (startb s % 8 + 1)) (startb s / 8)
              (by
                intro i hi
                simp only [CExpr.reads, t64_reads, List.mem_append, List.mem_singleton, List.not_mem_nil, or_false] at hi
                rw [a2.1, hi]; exact a1)
            split at h
            · cases h
            next tb2 he =>
              rw [he] at hl
              cases h
              refine ⟨(a2.trans hl.1).1, ?_, ?_⟩
              · intro e hx; cases hx
              · intro hp
                exact Or.inl (hl.2 (by rw [a2.1]; exact hp))
            next acc tb2 slen bn he =>
              rw [he] at hl
              obtain ⟨l1, l2⟩ := hl
              have hg := a2.trans l1
              have hfill : tb2.getD (startb s / 8) .empty ≠ .empty := l1.2 _ (by rw [a2.1]; exact a1) a3
              split at h
              next hs =>
                split at h
                · cases h
                next tb3 hb3 =>
                  cases h
                  obtain ⟨b1, b2, b3⟩ := appendAt_some hb3
                  refine ⟨(hg.trans b2).1, ?_, fun _ => Or.inr ⟨a1, b2.2 _ (by rw [hg.1]; exact a1) hfill⟩⟩
                  intro e hx
                  cases hx
                  refine ⟨?_, a1⟩
                  intro i hi
                  simp only [CExpr.reads, List.mem_append, List.mem_singleton, List.not_mem_nil, or_false] at hi
                  rcases hi with hi | rfl
                  · have := l2 i hi; rw [a2.1] at this; exact this
                  · rw [← hg.1]; exact b1
              next hs =>
                cases h
                refine ⟨hg.1, ?_, fun _ => Or.inr ⟨a1, hfill⟩⟩
                intro e hx
                cases hx
                refine ⟨?_, a1⟩
                intro i hi
                have := l2 i hi; rw [a2.1] at this; exact this

theorem buildLoop_bounds (sigs : List Sig) : ∀ (sx sx' : List SigText) (tb tb' : List Slot),
    buildLoop sigs sx tb = .ok sx' tb' →
    tb'.length = tb.length ∧
    ∃ ys, sx' = sx ++ ys ∧ ys.length = sigs.length ∧
      ∀ i (hi : i < sigs.length) e, ys[i]? = some (.expr e) →
        (∀ j ∈ e.reads, j < tb.length) ∧ startb sigs[i] / 8 < tb.length := by
  induction sigs with
  | nil =>
    intro sx sx' tb tb' h
    simp only [buildLoop] at h
    cases h
    exact ⟨rfl, [], by simp, rfl, by simp⟩
  | cons s sigs ih =>
    intro sx sx' tb tb' h
    simp only [buildLoop] at h
    split at h
    · cases h
    next x tb1 hp =>
      obtain ⟨p1, p2, -⟩ := printSignalExpr_bounds hp
      obtain ⟨q1, ys, q2, q3, q4⟩ := ih _ _ _ _ h
      refine ⟨q1.trans p1, x :: ys, by simp [q2], by simp [q3], ?_⟩
      intro i hi e he
      cases i with
      | zero =>
        simp only [List.getElem?_cons_zero, Option.some.injEq] at he
        exact p2 e he
      | succ i =>
        simp only [List.getElem?_cons_succ] at he
        have := q4 i (by simpa using hi) e he
        rw [p1] at this
        simpa using this

theorem buildExprs_bounds {m : Msg} {sx : List SigText} {tb : List Slot} (h : buildExprs m = .ok sx tb) :
    tb.length = m.dlc ∧ sx.length = m.signals.length ∧
    ∀ i (hi : i < m.signals.length) e, sx[i]? = some (.expr e) →
        (∀ j ∈ e.reads, j < m.dlc) ∧ startb m.signals[i] / 8 < m.dlc := by
  obtain ⟨h1, ys, h2, h3, h4⟩ := buildLoop_bounds _ _ _ _ _ h
  simp only [List.length_replicate, List.nil_append] at *
  subst h2
  exact ⟨h1, h3, h4⟩

theorem eval_congr {e : CExpr} {a b : CEnv} (hf : a.fld = b.fld)
    (h : ∀ i ∈ e.reads, a.dat[i]? = b.dat[i]?) : e.eval a = e.eval b := by
  induction e with
  | dat i => simp only [CExpr.eval]; rw [h i (by simp [CExpr.reads])]
  | fld n => simp only [CExpr.eval]; rw [hf]
  | mask w => rfl
  | band x y hx hy =>
    simp only [CExpr.reads, List.mem_append] at h
    simp only [CExpr.eval, hx (fun i hi => h i (Or.inl hi)), hy (fun i hi => h i (Or.inr hi))]
  | bor x y hx hy =>
    simp only [CExpr.reads, List.mem_append] at h
    simp only [CExpr.eval, hx (fun i hi => h i (Or.inl hi)), hy (fun i hi => h i (Or.inr hi))]
  | shr x n hx => simp only [CExpr.eval, hx h]
  | shl x n hx => simp only [CExpr.eval, hx h]
  | cast t x hx => simp only [CExpr.eval, hx h]

/-- The checksum byte is inside the message. -/
theorem csmExpr_bound {s : Sig} {i n : Nat} {e : Slot} (h : csmExpr s = some (i, e)) (hn : 0 < n)
    (hs : startb s / 8 < n) : i < n := by
  unfold csmExpr at h
  split at h
  · cases h
  next x tb hp =>
    obtain ⟨hl, -, h2⟩ := printSignalExpr_bounds hp
    simp only [List.length_replicate] at hl h2
    split at h
    next k hk =>
      cases h
      rw [List.findIdx?_eq_some_iff_getElem] at hk
      obtain ⟨hkl, hk1, hk2⟩ := hk
      have hle : ∀ j, j < tb.length → tb.getD j .empty ≠ .empty → i ≤ j := by
        intro j hj hne
        apply Classical.byContradiction
        intro hlt
        have := hk2 j (by omega)
        simp only [List.getD, List.getElem?_eq_getElem hj, Option.getD_some] at hne
        simp [hne] at this
      rcases h2 (by decide) with h3 | ⟨h3, h4⟩
      · have := hle 0 (by omega) (by rw [h3]; simp)
        omega
      · have := hle _ (by rw [hl]; exact h3) h4
        omega
    next => cases h

/-- A statement that writes no payload byte at or above `n`. -/
def CStmt.below (n : Nat) : CStmt → Prop
  | .initLoop k => k ≤ n
  | .orByte i _ => i < n
  | _ => True

theorem exec_below {c : Ctx φ} {st st' : St φ} {x : CStmt} {n : Nat} (hx : x.below n)
    (h : exec c st x = some st') : ∀ i, n ≤ i → st'.dat[i]? = st.dat[i]? := by
  intro i hi
  by_cases hw : x.writesDat = true
  · cases x <;> simp only [CStmt.writesDat, Bool.false_eq_true] at hw
    case initLoop k =>
      simp only [CStmt.below] at hx
      simp only [exec, Option.ite_none_right_eq_some, Option.some.injEq] at h
      obtain ⟨hle, rfl⟩ := h
      have : (if k ≤ c.cfg.maxDlc then k else c.cfg.maxDlc) ≤ i := by split <;> omega
      simp only
      rw [List.getElem?_append_right (by simpa using this)]
      simp only [List.length_replicate, List.getElem?_drop]
      congr 1
      omega
    case orByte k e =>
      simp only [CStmt.below] at hx
      cases e with
      | empty => simp [exec] at h
      | err => simp [exec] at h
      | expr e =>
        simp only [exec, Option.bind_eq_bind, Option.bind_eq_some_iff, pure, Option.some.injEq] at h
        obtain ⟨v, -, old, -, rfl⟩ := h
        simp only
        rw [List.getElem?_set_ne (by omega)]
  · rw [(exec_frame h).2.1 (by simpa using hw)]

theorem execAll_below {c : Ctx φ} {n : Nat} (l : List CStmt) : ∀ {st st' : St φ}, (∀ x ∈ l, x.below n) →
    execAll c st l = some st' → ∀ i, n ≤ i → st'.dat[i]? = st.dat[i]? := by
  induction l with
  | nil => intro st st' _ h i _; simp only [execAll, Option.some.injEq] at h; rw [h]
  | cons x l ih =>
    intro st st' hx h i hi
    simp only [execAll] at h
    split at h
    · cases h
    next st1 h1 =>
      rw [ih (fun y hy => hx y (List.mem_cons_of_mem _ hy)) h i hi, exec_below (hx x (List.mem_cons_self ..)) h1 i hi]

theorem preprocess_sub (flag : Flag → Bool) (l : List GLine) : ∀ st, ∀ x ∈ preprocess flag st l, GLine.stmt x ∈ l := by
  induction l with
  | nil => intro st x hx; cases st <;> simp [preprocess] at hx
  | cons a l ih =>
    intro st x hx
    cases a with
    | stmt s =>
      cases st <;> simp only [preprocess] at hx <;> split at hx <;>
        first
        | (rcases List.mem_cons.1 hx with rfl | hx
           · simp
           · exact List.mem_cons_of_mem _ (ih _ x hx))
        | exact List.mem_cons_of_mem _ (ih _ x hx)
    | ifdef f => cases st <;> simp only [preprocess] at hx <;> exact List.mem_cons_of_mem _ (ih _ x hx)
    | els => cases st <;> simp only [preprocess] at hx <;> exact List.mem_cons_of_mem _ (ih _ x hx)
    | endif => cases st <;> simp only [preprocess] at hx <;> exact List.mem_cons_of_mem _ (ih _ x hx)

end Verif
