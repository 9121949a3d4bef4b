import Verif.Proofs.Split
/-
Splitting of a text that is words with separators between them.
-/
namespace Verif

/-- Words, each with the separator behind it. -/
def joinSep (l : List (Str × Str)) : Str := l.flatMap fun p => p.1 ++ p.2

/-- Every separator but the last is there. -/
def SepOk : List (Str × Str) → Prop
  | [] => True
  | [_] => True
  | p :: rest => p.2 ≠ [] ∧ SepOk rest

theorem restSplit_words {p : Char → Bool} (l : List (Str × Str)) (hs : SepOk l)
    (hw : ∀ e ∈ l, e.1 ≠ [] ∧ (∀ c ∈ e.1, p c = false) ∧ ∀ c ∈ e.2, p c = true) :
    restSplit (mRun p) (joinSep l) = l.map (·.1) := by
  induction l with
  | nil => rfl
  | cons e l ih =>
    obtain ⟨h1, h2, h3⟩ := hw e (by simp)
    cases l with
    | nil =>
      show restSplit (mRun p) ((e.1 ++ e.2) ++ []) = [e.1]
      by_cases he : e.2 = []
      · rw [he, List.append_nil, List.append_nil]
        exact restSplit_run_last h1 h2
      · rw [List.append_assoc, restSplit_run h2 h3 he (by intro c r h; cases h)]
        rfl
    | cons f l =>
      have hw' : ∀ e ∈ f :: l, e.1 ≠ [] ∧ (∀ c ∈ e.1, p c = false) ∧ ∀ c ∈ e.2, p c = true :=
        fun x hx => hw x (List.mem_cons_of_mem _ hx)
      have e1 : joinSep (e :: f :: l) = e.1 ++ (e.2 ++ joinSep (f :: l)) := by
        unfold joinSep
        rw [List.flatMap_cons, List.append_assoc]
      rw [e1, restSplit_run h2 h3 hs.1, ih hs.2 hw']
      · rfl
      · intro c r hcr
        obtain ⟨g1, g2, -⟩ := hw' f (by simp)
        obtain ⟨x, xs, hx⟩ := List.exists_cons_of_ne_nil g1
        have : joinSep (f :: l) = x :: (xs ++ f.2 ++ joinSep l) := by
          unfold joinSep
          rw [List.flatMap_cons, hx]; simp
        rw [this] at hcr
        cases hcr
        exact g2 _ (by rw [hx]; simp)

theorem resplit_words {p : Char → Bool} (l : List (Str × Str)) (hne : l ≠ []) (hs : SepOk l)
    (hw : ∀ e ∈ l, e.1 ≠ [] ∧ (∀ c ∈ e.1, p c = false) ∧ ∀ c ∈ e.2, p c = true) :
    resplit (mRun p) (joinSep l) = l.map (·.1) := by
  rw [← restSplit_words l hs hw]
  unfold restSplit
  rw [if_neg]
  cases l with
  | nil => exact absurd rfl hne
  | cons e l =>
    obtain ⟨h1, -, -⟩ := hw e (by simp)
    obtain ⟨x, xs, hx⟩ := List.exists_cons_of_ne_nil h1
    unfold joinSep
    rw [List.flatMap_cons, hx]; simp

end Verif
