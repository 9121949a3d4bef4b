import Verif.Model.UtilGen
/-
The binary search tree of `Receive`.
-/
namespace Verif

/-- The condition under which the low branch is entered after the first condition failed. -/
def lowGuard (id : Nat) : CTree → Bool
  | .express c _ => c.eval id
  | _ => true

/-- Calls of a tree, by structural recursion. -/
def treeCalls (id : Nat) : CTree → List Msg
  | .null => []
  | .cond c hi lo =>
      if c.eval id then treeCalls id hi
      else if lowGuard id lo then treeCalls id lo else []
  | .express _ m => [m]
  | .single m => [m]

theorem runLines_skip (id : Nat) : ∀ (t : CTree) (i : Nat) (st : List (Bool × Bool)) (rest : List RLine),
    runLines id st ((writeCode t i).map (·.2) ++ rest) =
      (if st.all (·.1) then treeCalls id t else []) ++ runLines id st rest := by
  intro t
  induction t with
  | null => intro i st rest; simp [writeCode, treeCalls]
  | express c m =>
    intro i st rest
    simp only [writeCode, List.map_cons, List.map_nil, List.singleton_append, runLines, treeCalls]
    split <;> simp
  | single m =>
    intro i st rest
    simp only [writeCode, List.map_cons, List.map_nil, List.singleton_append, runLines, treeCalls]
    split <;> simp
  | cond c hi lo ih1 ih2 =>
    intro i st rest
    rw [treeCalls]
    cases lo with
    | cond c' h' l' =>
      have hw : (writeCode (.cond c hi (.cond c' h' l')) i).map (·.2) =
          .ifOpen c :: ((writeCode hi (i + 1)).map (·.2) ++
            (.els :: ((writeCode (.cond c' h' l') (i + 1)).map (·.2) ++ [.close]))) := by
        rw [writeCode]
        simp only [List.map_cons, List.map_append, List.map_nil]
      have hg : lowGuard id (.cond c' h' l') = true := rfl
      rw [hw, hg]
      generalize CTree.cond c' h' l' = lo at ih2
      simp only [List.cons_append, List.append_assoc, List.nil_append, runLines, ih1, ih2, List.all_cons]
      by_cases hst : (st.all fun x => x.fst) = true <;> by_cases hc : c.eval id = true <;>
        simp [hst, hc]
    | express c' m =>
      by_cases hst : (st.all fun x => x.fst) = true <;> by_cases hc : c.eval id = true <;>
        by_cases hc' : c'.eval id = true <;>
        simp [writeCode, runLines, ih1, treeCalls, lowGuard, hst, hc, hc']
    | null =>
      by_cases hst : (st.all fun x => x.fst) = true <;> by_cases hc : c.eval id = true <;>
        simp [writeCode, runLines, ih1, treeCalls, lowGuard, hst, hc]
    | single m =>
      by_cases hst : (st.all fun x => x.fst) = true <;> by_cases hc : c.eval id = true <;>
        simp [writeCode, runLines, ih1, treeCalls, lowGuard, hst, hc]

/-- `calls` is a single call of a message of index range `[l, h)` with the id, or none exists. -/
def Dispatch (list : List Msg) (l h id : Nat) (calls : List Msg) : Prop :=
  (∃ k m, l ≤ k ∧ k < h ∧ list[k]? = some m ∧ m.msgId = id ∧ calls = [m]) ∨
  ((∀ k m, l ≤ k → k < h → list[k]? = some m → m.msgId ≠ id) ∧ calls = [])

theorem sorted_get {list : List Msg} (hs : list.Pairwise fun a b => a.msgId ≤ b.msgId)
    {i j : Nat} {a b : Msg} (ha : list[i]? = some a) (hb : list[j]? = some b) (hij : i ≤ j) :
    a.msgId ≤ b.msgId := by
  rcases Nat.lt_or_ge i j with h | h
  · obtain ⟨h1, rfl⟩ := List.getElem?_eq_some_iff.1 ha
    obtain ⟨h2, rfl⟩ := List.getElem?_eq_some_iff.1 hb
    exact List.pairwise_iff_getElem.1 hs i j h1 h2 h
  · have : i = j := by omega
    subst this
    rw [ha] at hb; cases hb; exact Nat.le_refl _

/-- What is known of a subtree built with `started`. -/
def TreeOk (list : List Msg) (l h : Nat) (t : CTree) : Prop :=
  (h = l + 1 → ∃ m, list[l]? = some m ∧ t = .express (.eq m.msgId) m) ∧
  (l + 2 ≤ h → (∃ c a b, t = .cond c a b) ∧ ∀ id, Dispatch list l h id (treeCalls id t))

theorem fill_ok (list : List Msg) (hs : list.Pairwise fun a b => a.msgId ≤ b.msgId) :
    ∀ fuel l h, l < h → h ≤ list.length → h - l < fuel →
      ∃ t, (∀ started, (started = true ∨ h ≠ 1) → fillTree list fuel l h started = some t) ∧ TreeOk list l h t := by
  intro fuel
  induction fuel with
  | zero => intro l h _ _ hf; omega
  | succ fuel ih =>
    intro l h hlh hlen hf
    obtain ⟨a, ha⟩ : ∃ a, list[l]? = some a := ⟨_, List.getElem?_eq_getElem (by omega)⟩
    by_cases hspan : h - l > 1
    · obtain ⟨b, hb⟩ : ∃ b, list[l + (h - l) / 2]? = some b :=
        ⟨_, List.getElem?_eq_getElem (by omega)⟩
      obtain ⟨t1, e1, k1⟩ := ih l (l + (h - l) / 2) (by omega) (by omega) (by omega)
      obtain ⟨t2, e2, k2⟩ := ih (l + (h - l) / 2) h (by omega) hlen (by omega)
      refine ⟨.cond (if (h - l) / 2 > 1 then .range a.msgId b.msgId else .eq a.msgId) t1 t2, ?_, ?_⟩
      · intro started hst
        rw [fillTree]
        dsimp only
        rw [if_neg (by omega)]
        have : (!started && h == 1) = false := by
          rcases hst with rfl | hst
          · rfl
          · simp [hst]
        rw [this]
        simp only [Bool.false_eq_true, if_false]
        rw [if_pos hspan, ha, hb, e1 true (Or.inl rfl), e2 true (Or.inl rfl)]
        rfl
      · refine ⟨fun hh => by omega, fun _ => ⟨⟨_, _, _, rfl⟩, ?_⟩⟩
        intro id
        -- the low half
        have hlow : Dispatch list (l + (h - l) / 2) h id
            (if lowGuard id t2 then treeCalls id t2 else []) := by
          by_cases h1 : h = l + (h - l) / 2 + 1
          · obtain ⟨m, hm, rfl⟩ := k2.1 h1
            dsimp only [RCond.eval, lowGuard, treeCalls]
            by_cases hid : id = m.msgId
            · left
              exact ⟨_, m, Nat.le_refl _, by omega, hm, hid.symm, by simp [hid]⟩
            · right
              refine ⟨?_, by simp [hid]⟩
              intro k m' hk1 hk2 hm'
              have : k = l + (h - l) / 2 := by omega
              subst this
              rw [hm] at hm'; cases hm'
              exact fun h => hid h.symm
          · obtain ⟨⟨c, x, y, rfl⟩, hd⟩ := k2.2 (by omega)
            exact hd id
        by_cases hbig : (h - l) / 2 > 1
        · rw [if_pos hbig]
          obtain ⟨⟨c, x, y, ht1⟩, hd⟩ := k1.2 (by omega)
          rw [treeCalls]
          by_cases hc : a.msgId ≤ id ∧ id < b.msgId
          · rw [if_pos (by simp [RCond.eval, hc])]
            rcases hd id with ⟨k, m, g1, g2, g3, g4, g5⟩ | ⟨g1, g2⟩
            · exact Or.inl ⟨k, m, g1, by omega, g3, g4, g5⟩
            · refine Or.inr ⟨?_, g2⟩
              intro k m hk1 hk2 hm
              rcases Nat.lt_or_ge k (l + (h - l) / 2) with hk | hk
              · exact g1 k m hk1 hk hm
              · have := sorted_get hs hb hm hk
                omega
          · rw [if_neg (by simpa [RCond.eval] using hc)]
            rcases hlow with ⟨k, m, g1, g2, g3, g4, g5⟩ | ⟨g1, g2⟩
            · exact Or.inl ⟨k, m, by omega, g2, g3, g4, g5⟩
            · refine Or.inr ⟨?_, g2⟩
              intro k m hk1 hk2 hm
              rcases Nat.lt_or_ge k (l + (h - l) / 2) with hk | hk
              · have q1 := sorted_get hs ha hm hk1
                have q2 := sorted_get hs hm hb (by omega)
                intro hid
                subst hid
                -- then it equals the middle id, which the low half would have dispatched
                have : m.msgId = b.msgId := by
                  rcases Nat.lt_or_ge m.msgId b.msgId with q | q
                  · exact absurd ⟨q1, q⟩ hc
                  · omega
                exact g1 (l + (h - l) / 2) b (Nat.le_refl _) (by omega) hb this.symm
              · exact g1 k m hk hk2 hm
        · rw [if_neg hbig]
          have hhalf : (h - l) / 2 = 1 := by omega
          obtain ⟨m, hm, ht1⟩ := k1.1 (by omega)
          rw [ha] at hm; cases hm
          rw [treeCalls]
          by_cases hc : id = a.msgId
          · rw [if_pos (by simp [RCond.eval, hc])]
            left
            refine ⟨l, a, Nat.le_refl _, by omega, ha, hc.symm, ?_⟩
            rw [ht1]; rfl
          · rw [if_neg (by simpa [RCond.eval] using hc)]
            rcases hlow with ⟨k, m, g1, g2, g3, g4, g5⟩ | ⟨g1, g2⟩
            · exact Or.inl ⟨k, m, by omega, g2, g3, g4, g5⟩
            · refine Or.inr ⟨?_, g2⟩
              intro k m hk1 hk2 hm
              rcases Nat.lt_or_ge k (l + (h - l) / 2) with hk | hk
              · have : k = l := by omega
                subst this
                rw [ha] at hm; cases hm
                exact fun h => hc h.symm
              · exact g1 k m hk hk2 hm
    · refine ⟨.express (.eq a.msgId) a, ?_, ?_⟩
      · intro started hst
        rw [fillTree]
        dsimp only
        rw [if_neg (by omega)]
        have : (!started && h == 1) = false := by
          rcases hst with rfl | hst
          · rfl
          · simp [hst]
        rw [this]
        simp only [Bool.false_eq_true, if_false]
        rw [if_neg hspan, ha]
        rfl
      · exact ⟨fun _ => ⟨a, ha, rfl⟩, fun hh => by omega⟩

/-- The body of `Receive` dispatches correctly. -/
theorem receiveLines_ok (rx : List Msg) (hs : rx.Pairwise fun a b => a.msgId ≤ b.msgId)
    (hne : rx ≠ []) : ∃ ls, receiveLines rx = some ls ∧
      ∀ id, Dispatch rx 0 rx.length id (runLines id [] ls) := by
  have hpos : 0 < rx.length := List.length_pos_iff.2 hne
  unfold receiveLines
  rw [if_pos hpos]
  by_cases h1 : rx.length = 1
  · obtain ⟨m, rfl⟩ := List.length_eq_one_iff.1 h1
    refine ⟨_, rfl, ?_⟩
    intro id
    have e := runLines_skip id (.cond (.eq m.msgId) (.single m) .null) 1 [] []
    rw [List.append_nil] at e
    show Dispatch [m] 0 1 id (runLines id [] ((writeCode (.cond (.eq m.msgId) (.single m) .null) 1).map (·.2)))
    rw [e]
    simp only [List.all_nil, if_true, treeCalls, RCond.eval, runLines, List.append_nil]
    by_cases hid : id = m.msgId
    · exact Or.inl ⟨0, m, by omega, by omega, rfl, hid.symm, by simp [hid]⟩
    · refine Or.inr ⟨?_, by simp [hid]⟩
      intro k m' _ hk hm
      have : k = 0 := by omega
      subst this
      cases hm
      exact fun h => hid h.symm
  · obtain ⟨t, ht, hok⟩ := fill_ok rx hs (rx.length + 1) 0 rx.length hpos (Nat.le_refl _) (by omega)
    refine ⟨(writeCode t 1).map (·.2), ?_, ?_⟩
    · rw [ht false (Or.inr h1)]; rfl
    · intro id
      have e := runLines_skip id t 1 [] []
      rw [List.append_nil] at e
      rw [e]
      simp only [List.all_nil, if_true, runLines, List.append_nil]
      exact (hok.2 (by omega)).2 id

end Verif
