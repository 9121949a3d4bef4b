import Verif.Proofs.Split
/- Words, quoted texts, trimming, and the colon of a signal line. -/
namespace Verif
open Spec

theorem tokGo_fuel (f g : Nat) (s : Str) (hf : s.length < f) (hg : s.length < g) : tokGo f s = tokGo g s := by
  induction f generalizing g s with
  | zero => omega
  | succ f ih =>
    cases g with
    | zero => omega
    | succ g =>
      cases s with
      | nil => rfl
      | cons c cs =>
        simp only [List.length_cons] at hf hg
        simp only [tokGo]
        split
        · split
          · rw [ih g _ (by rw [List.length_drop]; omega) (by rw [List.length_drop]; omega)]
          · exact ih g _ (by omega) (by omega)
        · split
          · exact ih g _ (by omega) (by omega)
          · rename_i hq hw
            have : 0 < ((c :: cs).takeWhile fun x => !(isWs x || x == '"')).length := by
              have hp : (!(isWs c || c == '"')) = true := by
                simp only [Bool.not_eq_true] at hq hw
                rw [hq, hw]; rfl
              rw [List.takeWhile_cons_of_pos (by exact hp)]
              simp
            rw [ih g _ (by rw [List.length_drop, List.length_cons]; omega)
              (by rw [List.length_drop, List.length_cons]; omega)]

theorem tokens_nil : tokens [] = [] := rfl

theorem tokens_ws {c : Char} {s : Str} (h : isWs c = true) : tokens (c :: s) = tokens s := by
  unfold tokens
  rw [List.length_cons, tokGo]
  have hq : (c == '"') = false := by
    cases hc : c == '"' with
    | false => rfl
    | true => rw [beq_iff_eq] at hc; subst hc; revert h; decide
  rw [if_neg (by rw [hq]; decide), if_pos h]

/-- A character of a word. -/
def tokChar (c : Char) : Bool := !(isWs c || c == '"')

theorem tokens_word {w r : Str} (hne : w ≠ []) (hw : ∀ c ∈ w, tokChar c = true)
    (hr : ∀ c t, r = c :: t → tokChar c = false) : tokens (w ++ r) = w :: tokens r := by
  obtain ⟨c, cs, rfl⟩ := List.exists_cons_of_ne_nil hne
  have ht : (c :: cs ++ r).takeWhile (fun x => !(isWs x || x == '"')) = c :: cs := by
    rw [List.takeWhile_append_of_pos (by exact hw)]
    cases r with
    | nil => simp
    | cons x t =>
      rw [List.takeWhile_cons_of_neg (by have := hr x t rfl; unfold tokChar at this; rw [this]; decide), List.append_nil]
  have hc := hw c (by simp)
  unfold tokChar at hc
  simp only [Bool.not_eq_true', Bool.or_eq_false_iff] at hc
  unfold tokens
  rw [List.cons_append] at ht ⊢
  rw [List.length_cons, tokGo]
  rw [if_neg (by rw [hc.2]; decide), if_neg (by rw [hc.1]; decide)]
  dsimp only
  rw [ht]
  congr 1
  rw [← List.cons_append, List.drop_left]
  exact tokGo_fuel _ _ _ (by rw [List.length_append]; omega) (by omega)

theorem tokens_quoted {u r : Str} (hu : ∀ c ∈ u, c ≠ '"') :
    tokens ('"' :: (u ++ '"' :: r)) = ('"' :: u ++ ['"']) :: tokens r := by
  have hi : (u ++ '"' :: r).findIdx? (· == '"') = some u.length := by
    rw [List.findIdx?_append]
    have : u.findIdx? (· == '"') = none := by
      rw [List.findIdx?_eq_none_iff]
      intro x hx
      simpa using hu x hx
    rw [this]
    simp [List.findIdx?_cons]
  unfold tokens
  rw [List.length_cons, tokGo, if_pos (by decide), hi]
  dsimp only
  have ht : (u ++ '"' :: r).take (u.length + 1) = u ++ ['"'] := by
    rw [List.take_append, List.take_of_length_le (by omega)]
    simp
  have hd : (u ++ '"' :: r).drop (u.length + 1) = r := by
    rw [List.drop_append, List.drop_eq_nil_of_le (by omega)]
    simp
  rw [ht, hd]
  congr 1
  exact tokGo_fuel _ _ _ (by simp only [List.length_append, List.length_cons]; omega) (by omega)

/-! ### Trimming -/

theorem dropWhile_all {p : Char → Bool} {a x : Str} (ha : ∀ c ∈ a, p c = true)
    (hx : ∀ c t, x = c :: t → p c = false) : (a ++ x).dropWhile p = x := by
  induction a with
  | nil =>
    cases x with
    | nil => rfl
    | cons c t => rw [List.nil_append, List.dropWhile_cons_of_neg (by rw [hx c t rfl]; decide)]
  | cons b a ih =>
    rw [List.cons_append, List.dropWhile_cons_of_pos (ha b (by simp))]
    exact ih (fun c hc => ha c (by simp [hc]))

theorem trimWs_eq {a x b : Str} (ha : ∀ c ∈ a, isWs c = true) (hb : ∀ c ∈ b, isWs c = true)
    (hx : ∀ c t, x = c :: t → isWs c = false) (hl : ∀ c t, x = t ++ [c] → isWs c = false) (hne : x ≠ []) :
    trimWs (a ++ (x ++ b)) = x := by
  unfold trimWs
  have h1 : (a ++ (x ++ b)).reverse.dropWhile isWs = (a ++ x).reverse := by
    rw [← List.append_assoc, List.reverse_append]
    apply dropWhile_all (fun c hc => hb c (List.mem_reverse.mp hc))
    intro c t e
    rw [List.reverse_append] at e
    cases hxr : x.reverse with
    | nil => exact absurd (List.reverse_eq_nil_iff.mp hxr) hne
    | cons d ds =>
      rw [hxr] at e
      cases e
      apply hl c ds.reverse
      have := congrArg List.reverse hxr
      rw [List.reverse_reverse] at this
      rw [this]
      simp
  rw [h1, List.reverse_reverse]
  exact dropWhile_all ha hx

/-! ### The colon -/

/-- A colon and a blank in front. -/
def colonNext (r : Str) : Bool := r.head? == some ':' && r.tail.head?.any isWs

/-- A blank, a colon and a blank somewhere. -/
def colonSep : Str → Bool
  | [] => false
  | x :: r => (isWs x && colonNext r) || colonSep r

theorem colonNext_ne {q : Char} {s : Str} (h : q ≠ ':') : colonNext (q :: s) = false := by
  simp [colonNext, h]

theorem takeWhile_drop (p : Char → Bool) (s : Str) : s.takeWhile p ++ s.drop (s.takeWhile p).length = s := by
  induction s with
  | nil => rfl
  | cons c s ih =>
    by_cases h : p c
    · rw [List.takeWhile_cons_of_pos h, List.length_cons, List.drop_succ_cons, List.cons_append, ih]
    · rw [List.takeWhile_cons_of_neg h]; rfl

theorem mem_takeWhile {p : Char → Bool} {s : Str} {c : Char} (h : c ∈ s.takeWhile p) : p c = true := by
  induction s with
  | nil => cases h
  | cons x s ih =>
    by_cases hx : p x
    · rw [List.takeWhile_cons_of_pos hx] at h
      rcases List.mem_cons.mp h with rfl | h
      · exact hx
      · exact ih h
    · rw [List.takeWhile_cons_of_neg hx] at h; cases h

theorem colonSep_of_match {s : Str} {n : Nat} (h : mColon s = some n) : colonSep s = true := by
  unfold mColon at h
  dsimp only at h
  split at h
  · rename_i r hr
    split at h
    · cases h
    · rename_i hn
      have hs : s = s.takeWhile isWs ++ ':' :: r := by
        rw [← hr]; exact (takeWhile_drop isWs s).symm
      have hb : ∃ z t, r = z :: t ∧ isWs z = true := by
        cases r with
        | nil => simp at hn
        | cons z t =>
          refine ⟨z, t, rfl, ?_⟩
          cases hz : isWs z with
          | true => rfl
          | false => rw [List.takeWhile_cons_of_neg (by rw [hz]; decide)] at hn; simp at hn
      obtain ⟨z, t, rfl, hz⟩ := hb
      have ha : s.takeWhile isWs ≠ [] := by intro e; rw [e] at hn; simp at hn
      have hall : ∀ c ∈ s.takeWhile isWs, isWs c = true := fun c hc => mem_takeWhile hc
      rw [hs]
      generalize s.takeWhile isWs = a at ha hall
      clear hs hr hn h
      induction a with
      | nil => exact absurd rfl ha
      | cons x a ih =>
        cases a with
        | nil => simp [colonSep, colonNext, hall x (by simp), hz]
        | cons y a =>
          rw [List.cons_append, colonSep, ih (by simp) (fun c hc => hall c (by simp [hc])), Bool.or_true]
  · cases h

theorem colonSep_left {q : Char} {a s : Str} (ha : ∀ c ∈ a, c ≠ ':') (hq : q ≠ ':') (hqw : isWs q = false) :
    colonSep (a ++ q :: s) = colonSep s := by
  induction a with
  | nil => rw [List.nil_append, colonSep, hqw]; simp
  | cons x a ih =>
    rw [List.cons_append, colonSep, ih (fun c hc => ha c (by simp [hc]))]
    have : colonNext (a ++ q :: s) = false := by
      cases a with
      | nil => exact colonNext_ne hq
      | cons y a => exact colonNext_ne (ha y (by simp))
    rw [this]; simp

theorem colonSep_none {s : Str} (h : ∀ c ∈ s, c ≠ ':') : colonSep s = false := by
  induction s with
  | nil => rfl
  | cons x s ih =>
    rw [colonSep, ih (fun c hc => h c (by simp [hc]))]
    have : colonNext s = false := by
      cases s with
      | nil => rfl
      | cons y s => exact colonNext_ne (h y (by simp))
    rw [this]; simp

theorem colonSep_right {q : Char} {u s : Str} (hu : colonSep u = false) (hs : ∀ c ∈ s, c ≠ ':') (hq : q ≠ ':')
    (hqw : isWs q = false) : colonSep (u ++ q :: s) = false := by
  induction u with
  | nil =>
    refine colonSep_none ?_
    intro c hc
    rcases List.mem_cons.mp hc with rfl | hc
    · exact hq
    · exact hs c hc
  | cons x u ih =>
    rw [colonSep, Bool.or_eq_false_iff] at hu
    rw [List.cons_append, colonSep, ih hu.2, Bool.or_false]
    cases u with
    | nil => rw [List.nil_append, colonNext_ne hq]; simp
    | cons y u =>
      cases u with
      | nil =>
        have : colonNext ([y] ++ q :: s) = false := by simp [colonNext, hqw]
        rw [this]; simp
      | cons z u => exact hu.1

theorem resplit_colon_last {s : Str} (h : colonSep s = false) : resplit mColon s = [s] := by
  apply resplit_none
  intro x y e hy
  cases hm : mColon y with
  | none => rfl
  | some n =>
    have h1 := colonSep_of_match hm
    have h2 : ∀ x, colonSep (x ++ y) = true := by
      intro x
      induction x with
      | nil => exact h1
      | cons c x ih => rw [List.cons_append, colonSep, ih, Bool.or_true]
    rw [e, h2 x] at h
    cases h

/-- Splitting at the first colon with blanks. -/
theorem resplit_colon {a b : Str} (ha : ∀ c ∈ a, c ≠ ':') (hl : ∀ c t, a = t ++ [c] → isWs c = false)
    (hb : ∀ c t, b = c :: t → isWs c = false) :
    resplit mColon (a ++ (" : ".toList ++ b)) = a :: restSplit mColon b := by
  apply resplit_step posMatch_colon
  · intro x y e hy
    have hyc : ∀ c ∈ y, c ≠ ':' := fun c hc => ha c (by rw [e]; simp [hc])
    have hyl : ∀ c t, y = t ++ [c] → isWs c = false := fun c t h => hl c (x ++ t) (by rw [e, h, List.append_assoc])
    -- the blanks at the front of `y` end inside `y`, and what follows is no colon
    have key : ∃ w c t, y = w ++ c :: t ∧ (∀ d ∈ w, isWs d = true) ∧ isWs c = false := by
      clear e ha hl hyc
      induction y with
      | nil => exact absurd rfl hy
      | cons c t ih =>
        by_cases hc : isWs c
        · have ht : t ≠ [] := by
            rintro rfl
            have := hyl c [] rfl
            rw [this] at hc; cases hc
          obtain ⟨w, d, t', e, hw, hd⟩ := ih ht (fun d t' h => hyl d (c :: t') (by rw [h]; rfl))
          refine ⟨c :: w, d, t', by rw [e]; rfl, ?_, hd⟩
          intro z hz
          rcases List.mem_cons.mp hz with rfl | hz
          · exact hc
          · exact hw z hz
        · exact ⟨[], c, t, rfl, by simp, by simpa using hc⟩
    obtain ⟨w, c, t, rfl, hw, hc⟩ := key
    have hcc : c ≠ ':' := hyc c (by simp)
    unfold mColon
    have htk : (w ++ c :: t ++ (" : ".toList ++ b)).takeWhile isWs = w := by
      rw [List.append_assoc, List.takeWhile_append_of_pos hw, List.cons_append,
        List.takeWhile_cons_of_neg (by rw [hc]; decide), List.append_nil]
    dsimp only
    rw [htk, List.append_assoc, List.drop_left, List.cons_append]
    split
    · rename_i heq; cases heq; exact absurd rfl hcc
    · rfl
  · show mColon (' ' :: ':' :: ' ' :: b) = some 3
    have h1 : (' ' :: ':' :: ' ' :: b).takeWhile isWs = [' '] := by
      rw [List.takeWhile_cons_of_pos (by decide), List.takeWhile_cons_of_neg (by decide)]
    have h2 : (' ' :: b).takeWhile isWs = [' '] := by
      rw [List.takeWhile_cons_of_pos (by decide)]
      cases b with
      | nil => rfl
      | cons c t => rw [List.takeWhile_cons_of_neg (by rw [hb c t rfl]; decide)]
    unfold mColon
    rw [h1]
    show (if 0 + 1 = 0 ∨ (List.takeWhile isWs (' ' :: b)).length = 0 then none
      else some (0 + 1 + 1 + (List.takeWhile isWs (' ' :: b)).length)) = some 3
    rw [h2]
    rfl

end Verif
