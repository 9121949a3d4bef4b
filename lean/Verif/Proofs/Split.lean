import Verif.Model.Split
import Verif.Proofs.Digits
/- Splitting into pieces. -/
namespace Verif
open Spec

/-- A pattern whose matches are not empty. -/
def PosMatch (m : Str → Option Nat) : Prop := ∀ s n, m s = some n → 0 < n

theorem posMatch_one (p : Char → Bool) : PosMatch (mOne p) := by
  intro s n h
  cases s with
  | nil => cases h
  | cons c cs =>
    by_cases hp : p c
    · rw [mOne, if_pos hp] at h; cases h; omega
    · rw [mOne, if_neg hp] at h; cases h

theorem posMatch_run (p : Char → Bool) : PosMatch (mRun p) := by
  intro s n h
  unfold mRun at h
  split at h
  · cases h
  · cases h; omega

theorem posMatch_colon : PosMatch mColon := by
  intro s n h
  unfold mColon at h
  dsimp only at h
  split at h
  · split at h
    · cases h
    · cases h; omega
  · cases h

/-- Enough fuel is enough. -/
theorem splitGo_fuel {m : Str → Option Nat} (hm : PosMatch m) (f g : Nat) (hit : Bool) (acc s : Str)
    (hf : s.length < f) (hg : s.length < g) : splitGo m f hit acc s = splitGo m g hit acc s := by
  induction f generalizing g hit acc s with
  | zero => omega
  | succ f ih =>
    cases g with
    | zero => omega
    | succ g =>
      cases s with
      | nil => rfl
      | cons c cs =>
        simp only [splitGo]
        cases h : m (c :: cs) with
        | none => dsimp only; exact ih g hit _ cs (by simpa using hf) (by simpa using hg)
        | some n =>
          dsimp only
          have := hm _ _ h
          rw [ih g true [] ((c :: cs).drop n)]
          · rw [List.length_drop]; simp only [List.length_cons] at *; omega
          · rw [List.length_drop]; simp only [List.length_cons] at *; omega

/-- No match starts in `a`. -/
theorem splitGo_skip {m : Str → Option Nat} (a r : Str) (f : Nat) (hit : Bool) (acc : Str)
    (h : ∀ x y, a = x ++ y → y ≠ [] → m (y ++ r) = none) :
    splitGo m (f + a.length) hit acc (a ++ r) = splitGo m f hit (a.reverse ++ acc) r := by
  induction a generalizing acc with
  | nil => rfl
  | cons c cs ih =>
    rw [List.length_cons, ← Nat.add_assoc, List.cons_append, splitGo,
      show m (c :: (cs ++ r)) = none from h [] (c :: cs) rfl (by simp)]
    dsimp only
    rw [ih]
    · simp
    · intro x y e hy
      exact h (c :: x) y (by rw [e]; rfl) hy

/-- The pieces after a match. -/
def restSplit (m : Str → Option Nat) (s : Str) : List Str := if s = [] then [] else resplit m s

theorem splitGo_hit (m : Str → Option Nat) (f : Nat) (acc s : Str) (h : acc ≠ [] ∨ s ≠ []) :
    splitGo m f true acc s = splitGo m f false acc s := by
  induction f generalizing acc s with
  | zero => rfl
  | succ f ih =>
    cases s with
    | nil =>
      have ha : acc ≠ [] := by
        rcases h with h | h
        · exact h
        · exact absurd rfl h
      cases acc with
      | nil => exact absurd rfl ha
      | cons a as => rfl
    | cons c cs =>
      simp only [splitGo]
      split
      · rfl
      · exact ih _ _ (Or.inl (by simp))

/-- A text without match is one piece. -/
theorem resplit_none {m : Str → Option Nat} (s : Str)
    (h : ∀ x y, s = x ++ y → y ≠ [] → m y = none) : resplit m s = [s] := by
  unfold resplit
  have := splitGo_skip (m := m) s [] 1 false [] (by
    intro x y e hy
    rw [List.append_nil]
    exact h x y e hy)
  rw [List.append_nil] at this
  rw [Nat.add_comm, this]
  simp [splitGo]

/-- The first piece ends at the first match. -/
theorem resplit_step {m : Str → Option Nat} (hm : PosMatch m) (a d b : Str)
    (h : ∀ x y, a = x ++ y → y ≠ [] → m (y ++ (d ++ b)) = none) (hd : m (d ++ b) = some d.length) :
    resplit m (a ++ (d ++ b)) = a :: restSplit m b := by
  have hpos := hm _ _ hd
  unfold resplit
  have hlen : (a ++ (d ++ b)).length + 1 = (d.length + b.length + 1) + a.length := by
    simp only [List.length_append]; omega
  rw [hlen, splitGo_skip (m := m) a (d ++ b) _ false [] h, List.append_nil]
  cases hdb : d ++ b with
  | nil => rw [List.append_eq_nil_iff] at hdb; rw [hdb.1] at hpos; cases hpos
  | cons c cs =>
    rw [splitGo, ← hdb, hd]
    dsimp only
    rw [List.reverse_reverse, List.drop_left]
    congr 1
    unfold restSplit
    split
    · rename_i hb
      subst hb
      obtain ⟨k, hk⟩ : ∃ k, d.length + List.length (α := Char) [] = k + 1 := ⟨d.length - 1, by simp; omega⟩
      rw [hk, splitGo]; rfl
    · rename_i hb
      rw [splitGo_hit _ _ _ _ (Or.inr hb)]
      exact splitGo_fuel hm _ _ _ _ _ (by omega) (by omega)

theorem restSplit_step {m : Str → Option Nat} (hm : PosMatch m) (a d b : Str)
    (h : ∀ x y, a = x ++ y → y ≠ [] → m (y ++ (d ++ b)) = none) (hd : m (d ++ b) = some d.length) :
    restSplit m (a ++ (d ++ b)) = a :: restSplit m b := by
  have hpos := hm _ _ hd
  have : a ++ (d ++ b) ≠ [] := by
    intro e
    rw [List.append_eq_nil_iff, List.append_eq_nil_iff] at e
    rw [e.2.1] at hpos
    cases hpos
  conv => lhs; unfold restSplit
  rw [if_neg this, resplit_step hm a d b h hd]

theorem restSplit_none {m : Str → Option Nat} (s : Str) (hs : s ≠ [])
    (h : ∀ x y, s = x ++ y → y ≠ [] → m y = none) : restSplit m s = [s] := by
  unfold restSplit
  rw [if_neg hs, resplit_none s h]

/-! Patterns of one character class. -/

theorem mOne_none {p : Char → Bool} {a r : Str} (h : ∀ c ∈ a, p c = false) :
    ∀ x y, a = x ++ y → y ≠ [] → mOne p (y ++ r) = none := by
  intro x y e hy
  cases y with
  | nil => exact absurd rfl hy
  | cons c cs =>
    have : p c = false := h c (by rw [e]; simp)
    simp [mOne, this]

theorem mRun_none {p : Char → Bool} {a r : Str} (h : ∀ c ∈ a, p c = false) :
    ∀ x y, a = x ++ y → y ≠ [] → mRun p (y ++ r) = none := by
  intro x y e hy
  cases y with
  | nil => exact absurd rfl hy
  | cons c cs =>
    have : p c = false := h c (by rw [e]; simp)
    simp [mRun, this]

theorem mRun_some {p : Char → Bool} {d b : Str} (hd : ∀ c ∈ d, p c = true) (hne : d ≠ [])
    (hb : ∀ c r, b = c :: r → p c = false) : mRun p (d ++ b) = some d.length := by
  have ht : (d ++ b).takeWhile p = d := by
    rw [List.takeWhile_append_of_pos hd]
    cases b with
    | nil => simp
    | cons c r => rw [List.takeWhile_cons_of_neg (by rw [hb c r rfl]; decide), List.append_nil]
  unfold mRun
  rw [ht, if_neg (by simpa using hne)]

/-- Splitting at single characters. -/
theorem resplit_one {p : Char → Bool} {a b : Str} {c : Char} (ha : ∀ x ∈ a, p x = false) (hc : p c = true) :
    resplit (mOne p) (a ++ c :: b) = a :: restSplit (mOne p) b :=
  resplit_step (posMatch_one p) a [c] b (mOne_none ha) (by simp [mOne, hc])

theorem restSplit_one {p : Char → Bool} {a b : Str} {c : Char} (ha : ∀ x ∈ a, p x = false) (hc : p c = true) :
    restSplit (mOne p) (a ++ c :: b) = a :: restSplit (mOne p) b :=
  restSplit_step (posMatch_one p) a [c] b (mOne_none ha) (by simp [mOne, hc])

theorem resplit_one_last {p : Char → Bool} {a : Str} (ha : ∀ x ∈ a, p x = false) :
    resplit (mOne p) a = [a] :=
  resplit_none a (fun x y e hy => by simpa using mOne_none (r := []) ha x y e hy)

theorem restSplit_one_last {p : Char → Bool} {a : Str} (h : a ≠ []) (ha : ∀ x ∈ a, p x = false) :
    restSplit (mOne p) a = [a] :=
  restSplit_none a h (fun x y e hy => by simpa using mOne_none (r := []) ha x y e hy)

/-- Splitting at runs. -/
theorem resplit_run {p : Char → Bool} {a d b : Str} (ha : ∀ x ∈ a, p x = false)
    (hd : ∀ c ∈ d, p c = true) (hne : d ≠ []) (hb : ∀ c r, b = c :: r → p c = false) :
    resplit (mRun p) (a ++ (d ++ b)) = a :: restSplit (mRun p) b :=
  resplit_step (posMatch_run p) a d b (mRun_none ha) (mRun_some hd hne hb)

theorem restSplit_run {p : Char → Bool} {a d b : Str} (ha : ∀ x ∈ a, p x = false)
    (hd : ∀ c ∈ d, p c = true) (hne : d ≠ []) (hb : ∀ c r, b = c :: r → p c = false) :
    restSplit (mRun p) (a ++ (d ++ b)) = a :: restSplit (mRun p) b :=
  restSplit_step (posMatch_run p) a d b (mRun_none ha) (mRun_some hd hne hb)

theorem resplit_run_last {p : Char → Bool} {a : Str} (ha : ∀ x ∈ a, p x = false) :
    resplit (mRun p) a = [a] :=
  resplit_none a (fun x y e hy => by simpa using mRun_none (r := []) ha x y e hy)

theorem restSplit_run_last {p : Char → Bool} {a : Str} (h : a ≠ []) (ha : ∀ x ∈ a, p x = false) :
    restSplit (mRun p) a = [a] :=
  restSplit_none a h (fun x y e hy => by simpa using mRun_none (r := []) ha x y e hy)

/-- There is always a piece. -/
theorem resplit_ne_nil (m : Str → Option Nat) (s : Str) : resplit m s ≠ [] := by
  unfold resplit
  suffices ∀ f acc s, splitGo m (f + 1) false acc s ≠ [] from this _ _ _
  intro f
  induction f with
  | zero =>
    intro acc s
    cases s with
    | nil => simp [splitGo]
    | cons c cs => simp only [splitGo]; split <;> simp
  | succ f ih =>
    intro acc s
    cases s with
    | nil => simp [splitGo]
    | cons c cs =>
      rw [splitGo]
      split
      · simp
      · exact ih _ _

/-! ### Numbers -/

theorem isDig_iff (c : Char) : isDig c = true ↔ IsDigit c := by
  unfold isDig IsDigit
  simp

theorem decVal_eq (s : Str) : decVal s = digitsVal s := rfl

theorem isDig_not_ws {c : Char} (h : IsDigit c) : isWs c = false := by
  unfold IsDigit at h
  unfold isWs
  have h1 : c ≠ ' ' := by rintro rfl; revert h; decide
  have h2 : ¬ c.toNat ≤ 13 := by omega
  simp [h1, h2]

/-- A number followed by something that is no digit. -/
theorem intPrefix_nat (n : Nat) (r : Str) (hr : ∀ c t, r = c :: t → ¬ IsDigit c) :
    intPrefix (decStr n ++ r) = n := by
  obtain ⟨h1, h2, h3, -⟩ := decStr_spec n
  obtain ⟨c, cs, hc⟩ := List.exists_cons_of_ne_nil h1
  have hcd : IsDigit c := h2 c (by rw [hc]; simp)
  unfold intPrefix
  have hdw : (decStr n ++ r).dropWhile isWs = decStr n ++ r := by
    rw [hc, List.cons_append, List.dropWhile_cons_of_neg (by rw [isDig_not_ws hcd]; decide)]
  rw [hdw]
  have htk : (decStr n ++ r).takeWhile isDig = decStr n := by
    rw [List.takeWhile_append_of_pos (fun x hx => (isDig_iff x).mpr (h2 x hx))]
    cases r with
    | nil => simp
    | cons x t =>
      rw [List.takeWhile_cons_of_neg (fun h => hr x t rfl ((isDig_iff x).mp h)), List.append_nil]
  have hm : c ≠ '-' := by rintro rfl; revert hcd; decide
  have hp : c ≠ '+' := by rintro rfl; revert hcd; decide
  split
  · rename_i heq; rw [hc, List.cons_append] at heq; cases heq; exact absurd rfl hm
  · rename_i heq; rw [hc, List.cons_append] at heq; cases heq; exact absurd rfl hp
  · rw [htk, decVal_eq, h3]

theorem intPrefix_decStr (n : Nat) : intPrefix (decStr n) = n := by
  have := intPrefix_nat n [] (by intro c t h; cases h)
  rwa [List.append_nil] at this

theorem atoi_decStr (P : Platform) {n : Nat} (h : n < 2 ^ 31) : atoi P (decStr n) = n := by
  unfold atoi
  rw [intPrefix_decStr, if_pos ⟨by omega, by omega⟩]

theorem atoll_decStr (P : Platform) {n : Nat} (h : n < 2 ^ 63) : atoll P (decStr n) = n := by
  unfold atoll
  rw [intPrefix_decStr, if_pos ⟨by omega, by omega⟩]

theorem toU32_nat (n : Nat) : toU32 (n : Int) = n % 2 ^ 32 := by unfold toU32; omega
theorem toU8_nat (n : Nat) : toU8 (n : Int) = n % 2 ^ 8 := by unfold toU8; omega
theorem toU32_lt (z : Int) : toU32 z < 2 ^ 32 := by unfold toU32; omega
theorem toU8_lt (z : Int) : toU8 z < 2 ^ 8 := by unfold toU8; omega

theorem clearMsgId_eq (n : Nat) : clearMsgId n = n % 2 ^ 29 := by
  unfold clearMsgId
  exact Nat.and_two_pow_sub_one_eq_mod n 29

end Verif
