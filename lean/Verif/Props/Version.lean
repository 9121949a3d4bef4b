import Verif.Props.Statements
/-
Versions: C42 (reading), C49.
-/
namespace Verif
open Spec

theorem takeWhile_run {p : Char → Bool} {a r : Str} (ha : ∀ c ∈ a, p c = true) (hr : ∀ c r', r = c :: r' → p c = false) :
    (a ++ r).takeWhile p = a ∧ (a ++ r).dropWhile p = r := by
  induction a with
  | nil =>
    cases r with
    | nil => exact ⟨rfl, rfl⟩
    | cons c r => simp [hr c r rfl]
  | cons c a ih =>
    obtain ⟨h1, h2⟩ := ih (fun x hx => ha x (by simp [hx]))
    have hc := ha c (by simp)
    simp [hc, h1, h2]

theorem isDig_not_alpha {c : Char} (h : isDig c = true) : isAlpha c = false ∧ isWs c = false ∧ c ≠ '"' := by
  unfold isDig at h
  unfold isAlpha isWs
  simp only [Bool.and_eq_true, decide_eq_true_eq] at h
  refine ⟨?_, ?_, ?_⟩
  · simp only [Bool.or_eq_false_iff, Bool.and_eq_false_iff, decide_eq_false_iff_not]
    omega
  · simp only [Bool.or_eq_false_iff, Bool.and_eq_false_iff, decide_eq_false_iff_not, beq_eq_false_iff_ne]
    refine ⟨?_, by omega⟩
    rintro rfl
    exact absurd h.1 (by decide)
  · rintro rfl
    exact absurd h.1 (by decide)

theorem isWs_not_alpha {c : Char} (h : isWs c = true) : isAlpha c = false := by
  unfold isWs at h
  unfold isAlpha
  simp only [Bool.or_eq_true, Bool.and_eq_true, decide_eq_true_eq, beq_iff_eq] at h
  simp only [Bool.or_eq_false_iff, Bool.and_eq_false_iff, decide_eq_false_iff_not]
  rcases h with rfl | h
  · decide
  · omega

theorem optQuote_split (q : Str) (hq : q = [] ∨ q = ['"']) (r : Str) (hr : ∀ c r', r = c :: r' → c ≠ '"') : optQuote (q ++ r) = r := by
  rcases hq with rfl | rfl
  · cases r with
    | nil => rfl
    | cons c r =>
      unfold optQuote
      split
      · rename_i e
        rw [List.nil_append] at e
        injection e with e _
        exact absurd e (hr _ _ rfl)
      · rfl
  · rfl

theorem optQuote_of (r : Str) : ∃ q, (q = [] ∨ q = ['"']) ∧ r = q ++ optQuote r := by
  unfold optQuote
  split
  · exact ⟨['"'], Or.inr rfl, rfl⟩
  · exact ⟨[], Or.inl rfl, rfl⟩

/-- The shape in terms of the matcher's character classes. -/
def VersionShape' (line word a b : Str) : Prop :=
  ∃ blanks q1 sep q2, line = word ++ blanks ++ q1 ++ a ++ sep ++ b ++ q2 ∧
    word ≠ [] ∧ (∀ c ∈ word, isAlpha c = true) ∧ (∀ c ∈ blanks, isWs c = true) ∧ (q1 = [] ∨ q1 = ['"']) ∧
    a ≠ [] ∧ (∀ c ∈ a, isDig c = true) ∧ sep ≠ [] ∧ (∀ c ∈ sep, isDig c = false) ∧
    b ≠ [] ∧ (∀ c ∈ b, isDig c = true) ∧ (q2 = [] ∨ q2 = ['"'])

theorem isDig_spec (c : Char) : isDig c = true ↔ IsDigit c := by
  unfold isDig IsDigit; simp

theorem versionShape_iff (l w a b : Str) : VersionShape' l w a b ↔ VersionShape l w a b := by
  have h1 : ∀ c, isAlpha c = true ↔ IsAlphaC c := by
    intro c; unfold isAlpha IsAlphaC; simp; omega
  have h2 : ∀ c, isWs c = true ↔ IsBlankC c := by
    intro c; unfold isWs IsBlankC; simp
  have h3 : ∀ c, isDig c = false ↔ ¬ IsDigit c := by
    intro c; rw [← isDig_spec]; simp
  unfold VersionShape' VersionShape
  simp only [h1, h2, h3, isDig_spec]

theorem matchVersion_iff' (l w a b : Str) : matchVersion l = some (w, a, b) ↔ VersionShape' l w a b := by
  constructor
  · intro h
    unfold matchVersion at h
    dsimp only at h
    obtain ⟨q1, hq1, e1⟩ := optQuote_of ((l.dropWhile isAlpha).dropWhile isWs)
    generalize hr1 : optQuote ((l.dropWhile isAlpha).dropWhile isWs) = r1 at h e1
    generalize hr3 : (r1.dropWhile isDig).dropWhile (fun c => !isDig c) = r3 at h
    split at h
    · rename_i hc
      obtain ⟨c1, c2, c3, c4, c5⟩ := hc
      injection h with h
      injection h with h1 h
      injection h with h2 h3
      subst h1 h2 h3
      refine ⟨(l.dropWhile isAlpha).takeWhile isWs, q1, (r1.dropWhile isDig).takeWhile (fun c => !isDig c), r3.dropWhile isDig, ?_,
        c1, fun c hc => ?_, fun c hc => ?_, hq1, c2, fun c hc => ?_, c3, fun c hc => ?_, c4, fun c hc => ?_, c5⟩
      · have t1 := List.takeWhile_append_dropWhile (p := isAlpha) (l := l)
        have t2 := List.takeWhile_append_dropWhile (p := isWs) (l := l.dropWhile isAlpha)
        have t3 := List.takeWhile_append_dropWhile (p := isDig) (l := r1)
        have t4 := List.takeWhile_append_dropWhile (p := fun c => !isDig c) (l := r1.dropWhile isDig)
        have t5 := List.takeWhile_append_dropWhile (p := isDig) (l := r3)
        simp only [List.append_assoc]
        rw [t5, ← hr3, t4, t3, ← e1, t2, t1]
      · exact mem_takeWhile hc
      · exact mem_takeWhile hc
      · exact mem_takeWhile hc
      · simpa using mem_takeWhile hc
      · exact mem_takeWhile hc
    · cases h
  · rintro ⟨bl, q1, sep, q2, rfl, w1, w2, b2, hq1, a1, a2, s1, s2, d1, d2, hq2⟩
    obtain ⟨xa, xs, hxa⟩ := List.exists_cons_of_ne_nil a1
    obtain ⟨ys, yss, hys⟩ := List.exists_cons_of_ne_nil s1
    obtain ⟨zb, zbs, hzb⟩ := List.exists_cons_of_ne_nil d1
    have da := isDig_not_alpha (a2 xa (by rw [hxa]; simp))
    have hrest : ∀ c r', a ++ (sep ++ (b ++ q2)) = c :: r' → isAlpha c = false ∧ isWs c = false ∧ c ≠ '"' := by
      intro c r' e
      rw [hxa] at e
      injection e with e _
      rw [← e]; exact da
    have hq : ∀ c r', q1 ++ (a ++ (sep ++ (b ++ q2))) = c :: r' → isAlpha c = false ∧ isWs c = false := by
      intro c r' e
      rcases hq1 with rfl | rfl
      · exact ⟨(hrest c r' e).1, (hrest c r' e).2.1⟩
      · injection e with e _
        rw [← e]
        exact ⟨by decide, by decide⟩
    have hb : ∀ c r', bl ++ (q1 ++ (a ++ (sep ++ (b ++ q2)))) = c :: r' → isAlpha c = false := by
      intro c r' e
      cases bl with
      | nil => exact (hq c r' e).1
      | cons x xs =>
        injection e with e _
        rw [← e]
        exact isWs_not_alpha (b2 x (by simp))
    have k1 := takeWhile_run w2 hb
    have k2 := takeWhile_run b2 (fun c r' e => (hq c r' e).2)
    have k3 := optQuote_split q1 hq1 _ (fun c r' e => (hrest c r' e).2.2)
    have k4 := takeWhile_run (r := sep ++ (b ++ q2)) a2 (fun c r' e => by
      rw [hys] at e; injection e with e _; rw [← e]; exact s2 ys (by rw [hys]; simp))
    have k5 := takeWhile_run (p := fun c => !isDig c) (a := sep) (r := b ++ q2) (fun c hc => by rw [s2 c hc]; rfl) (fun c r' e => by
      rw [hzb] at e; injection e with e _; rw [← e, d2 zb (by rw [hzb]; simp)]; rfl)
    have k6 := takeWhile_run (r := q2) d2 (fun c r' e => by
      rcases hq2 with rfl | rfl
      · cases e
      · injection e with e _; rw [← e]; decide)
    unfold matchVersion
    dsimp only
    simp only [List.append_assoc]
    rw [k1.1, k1.2, k2.2, k3, k4.1, k4.2, k5.1, k5.2, k6.1, k6.2, if_pos ⟨w1, a1, s1, d1, hq2⟩]

/-- The matcher finds exactly the lines of the shape. -/
theorem matchVersion_iff (l w a b : Str) : matchVersion l = some (w, a, b) ↔ VersionShape l w a b :=
  (matchVersion_iff' l w a b).trans (versionShape_iff l w a b)

theorem lower_one (c d : Char) (hd : 97 ≤ d.toNat ∧ d.toNat ≤ 122) :
    lowerChar c = d ↔ (c = d ∨ (65 ≤ c.toNat ∧ c.toNat ≤ 90 ∧ c.toNat + 32 = d.toNat)) := by
  have hA : ('A' ≤ c ∧ c ≤ 'Z') ↔ (65 ≤ c.toNat ∧ c.toNat ≤ 90) := by
    simp only [Char.le_def, UInt32.le_iff_toNat_le]
    rfl
  unfold lowerChar
  by_cases h : 'A' ≤ c ∧ c ≤ 'Z'
  · rw [if_pos h]
    rw [hA] at h
    have hv : (Char.ofNat (c.toNat + 32)).toNat = c.toNat + 32 := by
      have hv : (c.toNat + 32).isValidChar := Or.inl (by omega)
      unfold Char.ofNat
      rw [dif_pos hv]
      rfl
    constructor
    · rintro rfl
      exact Or.inr ⟨h.1, h.2, hv.symm⟩
    · rintro (rfl | ⟨-, -, e⟩)
      · omega
      · apply Char.toNat_inj.mp
        rw [hv, e]
  · rw [if_neg h]
    rw [hA] at h
    constructor
    · exact Or.inl
    · rintro (e | e)
      · exact e
      · exact absurd ⟨e.1, e.2.1⟩ h

theorem sameLetters_iff (w k : Str) (hk : ∀ d ∈ k, 97 ≤ d.toNat ∧ d.toNat ≤ 122) : strLower w = k ↔ SameLetters w k := by
  unfold strLower
  induction k generalizing w with
  | nil =>
    cases w with
    | nil => simp [SameLetters]
    | cons c w => simp [SameLetters]
  | cons d k ih =>
    cases w with
    | nil => simp [SameLetters]
    | cons c w =>
      rw [List.map_cons, SameLetters, ← ih w (fun x hx => hk x (by simp [hx])), ← lower_one c d (hk d (by simp))]
      simp

theorem version_letters (w : Str) : strLower w = "version".toList ↔ SameLetters w "version".toList :=
  sameLetters_iff w _ (by decide)

/-- A line with a number of the version shape that is too large for `unsigned long`. -/
def TooLarge (P : Platform) (l : Str) : Prop :=
  ∃ w a b, VersionShape l w a b ∧ (P.ulongMax < digitsVal a ∨ P.ulongMax < digitsVal b)

theorem findVersion_cases (P : Platform) (l : Str) :
    (findVersion P l = .throws ∧ TooLarge P l) ∨
    (¬ TooLarge P l ∧ ((∃ a b, StatesVersion l a b ∧ findVersion P l = .ok (some (a % 2 ^ 32, b % 2 ^ 32))) ∨
      ((¬ ∃ a b, StatesVersion l a b) ∧ findVersion P l = .ok none))) := by
  unfold findVersion
  cases hm : matchVersion l with
  | none =>
    have hno : ∀ w a b, ¬ VersionShape l w a b := by
      intro w a b h
      rw [← matchVersion_iff, hm] at h
      cases h
    refine Or.inr ⟨?_, Or.inr ⟨?_, rfl⟩⟩
    · rintro ⟨w, a, b, h, -⟩; exact hno _ _ _ h
    · rintro ⟨_, _, w, a, b, h, -⟩; exact hno _ _ _ h
  | some r =>
    obtain ⟨w, a, b⟩ := r
    have hsh := (matchVersion_iff l w a b).mp hm
    have huniq : ∀ w' a' b', VersionShape l w' a' b' → w' = w ∧ a' = a ∧ b' = b := by
      intro w' a' b' h
      rw [← matchVersion_iff, hm] at h
      injection h with h
      injection h with h1 h
      injection h with h2 h3
      exact ⟨h1.symm, h2.symm, h3.symm⟩
    dsimp only
    rw [decVal_eq, decVal_eq]
    by_cases hl : P.ulongMax < digitsVal a ∨ P.ulongMax < digitsVal b
    · rw [if_pos hl]
      exact Or.inl ⟨rfl, w, a, b, hsh, hl⟩
    · rw [if_neg hl]
      refine Or.inr ⟨?_, ?_⟩
      · rintro ⟨w', a', b', h, h2⟩
        obtain ⟨rfl, rfl, rfl⟩ := huniq _ _ _ h
        exact hl h2
      · by_cases hv : strLower w = "version".toList
        · rw [if_pos hv]
          exact Or.inl ⟨digitsVal a, digitsVal b, ⟨w, a, b, hsh, (version_letters w).mp hv, rfl, rfl⟩, rfl⟩
        · rw [if_neg hv]
          refine Or.inr ⟨?_, rfl⟩
          rintro ⟨_, _, w', a', b', h, h2, -⟩
          obtain ⟨rfl, rfl, rfl⟩ := huniq _ _ _ h
          exact hv ((version_letters _).mpr h2)

theorem states_unique {l : Str} {a b a' b' : Nat} (h : StatesVersion l a b) (h' : StatesVersion l a' b') : a = a' ∧ b = b' := by
  obtain ⟨w, x, y, h1, -, h2, h3⟩ := h
  obtain ⟨w', x', y', g1, -, g2, g3⟩ := h'
  rw [← matchVersion_iff] at h1 g1
  rw [h1] at g1
  injection g1 with g1
  injection g1 with g1 g4
  injection g4 with g4 g5
  subst g4 g5
  exact ⟨h2.symm.trans g2, h3.symm.trans g3⟩

/-! ### Through the scanner -/

def Scan.ver (st : Scan) : Nat × Nat := (st.list.verHi, st.list.verLow)

theorem transStep_ver (P : Platform) (st : Scan) (l : Str) : (transStep P st l).ver = st.ver := by
  unfold transStep
  generalize parseMultiTrans P l = r
  obtain ⟨id, nodes⟩ := r
  dsimp only
  split <;> rfl

theorem scanBody_ver {P : Platform} {st st' : Scan} {l : Str} (h : scanBody P st l = .ok st') : st'.ver = st.ver := by
  unfold scanBody at h
  dsimp only at h
  have e : (if isMessageLine l then headerStep P st l else st).ver = st.ver := by
    split <;> rfl
  generalize (if isMessageLine l then headerStep P st l else st) = st1 at h e
  rw [← e]
  cases hc : st1.cur with
  | none => rw [hc] at h; cases h; exact transStep_ver P _ l
  | some m =>
    rw [hc] at h
    dsimp only at h
    split at h
    · cases hp : parseSignalLine P l with
      | ub => rw [hp] at h; cases h
      | throws => rw [hp] at h; cases h
      | ok r =>
        rw [hp] at h
        cases r with
        | none => cases h; exact transStep_ver P _ l
        | some s => cases h; rw [transStep_ver]; rfl
    · cases h; exact transStep_ver P _ l

theorem reject_throws {c : Prop} [Decidable c] {x : Res (Option Sig)}
    (h : (if c then Res.ok none else x) = .throws) : x = .throws := by
  by_cases hc : c
  · rw [if_pos hc] at h; cases h
  · rwa [if_neg hc] at h

theorem finish_throws {g : Option Sig} {c : Prop} [Decidable c] {u : Str} {r : List Str}
    (h : (match g with
        | none => Res.ub
        | some s => if c then .ok (some { markSimple s with unit := u, recS := r }) else .ok none) = .throws) : False := by
  cases g with
  | none => cases h
  | some s1 =>
    dsimp only at h
    split at h <;> cases h

theorem parseSignalLine_no_throw (P : Platform) (l : Str) : parseSignalLine P l ≠ .throws := by
  intro h
  unfold parseSignalLine at h
  exact finish_throws (reject_throws (reject_throws (reject_throws h)))

theorem scanBody_no_throw (P : Platform) (st : Scan) (l : Str) : scanBody P st l ≠ .throws := by
  intro h
  unfold scanBody at h
  dsimp only at h
  generalize (if isMessageLine l then headerStep P st l else st) = st1 at h
  cases hc : st1.cur with
  | none => rw [hc] at h; cases h
  | some m =>
    rw [hc] at h
    dsimp only at h
    split at h
    · cases hp : parseSignalLine P l with
      | ub => rw [hp] at h; cases h
      | throws => exact parseSignalLine_no_throw P l hp
      | ok r => rw [hp] at h; cases r <;> cases h
    · cases h

/-- Version after a line. -/
def verStep (P : Platform) (v : Nat × Nat) (l : Str) : Nat × Nat :=
  match findVersion P l with
  | .ok (some w) => w
  | _ => v

theorem scanLine_ver {P : Platform} {st st' : Scan} {l : Str} (h : scanLine P st l = .ok st') :
    st'.ver = verStep P st.ver l ∧ ¬ TooLarge P l := by
  unfold scanLine at h
  unfold verStep
  rcases findVersion_cases P l with ⟨e, -⟩ | ⟨hn, hc⟩
  · rw [e] at h; cases h
  · refine ⟨?_, hn⟩
    rcases hc with ⟨a, b, -, e⟩ | ⟨-, e⟩
    · rw [e] at h ⊢
      rw [scanBody_ver h]
      rfl
    · rw [e] at h ⊢
      rw [scanBody_ver h]
      rfl

theorem scanLines_ver {P : Platform} (ls : List Str) : ∀ {st st' : Scan}, scanLines P st ls = .ok st' →
    st'.ver = (ls.map (strTrim P.charMax)).foldl (verStep P) st.ver ∧ ∀ l ∈ ls.map (strTrim P.charMax), ¬ TooLarge P l := by
  induction ls with
  | nil => intro st st' h; rw [scanLines] at h; cases h; exact ⟨rfl, by simp⟩
  | cons l ls ih =>
    intro st st' h
    rw [scanLines] at h
    cases h1 : scanLine P st (strTrim P.charMax l) with
    | ub => rw [h1] at h; cases h
    | throws => rw [h1] at h; cases h
    | ok st1 =>
      rw [h1] at h
      obtain ⟨a, b⟩ := scanLine_ver h1
      obtain ⟨c, d⟩ := ih h
      refine ⟨by rw [c, a]; rfl, ?_⟩
      intro x hx
      rw [List.map_cons] at hx
      rcases List.mem_cons.mp hx with rfl | hx
      · exact b
      · exact d x hx

theorem scanLines_throws {P : Platform} (ls : List Str) : ∀ {st : Scan}, scanLines P st ls = .throws →
    ∃ l ∈ ls.map (strTrim P.charMax), TooLarge P l := by
  induction ls with
  | nil => intro st h; rw [scanLines] at h; cases h
  | cons l ls ih =>
    intro st h
    rw [scanLines] at h
    cases h1 : scanLine P st (strTrim P.charMax l) with
    | ub => rw [h1] at h; cases h
    | throws =>
      refine ⟨strTrim P.charMax l, by simp, ?_⟩
      unfold scanLine at h1
      rcases findVersion_cases P (strTrim P.charMax l) with ⟨-, e⟩ | ⟨hn, hc⟩
      · exact e
      · rcases hc with ⟨a, b, -, e⟩ | ⟨-, e⟩ <;> rw [e] at h1 <;> exact absurd h1 (scanBody_no_throw P _ _)
    | ok st1 =>
      rw [h1] at h
      obtain ⟨x, hx, ht⟩ := ih h
      exact ⟨x, by rw [List.map_cons]; exact List.mem_cons_of_mem _ hx, ht⟩

theorem trim_ver {P : Platform} {text : Str} {out : DbcList} (h : trimDbcText P text = .ok out) :
    (out.verHi, out.verLow) = (fileLines P text).foldl (verStep P) (0, 0) ∧ ∀ l ∈ fileLines P text, ¬ TooLarge P l := by
  unfold trimDbcText parseMessageInfo at h
  cases hs : scanLines P { list := {} } (getLines text) with
  | ub => rw [hs] at h; cases h
  | throws => rw [hs] at h; cases h
  | ok st =>
    rw [hs] at h
    dsimp only at h
    cases h
    exact scanLines_ver _ hs

theorem verStep_none {P : Platform} {v : Nat × Nat} {l : Str} (h : ¬ ∃ a b, StatesVersion l a b) : verStep P v l = v := by
  unfold verStep
  rcases findVersion_cases P l with ⟨e, -⟩ | ⟨-, ⟨a, b, hs, e⟩ | ⟨-, e⟩⟩
  · rw [e]
  · exact absurd ⟨a, b, hs⟩ h
  · rw [e]

theorem verStep_states {P : Platform} {v : Nat × Nat} {l : Str} {a b : Nat} (h : StatesVersion l a b) (ht : ¬ TooLarge P l) :
    verStep P v l = (a % 2 ^ 32, b % 2 ^ 32) := by
  unfold verStep
  rcases findVersion_cases P l with ⟨-, e⟩ | ⟨-, ⟨a', b', hs, e⟩ | ⟨hn, -⟩⟩
  · exact absurd e ht
  · obtain ⟨rfl, rfl⟩ := states_unique h hs
    rw [e]
  · exact absurd ⟨a, b, h⟩ hn

theorem foldl_verStep_none {P : Platform} (ls : List Str) (v : Nat × Nat) (h : ∀ l ∈ ls, ¬ ∃ a b, StatesVersion l a b) :
    ls.foldl (verStep P) v = v := by
  induction ls generalizing v with
  | nil => rfl
  | cons l ls ih =>
    rw [List.foldl_cons, verStep_none (h l (by simp)), ih _ (fun x hx => h x (by simp [hx]))]

/-- **C42**, exactly: the version of a file is that of its last version line, reduced to 32 bits. -/
theorem C42_last_line (P : Platform) (text : Str) (out : DbcList) (h : trimDbcText P text = .ok out)
    (pre post : List Str) (l : Str) (a b : Nat) (hl : fileLines P text = pre ++ l :: post) (hs : StatesVersion l a b)
    (hpost : ∀ x ∈ post, ¬ ∃ a b, StatesVersion x a b) :
    out.verHi = a % 2 ^ 32 ∧ out.verLow = b % 2 ^ 32 := by
  obtain ⟨e, ht⟩ := trim_ver h
  rw [hl] at e ht
  rw [List.foldl_append, List.foldl_cons, verStep_states hs (ht l (by simp)), foldl_verStep_none post _ hpost] at e
  injection e with e1 e2
  exact ⟨e1, e2⟩

/-- **C42** (partial: numbers below 2^32): the version of a file is that of its last version line. -/
theorem C42_version_partial (P : Platform) (text : Str) (out : DbcList) (h : trimDbcText P text = .ok out)
    (pre post : List Str) (l : Str) (a b : Nat) (hl : fileLines P text = pre ++ l :: post) (hs : StatesVersion l a b)
    (hpost : ∀ x ∈ post, ¬ ∃ a b, StatesVersion x a b) (ha : a < 2 ^ 32) (hb : b < 2 ^ 32) :
    out.verHi = a ∧ out.verLow = b := by
  have := C42_last_line P text out h pre post l a b hl hs hpost
  rwa [Nat.mod_eq_of_lt ha, Nat.mod_eq_of_lt hb] at this

/-- **C42**: a file without a version line has version 0.0. -/
theorem C42_no_version (P : Platform) (text : Str) (out : DbcList) (h : trimDbcText P text = .ok out)
    (hn : ∀ x ∈ fileLines P text, ¬ ∃ a b, StatesVersion x a b) : out.verHi = 0 ∧ out.verLow = 0 := by
  obtain ⟨e, -⟩ := trim_ver h
  rw [foldl_verStep_none _ _ hn] at e
  injection e with e1 e2
  exact ⟨e1, e2⟩

theorem decStr_digits (n : Nat) : decStr n ≠ [] ∧ ∀ c ∈ decStr n, IsDigit c := by
  exact ⟨(decStr_spec n).1, (decStr_spec n).2.1⟩

theorem sameLetters_alpha {w k : Str} (h : SameLetters w k) (hk : ∀ d ∈ k, 97 ≤ d.toNat ∧ d.toNat ≤ 122) : ∀ c ∈ w, IsAlphaC c := by
  induction w generalizing k with
  | nil => simp
  | cons x w ih =>
    cases k with
    | nil => exact h.elim
    | cons d k =>
      intro c hc
      rcases List.mem_cons.mp hc with rfl | hc
      · have := hk d (by simp)
        unfold IsAlphaC
        rcases h.1 with rfl | h1
        · exact Or.inl this
        · exact Or.inr ⟨h1.1, h1.2.1⟩
      · exact ih h.2 (fun x hx => hk x (by simp [hx])) c hc

/-- **C42**: the line `VERSION "a.b"` states version a.b, whatever the case of the keyword. -/
theorem C42_line (a b : Nat) (word : Str) (hw : SameLetters word "version".toList) :
    StatesVersion (word ++ " \"".toList ++ decStr a ++ ".".toList ++ decStr b ++ "\"".toList) a b := by
  refine ⟨word, decStr a, decStr b, ⟨[' '], ['"'], ['.'], ['"'], ?_, ?_, sameLetters_alpha hw (by decide), by simp [IsBlankC], Or.inr rfl,
    (decStr_digits a).1, (decStr_digits a).2, by decide, by simp [IsDigit], (decStr_digits b).1, (decStr_digits b).2, Or.inr rfl⟩, hw,
    (decStr_spec a).2.2.1, (decStr_spec b).2.2.1⟩
  · show _ = word ++ [' '] ++ ['"'] ++ decStr a ++ ['.'] ++ decStr b ++ ['"']
    rw [List.append_assoc word [' '] ['"']]
    rfl
  · rintro rfl
    exact hw.elim

/-- **C42** is false: the major version 4294967297 is read as 1. -/
theorem C42_refuted : (match trimDbcText plat "VERSION \"4294967297.5\"\n".toList with
    | .ok out => some (out.verHi, out.verLow)
    | _ => none) = some (1, 5) := by decide +kernel

/-- The last of three version lines, in any case; other lines do not count. -/
example : (match trimDbcText plat "VERSION \"1.2\"\nvErSion 7_8\nVERSION 1\nVERSIONS \"3.4\"\n".toList with
    | .ok out => some (out.verHi, out.verLow)
    | _ => none) = some (7, 8) := by decide +kernel

/-! ### C49 -/

/-- **C49**, exactly (1): parsing ends with an uncaught exception only because of a line of the shape
`word "a.b"` (any word) with a number that `unsigned long` cannot hold. -/
theorem C49_only_partial (P : Platform) (text : Str) (h : trimDbcText P text = .throws) :
    ∃ l ∈ fileLines P text, ∃ w a b, VersionShape l w a b ∧ (P.ulongMax < digitsVal a ∨ P.ulongMax < digitsVal b) := by
  unfold trimDbcText parseMessageInfo at h
  cases hs : scanLines P { list := {} } (getLines text) with
  | ub => rw [hs] at h; cases h
  | throws => exact scanLines_throws _ hs
  | ok st => rw [hs] at h; cases h

/-- **C49**, exactly (2): with such a line parsing does not end regularly. -/
theorem C49_always (P : Platform) (text : Str) (l w a b : Str) (hl : l ∈ fileLines P text) (hv : VersionShape l w a b)
    (hb : P.ulongMax < digitsVal a ∨ P.ulongMax < digitsVal b) : ∀ out, trimDbcText P text ≠ .ok out := by
  intro out h
  exact (trim_ver h).2 l hl ⟨w, a, b, hv, hb⟩

/-- **C49** is false: a date as version, or two numbers in the second line of a comment. -/
theorem C49_refuted : trimDbcText plat "VERSION \"202403181522334455667.1\"\n".toList = .throws ∧
    trimDbcText plat "BO_ 100 Motor: 8 ECU\nCM_ BO_ 100 \"serial\nno 99999999999999999999 1\nend\";\n".toList = .throws := by
  constructor <;> decide +kernel

example : VersionShape "no 99999999999999999999 1".toList "no".toList "99999999999999999999".toList "1".toList := by
  rw [← matchVersion_iff]
  decide +kernel

end Verif
