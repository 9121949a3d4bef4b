import Verif.Props.ScanLists
import Verif.Props.Tags
/-
The characters of the names of nodes (used in C74).
-/
namespace Verif
open Spec

/-- A character of a node name: a letter, a digit, `_`, `.`, `+` or `-`. -/
def Spec.NodeChar (c : Char) : Prop := IsLetter c ∨ IsDigit c ∨ c = '.' ∨ c = '+' ∨ c = '-'

/-- A pattern that matches at every character with `p` leaves pieces without such characters. -/
theorem splitGo_chars {m : Str → Option Nat} {p : Char → Bool} (hm : ∀ c cs, p c = true → m (c :: cs) ≠ none) :
    ∀ (f : Nat) (hit : Bool) (acc s : Str), (∀ c ∈ acc, p c = false) → ∀ x ∈ splitGo m f hit acc s, ∀ c ∈ x, p c = false := by
  intro f
  induction f with
  | zero =>
    intro hit acc s ha x hx c hc
    cases List.mem_singleton.1 hx
    exact ha c (List.mem_reverse.1 hc)
  | succ f ih =>
    intro hit acc s ha x hx c hc
    cases s with
    | nil =>
      unfold splitGo at hx
      split at hx
      · cases hx
      · cases List.mem_singleton.1 hx
        exact ha c (List.mem_reverse.1 hc)
    | cons d ds =>
      unfold splitGo at hx
      cases hd : m (d :: ds) with
      | none =>
        rw [hd] at hx
        refine ih hit (d :: acc) ds (fun e he => ?_) x hx c hc
        rcases List.mem_cons.1 he with rfl | he
        · cases hp : p e with
          | false => rfl
          | true => exact absurd hd (hm _ _ hp)
        · exact ha e he
      | some n =>
        rw [hd] at hx
        rcases List.mem_cons.1 hx with rfl | hx
        · exact ha c (List.mem_reverse.1 hc)
        · exact ih true [] _ (fun _ q => nomatch q) x hx c hc

theorem pieces_one {p : Char → Bool} {s x : Str} (h : x ∈ resplit (mOne p) s) : ∀ c ∈ x, p c = false :=
  splitGo_chars (fun c cs hp => by show (if p c = true then some 1 else none) ≠ none; rw [if_pos hp]; exact Option.some_ne_none _) _ _ _ _ (fun _ q => absurd q List.not_mem_nil) x h

theorem pieces_run {p : Char → Bool} {s x : Str} (h : x ∈ resplit (mRun p) s) : ∀ c ∈ x, p c = false :=
  splitGo_chars (fun c cs hp => by
    unfold mRun
    rw [List.takeWhile_cons, if_pos hp, List.length_cons, if_neg (by omega)]
    exact Option.some_ne_none _) _ _ _ _ (fun _ q => absurd q List.not_mem_nil) x h

theorem nodeChar_word {c : Char} (h : isWord c = true) : NodeChar c := by
  unfold isWord isAlpha isDig at h
  unfold NodeChar IsLetter IsDigit
  simp only [Bool.or_eq_true, Bool.and_eq_true, decide_eq_true_eq, beq_iff_eq] at h
  rcases h with (h | h) | rfl
  · rcases h with h | h
    · exact .inl (.inr (.inl h))
    · exact .inl (.inl h)
  · exact .inr (.inl h)
  · exact .inl (.inr (.inr rfl))

theorem parseSignalLine_rec {P : Platform} {l : Str} {s : Sig} (h : parseSignalLine P l = .ok (some s)) : ∃ t, s.recS = resplit mReceivers t := by
  unfold parseSignalLine at h
  obtain ⟨s1, -, e⟩ := finish_shape (reject_else (reject_else (reject_else h)))
  rw [e]
  exact ⟨_, rfl⟩

/-- Receivers of the signals of a section. -/
theorem sectionSigs_rec {P : Platform} {hd : Str} {body : List Str} {s : Sig} (h : s ∈ sectionSigs P hd body) :
    ∀ r ∈ s.recS, ∀ c ∈ r, NodeChar c := by
  intro r hr c hc
  unfold sectionSigs at h
  obtain ⟨l, -, hl⟩ := List.mem_filterMap.1 h
  have hp : parseSignalLine P l = .ok (some s) := by
    cases hq : parseSignalLine P l with
    | ok x => rw [hq] at hl; exact congrArg _ hl
    | throws => rw [hq] at hl; cases hl
    | ub => rw [hq] at hl; cases hl
  obtain ⟨t, e⟩ := parseSignalLine_rec hp
  rw [e] at hr
  unfold mReceivers at hr
  have := pieces_run hr c hc
  simp only [Bool.not_eq_false', Bool.or_eq_true, beq_iff_eq] at this
  rcases this with ((q | q) | q) | q
  · exact nodeChar_word q
  · exact .inr (.inr (.inl q))
  · exact .inr (.inr (.inr (.inl q)))
  · exact .inr (.inr (.inr (.inr q)))

/-- The names of the nodes of the messages of a file are made of letters, digits, `_`, `.`, `+` and `-`. -/
theorem C74_names (P : Platform) (hs : SortsByStart P) (text : Str) (out : DbcList) (h : trimDbcText P text = .ok out) :
    ∀ m ∈ out.msgs, ∀ n, n ∈ m.tranS ∨ n ∈ m.recS → ∀ c ∈ n, NodeChar c := by
  intro m hm n hn c hc
  rcases hn with hn | hn
  · rcases C31_transmitters_only P text out h m hm n hn with ⟨hd, -, -, m0, hp, -, hn⟩ | ⟨-, l, -, -, -, hn, -⟩
    · unfold parseMessageLine at hp
      dsimp only at hp
      split at hp
      · cases hp
      · split at hp
        · cases hp
        · cases hp
          dsimp only at hn
          split at hn
          · rename_i hl
            split at hn
            · rw [List.mem_singleton.1 hn, List.getD_eq_getElem?_getD, List.getElem?_eq_getElem (by omega)] at hc
              have := pieces_one (List.getElem_mem _) c hc
              simp only [Bool.not_eq_false', Bool.or_eq_true, beq_iff_eq] at this
              rcases this with (q | q) | q
              · exact nodeChar_word q
              · exact .inr (.inr (.inl q))
              · exact .inr (.inr (.inr (.inr q)))
            · cases hn
          · rw [if_neg (by decide)] at hn
            cases hn
    · unfold parseMultiTrans at hn
      dsimp only at hn
      split at hn
      · split at hn
        · have := pieces_run (List.mem_of_mem_drop hn) c hc
          exact nodeChar_word (by simpa using this)
        · cases hn
      · cases hn
  · obtain ⟨s, hsm, hr⟩ := ((C31_receivers P text out h m hm).2 n).1 hn
    have hf := C27_sections P hs text out h
    have : ∃ x, FromSection P x m := by
      clear h
      generalize out.msgs = ms at hm hf
      generalize List.filter _ _ = ss at hf
      revert hm
      induction hf with
      | nil => exact fun q => nomatch q
      | cons a _ ih =>
        intro q
        rcases List.mem_cons.1 q with rfl | q
        · exact ⟨_, a⟩
        · exact ih q
    obtain ⟨x, -, hperm, -⟩ := this
    have hc1 : s.core ∈ (sectionSigs P x.1 x.2).map Sig.core := hperm.mem_iff.1 (List.mem_map_of_mem hsm)
    obtain ⟨s', hs', e⟩ := List.mem_map.1 hc1
    have er : s'.recS = s.recS := by
      have := congrArg Sig.recS e
      exact this
    exact sectionSigs_rec hs' n (er ▸ hr) c hc

end Verif
