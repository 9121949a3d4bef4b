import Verif.Spec.CTree
import Verif.Proofs.VersionRead
import Verif.Proofs.FuncRead
/-
What reading one file of a directory of files does, from what reading it without the others does.
-/
namespace Verif
open Verif.Spec

/-! ### Macro tables with the same entries -/

/-- Two macro tables that give every name the same meaning. -/
def DEq (D E : Defs) : Prop := ∀ n, D.lookup n = E.lookup n

theorem DEq.refl (D : Defs) : DEq D D := fun _ => rfl
theorem DEq.symm {D E : Defs} (h : DEq D E) : DEq E D := fun n => (h n).symm
theorem DEq.trans {D E F : Defs} (h1 : DEq D E) (h2 : DEq E F) : DEq D F := fun n => (h1 n).trans (h2 n)

theorem DEq.append {D E : Defs} (h : DEq D E) (X : Defs) : DEq (D ++ X) (E ++ X) := fun n => by
  rw [lookup_append, lookup_append, h n]

theorem lookup_filter_ne (D : Defs) (k n : Str) : (D.filter fun x => x.1 ≠ k).lookup n = if n = k then none else D.lookup n := by
  induction D with
  | nil => simp
  | cons x r ih =>
    obtain ⟨a, v⟩ := x
    by_cases ha : a = k
    · subst ha
      rw [List.filter_cons_of_neg (by simp), ih]
      by_cases hn : n = a
      · rw [if_pos hn, if_pos hn]
      · rw [if_neg hn, if_neg hn, List.lookup_cons]
        have : (n == a) = false := by simpa using hn
        rw [this]
    · rw [List.filter_cons_of_pos (by simpa using ha), List.lookup_cons, List.lookup_cons, ih]
      cases h : n == a with
      | true =>
        have h : n = a := by simpa using h
        subst h
        exact (if_neg ha).symm
      | false => rfl

theorem DEq.filter {D E : Defs} (h : DEq D E) (k : Str) : DEq (D.filter fun x => x.1 ≠ k) (E.filter fun x => x.1 ≠ k) := fun n => by
  rw [lookup_filter_ne, lookup_filter_ne, h n]

theorem expand_eq {D E : Defs} (h : DEq D E) (f : Nat) : ∀ (hide : List Str) (ts : List Tok), expand f D hide ts = expand f E hide ts := by
  induction f with
  | zero => intro _ _; rfl
  | succ f ih =>
    intro hide ts
    have e : expand f D = expand f E := funext fun a => funext fun b => ih a b
    cases ts with
    | nil => rfl
    | cons t r =>
      cases t with
      | p s => simp only [expand, e]
      | word w => simp only [expand, e, h w]

/-- States that differ in the order of the macros only. -/
structure PEq (s t : PP) : Prop where
  frames : s.frames = t.frames
  defs : DEq s.defs t.defs
  out : s.out = t.out
  fail : s.fail = t.fail

theorem PEq.live {s t : PP} (h : PEq s t) : s.live = t.live := by
  unfold PP.live
  rw [h.frames]

theorem PEq.push {s t : PP} (h : PEq s t) (c : Bool) : PEq (s.push c) (t.push c) :=
  ⟨by unfold PP.push; rw [h.live, h.frames], h.defs, h.out, h.fail⟩

theorem PEq.failed {s t : PP} (h : PEq s t) : PEq { s with fail := true } { t with fail := true } := ⟨h.frames, h.defs, h.out, rfl⟩

theorem PEq.define {s t : PP} (h : PEq s t) (x : Str) : PEq (s.define x) (t.define x) := by
  unfold PP.define
  split
  · exact h.failed
  · rename_i n m _
    rw [h.defs n]
    split
    · exact ⟨h.frames, h.defs.append _, h.out, h.fail⟩
    · split
      · exact h
      · exact h.failed

theorem ppLine_eq {s t : PP} (h : PEq s t) (f : Nat) (l : Str) : PEq (ppLine f s l) (ppLine f t l) := by
  unfold ppLine
  split
  · dsimp only
    split
    · rw [h.defs]
      exact h.push _
    · split
      · rw [h.defs]
        exact h.push _
      · split
        · rw [h.live]
          split
          · have e : ∀ x, ifCond f s.defs x = ifCond f t.defs x := by
              intro x
              unfold ifCond
              rw [expand_eq h.defs]
            rw [e]
            split
            · exact h.push _
            · exact h.failed
          · exact h.push _
        · split
          · rw [h.frames]
            split
            · split
              · exact ⟨rfl, h.defs, h.out, rfl⟩
              · exact ⟨rfl, h.defs, h.out, h.fail⟩
            · exact ⟨rfl, h.defs, h.out, rfl⟩
          · split
            · rw [h.frames]
              split
              · exact ⟨rfl, h.defs, h.out, h.fail⟩
              · exact ⟨rfl, h.defs, h.out, rfl⟩
            · rw [h.live]
              split
              · exact h
              · split
                · exact h.define _
                · split
                  · exact ⟨h.frames, h.defs.filter _, h.out, h.fail⟩
                  · split
                    · exact h
                    · exact h.failed
  · rw [h.live]
    split
    · rw [expand_eq h.defs]
      split
      · exact ⟨h.frames, h.defs, by rw [h.out], h.fail⟩
      · exact h.failed
    · exact h

/-! ### Steps -/

/-- A line that is no `#include`. -/
def lineStep (f : Nat) (cur : Str) (st : TS) (l : Str) : TS :=
  { pp := ppLine f st.pp l, once := if st.pp.live && isOnce l then cur :: st.once else st.once }

/-- A step of `ppTree`. -/
def treeStep (f : Nat) (dir : List (Str × Str)) (d : Nat) (cur : Str) (st : TS) (l : Str) : TS :=
  match includeOf l with
  | some name =>
    if st.pp.live then
      if st.once.contains name then st
      else match dir.lookup name with
        | some u => ppTree f dir d name st u
        | none => { st with pp := { st.pp with fail := true } }
    else st
  | none => lineStep f cur st l

theorem ppTree_succ (f : Nat) (dir : List (Str × Str)) (d : Nat) (cur : Str) (st : TS) (t : Str) :
    ppTree f dir (d + 1) cur st t =
      if ((ppLines t).foldl (treeStep f dir d cur) st).pp.frames.length = st.pp.frames.length then (ppLines t).foldl (treeStep f dir d cur) st
      else { (ppLines t).foldl (treeStep f dir d cur) st with pp := { ((ppLines t).foldl (treeStep f dir d cur) st).pp with fail := true } } := rfl

/-- The same for states of the tree. -/
structure SEq (s t : TS) : Prop where
  pp : PEq s.pp t.pp
  once : s.once = t.once

theorem lineStep_eq {s t : TS} (h : SEq s t) (f : Nat) (cur l : Str) : SEq (lineStep f cur s l) (lineStep f cur t l) :=
  ⟨ppLine_eq h.pp f l, by unfold lineStep; rw [h.pp.live, h.once]⟩

theorem foldl_seq {α β : Type} {R : α → α → Prop} {g : α → β → α} (h : ∀ a b x, R a b → R (g a x) (g b x)) (l : List β) :
    ∀ {a b : α}, R a b → R (l.foldl g a) (l.foldl g b) := by
  induction l with
  | nil => exact fun h => h
  | cons x r ih => exact fun hr => ih (h _ _ x hr)

theorem ppTree_eq (f : Nat) (dir : List (Str × Str)) (d : Nat) : ∀ (cur : Str) {s t : TS}, SEq s t → ∀ x, SEq (ppTree f dir d cur s x) (ppTree f dir d cur t x) := by
  induction d with
  | zero => exact fun cur s t h x => ⟨h.pp.failed, h.once⟩
  | succ d ih =>
    intro cur s t h x
    have hs : ∀ (a b : TS) (l : Str), SEq a b → SEq (treeStep f dir d cur a l) (treeStep f dir d cur b l) := by
      intro a b l hab
      unfold treeStep
      rw [hab.pp.live, hab.once]
      split
      · split
        · split
          · exact hab
          · split
            · exact ih _ hab _
            · exact ⟨hab.pp.failed, rfl⟩
        · exact hab
      · exact lineStep_eq hab f cur l
    have hF := foldl_seq hs (ppLines x) h
    rw [ppTree_succ, ppTree_succ, hF.pp.frames, h.pp.frames]
    split
    · exact hF
    · exact ⟨hF.pp.failed, hF.once⟩

theorem treeStep_eq (f : Nat) (dir : List (Str × Str)) (d : Nat) (cur : Str) {a b : TS} (l : Str) (hab : SEq a b) :
    SEq (treeStep f dir d cur a l) (treeStep f dir d cur b l) := by
  unfold treeStep
  rw [hab.pp.live, hab.once]
  split
  · split
    · split
      · exact hab
      · split
        · exact ppTree_eq f dir d _ hab _
        · exact ⟨hab.pp.failed, rfl⟩
    · exact hab
  · exact lineStep_eq hab f cur l

/-! ### Tokens in front -/

/-- The state with tokens in front. -/
def PP.pre (p : List Tok) (st : PP) : PP := { st with out := p ++ st.out }

theorem ppLine_pre (p : List Tok) (f : Nat) (st : PP) (l : Str) : ppLine f (PP.pre p st) l = PP.pre p (ppLine f st l) := by
  have hl : (PP.pre p st).live = st.live := rfl
  have hd : (PP.pre p st).defs = st.defs := rfl
  have hfr : (PP.pre p st).frames = st.frames := rfl
  unfold ppLine
  rw [hl, hd, hfr]
  split
  · dsimp only
    split
    · rfl
    · split
      · rfl
      · split
        · cases st.live with
          | false => rfl
          | true =>
            rw [if_pos rfl, if_pos rfl]
            cases ifCond f st.defs _ <;> rfl
        · split
          · cases st.frames with
            | nil => rfl
            | cons fr rest =>
              dsimp only
              split <;> rfl
          · split
            · cases st.frames <;> rfl
            · cases st.live with
              | false => rfl
              | true =>
                simp only [Bool.not_true, Bool.false_eq_true, if_false]
                split
                · unfold PP.define
                  rw [hd]
                  split
                  · rfl
                  · rename_i n m _
                    cases st.defs.lookup n with
                    | none => rfl
                    | some m' =>
                      dsimp only
                      split <;> rfl
                · split
                  · rfl
                  · split <;> rfl
  · cases st.live with
    | false => rfl
    | true =>
      rw [if_pos rfl, if_pos rfl]
      cases expand f st.defs [] (lex l) with
      | none => rfl
      | some ts =>
        have e : (p ++ st.out) ++ ts = p ++ (st.out ++ ts) := List.append_assoc ..
        show PP.mk st.frames st.defs ((p ++ st.out) ++ ts) st.fail = PP.mk st.frames st.defs (p ++ (st.out ++ ts)) st.fail
        rw [e]

/-! ### Files that are read -/

/-- A step when no file is known. -/
def step0 (f : Nat) (st : PP) (l : Str) : PP :=
  match includeOf l with
  | some _ => st
  | none => ppLine f st l

theorem ppStep_nil (f d : Nat) : ppStep f [] d = step0 f := by
  funext st l
  unfold ppStep step0
  cases includeOf l with
  | none => rfl
  | some n =>
    dsimp only
    split <;> rfl

/-- The lines include the file `n`. -/
def Includes (n : Str) (f : Nat) : List Str → PP → Prop
  | [], _ => False
  | l :: r, st => (includeOf l = some n ∧ st.live = true) ∨ Includes n f r (step0 f st l)

theorem error_fails (f d : Nat) (files : List (Str × Str)) (st : PP) (hl : st.live = true) : (ppText f files d st "#error".toList).fail = true := by
  cases d with
  | zero => rfl
  | succ d =>
    rw [ppText_succ]
    have h : ((ppLines "#error".toList).foldl (ppStep f files d) st).fail = true := by
      have e : ppLines "#error".toList = ["#error".toList] := by decide +kernel
      rw [e, List.foldl_cons, List.foldl_nil]
      exact ppStep_error (rest := []) ⟨"error".toList, by decide, by decide⟩ f d st hl
    split
    · exact h
    · rfl

/-- A file with `#error` shows whether a file of its name is read. -/
theorem includes_fail (n : Str) (f d : Nat) (ls : List Str) : ∀ st, Includes n f ls st →
    (ls.foldl (ppStep f [(n, "#error".toList)] d) st).fail = true := by
  induction ls with
  | nil => exact fun _ h => h.elim
  | cons l r ih =>
    intro st h
    rw [List.foldl_cons]
    by_cases hc : includeOf l = some n ∧ st.live = true
    · refine steps_fail f d r ?_
      unfold ppStep
      rw [hc.1]
      simp only [hc.2, if_true, List.lookup_cons, beq_self_eq_true]
      exact error_fails f d _ st hc.2
    · have h := h.resolve_left hc
      have e : ppStep f [(n, "#error".toList)] d st l = step0 f st l := by
        unfold ppStep step0
        cases hi : includeOf l with
        | none => rfl
        | some k =>
          dsimp only
          split
          · rename_i hl
            have hk : k ≠ n := fun e => hc ⟨by rw [hi, e], hl⟩
            have : (k == n) = false := by simpa using hk
            simp only [List.lookup_cons, this, List.lookup_nil]
          · rfl
      rw [e]
      exact ih _ h

theorem Includes.mem {n : Str} {f : Nat} {ls : List Str} : ∀ {st}, Includes n f ls st → n ∈ ls.filterMap includeOf := by
  induction ls with
  | nil => exact fun h => h.elim
  | cons l r ih =>
    intro st h
    rw [List.filterMap_cons]
    rcases h with h | h
    · rw [h.1]
      exact List.mem_cons_self
    · have := ih h
      cases includeOf l with
      | none => exact this
      | some k => exact List.mem_cons_of_mem _ this

/-- With files that have no effect, reading in a directory is reading without files. -/
theorem fold_sim {dir : List (Str × Str)} {f d : Nat} (hf : 1 ≤ f) (hd : 1 ≤ d) (cur : Str) (p : List Tok) (ls : List Str) : ∀ (st : PP) (x : List Str),
    (∀ n, Includes n f ls st → n ∈ x ∨ dir.lookup n = some []) →
    ∃ x', (∀ n ∈ x, n ∈ x') ∧ (∀ n ∈ x', n ∈ x ∨ n = cur) ∧
      ls.foldl (treeStep f dir d cur) ⟨PP.pre p st, x⟩ = ⟨PP.pre p (ls.foldl (step0 f) st), x'⟩ := by
  induction ls with
  | nil => exact fun st x _ => ⟨x, fun _ h => h, fun _ h => .inl h, rfl⟩
  | cons l r ih =>
    intro st x h
    rw [List.foldl_cons, List.foldl_cons]
    have key : ∃ x1, (∀ n ∈ x, n ∈ x1) ∧ (∀ n ∈ x1, n ∈ x ∨ n = cur) ∧ treeStep f dir d cur ⟨PP.pre p st, x⟩ l = ⟨PP.pre p (step0 f st l), x1⟩ := by
      unfold treeStep step0
      cases hi : includeOf l with
      | some k =>
        refine ⟨x, fun _ h => h, fun _ h => .inl h, ?_⟩
        dsimp only
        split
        · rename_i hl
          split
          · rfl
          · rename_i hx
            rcases h k (.inl ⟨hi, hl⟩) with hk | hk
            · exact absurd (by simpa using hk) hx
            · rw [hk]
              obtain ⟨d', rfl⟩ : ∃ k, d = k + 1 := ⟨d - 1, by omega⟩
              obtain ⟨f', rfl⟩ : ∃ k, f = k + 1 := ⟨f - 1, by omega⟩
              have e : (ppLines []).foldl (treeStep (f' + 1) dir d' k) ⟨PP.pre p st, x⟩ = ⟨PP.pre p st, x⟩ := by
                have e1 : ppLines [] = [[]] := rfl
                rw [e1, List.foldl_cons, List.foldl_nil]
                unfold treeStep
                have e2 : includeOf [] = none := rfl
                rw [e2]
                unfold lineStep
                have e3 : isOnce [] = false := rfl
                rw [e3, Bool.and_false]
                have e4 : ppLine (f' + 1) (PP.pre p st) [] = PP.pre p st := by
                  unfold ppLine
                  have e5 : dropBlank [] = [] := rfl
                  rw [e5]
                  have e6 : expand (f' + 1) (PP.pre p st).defs [] (lex []) = some [] := rfl
                  rw [e6]
                  dsimp only
                  rw [List.append_nil]
                  split <;> rfl
                rw [e4]
                rfl
              dsimp only
              rw [ppTree_succ, e, if_pos rfl]
        · rfl
      | none =>
        refine ⟨if st.live && isOnce l then cur :: x else x, ?_, ?_, ?_⟩
        · intro n hn
          split
          · exact List.mem_cons_of_mem _ hn
          · exact hn
        · intro n hn
          split at hn
          · rcases List.mem_cons.1 hn with h | h
            · exact .inr h
            · exact .inl h
          · exact .inl hn
        · show lineStep f cur ⟨PP.pre p st, x⟩ l = _
          unfold lineStep
          rw [ppLine_pre]
          rfl
    obtain ⟨x1, a1, a2, e⟩ := key
    rw [e]
    obtain ⟨x', b1, b2, e'⟩ := ih (step0 f st l) x1 fun n hn => (h n (.inr hn)).imp (a1 n) id
    exact ⟨x', fun n hn => b1 n (a1 n hn), fun n hn => (b2 n hn).elim (fun q => a2 n q) .inr, e'⟩

/-! ### Pieces -/

variable {dir : List (Str × Str)} {cur : Str} {D D' D'' : Defs} {a b : List WOp} {us vs : List Tok} {I I' I'' : List Str → Prop}

/-- In the directory `dir`, the printed lines in the file `cur` turn the macros `D` into `D'` and give the
tokens `us`; `I` and `I'` speak about the files that are not to be read again. -/
def TGen (dir : List (Str × Str)) (cur : Str) (I I' : List Str → Prop) (ops : List WOp) (D D' : Defs) (us : List Tok) : Prop :=
  ∃ ls, OL ops ls ∧ ∃ F, ∀ f, F ≤ f → ∀ d, F ≤ d → ∀ fr out x D1, (mkPP fr ⟨D1, out, false⟩).live = true → I x → DEq D1 D →
    ∃ x' D1', I' x' ∧ DEq D1' D' ∧ ls.foldl (treeStep f dir d cur) ⟨mkPP fr ⟨D1, out, false⟩, x⟩ = ⟨mkPP fr ⟨D1', out ++ us, false⟩, x'⟩

theorem TGen.nil : TGen dir cur I I [] D D [] :=
  ⟨[], OL.nil, 0, fun f _ d _ fr out x D1 _ hx hD => ⟨x, D1, hx, hD, by rw [List.append_nil]; rfl⟩⟩

theorem TGen.append (h1 : TGen dir cur I I' a D D' us) (h2 : TGen dir cur I' I'' b D' D'' vs) : TGen dir cur I I'' (a ++ b) D D'' (us ++ vs) := by
  obtain ⟨k, o1, F1, r1⟩ := h1
  obtain ⟨l, o2, F2, r2⟩ := h2
  refine ⟨k ++ l, o1.append o2, F1 + F2, fun f hf d hd fr out x D1 hl hx hD => ?_⟩
  obtain ⟨x1, D2, i1, e1, s1⟩ := r1 f (by omega) d (by omega) fr out x D1 hl hx hD
  obtain ⟨x2, D3, i2, e2, s2⟩ := r2 f (by omega) d (by omega) fr (out ++ us) x1 D2 hl i1 e1
  refine ⟨x2, D3, i2, e2, ?_⟩
  rw [List.foldl_append, s1, s2, List.append_assoc]

theorem TGen.eq (h : TGen dir cur I I' a D D' us) (e : us = vs) : TGen dir cur I I' a D D' vs := e ▸ h

theorem TGen.weaken {J J' : List Str → Prop} {E E' : Defs} (h : TGen dir cur I I' a D D' us) (hi : ∀ x, J x → I x) (hi' : ∀ x, I' x → J' x) (hD : DEq D E) (hE : DEq D' E') :
    TGen dir cur J J' a E E' us := by
  obtain ⟨k, o1, F1, r1⟩ := h
  refine ⟨k, o1, F1, fun f hf d hd fr out x D1 hl hx hq => ?_⟩
  obtain ⟨x1, D2, i1, e1, s1⟩ := r1 f hf d hd fr out x D1 hl (hi x hx) (hq.trans hD.symm)
  exact ⟨x1, D2, hi' _ i1, e1.trans hE, s1⟩

theorem OL.unique {ops : List WOp} {k l : List Str} (h1 : OL ops k) (h2 : OL ops l) : k = l := by
  obtain ⟨s, e1, p1⟩ := h1
  obtain ⟨t, e2, p2⟩ := h2
  have e : s = t := by
    have := (e1 {}).symm.trans (e2 {})
    exact congrArg Writer.buf this
  subst e
  exact List.append_cancel_right ((p1 []).symm.trans (p2 []))

theorem exists_bound {α : Type} (L : List α) {P : α → Nat → Prop} (h : ∀ a ∈ L, ∃ F, ∀ f, F ≤ f → P a f) : ∃ F, ∀ f, F ≤ f → ∀ a ∈ L, P a f := by
  induction L with
  | nil => exact ⟨0, fun _ _ a ha => by cases ha⟩
  | cons x r ih =>
    obtain ⟨F1, h1⟩ := h x (by simp)
    obtain ⟨F2, h2⟩ := ih fun a ha => h a (by simp [ha])
    refine ⟨F1 + F2, fun f hf a ha => ?_⟩
    rcases List.mem_cons.1 ha with rfl | ha
    · exact h1 f (by omega)
    · exact h2 f (by omega) a ha

/-- The lines of `cur` may make it a file that is not to be read again; nothing else. -/
def OGrows (cur : Str) (I I' : List Str → Prop) : Prop := ∀ x x', I x → (∀ n ∈ x, n ∈ x') → (∀ n ∈ x', n ∈ x ∨ n = cur) → I' x'

/-- Lines that read no file with an effect. -/
theorem TGen.lift {S : List Str} (h : Gen [] a D D' us) (hn : ∀ n, n ∉ S → ∃ D'' vs, Gen [(n, "#error".toList)] a D D'' vs)
    (hS : ∀ x, I x → ∀ n ∈ S, n ∈ x ∨ dir.lookup n = some []) (hI : OGrows cur I I') : TGen dir cur I I' a D D' us := by
  obtain ⟨ls, o, r⟩ := h
  obtain ⟨-, F1, r1⟩ := r []
  have hb : ∀ n ∈ (ls.filterMap includeOf).filter (fun n => n ∉ S), ∃ F, ∀ f, F ≤ f → ∀ fr, (mkPP fr ⟨D, [], false⟩).live = true → ¬ Includes n f ls (mkPP fr ⟨D, [], false⟩) := by
    intro n hnm
    have hns : n ∉ S := by simpa using (List.mem_filter.1 hnm).2
    obtain ⟨D2, vs, ls2, o2, r2⟩ := hn n hns
    have e := o2.unique o
    subst e
    obtain ⟨-, F, hF⟩ := r2 []
    refine ⟨F, fun f hf fr hl hc => ?_⟩
    have h1 := includes_fail n f f ls2 _ hc
    rw [hF f hf f hf fr hl] at h1
    cases h1
  obtain ⟨F2, r2⟩ := exists_bound _ hb
  refine ⟨ls, o, F1 + F2 + 1, fun f hf d hd fr out x D1 hl hx hD => ?_⟩
  have hl : (mkPP fr ⟨D, [], false⟩).live = true := hl
  have hin : ∀ n, Includes n f ls (mkPP fr ⟨D, [], false⟩) → n ∈ x ∨ dir.lookup n = some [] := by
    intro n hc
    by_cases hns : n ∈ S
    · exact hS x hx n hns
    · exact absurd hc (r2 f (by omega) n (List.mem_filter.2 ⟨hc.mem, by simpa using hns⟩) fr hl)
  obtain ⟨x', a1, a2, e⟩ := fold_sim (f := f) (d := d) (by omega) (by omega) cur out ls (mkPP fr ⟨D, [], false⟩) x hin
  have e1 := r1 f (by omega) d (by omega) fr hl
  rw [ppStep_nil] at e1
  rw [e1] at e
  have e2 : PP.pre out (mkPP fr ⟨D, [], false⟩) = mkPP fr ⟨D, out, false⟩ := by
    unfold PP.pre mkPP
    rw [List.append_nil]
  have e3 : PP.pre out (mkPP fr ⟨D', [] ++ us, false⟩) = mkPP fr ⟨D', out ++ us, false⟩ := rfl
  rw [e2, e3] at e
  have hq := foldl_seq (R := SEq) (g := treeStep f dir d cur) (fun a b l h => treeStep_eq f dir d cur l h) ls
    (a := ⟨mkPP fr ⟨D1, out, false⟩, x⟩) (b := ⟨mkPP fr ⟨D, out, false⟩, x⟩) ⟨⟨rfl, hD, rfl, rfl⟩, rfl⟩
  rw [e] at hq
  refine ⟨x', (ls.foldl (treeStep f dir d cur) ⟨mkPP fr ⟨D1, out, false⟩, x⟩).pp.defs, hI x x' hx a1 a2, hq.pp.defs, ?_⟩
  revert hq
  generalize ls.foldl (treeStep f dir d cur) ⟨mkPP fr ⟨D1, out, false⟩, x⟩ = s
  obtain ⟨⟨s1, s2, s3, s4⟩, s5⟩ := s
  intro hq
  have h1 : s1 = fr := hq.pp.frames
  have h2 : s3 = out ++ us := hq.pp.out
  have h3 : s4 = false := hq.pp.fail
  have h4 : s5 = x' := hq.once
  subst h1 h2 h3 h4
  rfl

/-- Lines of a group that is not processed have no effect. -/
theorem skip_tree {ls : List Str} {ops : List WOp} (o : OL ops ls) (h : ∀ n, GSkip [(n, "#error".toList)] ops) (h0 : GSkip [] ops) {f d : Nat} (hf : 1 ≤ f) (hd : 1 ≤ d) {st : PP} (x : List Str)
    (hl : st.live = false) (hfail : st.fail = false) : ∃ x', (∀ n ∈ x, n ∈ x') ∧ (∀ n ∈ x', n ∈ x ∨ n = cur) ∧ ls.foldl (treeStep f dir d cur) ⟨st, x⟩ = ⟨st, x'⟩ := by
  have hin : ∀ n, Includes n f ls st → n ∈ x ∨ dir.lookup n = some [] := by
    intro n hc
    obtain ⟨k, o2, s⟩ := h n
    have e := o2.unique o
    subst e
    have := includes_fail n f d k _ hc
    rw [s f d st hl, hfail] at this
    cases this
  obtain ⟨x', a1, a2, e⟩ := fold_sim (f := f) (d := d) hf hd cur [] ls st x hin
  have e2 : ∀ s, PP.pre [] s = s := fun s => rfl
  rw [e2, e2] at e
  obtain ⟨k, o2, s⟩ := h0
  have e3 := o2.unique o
  subst e3
  have e4 := s f d st hl
  rw [ppStep_nil] at e4
  rw [e4] at e
  exact ⟨x', a1, a2, e⟩

theorem treeStep_line {l : Str} (h : includeOf l = none) (ho : isOnce l = false) (f d : Nat) (st : TS) : treeStep f dir d cur st l = ⟨ppStep f [] d st.pp l, st.once⟩ := by
  unfold treeStep ppStep
  rw [h]
  dsimp only
  unfold lineStep
  rw [ho, Bool.and_false]
  rfl

end Verif
