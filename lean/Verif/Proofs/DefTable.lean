import Verif.Proofs.FixedText
/-
The macros a file defines, and pieces of a file that define macros and declare things.
-/
namespace Verif
open Spec

/-! ### Tables of macros -/

/-- A macro a file defines; `guard`: behind `#ifndef` of its name. -/
structure DefE where
  guard : Bool
  name : Str
  d : MDef
  deriving DecidableEq, Repr

/-- The macro is added when it is not there. -/
def addOne (D : Defs) (e : DefE) : Defs := if (D.lookup e.name).isSome then D else D ++ [(e.name, e.d)]

/-- All macros of a file are added. -/
def addAll : Defs → List DefE → Defs
  | D, [] => D
  | D, e :: r => addAll (addOne D e) r

/-- No macro without a guard is there already. -/
def Fresh : Defs → List DefE → Prop
  | _, [] => True
  | D, e :: r => (e.guard = false → D.lookup e.name = none) ∧ Fresh (addOne D e) r

instance Fresh.dec : ∀ (D : Defs) (ds : List DefE), Decidable (Fresh D ds)
  | _, [] => isTrue trivial
  | D, e :: r =>
    have := Fresh.dec (addOne D e) r
    inferInstanceAs (Decidable (_ ∧ _))

/-- The macros of `D` are in `E`. -/
def Sub (D E : Defs) : Prop := ∀ n d, D.lookup n = some d → E.lookup n = some d

theorem Sub.refl (D : Defs) : Sub D D := fun _ _ h => h
theorem Sub.trans {D E F : Defs} (h1 : Sub D E) (h2 : Sub E F) : Sub D F := fun n d h => h2 n d (h1 n d h)

theorem Sub.none {D E : Defs} (h : Sub D E) {n : Str} (hn : E.lookup n = none) : D.lookup n = none := by
  cases hd : D.lookup n with
  | none => rfl
  | some d =>
    rw [h n d hd] at hn
    cases hn

theorem Sub.isSome {D E : Defs} (h : Sub D E) {n : Str} (hn : (D.lookup n).isSome = true) : (E.lookup n).isSome = true := by
  obtain ⟨d, hd⟩ := Option.isSome_iff_exists.1 hn
  rw [h n d hd]
  rfl

theorem Sub.base {D E : Defs} (h : Sub D E) (hB : Base E) : Base D := ⟨fun w hw => h.none (hB.num w hw), fun w hw => h.none (hB.code w hw)⟩

theorem lookup_append {α : Type} (a b : List (Str × α)) (n : Str) : (a ++ b).lookup n = (a.lookup n).or (b.lookup n) := by
  induction a with
  | nil => simp
  | cons p a ih =>
    obtain ⟨k, v⟩ := p
    rw [List.cons_append, List.lookup_cons, List.lookup_cons]
    by_cases hk : (n == k) = true
    · simp [hk]
    · simp only [Bool.not_eq_true] at hk
      simp only [hk]
      exact ih

theorem addOne_lookup (D : Defs) (e : DefE) (n : Str) : (addOne D e).lookup n = (D.lookup n).or (if n = e.name then some e.d else none) := by
  unfold addOne
  by_cases hn : n = e.name
  · subst hn
    rw [if_pos rfl]
    cases hd : D.lookup e.name with
    | none =>
      rw [Option.isSome_none, if_neg Bool.false_ne_true, lookup_append, hd]
      simp [List.lookup]
    | some d =>
      rw [Option.isSome_some, if_pos rfl, hd]
      rfl
  · rw [if_neg hn]
    have hne : (n == e.name) = false := by simpa using hn
    split
    · simp
    · rw [lookup_append]
      simp [List.lookup, hne]

/-- The macros as a table. -/
def defsOf (ds : List DefE) : Defs := ds.map fun e => (e.name, e.d)

theorem addAll_lookup (D : Defs) (ds : List DefE) (n : Str) : (addAll D ds).lookup n = (D.lookup n).or ((defsOf ds).lookup n) := by
  induction ds generalizing D with
  | nil => simp [addAll, defsOf]
  | cons e r ih =>
    show (addAll (addOne D e) r).lookup n = _
    rw [ih, addOne_lookup, Option.or_assoc]
    congr 1
    show _ = List.lookup n ((e.name, e.d) :: defsOf r)
    rw [List.lookup_cons]
    by_cases hn : n = e.name
    · rw [if_pos hn, hn]; simp
    · have hne : (n == e.name) = false := by simpa using hn
      rw [if_neg hn, hne]; rfl

theorem addAll_append (D : Defs) (a b : List DefE) : addAll D (a ++ b) = addAll (addAll D a) b := by
  induction a generalizing D with
  | nil => rfl
  | cons e r ih => exact ih _

theorem fresh_append (D : Defs) (a b : List DefE) : Fresh D (a ++ b) ↔ Fresh D a ∧ Fresh (addAll D a) b := by
  induction a generalizing D with
  | nil => exact ⟨fun h => ⟨trivial, h⟩, fun h => h.2⟩
  | cons e r ih =>
    show (_ ∧ Fresh (addOne D e) (r ++ b)) ↔ (_ ∧ _) ∧ _
    rw [ih, and_assoc]
    rfl

theorem Sub.addAll (D : Defs) (ds : List DefE) : Sub D (addAll D ds) := by
  intro n d h
  rw [addAll_lookup, h]
  rfl

/-- A macro without a guard has the value of the file. -/
theorem strict_lookup {D : Defs} {ds : List DefE} (hf : Fresh D ds) {e : DefE} (he : e ∈ ds) (hg : e.guard = false) : (addAll D ds).lookup e.name = some e.d := by
  induction ds generalizing D with
  | nil => cases he
  | cons x r ih =>
    rcases List.mem_cons.1 he with rfl | he
    · refine Sub.addAll _ r _ _ ?_
      rw [addOne_lookup, hf.1 hg, if_pos rfl]
      rfl
    · exact ih hf.2 he

/-- A macro with a guard is there. -/
theorem defs_isSome (D : Defs) {ds : List DefE} {e : DefE} (he : e ∈ ds) : ((addAll D ds).lookup e.name).isSome = true := by
  induction ds generalizing D with
  | nil => cases he
  | cons x r ih =>
    rcases List.mem_cons.1 he with rfl | he
    · refine Sub.isSome (Sub.addAll _ r) ?_
      rw [addOne_lookup, if_pos rfl]
      cases D.lookup e.name <;> rfl
    · exact ih _ he

/-! ### Pieces of a file -/

variable {files : List (Str × Str)} {D0 E : Defs}

/-- The writer calls define the macros `ds` and declare `l`, at any point after `D0` and before `E`. -/
def HP (files : List (Str × Str)) (D0 E : Defs) (ops : List WOp) (ds : List DefE) (l : List Spec.Item) : Prop :=
  ∀ D, Sub D0 D → Sub (addAll D ds) E → Fresh D ds → GItems files ops D (addAll D ds) l

theorem HP.nil : HP files D0 E [] [] [] := fun _ _ _ _ => GItems.nil

theorem HP.append {a b : List WOp} {ds es : List DefE} {k l : List Spec.Item} (h1 : HP files D0 E a ds k) (h2 : HP files D0 E b es l) :
    HP files D0 E (a ++ b) (ds ++ es) (k ++ l) := by
  intro D s1 s2 hf
  rw [addAll_append] at s2 ⊢
  rw [fresh_append] at hf
  exact (h1 D s1 ((Sub.addAll _ es).trans s2) hf.1).append (h2 _ (s1.trans (Sub.addAll _ ds)) s2 hf.2)

theorem HP.cons {x : WOp} {b : List WOp} {ds es : List DefE} {k l : List Spec.Item} (h1 : HP files D0 E [x] ds k) (h2 : HP files D0 E b es l) :
    HP files D0 E (x :: b) (ds ++ es) (k ++ l) := h1.append h2

/-- A line that declares nothing. -/
theorem HP.quiet {a : List WOp} (h : ∀ D, Sub D0 D → Sub D E → Gen files a D D []) : HP files D0 E a [] [] :=
  fun D s1 s2 _ => GItems.silent (h D s1 s2)

/-- Lines without an effect in front. -/
theorem HP.pre {x : WOp} {b : List WOp} {es : List DefE} {l : List Spec.Item} (h1 : ∀ D, Gen files [x] D D []) (h2 : HP files D0 E b es l) :
    HP files D0 E (x :: b) es l := (HP.quiet fun D _ _ => h1 D).cons h2

theorem HP.pres {a : List WOp} {b : List WOp} {es : List DefE} {l : List Spec.Item} (h1 : ∀ D, Gen files a D D []) (h2 : HP files D0 E b es l) :
    HP files D0 E (a ++ b) es l := (HP.quiet fun D _ _ => h1 D).append h2

theorem HP.items {a : List WOp} {l : List Spec.Item} (h : ∀ D, Sub D0 D → Sub D E → GItems files a D D l) : HP files D0 E a [] l :=
  fun D s1 s2 _ => h D s1 s2

theorem HP.eqD {a : List WOp} {ds es : List DefE} {l : List Spec.Item} (h : HP files D0 E a ds l) (e : ds = es) : HP files D0 E a es l := e ▸ h
theorem HP.eqI {a : List WOp} {ds : List DefE} {k l : List Spec.Item} (h : HP files D0 E a ds k) (e : k = l) : HP files D0 E a ds l := e ▸ h
theorem HP.eqO {a b : List WOp} {ds : List DefE} {l : List Spec.Item} (h : HP files D0 E a ds l) (e : a = b) : HP files D0 E b ds l := e ▸ h

theorem HP.flatMap {α : Type} {L : List α} {f : α → List WOp} {ds : α → List DefE} {is : α → List Spec.Item}
    (h : ∀ x ∈ L, HP files D0 E (f x) (ds x) (is x)) : HP files D0 E (L.flatMap f) (L.flatMap ds) (L.flatMap is) := by
  induction L with
  | nil => exact HP.nil
  | cons x r ih => exact (h x (by simp)).append (ih fun y hy => h y (by simp [hy]))

/-- A `#define`. -/
theorem HP.define {a : List WOp} {t n : Str} {m : MDef} (o : OL a ["#define ".toList ++ t]) (hd : defOf (' ' :: t) = some (n, m)) :
    HP files D0 E a [⟨false, n, m⟩] [] := by
  intro D s1 s2 hf
  have hn : D.lookup n = none := hf.1 rfl
  have e : addAll D [⟨false, n, m⟩] = D ++ [(n, m)] := by
    show addOne D _ = _
    unfold addOne
    simp only [hn, Option.isSome_none, Bool.false_eq_true, if_false]
  rw [e]
  exact GItems.silent (Gen.define o hd hn)

/-- A `#define` behind `#ifndef`; comments may stand between. -/
theorem HP.guarded {c a : List WOp} {t n : Str} {m : MDef} {y : WOp} (h : IsWord n) (hl : n.length ≤ 9000) (hc : ∀ D, Gen files c D D [])
    (o : OL a ["#define ".toList ++ t]) (hd : defOf (' ' :: t) = some (n, m)) (hy : CloseOp files y) :
    HP files D0 E ([opIfndef n] ++ (c ++ a) ++ [y]) [⟨true, n, m⟩] [] := by
  intro D s1 s2 hf
  have e : addAll D [⟨true, n, m⟩] = if (D.lookup n).isSome then D else D ++ [(n, m)] := rfl
  rw [e]
  cases hn : D.lookup n with
  | none =>
    rw [Option.isSome_none, if_neg Bool.false_ne_true]
    exact GItems.silent (Gen.ifndefT h hl hn hy ((hc D).append (Gen.define o hd hn)))
  | some d =>
    rw [Option.isSome_some, if_pos rfl]
    exact GItems.silent (Gen.ifndefF h hl (by rw [hn]; rfl) hy ((hc D).skip.append (GSkip.define o)))

/-- `#ifdef` of a macro of the user. -/
theorem HP.ifdefT {a : List WOp} {n : Str} {y : WOp} {ds : List DefE} {l : List Spec.Item} (h : IsWord n) (hl : n.length ≤ 9000)
    (hd : (D0.lookup n).isSome = true) (hy : CloseOp files y) (ha : HP files D0 E a ds l) : HP files D0 E ([opIfdef n] ++ a ++ [y]) ds l := by
  intro D s1 s2 hf
  obtain ⟨us, g, p⟩ := ha D s1 s2 hf
  exact ⟨us, Gen.ifdefT h hl (s1.isSome hd) hy g, p⟩

/-- `#ifdef` of a macro that is not defined. -/
theorem HP.ifdefF {a : List WOp} {n : Str} {y : WOp} (h : IsWord n) (hl : n.length ≤ 9000)
    (hd : E.lookup n = none) (hy : CloseOp files y) (ha : GSkip files a) : HP files D0 E ([opIfdef n] ++ a ++ [y]) [] [] := by
  intro D s1 s2 hf
  have s3 : Sub D E := s2
  exact GItems.silent (Gen.ifdefF h hl (by rw [s3.none hd]; rfl) hy ha)

theorem HP.elseT {a b : List WOp} {n : Str} {y : WOp} {ds : List DefE} {l : List Spec.Item} (h : IsWord n) (hl : n.length ≤ 9000)
    (hd : (D0.lookup n).isSome = true) (hy : CloseOp files y) (ha : HP files D0 E a ds l) (hb : GSkip files b) :
    HP files D0 E ([opIfdef n] ++ a ++ [opLine "#else"] ++ b ++ [y]) ds l := by
  intro D s1 s2 hf
  obtain ⟨us, g, p⟩ := ha D s1 s2 hf
  exact ⟨us, Gen.elseT h hl (s1.isSome hd) hy g hb, p⟩

theorem HP.elseF {a b : List WOp} {n : Str} {y : WOp} {ds : List DefE} {l : List Spec.Item} (h : IsWord n) (hl : n.length ≤ 9000)
    (hd : E.lookup n = none) (hy : CloseOp files y) (ha : GSkip files a) (hb : HP files D0 E b ds l) :
    HP files D0 E ([opIfdef n] ++ a ++ [opLine "#else"] ++ b ++ [y]) ds l := by
  intro D s1 s2 hf
  obtain ⟨us, g, p⟩ := hb D s1 s2 hf
  have hs : Sub D E := (Sub.addAll D ds).trans s2
  exact ⟨us, Gen.elseF h hl (by rw [hs.none hd]; rfl) hy ha g, p⟩

/-- The piece as a whole file. -/
theorem HP.run {ops : List WOp} {ds : List DefE} {l : List Spec.Item} (h : HP files D0 E ops ds l) (hE : E = addAll D0 ds) (hf : Fresh D0 ds) :
    GItems files ops D0 E l := by
  subst hE
  exact h D0 (Sub.refl _) (Sub.refl _) hf

theorem HP.skip {ops : List WOp} {ds : List DefE} {l : List Spec.Item} (h : HP files [] (addAll [] ds) ops ds l) (hf : Fresh [] ds) : GSkip files ops :=
  (h [] (Sub.refl _) (Sub.refl _) hf).skip

end Verif
