import Verif.Props.NodePipeline
/-
Running the linked program of a node: what Unpack keeps, and one received frame.
-/
namespace Verif
open Spec

variable {φ : Type}

/-! ### What Unpack keeps: types of the members; and which functions it calls -/

/-- The widths of the members fit their types. -/
def WidthOk (c : Ctx φ) : Prop := ∀ n d, c.decl n = some d → ∀ w, d.width = some w → w ≤ d.ty.bits

theorem assign_typed {c : Ctx φ} (hw : WidthOk c) {st st' : St φ} {n : Str} {z : Int} (h : c.assign st n z = some st') :
    (Typed c st → Typed c st') ∧ st'.calls = st.calls := by
  obtain ⟨d, hd, rfl⟩ := assign_some h
  refine ⟨fun ht x dx hx => ?_, rfl⟩
  show dx.ty.conv (if x = n then d.store z else st.fld x) = if x = n then d.store z else st.fld x
  by_cases hxn : x = n
  · subst hxn
    rw [hd] at hx
    cases hx
    rw [if_pos rfl, store_eq]
    exact storeInt_typed _ _ (hw _ _ hd) _
  · rw [if_neg hxn]
    exact ht x dx hx

/-- A statement. -/
theorem exec_keeps {c : Ctx φ} (hw : WidthOk c) {st st' : St φ} {s : CStmt} (h : exec c st s = some st') :
    (Typed c st → Typed c st') ∧ ∀ x ∈ st'.calls, x ∈ st.calls ∨ s = .fmon x.1 x.2 := by
  have fin : ∀ {st st' : St φ} {n : Str} {z : Int}, c.assign st n z = some st' → (Typed c st → Typed c st') ∧ ∀ x ∈ st'.calls, x ∈ st.calls ∨ s = .fmon x.1 x.2 :=
    fun h => ⟨(assign_typed hw h).1, fun x hx => .inl ((assign_typed hw h).2 ▸ hx)⟩
  cases s with
  | setSig d t e =>
    cases e with
    | err => simp [exec] at h
    | expr e =>
      simp only [exec, Option.bind_eq_bind, Option.bind_eq_some_iff] at h
      obtain ⟨v, -, h⟩ := h
      exact fin h
  | setSigExt d t e b =>
    cases e with
    | err => simp [exec] at h
    | expr e =>
      simp only [exec, Option.bind_eq_bind, Option.bind_eq_some_iff] at h
      obtain ⟨v, -, x, -, h⟩ := h
      exact fin h
  | fromSFloat d mac =>
    simp only [exec, Option.bind_eq_bind, Option.bind_eq_some_iff] at h
    obtain ⟨v, -, s, -, h⟩ := h
    split at h
    · split at h
      · simp only [pure, Option.some.injEq] at h; subst h; exact ⟨fun q => q, fun _ q => .inl q⟩
      · rw [Option.bind_eq_some_iff] at h
        obtain ⟨y, -, h⟩ := h
        simp only [pure, Option.some.injEq] at h; subst h; exact ⟨fun q => q, fun _ q => .inl q⟩
    · contradiction
  | fromSInt d t mac =>
    simp only [exec, Option.bind_eq_bind, Option.bind_eq_some_iff] at h
    obtain ⟨v, -, s, -, h⟩ := h
    split at h <;> (rw [Option.bind_eq_some_iff] at h; obtain ⟨y, -, h⟩ := h; exact fin h)
  | toS d t src =>
    simp only [exec, Option.bind_eq_bind, Option.bind_eq_some_iff] at h
    obtain ⟨s, -, h⟩ := h
    split at h
    · split at h <;> (rw [Option.bind_eq_some_iff] at h; obtain ⟨y, -, h⟩ := h; exact fin h)
    · split at h
      · rw [Option.bind_eq_some_iff] at h; obtain ⟨y, -, h⟩ := h; exact fin h
      · contradiction
  | incr d src msk =>
    simp only [exec, Option.bind_eq_bind, Option.bind_eq_some_iff] at h
    obtain ⟨v, -, w, -, h⟩ := h
    exact fin h
  | clear d t => exact fin h
  | setCsm d _ _ _ _ => exact fin h
  | fmon n i =>
    simp only [exec, Option.some.injEq] at h; subst h
    refine ⟨fun q => q, fun x hx => ?_⟩
    rcases List.mem_append.1 hx with q | q
    · exact .inl q
    · rw [List.mem_singleton] at q
      subst q
      exact .inr rfl
  | monDlc _ | monTick | monCnt | outId _ | outDlc _ | outIde _ | ret _ =>
    simp only [exec, Option.some.injEq] at h; subst h
    exact ⟨fun q => q, fun _ q => .inl q⟩
  | monRoll n =>
    simp only [exec, Option.bind_eq_bind, Option.bind_eq_some_iff] at h
    obtain ⟨v, -, w, -, h⟩ := h
    simp only [pure, Option.some.injEq] at h; subst h
    exact ⟨fun q => q, fun _ q => .inl q⟩
  | monCsm _ _ _ _ _ =>
    simp only [exec, Option.bind_eq_bind, Option.bind_eq_some_iff] at h
    obtain ⟨v, -, h⟩ := h
    simp only [pure, Option.some.injEq] at h; subst h
    exact ⟨fun q => q, fun _ q => .inl q⟩
  | initLoop d =>
    simp only [exec, Option.ite_none_right_eq_some, Option.some.injEq] at h
    obtain ⟨-, rfl⟩ := h
    exact ⟨fun q => q, fun _ q => .inl q⟩
  | orByte i e =>
    cases e with
    | empty => simp [exec] at h
    | err => simp [exec] at h
    | expr e =>
      simp only [exec, Option.bind_eq_bind, Option.bind_eq_some_iff] at h
      obtain ⟨v, -, old, -, h⟩ := h
      simp only [pure, Option.some.injEq] at h; subst h; exact ⟨fun q => q, fun _ q => .inl q⟩

theorem execAll_keeps {c : Ctx φ} (hw : WidthOk c) {l : List CStmt} : ∀ {st st' : St φ}, execAll c st l = some st' →
    (Typed c st → Typed c st') ∧ ∀ x ∈ st'.calls, x ∈ st.calls ∨ .fmon x.1 x.2 ∈ l := by
  induction l with
  | nil => intro st st' h; simp [execAll] at h; subst h; exact ⟨fun q => q, fun _ q => .inl q⟩
  | cons s l ih =>
    intro st st' h
    simp only [execAll] at h
    split at h
    · contradiction
    next st1 h1 =>
      obtain ⟨a1, a2⟩ := exec_keeps hw h1
      obtain ⟨b1, b2⟩ := ih h
      refine ⟨fun q => b1 (a1 q), fun x hx => ?_⟩
      rcases b2 x hx with q | q
      · rcases a2 x q with q | q
        · exact .inl q
        · exact .inr (List.mem_cons.2 (.inl q.symm))
      · exact .inr (List.mem_cons_of_mem _ q)

theorem sigStmts_fmon {cfg : Cfg} {s : Sig} {e : SigText} {n : Str} {i : Nat} : .fmon n i ∉ sigStmts cfg s e := by
  unfold sigStmts
  intro h
  rw [List.mem_cons] at h
  rcases h with h | h
  · split at h <;> cases h
  · split at h
    · simp only [List.mem_singleton] at h
      split at h <;> cases h
    · cases h

/-- A call of Unpack. -/
theorem unpack_keeps {c : Ctx φ} (hw : WidthOk c) {m : Msg} {st st' : St φ} (h : runUnpack c m st = .ok st') :
    (Typed c st → Typed c st') ∧ ∀ x ∈ st'.calls, x ∈ st.calls ∨ (x = (m.name, m.msgId) ∧ c.cfg.flag .useMon = true) := by
  unfold runUnpack at h
  cases hb : buildExprs m with
  | oob => rw [hb] at h; cases h
  | ok sx tb =>
    rw [hb] at h
    dsimp only at h
    obtain ⟨w1, w2⟩ := writeUnpackBody_eq c.cfg m sx
    by_cases hr : RollOk m
    · obtain ⟨lines, e1, e2⟩ := w2 hr
      rw [e1] at h
      dsimp only at h
      unfold runBody at h
      split at h
      · rw [e2] at h
        split at h
        · cases h
        next st3 he =>
          cases h
          obtain ⟨a, b⟩ := execAll_keeps hw he
          refine ⟨a, fun x hx => ?_⟩
          rcases b x hx with q | q
          · exact .inl q
          · refine .inr ?_
            rcases List.mem_append.1 q with q | q
            · rcases List.mem_append.1 q with q | q
              · obtain ⟨p, -, hp⟩ := List.mem_flatMap.1 q
                exact absurd hp sigStmts_fmon
              · cases hu : c.cfg.flag .useMon with
                | false => rw [monStmts_off hu] at q; cases q
                | true =>
                  refine ⟨?_, rfl⟩
                  rw [monStmts_eq hu] at q
                  rcases List.mem_append.1 q with q | q
                  · rcases List.mem_append.1 q with q | q
                    · rcases List.mem_append.1 q with q | q
                      · simp at q
                      · unfold monRollStmts at q
                        split at q
                        · split at q
                          · simp at q
                          · cases q
                        · cases q
                    · unfold monCsmStmts at q
                      split at q
                      · split at q
                        · simp at q
                        · cases q
                      · cases q
                  · simp only [List.mem_singleton, CStmt.fmon.injEq] at q
                    exact Prod.ext q.1 q.2
            · simp at q
      · cases h
    · rw [w1 hr] at h; cases h

theorem struct_width (cfg : Cfg) (msgs : List Msg) (m : Msg) (fl : FloatOps φ) (hash : List Nat → Nat → Nat → Str → Nat → Nat) (now dlc : Nat) :
    WidthOk (mkCtx cfg msgs m fl hash now dlc) := by
  intro n d hd w hw
  have hm : (n, d) ∈ structDecls cfg m := mem_of_lookup hd
  obtain ⟨s, -, hs⟩ := List.mem_flatMap.1 hm
  unfold sigDecls at hs
  rcases List.mem_cons.1 hs with e | e
  · cases e
    unfold sigDecl at hw ⊢
    dsimp only at hw ⊢
    split at hw
    next hq =>
      cases hw
      have : s.lengthBit < 8 := of_decide_eq_true (Bool.and_eq_true_iff.1 hq).2
      have := CTy.bits_ge_8 s.typeRo
      omega
    · cases hw
  · split at e
    · rw [List.mem_singleton] at e
      cases e
      cases hw
    · cases e

theorem lookup_nodup {α : Type} {l : List (Str × α)} (hn : (l.map (·.1)).Nodup) {n : Str} {a : α} (h : (n, a) ∈ l) : l.lookup n = some a := by
  induction l with
  | nil => cases h
  | cons x l ih =>
    obtain ⟨k, b⟩ := x
    rw [List.map_cons, List.nodup_cons] at hn
    rcases List.mem_cons.1 h with e | e
    · cases e
      exact lookup_eq
    · have hk : n ≠ k := fun e' => hn.1 (e' ▸ List.mem_map.2 ⟨(n, a), e, rfl⟩)
      rw [lookup_ne hk]
      exact ih hn.2 e

/-- Members of a struct whose names are different. -/
theorem typed_members {cfg : Cfg} {msgs : List Msg} {m : Msg} {fl : FloatOps φ} {hash : List Nat → Nat → Nat → Str → Nat → Nat} {now dlc : Nat}
    (hn : ((structMembers cfg.flag m).map (·.1)).Nodup) {st : St φ} (h : Typed (mkCtx cfg msgs m fl hash now dlc) st) {n : Str} {t : CTy} {w : Option Nat}
    (hm : (n, MTy.int t w) ∈ structMembers cfg.flag m) : t.conv (st.fld n) = st.fld n := by
  have h2 : (n, MTy.int t w) ∈ (structMembers cfg.flag m).filter isInt := List.mem_filter.2 ⟨hm, rfl⟩
  rw [members_int] at h2
  obtain ⟨⟨k, d⟩, hd, e⟩ := List.mem_map.1 h2
  cases e
  exact h _ d (lookup_nodup (List.nodup_append.1 (decls_nodup hn)).1 hd)

/-! ### Finding functions in a linked program -/

theorem funcOf_some {u : List Spec.Item} {n : Str} (h : (funcOf u n).isSome = true) : ∃ g, funcOf u n = some g ∧ .func g ∈ u ∧ g.name = n := by
  obtain ⟨g, hg⟩ := Option.isSome_iff_exists.1 h
  refine ⟨g, hg, ?_⟩
  unfold funcOf at hg
  obtain ⟨i, hi, e⟩ := List.exists_of_findSome?_eq_some hg
  cases i with
  | func f =>
    dsimp only at e
    split at e
    next q =>
      cases e
      exact ⟨hi, q⟩
    · cases e
  | _ => cases e

theorem funcOf_isSome {u : List Spec.Item} {g : Func} (h : .func g ∈ u) : (funcOf u g.name).isSome = true := by
  unfold funcOf
  rw [List.findSome?_isSome_iff]
  exact ⟨_, h, by dsimp only; rw [if_pos rfl]; rfl⟩

theorem gives_mem {u : List Spec.Item} {n : Str} (h : (funcOf u n).isSome = true) : n ∈ (u.filterMap Item.gives).map (·.1) := by
  obtain ⟨g, -, hg, rfl⟩ := funcOf_some h
  exact List.mem_map.2 ⟨_, List.mem_filterMap.2 ⟨_, hg, rfl⟩, rfl⟩

/-- In a program that links a function is found in the unit that has it. -/
theorem unitOf_mem {us : List (List Spec.Item)} (h : links us = true) {u : List Spec.Item} (hu : u ∈ us) {n : Str} (hf : (funcOf u n).isSome = true) : unitOf us n = some u := by
  unfold links at h
  have hn := of_decide_eq_true (Bool.and_eq_true_iff.1 h).1
  clear h
  unfold unitOf
  induction us with
  | nil => cases hu
  | cons v us ih =>
    rw [List.flatten_cons, List.filterMap_append, List.map_append, List.nodup_append] at hn
    rcases List.mem_cons.1 hu with rfl | hu
    · exact List.find?_cons_of_pos hf
    · have hv : ¬ (funcOf v n).isSome = true := fun q => by
        refine hn.2.2 n (gives_mem q) n ?_ rfl
        obtain ⟨g, -, hg, rfl⟩ := funcOf_some hf
        exact List.mem_map.2 ⟨_, List.mem_filterMap.2 ⟨_, List.mem_flatten.2 ⟨u, hu, hg⟩, rfl⟩, rfl⟩
      exact (List.find?_cons_of_neg (p := fun u => (funcOf u n).isSome) hv).trans (ih hu hn.2.1)

theorem callUnit_isSome {f : Nat} {T : Target φ} {u : List Spec.Item} {n : Str} {vs : List (V φ)} {st : CSt φ} {r : CSt φ × V φ} (h : callUnit f T u n vs st = some r) :
    (funcOf u n).isSome = true := by
  unfold callUnit at h
  cases hf : funcOf u n with
  | none => rw [hf] at h; cases h
  | some g => rfl

/-- Calls of functions that change nothing. -/
theorem voidCalls_nothing {f : Nat} {T : Target φ} {us : List (List Spec.Item)} {cs : List (Str × List (V φ))} {st : CSt φ}
    (h : ∀ c ∈ cs, ∃ u g, unitOf us c.1 = some u ∧ funcOf u c.1 = some g ∧ runVoid f (voidEnv f T u) g c.2 st = some st) : voidCalls f T us cs st = some st := by
  induction cs with
  | nil => rfl
  | cons c cs ih =>
    obtain ⟨n, vs⟩ := c
    obtain ⟨u, g, h1, h2, h3⟩ := h (n, vs) List.mem_cons_self
    dsimp only at h1 h2 h3
    unfold voidCalls
    rw [h1, Option.bind_some, h2, Option.bind_some, h3, Option.bind_some]
    exact ih fun c hc => h c (List.mem_cons_of_mem _ hc)

theorem callLeaf_eq {f : Nat} {T : Target φ} {us : List (List Spec.Item)} {n : Str} {vs : List (V φ)} {st : CSt φ} {u : List Spec.Item} {r : CSt φ × V φ}
    (h1 : unitOf us n = some u) (h2 : callUnit f T u n vs st = some r) (h3 : voidCalls f T us r.1.calls r.1 = some r.1) :
    callLeaf f T us n vs st = some ({ r.1 with out := fun _ => none, calls := [] }, r.2) := by
  unfold callLeaf
  rw [h1, Option.bind_some, h2, Option.bind_some, h3]
  rfl

end Verif
