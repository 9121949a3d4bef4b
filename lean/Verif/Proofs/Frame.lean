import Verif.Proofs.Preproc
/- What statements change. -/
namespace Verif
variable {φ : Type}

/-- Integer member written by a statement. -/
def CStmt.writes : CStmt → List Str
  | .setSig d _ _ | .setSigExt d _ _ _ | .fromSInt d _ _ | .toS d _ _ | .incr d _ _ | .clear d _
  | .setCsm d _ _ _ _ => [d]
  | _ => []

/-- Statement that may change the payload buffer. -/
def CStmt.writesDat : CStmt → Bool
  | .initLoop _ | .orByte _ _ => true
  | _ => false

/-- Statement that may change the monitor. -/
def CStmt.writesMon : CStmt → Bool
  | .monDlc _ | .monTick | .monCnt | .monRoll _ | .monCsm _ _ _ _ _ => true
  | _ => false

theorem assign_some {c : Ctx φ} {st st' : St φ} {n : Str} {z : Int}
    (h : c.assign st n z = some st') :
    ∃ d, c.decl n = some d ∧ st' = st.upd n (d.store z) := by
  unfold Ctx.assign at h
  cases hd : c.decl n with
  | none => simp [hd] at h
  | some d => simp [hd] at h; exact ⟨d, rfl, h.symm⟩

theorem upd_same (st : St φ) (n : Str) (z : Int) : (st.upd n z).fld n = z := by simp [St.upd]
theorem upd_ne (st : St φ) {n x : Str} (z : Int) (h : x ≠ n) : (st.upd n z).fld x = st.fld x := by
  simp [St.upd, h]

/-- Everything except the integer members (and possibly more) is unchanged by a statement. -/
theorem exec_frame {c : Ctx φ} {st st' : St φ} {s : CStmt} (h : exec c st s = some st') :
    (∀ n, n ∉ s.writes → st'.fld n = st.fld n) ∧ (s.writesDat = false → st'.dat = st.dat) ∧
    (s.writesMon = false → st'.mon = st.mon) := by
  have ha : ∀ {st st' : St φ} {n : Str} {z : Int}, c.assign st n z = some st' →
      (∀ x, x ∉ [n] → st'.fld x = st.fld x) ∧ st'.dat = st.dat ∧ st'.mon = st.mon := by
    intro st st' n z h
    obtain ⟨d, -, rfl⟩ := assign_some h
    exact ⟨fun x hx => upd_ne _ _ (by simpa using hx), rfl, rfl⟩
  have fin : ∀ {st st' : St φ} {n : Str} {z : Int}, c.assign st n z = some st' →
      (∀ x, x ∉ [n] → st'.fld x = st.fld x) ∧ ((false : Bool) = false → st'.dat = st.dat) ∧
      ((false : Bool) = false → st'.mon = st.mon) := fun h => ⟨(ha h).1, fun _ => (ha h).2.1, fun _ => (ha h).2.2⟩
  cases s with
  | setSig d t e =>
    cases e with
    | err => simp [exec] at h
    | expr e =>
      simp only [exec, Option.bind_eq_bind, Option.bind_eq_some_iff] at h
      obtain ⟨v, -, h⟩ := h
      exact fin h
  | setSigExt d t e b =>
    cases e with
    | err => simp [exec] at h
    | expr e =>
      simp only [exec, Option.bind_eq_bind, Option.bind_eq_some_iff] at h
      obtain ⟨v, -, x, -, h⟩ := h
      exact fin h
  | fromSFloat d mac =>
    simp only [exec, Option.bind_eq_bind, Option.bind_eq_some_iff] at h
    obtain ⟨v, -, s, -, h⟩ := h
    split at h
    · split at h
      · simp only [pure, Option.some.injEq] at h; subst h; exact ⟨fun _ _ => rfl, fun _ => rfl, fun _ => rfl⟩
      · rw [Option.bind_eq_some_iff] at h
        obtain ⟨y, -, h⟩ := h
        simp only [pure, Option.some.injEq] at h; subst h; exact ⟨fun _ _ => rfl, fun _ => rfl, fun _ => rfl⟩
    · contradiction
  | fromSInt d t mac =>
    simp only [exec, Option.bind_eq_bind, Option.bind_eq_some_iff] at h
    obtain ⟨v, -, s, -, h⟩ := h
    split at h <;> (rw [Option.bind_eq_some_iff] at h; obtain ⟨y, -, h⟩ := h; exact fin h)
  | toS d t src =>
    simp only [exec, Option.bind_eq_bind, Option.bind_eq_some_iff] at h
    obtain ⟨s, -, h⟩ := h
    split at h
    · split at h <;> (rw [Option.bind_eq_some_iff] at h; obtain ⟨y, -, h⟩ := h; exact fin h)
    · split at h
      · rw [Option.bind_eq_some_iff] at h; obtain ⟨y, -, h⟩ := h; exact fin h
      · contradiction
  | incr d src msk =>
    simp only [exec, Option.bind_eq_bind, Option.bind_eq_some_iff] at h
    obtain ⟨v, -, w, -, h⟩ := h
    exact fin h
  | clear d t => exact fin h
  | setCsm d _ _ _ _ => exact fin h
  | monDlc _ | monTick | monCnt | fmon _ _ | outId _ | outDlc _ | outIde _ | ret _ =>
    simp only [exec, Option.some.injEq] at h; subst h
    simp [CStmt.writesDat, CStmt.writesMon]
  | monRoll n =>
    simp only [exec, Option.bind_eq_bind, Option.bind_eq_some_iff] at h
    obtain ⟨v, -, w, -, h⟩ := h
    simp only [pure, Option.some.injEq] at h; subst h
    simp [CStmt.writesDat, CStmt.writesMon]
  | monCsm _ _ _ _ _ =>
    simp only [exec, Option.bind_eq_bind, Option.bind_eq_some_iff] at h
    obtain ⟨v, -, h⟩ := h
    simp only [pure, Option.some.injEq] at h; subst h
    simp [CStmt.writesDat, CStmt.writesMon]
  | initLoop d =>
    simp only [exec, Option.ite_none_right_eq_some, Option.some.injEq] at h
    obtain ⟨-, rfl⟩ := h
    simp [CStmt.writesDat, CStmt.writesMon]
  | orByte i e =>
    cases e with
    | empty => simp [exec] at h
    | err => simp [exec] at h
    | expr e =>
      simp only [exec, Option.bind_eq_bind, Option.bind_eq_some_iff] at h
      obtain ⟨v, -, old, -, h⟩ := h
      simp only [pure, Option.some.injEq] at h; subst h; simp [CStmt.writesDat, CStmt.writesMon]

theorem execAll_frame {c : Ctx φ} {l : List CStmt} : ∀ {st st' : St φ},
    execAll c st l = some st' →
    (∀ n, n ∉ l.flatMap CStmt.writes → st'.fld n = st.fld n) ∧
    ((∀ s ∈ l, s.writesDat = false) → st'.dat = st.dat) ∧
    ((∀ s ∈ l, s.writesMon = false) → st'.mon = st.mon) := by
  induction l with
  | nil => intro st st' h; simp [execAll] at h; subst h; simp
  | cons s l ih =>
    intro st st' h
    simp only [execAll] at h
    split at h
    · contradiction
    next st1 h1 =>
      obtain ⟨a1, a2, a3⟩ := exec_frame h1
      obtain ⟨b1, b2, b3⟩ := ih h
      refine ⟨?_, ?_, ?_⟩
      · intro n hn
        simp only [List.flatMap_cons, List.mem_append, not_or] at hn
        rw [b1 n hn.2, a1 n hn.1]
      · intro hs
        rw [b2 fun x hx => hs x (List.mem_cons_of_mem _ hx), a2 (hs s (List.mem_cons_self ..))]
      · intro hs
        rw [b3 fun x hx => hs x (List.mem_cons_of_mem _ hx), a3 (hs s (List.mem_cons_self ..))]

theorem execAll_split {c : Ctx φ} {a b : List CStmt} {s : CStmt} {st st' : St φ}
    (h : execAll c st (a ++ s :: b) = some st') :
    ∃ st1 st2, execAll c st a = some st1 ∧ exec c st1 s = some st2 ∧ execAll c st2 b = some st' := by
  rw [execAll_append] at h
  cases h1 : execAll c st a with
  | none => simp [h1] at h
  | some st1 =>
    simp only [h1, Option.bind, execAll] at h
    split at h
    · contradiction
    next st2 h2 => exact ⟨st1, st2, rfl, h2, h⟩

theorem lookup_of_nodup {β : Type} {l : List (Str × β)} {k : Str} {v : β}
    (hn : (l.map (·.1)).Nodup) (h : (k, v) ∈ l) : l.lookup k = some v := by
  induction l with
  | nil => cases h
  | cons p l ih =>
    obtain ⟨k', v'⟩ := p
    simp only [List.map_cons, List.nodup_cons] at hn
    rcases List.mem_cons.1 h with h1 | h1
    · cases h1; simp [List.lookup]
    · have : k ≠ k' := by
        rintro rfl
        exact hn.1 (List.mem_map.2 ⟨(k, v), h1, rfl⟩)
      have hb : (k == k') = false := by simpa using this
      simp only [List.lookup, hb]
      exact ih hn.2 h1

/-- Member names of a signal in the struct. -/
theorem structSigs_mem {cfg : Cfg} {m : Msg} {s : Sig} (h : s ∈ m.signals) : s ∈ structSigs cfg m := by
  unfold structSigs; exact List.mem_append_left _ h

theorem decl_of_mem {c : Ctx φ} {cfg : Cfg} {m : Msg} (hd : c.decls = structDecls cfg m)
    (hn : (c.decls.map (·.1)).Nodup) {s : Sig} (h : s ∈ structSigs cfg m) :
    c.decl s.name = some (sigDecl cfg s) := by
  unfold Ctx.decl
  apply lookup_of_nodup hn
  rw [hd]
  unfold structDecls
  exact List.mem_flatMap.2 ⟨s, h, List.mem_cons_self ..⟩

end Verif
