import Verif.Props.MsgOrder
import Verif.Spec.History
import Verif.Props.OneFile
/-
C78: running the tool again.
-/
namespace Verif
open Spec

/-! ### Paths -/

/-- Every path a run writes is a file of one of the five directories. -/
theorem written_sub (o : GenOptions) (msgs : List Msg) (prep : PrepRes) (p : Str) (hp : p ∈ writtenPaths o msgs prep) :
    ∃ s ∈ ["/lib".toList, "/usr".toList, "/inc".toList, "/conf".toList, "/butl".toList], ∃ r, p = finalPath o ++ (s ++ '/' :: r) := by
  unfold writtenPaths at hp
  have key : ∀ s ∈ ["/lib".toList, "/usr".toList, "/inc".toList, "/conf".toList, "/butl".toList], ∀ r : Str,
      ∃ s' ∈ ["/lib".toList, "/usr".toList, "/inc".toList, "/conf".toList, "/butl".toList], ∃ r', finalPath o ++ s ++ '/' :: r = finalPath o ++ (s' ++ '/' :: r') :=
    fun s hs r => ⟨s, hs, r, List.append_assoc _ _ _⟩
  split at hp
  · simp only [List.mem_append, List.mem_cons, List.not_mem_nil, or_false] at hp
    rcases hp with ((((rfl | rfl | rfl) | h) | h) | h) | h
    · exact key _ (by decide) _
    · exact key _ (by decide) _
    · exact key _ (by decide) _
    · split at h
      · cases h
      · rcases List.mem_singleton.mp h with rfl
        exact key _ (by decide) _
    · split at h
      · cases h
      · rcases List.mem_cons.mp h with rfl | h
        · exact key _ (by decide) _
        · rcases List.mem_singleton.mp h with rfl
          exact key "/conf".toList (by decide) _
    · split at h
      · cases h
      · rcases List.mem_singleton.mp h with rfl
        exact key "/inc".toList (by decide) _
    · split at h
      · obtain ⟨n, _, h⟩ := List.mem_flatMap.mp h
        rcases List.mem_cons.mp h with rfl | h
        · unfold nodeUtilH; rw [List.append_assoc]; exact key "/butl".toList (by decide) _
        · rcases List.mem_singleton.mp h with rfl
          unfold nodeUtilC; rw [List.append_assoc]; exact key "/butl".toList (by decide) _
      · rcases List.mem_cons.mp h with rfl | h
        · exact key _ (by decide) _
        · rcases List.mem_singleton.mp h with rfl
          exact key _ (by decide) _
  · cases hp

/-- The five directories of a run. -/
def fiveDirs (o : GenOptions) : List Str :=
  let c := configure o.drvname.1 (finalPath o)
  [c.libdir, c.usrdir, c.incdir, c.confdir, c.utildir]

theorem five_form (o : GenOptions) : fiveDirs o = ["/lib".toList, "/usr".toList, "/inc".toList, "/conf".toList, "/butl".toList].map (finalPath o ++ ·) := rfl

theorem written_not_dir {o : GenOptions} {msgs : List Msg} {prep : PrepRes} {p : Str} (hp : p ∈ writtenPaths o msgs prep) : p ∉ fiveDirs o ∧ p ≠ finalPath o := by
  obtain ⟨s, hs, r, rfl⟩ := written_sub o msgs prep p hp
  constructor
  · rw [five_form]
    intro q
    obtain ⟨s', hs', e⟩ := List.mem_map.1 q
    have e := List.append_cancel_left e
    simp only [List.mem_cons, List.not_mem_nil, or_false] at hs hs'
    rcases hs with rfl | rfl | rfl | rfl | rfl <;> rcases hs' with rfl | rfl | rfl | rfl | rfl <;> exact nomatch e
  · intro q
    have := congrArg List.length q
    rw [List.length_append, List.length_append, List.length_cons] at this
    omega

/-- No number has two directories. -/
theorem num3_inj {a b : Nat} (ha : a < 1000) (hb : b < 1000) (h : num3 a = num3 b) : a = b := by
  have key : ∀ n < 1000, decVal (num3 n) = n := by decide +kernel
  rw [← key a ha, ← key b hb, h]

theorem numbered_inj {base : Str} {a b : Nat} (ha : a < 1000) (hb : b < 1000) (h : numbered base a = numbered base b) : a = b :=
  num3_inj ha hb (List.append_cancel_left h)

theorem numbered_not_five (o : GenOptions) (n : Nat) : numbered (finalPath o) n ∉ fiveDirs o := by
  rw [five_form]
  intro q
  obtain ⟨s, hs, e⟩ := List.mem_map.1 q
  unfold numbered at e
  rw [List.append_assoc] at e
  have e := List.append_cancel_left e
  have h3 : num3 n = [digitChar (n / 10 / 10 % 10), digitChar (n / 10 % 10), digitChar (n % 10)] := rfl
  rw [h3] at e
  have hl := congrArg List.length e
  have hd : ∀ k, (digitChar (k % 10)).toNat < 58 := by
    intro k
    have : ∀ j < 10, (digitChar j).toNat < 58 := by decide
    exact this _ (Nat.mod_lt _ (by decide))
  split at e
  · simp only [List.mem_cons, List.not_mem_nil, or_false] at hs
    rcases hs with rfl | rfl | rfl | rfl | rfl <;> exact absurd (congrArg List.length e) (show ¬ _ = 3 by decide)
  · simp only [List.mem_cons, List.not_mem_nil, or_false] at hs
    rcases hs with rfl | rfl | rfl | rfl | rfl <;> have e2 := (List.cons.inj (List.cons.inj e).2).1 <;> exact absurd (e2 ▸ hd (n / 10 / 10)) (by decide)

/-! ### Another run on the same machine -/

/-- A run depends on the directories only through `PrepareDirectory`. -/
theorem run_again {H : RunHost} {args : List Str} {path : Str} (ha : Asks args path) {F : FileSys} {D : Str → Option (Option Str)} (hD : D path = H.dbc path)
    {d d' : Option Str} (h : prepareDirectory H.fs (configure (getOptions args).drvname.1 (finalPath (getOptions args))) (getOptions args).isRewrite = .ret true d)
    (h' : prepareDirectory F (configure (getOptions args).drvname.1 (finalPath (getOptions args))) (getOptions args).isRewrite = .ret true d') :
    runApp { H with fs := F, dbc := D } args = runApp H args := by
  obtain ⟨h1, h2⟩ := (asks_iff args path).1 ha
  unfold runApp
  dsimp only
  rw [if_pos h1, if_pos h1, h2, hD]
  cases H.dbc path with
  | none => rfl
  | some t =>
    cases t with
    | none => rfl
    | some text =>
      dsimp only
      cases trimDbcText H.plat text with
      | ub => rfl
      | throws => rfl
      | ok out =>
        dsimp only
        unfold generate
        dsimp only
        rw [h, h']
        rfl

/-- No directory is left: nothing is written. -/
theorem run_full {H : RunHost} {args : List Str} {path text : Str} {out : DbcList} (ha : Asks args path) (hD : H.dbc path = some (some text)) (ht : trimDbcText H.plat text = .ok out)
    {d : Option Str} (h : prepareDirectory H.fs (configure (getOptions args).drvname.1 (finalPath (getOptions args))) (getOptions args).isRewrite = .ret false d) :
    runApp H args = .done [] := by
  rw [runApp_read ha hD, ht]
  dsimp only
  unfold generate
  dsimp only
  rw [h]

theorem prepare_five {fs : FileSys} {o : GenOptions} {ok : Bool} {d : Option Str} (h : prepareDirectory fs (configure o.drvname.1 (finalPath o)) o.isRewrite = .ret ok d) :
    ∀ p ∈ fiveDirs o, dirOk fs p = true := by
  unfold prepareDirectory at h
  cases hs : selectDirectory fs (configure o.drvname.1 (finalPath o)).base o.isRewrite with
  | ret o2 d2 =>
    rw [hs] at h
    dsimp only at h
    by_cases q : [(configure o.drvname.1 (finalPath o)).libdir, (configure o.drvname.1 (finalPath o)).usrdir, (configure o.drvname.1 (finalPath o)).incdir,
        (configure o.drvname.1 (finalPath o)).confdir, (configure o.drvname.1 (finalPath o)).utildir].all (dirOk fs) = true
    · exact List.all_eq_true.1 q
    · rw [if_neg q] at h
      cases h
  | throws => rw [hs] at h; cases h
  | ub => rw [hs] at h; cases h

theorem prepare_of {fs : FileSys} {o : GenOptions} {ok : Bool} {d : Option Str} (h : ∀ p ∈ fiveDirs o, dirOk fs p = true) (hs : selectDirectory fs (finalPath o) o.isRewrite = .ret ok d) :
    prepareDirectory fs (configure o.drvname.1 (finalPath o)) o.isRewrite = .ret ok d := by
  unfold prepareDirectory
  rw [show (configure o.drvname.1 (finalPath o)).base = finalPath o from rfl, hs]
  exact if_pos (List.all_eq_true.2 h)

theorem written_none {files : List (Str × Str)} {p : Str} (h : p ∉ files.map (·.1)) : written files p = none := by
  unfold written
  rw [List.lookup_eq_none_iff]
  intro x hx
  have : p ≠ x.1 := fun q => h (List.mem_map.2 ⟨x, List.mem_reverse.1 hx, q.symm⟩)
  simpa using this

/-- The files and directories after a run. -/
theorem after_done {H : RunHost} (hsort : ∀ l, SortedBy (H.sort l) l) {args : List Str} {files : List (Str × Str)} (h : runApp H args = .done files) {path : Str} (ha : Asks args path)
    (hw : path ∉ files.map (·.1)) :
    ∃ F D, afterRun H args = { H with fs := F, dbc := D } ∧ D path = H.dbc path ∧ F.canCreate = H.fs.canCreate ∧ (∀ p ∈ fiveDirs (getOptions args), F.node p = .dir) ∧
      (∀ p, p ∉ files.map (·.1) → p ∉ fiveDirs (getOptions args) → p ∉ runDirs H (getOptions args) → F.node p = H.fs.node p) ∧
      (∀ p, p ∉ files.map (·.1) → p ∈ runDirs H (getOptions args) → F.node p = match H.fs.node p with | .absent => .dir | x => x) ∧
      (∃ ok d, prepareDirectory H.fs (configure (getOptions args).drvname.1 (finalPath (getOptions args))) (getOptions args).isRewrite = .ret ok d) ∧
      (∃ text out, H.dbc path = some (some text) ∧ trimDbcText H.plat text = .ok out) ∧
      ∀ x ∈ files.map (·.1), x ∉ fiveDirs (getOptions args) ∧ x ≠ finalPath (getOptions args) ∧ ∀ n, x ≠ numbered (finalPath (getOptions args)) n := by
  obtain ⟨path2, text, out, a1, a2, a3, a4, -, -⟩ := C70_done H hsort args files h
  have e1 : path2 = path := ((asks_iff args path2).1 a1).2.symm.trans ((asks_iff args path).1 ha).2
  subst e1
  have hp : ∃ ok d, prepareDirectory H.fs (configure (getOptions args).drvname.1 (finalPath (getOptions args))) (getOptions args).isRewrite = .ret ok d := by
    rw [runApp_read a1 a2, a3] at h
    dsimp only at h
    unfold generate at h
    dsimp only at h
    cases hq : prepareDirectory H.fs (configure (getOptions args).drvname.1 (finalPath (getOptions args))) (getOptions args).isRewrite with
    | ret ok d => exact ⟨ok, d, rfl⟩
    | throws => rw [hq] at h; cases h
    | ub => rw [hq] at h; cases h
  have hx : ∀ x ∈ files.map (·.1), x ∉ fiveDirs (getOptions args) ∧ x ≠ finalPath (getOptions args) ∧ ∀ n, x ≠ numbered (finalPath (getOptions args)) n := by
    intro x hx
    rw [a4] at hx
    have hx := (List.mem_filter.1 hx).1
    unfold runPaths at hx
    obtain ⟨b1, b2⟩ := written_not_dir hx
    exact ⟨b1, b2, fun n q => C38_outside _ _ _ n x hx (q ▸ List.prefix_refl _)⟩
  have e : afterRun H args = { H with
      fs := { H.fs with node := fun p => if p ∈ files.map (·.1) then .other
        else if p ∈ runDirs H (getOptions args) ∧ H.fs.node p = .absent then .dir else H.fs.node p }
      dbc := fun p => match written files p with
        | some t => some (some t)
        | none => H.dbc p } := by
    unfold afterRun
    rw [h]
    rfl
  obtain ⟨ok, d, hpd⟩ := hp
  refine ⟨_, _, e, ?_, rfl, fun p hp => ?_, fun p h1 h2 h3 => ?_, fun p h1 h2 => ?_, ⟨ok, d, hpd⟩, ⟨text, out, a2, a3⟩, hx⟩
  · show (match written files path2 with | some t => some (some t) | none => H.dbc path2) = _
    rw [written_none hw]
  · have h1 : p ∉ files.map (·.1) := fun q => (hx p q).1 hp
    have h2 : p ∈ runDirs H (getOptions args) := List.mem_append_right _ hp
    dsimp only
    rw [if_neg h1]
    by_cases hn : H.fs.node p = .absent
    · rw [if_pos ⟨h2, hn⟩]
    · rw [if_neg fun q => hn q.2]
      have := prepare_five hpd p hp
      unfold dirOk at this
      cases hv : H.fs.node p with
      | absent => exact absurd hv hn
      | dir => rfl
      | other => rw [hv] at this; cases this
  · dsimp only
    rw [if_neg h1, if_neg fun q => h3 q.1]
  · dsimp only
    rw [if_neg h1]
    cases hv : H.fs.node p with
    | absent => rw [if_pos ⟨h2, rfl⟩]
    | dir => rw [if_neg fun q => nomatch q.2]
    | other => rw [if_neg fun q => nomatch q.2]

theorem onDisk_append (a b : List (Str × Str)) (p : Str) : onDisk (a ++ b) p = (onDisk b p).or (onDisk a p) := by
  unfold onDisk
  rw [List.reverse_append, List.find?_append]
  cases List.find? (fun x => x.1 == p) b.reverse <;> rfl

theorem onDisk_repeat (files : List (Str × Str)) (n : Nat) (p : Str) : onDisk (List.replicate (n + 1) files).flatten p = onDisk files p := by
  induction n with
  | zero => rw [List.replicate_succ, List.replicate_zero, List.flatten_cons, List.flatten_nil, List.append_nil]
  | succ n ih =>
    rw [List.replicate_succ, List.flatten_cons, onDisk_append, ih]
    cases onDisk files p <;> rfl

/-- **C78** with `-rw`: running the tool again with the same command line, as often as one likes, gives the same files with the same texts, and leaves on
the disk what the first run has left.  (The DBC file must not be one of the files the run writes.) -/
theorem C78_rewrite_partial (H : RunHost) (hsort : ∀ l, SortedBy (H.sort l) l) (args : List Str) (hrw : (getOptions args).isRewrite = true) (files : List (Str × Str))
    (h : runApp H args = .done files) (path : Str) (ha : Asks args path) (hw : path ∉ files.map (·.1)) (n : Nat) :
    runApp (afterRuns H args n) args = .done files ∧ ∀ p, onDisk (List.replicate (n + 1) files).flatten p = onDisk files p := by
  refine ⟨?_, onDisk_repeat files n⟩
  have key : ∃ F D, afterRuns H args n = { H with fs := F, dbc := D } ∧ runApp (afterRuns H args n) args = .done files := by
    induction n with
    | zero => exact ⟨_, _, rfl, h⟩
    | succ n ih =>
      obtain ⟨F, D, e, hr⟩ := ih
      obtain ⟨F', D', e', h1, h2, h3, h4, h5, ⟨ok, d, h6⟩, -, h7⟩ := after_done (H := afterRuns H args n) (by rw [e]; exact hsort) hr ha hw
      refine ⟨F', D', by rw [afterRuns, e', e], ?_⟩
      rw [afterRuns, e']
      have hok : ok = true := by
        have := prepare_select h6
        rw [hrw] at this
        unfold selectDirectory at this
        rw [if_pos rfl] at this
        split at this
        · split at this
          · cases this; rfl
          · cases this
        · cases this; rfl
      subst hok
      have hb : F'.node (finalPath (getOptions args)) ≠ .absent := by
        have hm : finalPath (getOptions args) ∈ runDirs (afterRuns H args n) (getOptions args) := by
          unfold runDirs
          dsimp only
          rw [h6]
          have := prepare_select h6
          rw [hrw] at this
          unfold selectDirectory at this
          rw [if_pos rfl] at this
          have : d = some (finalPath (getOptions args)) := by
            split at this
            · split at this
              · cases this; rfl
              · cases this
            · cases this; rfl
          subst this
          exact List.mem_append_left _ List.mem_cons_self
        rw [h5 _ (fun q => (h7 _ q).2.1 rfl) hm]
        split
        · exact fun q => nomatch q
        · rename_i hne
          exact hne
      rw [run_again ha h1 h6 (prepare_of (d := some (finalPath (getOptions args))) (ok := true) (fun p hp => by unfold dirOk; rw [h3 p hp]) ?_)]
      · exact hr
      · rw [hrw]
        unfold selectDirectory
        rw [if_pos rfl]
        split
        · rename_i q; exact absurd q hb
        · rfl
  obtain ⟨-, -, -, hr⟩ := key
  exact hr

theorem prepLoop_skip (fs : FileSys) (pre : Str) (l1 l2 : List Nat) (h : ∀ k ∈ l1, fs.node (pre ++ num3 k) = .dir) : prepLoop fs pre (l1 ++ l2) = prepLoop fs pre l2 := by
  induction l1 with
  | nil => rfl
  | cons a l ih =>
    rw [List.cons_append, prepLoop]
    rw [h a List.mem_cons_self]
    exact ih fun k hk => h k (List.mem_cons_of_mem _ hk)

theorem select_loop {fs : FileSys} {base : Str} (hb : base ≠ []) :
    ∃ pre, (∀ n, pre ++ num3 n = numbered base n) ∧ selectDirectory fs base false = prepLoop fs pre (List.range 1000) := by
  obtain ⟨x, hx⟩ : ∃ x, base.getLast? = some x := by
    cases h : base.getLast? with
    | none => exact absurd (List.getLast?_eq_none_iff.1 h) hb
    | some x => exact ⟨x, rfl⟩
  refine ⟨base ++ (if x = '/' then [] else ['/']), fun n => ?_, ?_⟩
  · unfold numbered
    rw [hx]
    by_cases q : x = '/'
    · simp [q]
    · simp [q]
  · unfold selectDirectory
    rw [if_neg (by decide)]
    simp only [hx]

theorem select_free {fs : FileSys} {base : Str} (hb : base ≠ []) {n : Nat} (hn : n < 1000) (h : ∀ k < n, fs.node (numbered base k) = .dir) (ha : fs.node (numbered base n) = .absent)
    (hc : fs.canCreate (numbered base n) = true) : selectDirectory fs base false = .ret true (some (numbered base n)) := by
  obtain ⟨pre, hp, e⟩ := select_loop (fs := fs) hb
  rw [e]
  have hr : List.range 1000 = List.range n ++ n :: (List.range (1000 - (n + 1))).map (n + 1 + ·) := by
    rw [show 1000 = (n + 1) + (1000 - (n + 1)) from by omega, List.range_add, List.range_succ, List.append_assoc, List.singleton_append]
    congr 4
    omega
  rw [hr, prepLoop_skip _ _ _ _ (fun k hk => by rw [hp]; exact h k (List.mem_range.1 hk)), prepLoop]
  rw [hp, ha]
  dsimp only
  rw [if_pos hc]

theorem select_none {fs : FileSys} {base : Str} (hb : base ≠ []) (h : ∀ k < 1000, fs.node (numbered base k) = .dir) : selectDirectory fs base false = .ret false none := by
  obtain ⟨pre, hp, e⟩ := select_loop (fs := fs) hb
  have := prepLoop_skip fs pre (List.range 1000) [] (fun k hk => by rw [hp]; exact h k (List.mem_range.1 hk))
  rw [List.append_nil] at this
  rw [e, this]
  rfl

/-- **C78** without `-rw`, in a directory without numbered directories: run `n + 1` makes the numbered directory `n`, and writes again the same files with the same
texts as the first run, so that no run leaves anything of its own; from the run after the thousandth on nothing is written. -/
theorem C78_numbered_partial (H : RunHost) (hsort : ∀ l, SortedBy (H.sort l) l) (args : List Str) (hrw : (getOptions args).isRewrite = false) (files : List (Str × Str))
    (h : runApp H args = .done files) (path : Str) (ha : Asks args path) (hw : path ∉ files.map (·.1))
    (hfree : ∀ k < 1000, H.fs.node (numbered (finalPath (getOptions args)) k) = .absent ∧ H.fs.canCreate (numbered (finalPath (getOptions args)) k) = true) (n : Nat) :
    (n < 1000 → runApp (afterRuns H args n) args = .done files ∧
      prepareDirectory (afterRuns H args n).fs (configure (getOptions args).drvname.1 (finalPath (getOptions args))) false = .ret true (some (numbered (finalPath (getOptions args)) n))) ∧
    (1000 ≤ n → runApp (afterRuns H args n) args = .done []) := by
  obtain ⟨-, -, -, -, -, -, -, -, ⟨ok0, d0, hp0⟩, ⟨text, out, t1, t2⟩, -⟩ := after_done hsort h ha hw
  have hb : finalPath (getOptions args) ≠ [] := by
    intro q
    have := prepare_select hp0
    rw [hrw, show (configure (getOptions args).drvname.1 (finalPath (getOptions args))).base = finalPath (getOptions args) from rfl, q] at this
    cases this
  have key : ∃ F D, afterRuns H args n = { H with fs := F, dbc := D } ∧ D path = H.dbc path ∧ F.canCreate = H.fs.canCreate ∧ (∀ p ∈ fiveDirs (getOptions args), dirOk F p = true) ∧
      (∀ k < 1000, k < n → F.node (numbered (finalPath (getOptions args)) k) = .dir) ∧ (∀ k < 1000, n ≤ k → F.node (numbered (finalPath (getOptions args)) k) = .absent) := by
    induction n with
    | zero => exact ⟨_, _, rfl, rfl, rfl, prepare_five hp0, fun _ _ q => absurd q (Nat.not_lt_zero _), fun k hk _ => (hfree k hk).1⟩
    | succ n ih =>
      obtain ⟨F, D, e, i1, i2, i3, i4, i5⟩ := ih
      have hrun : ∃ fl, runApp { H with fs := F, dbc := D } args = .done fl ∧ path ∉ fl.map (·.1) ∧
          ∃ l, (∀ p, p ∈ l ↔ n < 1000 ∧ p = numbered (finalPath (getOptions args)) n) ∧ runDirs { H with fs := F, dbc := D } (getOptions args) = l ++ fiveDirs (getOptions args) := by
        by_cases hn : n < 1000
        · have hs := prepare_of (o := getOptions args) i3 (by rw [hrw]; exact select_free hb hn (fun k hk => i4 k (by omega) hk) (i5 n hn (Nat.le_refl _)) (by rw [i2]; exact (hfree n hn).2))
          have hs0 := prepare_of (o := getOptions args) (prepare_five hp0) (by rw [hrw]; exact select_free hb (show 0 < 1000 by decide) (fun _ q => absurd q (Nat.not_lt_zero _)) (hfree 0 (by decide)).1 (hfree 0 (by decide)).2)
          refine ⟨files, (run_again ha i1 hs0 hs).trans h, hw, [numbered (finalPath (getOptions args)) n], fun p => ?_, ?_⟩
          · rw [List.mem_singleton]
            exact ⟨fun q => ⟨hn, q⟩, fun q => q.2⟩
          · unfold runDirs
            dsimp only
            rw [hs]
            rfl
        · have hs := prepare_of (o := getOptions args) i3 (by rw [hrw]; exact select_none hb (fun k hk => i4 k hk (by omega)))
          refine ⟨[], run_full (H := { H with fs := F, dbc := D }) ha (i1.trans t1) t2 hs, List.not_mem_nil, [], fun p => ⟨fun q => absurd q List.not_mem_nil, fun q => absurd q.1 hn⟩, ?_⟩
          unfold runDirs
          dsimp only
          rw [hs]
          rfl
      obtain ⟨fl, r1, r2, l, r3, r4⟩ := hrun
      obtain ⟨F', D', e', j1, j2, j3, j4, j5, -, -, j6⟩ := after_done (H := { H with fs := F, dbc := D }) hsort r1 ha r2
      refine ⟨F', D', by rw [afterRuns, e, e'], j1.trans i1, j2.trans i2, fun p hp => by unfold dirOk; rw [j3 p hp], fun k hk hkn => ?_, fun k hk hkn => ?_⟩
      · have hnot : numbered (finalPath (getOptions args)) k ∉ fl.map (·.1) := fun q => (j6 _ q).2.2 k rfl
        by_cases hkn' : k < n
        · by_cases hm : numbered (finalPath (getOptions args)) k ∈ runDirs { H with fs := F, dbc := D } (getOptions args)
          · rw [j5 _ hnot hm]
            show (match F.node _ with | .absent => _ | x => x) = _
            rw [i4 k hk hkn']
          · rw [j4 _ hnot (numbered_not_five _ _) hm]
            exact i4 k hk hkn'
        · have hkk : k = n := by omega
          subst hkk
          rw [j5 _ hnot (by rw [r4]; exact List.mem_append_left _ ((r3 _).2 ⟨hk, rfl⟩))]
          show (match F.node _ with | .absent => _ | x => x) = _
          rw [i5 k hk (Nat.le_refl _)]
      · have hnot : numbered (finalPath (getOptions args)) k ∉ fl.map (·.1) := fun q => (j6 _ q).2.2 k rfl
        have hm : numbered (finalPath (getOptions args)) k ∉ runDirs { H with fs := F, dbc := D } (getOptions args) := by
          rw [r4, List.mem_append]
          rintro (q | q)
          · have q := (r3 _).1 q
            have := numbered_inj hk q.1 q.2
            omega
          · exact numbered_not_five _ _ q
        rw [j4 _ hnot (numbered_not_five _ _) hm]
        exact i5 k hk (by omega)
  obtain ⟨F, D, e, i1, i2, i3, i4, i5⟩ := key
  rw [e]
  refine ⟨fun hn => ?_, fun hn => ?_⟩
  · have hs := prepare_of (o := getOptions args) i3 (by rw [hrw]; exact select_free hb hn (fun k hk => i4 k (by omega) hk) (i5 n hn (Nat.le_refl _)) (by rw [i2]; exact (hfree n hn).2))
    have hs0 := prepare_of (o := getOptions args) (prepare_five hp0) (by rw [hrw]; exact select_free hb (show 0 < 1000 by decide) (fun _ q => absurd q (Nat.not_lt_zero _)) (hfree 0 (by decide)).1 (hfree 0 (by decide)).2)
    refine ⟨(run_again ha i1 hs0 hs).trans h, ?_⟩
    rw [← hrw]
    exact hs
  · have hs := prepare_of (o := getOptions args) i3 (by rw [hrw]; exact select_none hb (fun k hk => i4 k hk (by omega)))
    exact run_full (H := { H with fs := F, dbc := D }) ha (i1.trans t1) t2 hs

namespace Fix

/-- A host with nothing on the disk but the DBC file. -/
def emptyHost (path text : Str) : RunHost :=
  { openHost text with
    fs := { node := fun _ => .absent, canCreate := fun _ => true }
    dbc := fun p => if p = path then some (some text) else none }

/-- Without `-rw`. -/
def keepArgs : List Str := ["coderdbc", "-dbc", "in/my.dbc", "-out", "gen", "-drvname", "drv"].map String.toList

/-- The DBC file has the name of a file that is generated. -/
def selfArgs : List Str := ["coderdbc", "-dbc", "gen/lib/drv.h", "-out", "gen", "-drvname", "drv", "-rw"].map String.toList

def selfHost : RunHost := emptyHost "gen/lib/drv.h".toList twoText

end Fix

/-- The condition on the DBC file in C78 is needed: a DBC file with the name of a generated file is replaced by the first run, and the second one reads the header. -/
theorem C78_refuted : ∃ (H : RunHost) (args : List Str) (files : List (Str × Str)), (∀ l, SortedBy (H.sort l) l) ∧ (getOptions args).isRewrite = true ∧ runApp H args = .done files ∧
    runApp (afterRuns H args 1) args ≠ .done files := by
  have h : Fix.differ "gen/lib/drv.h".toList (runApp Fix.selfHost Fix.selfArgs) (runApp (afterRuns Fix.selfHost Fix.selfArgs 1) Fix.selfArgs) = true := by decide +kernel
  refine ⟨Fix.selfHost, Fix.selfArgs, ?_⟩
  cases hr : runApp Fix.selfHost Fix.selfArgs with
  | done files =>
    refine ⟨files, Fix.insSort_ok, by decide, rfl, fun q => ?_⟩
    rw [hr, q] at h
    have h := ((Bool.and_eq_true _ _).mp h).2
    exact bne_iff_ne.1 h rfl
  | _ => rw [hr] at h; cases h

/-- A run with `-rw`, and all further ones. -/
example (files : List (Str × Str)) (h : runApp (Fix.openHost Fix.twoText) Fix.dirArgs = .done files) (n : Nat) :
    runApp (afterRuns (Fix.openHost Fix.twoText) Fix.dirArgs n) Fix.dirArgs = .done files := by
  have e : (match runApp (Fix.openHost Fix.twoText) Fix.dirArgs with
      | .done f => decide ("in/my.dbc".toList ∉ f.map (·.1))
      | _ => false) = true := by decide +kernel
  rw [h] at e
  exact (C78_rewrite_partial _ Fix.insSort_ok _ (by decide) files h "in/my.dbc".toList ((asks_iff _ _).2 (by decide)) (of_decide_eq_true e) n).1

/-- A run without `-rw` in an empty directory, the tenth and the thousand and first. -/
example (files : List (Str × Str)) (h : runApp (Fix.emptyHost "in/my.dbc".toList Fix.twoText) Fix.keepArgs = .done files) :
    runApp (afterRuns (Fix.emptyHost "in/my.dbc".toList Fix.twoText) Fix.keepArgs 9) Fix.keepArgs = .done files ∧
    prepareDirectory (afterRuns (Fix.emptyHost "in/my.dbc".toList Fix.twoText) Fix.keepArgs 9).fs (configure "drv".toList "gen".toList) false = .ret true (some "gen/009".toList) ∧
    runApp (afterRuns (Fix.emptyHost "in/my.dbc".toList Fix.twoText) Fix.keepArgs 1000) Fix.keepArgs = .done [] := by
  have e : (match runApp (Fix.emptyHost "in/my.dbc".toList Fix.twoText) Fix.keepArgs with
      | .done f => decide ("in/my.dbc".toList ∉ f.map (·.1))
      | _ => false) = true := by decide +kernel
  rw [h] at e
  have key := C78_numbered_partial _ Fix.insSort_ok Fix.keepArgs (by decide) files h "in/my.dbc".toList ((asks_iff _ _).2 (by decide)) (of_decide_eq_true e) (fun _ _ => ⟨rfl, rfl⟩)
  obtain ⟨a, b⟩ := (key 9).1 (by decide)
  exact ⟨a, b, (key 1000).2 (by decide)⟩

/-- These runs do end regularly. -/
example : (Fix.resPaths (runApp (Fix.emptyHost "in/my.dbc".toList Fix.twoText) Fix.keepArgs)).map List.length = some 9 := by decide +kernel

end Verif
