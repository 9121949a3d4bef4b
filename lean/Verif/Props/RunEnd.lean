import Verif.Props.Run
import Verif.Props.Version
/-
C70: how a run of the tool ends, and what it has written then, whatever the host allows.
-/
namespace Verif
open Spec

/-- The files that come out when those `canOpen` rejects cannot be opened: the text that waits is put before the text of the next file that can. -/
def carryOver (canOpen : Str → Bool) : Str → List (Str × Str) → List (Str × Str)
  | _, [] => []
  | pend, (p, t) :: rest => if canOpen p then (p, pend ++ t) :: carryOver canOpen [] rest else carryOver canOpen (pend ++ t) rest

theorem carry_paths (f : Str → Bool) (l : List (Str × Str)) : ∀ pend, (carryOver f pend l).map (·.1) = (l.map (·.1)).filter f := by
  induction l with
  | nil => intro _; rfl
  | cons x l ih =>
    intro pend
    obtain ⟨p, t⟩ := x
    unfold carryOver
    rw [List.map_cons]
    by_cases h : f p = true
    · rw [if_pos h, List.map_cons, ih, List.filter_cons_of_pos h]
    · rw [if_neg h, ih, List.filter_cons_of_neg h]

theorem carry_suffix (f : Str → Bool) (l : List (Str × Str)) : ∀ pend, ∀ x ∈ carryOver f pend l, f x.1 = true ∧ ∃ t, (x.1, t) ∈ l ∧ t <:+ x.2 := by
  induction l with
  | nil => intro _ x hx; cases hx
  | cons y l ih =>
    intro pend x hx
    obtain ⟨p, t⟩ := y
    unfold carryOver at hx
    by_cases h : f p = true
    · rw [if_pos h] at hx
      rcases List.mem_cons.1 hx with rfl | hx
      · exact ⟨h, t, List.mem_cons_self, List.suffix_append _ _⟩
      · obtain ⟨h1, t', h2, h3⟩ := ih _ x hx
        exact ⟨h1, t', List.mem_cons_of_mem _ h2, h3⟩
    · rw [if_neg h] at hx
      obtain ⟨h1, t', h2, h3⟩ := ih _ x hx
      exact ⟨h1, t', List.mem_cons_of_mem _ h2, h3⟩

theorem carry_all (f : Str → Bool) (l : List (Str × Str)) (h : ∀ x ∈ l, f x.1 = true) : carryOver f [] l = l := by
  induction l with
  | nil => rfl
  | cons x l ih =>
    obtain ⟨p, t⟩ := x
    unfold carryOver
    have hp : f p = true := h (p, t) List.mem_cons_self
    rw [if_pos hp, ih fun y hy => h y (List.mem_cons_of_mem _ hy)]
    rfl

/-- The same call on a host on which other files can be opened. -/
def setOpen (f : Str → Bool) : WOp → WOp
  | .flush p _ => .flush p (f p)
  | op => op

theorem setOpen_text {l : List WOp} (f : Str → Bool) (h : OnlyText l) : l.map (setOpen f) = l := by
  conv => rhs; rw [← List.map_id l]
  refine List.map_congr_left fun x hx => ?_
  have := h x hx
  cases x with
  | flush p ok => cases this
  | _ => rfl

theorem expected_setOpen (f : Str → Bool) (ops : List WOp) : ∀ cur, expectedFiles cur (ops.map (setOpen f)) = expectedFiles cur ops := by
  induction ops with
  | nil => intro _; rfl
  | cons x ops ih =>
    intro cur
    cases x with
    | flush p ok =>
      show (p, cur) :: expectedFiles [] (ops.map (setOpen f)) = _
      rw [ih]; rfl
    | appendF t => show expectedFiles (cur ++ addedText (.appendF t)) (ops.map (setOpen f)) = _; rw [ih]; rfl
    | appendTextF t => show expectedFiles (cur ++ addedText (.appendTextF t)) (ops.map (setOpen f)) = _; rw [ih]; rfl
    | append t => show expectedFiles (cur ++ addedText (.append t)) (ops.map (setOpen f)) = _; rw [ih]; rfl
    | appendText t => show expectedFiles (cur ++ addedText (.appendText t)) (ops.map (setOpen f)) = _; rw [ih]; rfl
    | lines n => show expectedFiles (cur ++ addedText (.lines n)) (ops.map (setOpen f)) = _; rw [ih]; rfl

theorem writer_carry (f : Str → Bool) (ops : List WOp) : ∀ (pend cur : Str) (F : List (Str × Str)),
    (Writer.run { buf := pend ++ cur, files := F } (ops.map (setOpen f))).files = F ++ carryOver f pend (expectedFiles cur ops) := by
  induction ops with
  | nil => intro pend cur F; exact (List.append_nil F).symm
  | cons x ops ih =>
    have text : ∀ (y : WOp), (∀ p ok, y ≠ .flush p ok) → setOpen f y = y → ∀ (pend cur : Str) (F : List (Str × Str)),
        (Writer.run { buf := pend ++ cur, files := F } ((y :: ops).map (setOpen f))).files = F ++ carryOver f pend (expectedFiles (cur ++ addedText y) ops) := by
      intro y hy he pend cur F
      rw [List.map_cons, he]
      show (Writer.run (Writer.step _ y) _).files = _
      rw [step_nonflush _ _ hy]
      dsimp only
      rw [List.append_assoc]
      exact ih _ _ _
    intro pend cur F
    cases x with
    | flush p ok =>
      show (Writer.run (Writer.step _ (.flush p (f p))) _).files = _
      unfold Writer.step expectedFiles carryOver
      dsimp only
      by_cases h : f p = true
      · rw [if_pos h, if_pos h]
        have := ih [] [] (F ++ [(p, pend ++ cur)])
        rw [List.append_nil] at this
        rw [this, List.append_assoc]
        rfl
      · rw [if_neg h, if_neg h]
        have := ih (pend ++ cur) [] F
        rw [List.append_nil] at this
        exact this
    | appendF t => exact text _ (by intro _ _ h; cases h) rfl _ _ _
    | appendTextF t => exact text _ (by intro _ _ h; cases h) rfl _ _ _
    | append t => exact text _ (by intro _ _ h; cases h) rfl _ _ _
    | appendText t => exact text _ (by intro _ _ h; cases h) rfl _ _ _
    | lines n => exact text _ (by intro _ _ h; cases h) rfl _ _ _

/-- The host on which every file can be opened. -/
def openAll (H : RunHost) : RunHost := { H with canOpen := fun _ => true }

theorem main_open (H : RunHost) (o : GenOptions) (c : OutPaths) (g : GenDesc) (maxDlc : Nat) (srt : List Msg) :
    mainOps H o c g maxDlc srt = (mainOps (openAll H) o c g maxDlc srt).map (List.map (setOpen H.canOpen)) := by
  unfold mainOps
  cases h1 : mainHeaderOps g maxDlc srt with
  | none => rfl
  | some hops =>
    cases h2 : mainSourceOps g srt with
    | none => rfl
    | some sops =>
      have a1 := setOpen_text H.canOpen (text_header h1)
      have a2 := setOpen_text H.canOpen (text_source h2)
      have a3 := setOpen_text H.canOpen (text_fmonHeader (g := g) srt)
      have a4 := setOpen_text H.canOpen (text_fmonSource (g := g) srt)
      have a5 := setOpen_text H.canOpen (text_config (g := g))
      have a6 := setOpen_text H.canOpen (text_codeConf (g := g))
      have a7 := setOpen_text H.canOpen (text_canMon (g := g))
      have e : ∀ p b, [WOp.flush p b].map (setOpen H.canOpen) = [WOp.flush p (H.canOpen p)] := fun _ _ => rfl
      show some _ = some _
      congr 1
      simp only [List.map_append, apply_ite (List.map (setOpen H.canOpen)), a1, a2, a3, a4, a5, a6, a7, e, List.map_nil]

theorem util_open (H : RunHost) (u : UtilDesc) (hi lo : Nat) (ph pc : Str) (G : Groups) (msgs : List Msg) :
    utilOps H u hi lo ph pc G msgs = (utilOps (openAll H) u hi lo ph pc G msgs).map (List.map (setOpen H.canOpen)) := by
  unfold utilOps
  dsimp only
  show _ = Option.map _ ((utilSourceOps u hi lo (H.sort (selectRx G msgs)) (H.sort (selectTx G msgs))).map _)
  cases h : utilSourceOps u hi lo (H.sort (selectRx G msgs)) (H.sort (selectTx G msgs)) with
  | none => rfl
  | some sops =>
    have a1 := setOpen_text H.canOpen (text_utilHeader u (H.sort (selectRx G msgs)) (H.sort (selectTx G msgs)))
    have a2 := setOpen_text H.canOpen (text_utilSource h)
    have e : ∀ p b, [WOp.flush p b].map (setOpen H.canOpen) = [WOp.flush p (H.canOpen p)] := fun _ _ => rfl
    show some _ = some _
    congr 1
    show _ = List.map _ (utilHeaderOps u (H.sort (selectRx G msgs)) (H.sort (selectTx G msgs)) ++ [.flush ph _] ++ sops ++ [.flush pc _])
    simp only [List.map_append, a1, a2, e]

theorem mapM_open {α : Type} (f : Str → Bool) (a b : α → Option (List WOp)) (h : ∀ x, a x = (b x).map (List.map (setOpen f))) (l : List α) :
    (l.mapM a).map List.flatten = ((l.mapM b).map List.flatten).map (List.map (setOpen f)) := by
  have key : l.mapM a = (l.mapM b).map (List.map (List.map (setOpen f))) := by
    induction l with
    | nil => rfl
    | cons x l ih =>
      rw [List.mapM_cons, List.mapM_cons, ih, h]
      cases b x with
      | none => rfl
      | some y =>
        cases l.mapM b with
        | none => rfl
        | some ys => rfl
  rw [key]
  cases l.mapM b with
  | none => rfl
  | some ys =>
    show some _ = some _
    rw [List.map_flatten]

theorem utils_open (H : RunHost) (o : GenOptions) (c : OutPaths) (g : GenDesc) (out : DbcList) :
    utilsOps H o c g out = (utilsOps (openAll H) o c g out).map (List.map (setOpen H.canOpen)) := by
  unfold utilsOps
  by_cases h : o.isNodeutils = true
  · rw [if_pos h, if_pos h]
    exact mapM_open _ _ _ (fun n => util_open H _ _ _ _ _ _ _) _
  · rw [if_neg h, if_neg h]
    exact util_open H _ _ _ _ _ _ _

/-- The command line asks for a run, and `path` is its DBC file. -/
def Asks (args : List Str) (path : Str) : Prop :=
  lastValue "-dbc".toList (keyValues args) = some path ∧ "-out".toList ∈ args ∧
    (∃ v, lastValue "-drvname".toList (keyValues args) = some v ∧ makeCName v ≠ []) ∧ "-help".toList ∉ args

theorem asks_iff (args : List Str) (path : Str) : Asks args path ↔ areParamsValid (getOptions args) = true ∧ (getOptions args).dbc.1 = path := by
  have hm : ∀ o : Option Str, (match o with | some v => (v, true) | none => ([], false) : Str × Bool).2 = true → ∀ p,
      (match o with | some v => (v, true) | none => ([], false) : Str × Bool).1 = p → o = some p := by
    intro o h p e
    cases o with
    | none => cases h
    | some v => exact congrArg some e
  unfold Asks
  constructor
  · rintro ⟨h1, h2, h3, h4⟩
    have e : (getOptions args).dbc = (path, true) := by
      rw [C37_options]
      unfold expectedOptions
      dsimp only
      rw [h1]
    refine ⟨(C37_valid args).2 ⟨?_, h2, h3, h4⟩, by rw [e]⟩
    unfold lastValue at h1
    cases hf : (keyValues args).reverse.find? (·.1 == "-dbc".toList) with
    | none => rw [hf] at h1; cases h1
    | some x =>
      have hx := List.mem_reverse.1 (List.mem_of_find?_eq_some hf)
      have hk : x.1 = "-dbc".toList := eq_of_beq (List.find?_some (p := fun y : Str × Str => y.1 == "-dbc".toList) hf)
      unfold keyValues at hx
      obtain ⟨⟨a, b⟩, hab, e⟩ := List.mem_filterMap.1 hx
      dsimp only at e
      split at e
      · cases e
        exact hk ▸ (List.of_mem_zip hab).1
      · cases e
  · rintro ⟨h, e⟩
    have h' := h
    obtain ⟨-, h2, h3, h4⟩ := (C37_valid args).1 h
    refine ⟨?_, h2, h3, h4⟩
    unfold areParamsValid at h'
    simp only [Bool.and_eq_true] at h'
    have hd : (getOptions args).dbc.2 = true := by
      rcases h' with ⟨⟨⟨a, b⟩, c⟩, d⟩
      first | exact a | exact b | exact c
    rw [C37_options] at hd e
    exact hm _ hd _ e

/-- What the run does when the DBC file has been read. -/
theorem runApp_read {H : RunHost} {args : List Str} {path text : Str} (h : Asks args path) (hr : H.dbc path = some (some text)) :
    runApp H args = match trimDbcText H.plat text with
      | .ok out => generate H (getOptions args) out
      | .throws => .throws
      | .ub => .ub := by
  obtain ⟨h1, h2⟩ := (asks_iff args path).1 h
  unfold runApp
  dsimp only
  rw [if_pos h1, h2, hr]
  rfl

/-- **C70**, ends without a file: the help text comes exactly when the command line does not ask for a run; `.noFile` (a message on the
console) exactly when the DBC file it names does not exist; `exit(1)` exactly when it is there and cannot be opened. -/
theorem C70_refused (H : RunHost) (args : List Str) :
    (runApp H args = .help ↔ ∀ path, ¬ Asks args path) ∧
    (runApp H args = .noFile ↔ ∃ path, Asks args path ∧ H.dbc path = none) ∧
    (runApp H args = .exit1 ↔ ∃ path, Asks args path ∧ H.dbc path = some none) := by
  by_cases hv : areParamsValid (getOptions args) = true
  · have hA : Asks args (getOptions args).dbc.1 := (asks_iff _ _).2 ⟨hv, rfl⟩
    have huniq : ∀ path, Asks args path → path = (getOptions args).dbc.1 := fun path h => ((asks_iff _ _).1 h).2.symm
    cases hd : H.dbc (getOptions args).dbc.1 with
    | none =>
      have e : runApp H args = .noFile := by unfold runApp; dsimp only; rw [if_pos hv, hd]
      rw [e]
      refine ⟨⟨(nomatch ·), fun h => absurd hA (h _)⟩, ⟨fun _ => ⟨_, hA, hd⟩, fun _ => rfl⟩, ⟨(nomatch ·), ?_⟩⟩
      rintro ⟨p, h1, h2⟩
      rw [huniq p h1, hd] at h2
      cases h2
    | some t =>
      cases t with
      | none =>
        have e : runApp H args = .exit1 := by unfold runApp; dsimp only; rw [if_pos hv, hd]
        rw [e]
        refine ⟨⟨(nomatch ·), fun h => absurd hA (h _)⟩, ⟨(nomatch ·), ?_⟩, ⟨fun _ => ⟨_, hA, hd⟩, fun _ => rfl⟩⟩
        rintro ⟨p, h1, h2⟩
        rw [huniq p h1, hd] at h2
        cases h2
      | some text =>
        have e := runApp_read hA hd
        have hne : runApp H args ≠ .help ∧ runApp H args ≠ .noFile ∧ runApp H args ≠ .exit1 := by
          rw [e]
          cases trimDbcText H.plat text with
          | throws => exact ⟨(nomatch ·), (nomatch ·), (nomatch ·)⟩
          | ub => exact ⟨(nomatch ·), (nomatch ·), (nomatch ·)⟩
          | ok out =>
            dsimp only
            unfold generate
            dsimp only
            split
            · exact ⟨(nomatch ·), (nomatch ·), (nomatch ·)⟩
            · exact ⟨(nomatch ·), (nomatch ·), (nomatch ·)⟩
            · exact ⟨(nomatch ·), (nomatch ·), (nomatch ·)⟩
            · split <;> exact ⟨(nomatch ·), (nomatch ·), (nomatch ·)⟩
        refine ⟨⟨fun h => absurd h hne.1, fun h => absurd hA (h _)⟩, ⟨fun h => absurd h hne.2.1, ?_⟩, ⟨fun h => absurd h hne.2.2, ?_⟩⟩
        · rintro ⟨p, h1, h2⟩
          rw [huniq p h1, hd] at h2
          cases h2
        · rintro ⟨p, h1, h2⟩
          rw [huniq p h1, hd] at h2
          cases h2
  · have e : runApp H args = .help := by unfold runApp; dsimp only; rw [if_neg hv]
    have hn : ∀ p, ¬ Asks args p := fun p h => hv ((asks_iff _ _).1 h).1
    rw [e]
    refine ⟨⟨fun _ => hn, fun _ => rfl⟩, ⟨(nomatch ·), ?_⟩, ⟨(nomatch ·), ?_⟩⟩
    · rintro ⟨p, h1, -⟩
      exact absurd h1 (hn p)
    · rintro ⟨p, h1, -⟩
      exact absurd h1 (hn p)

/-- A run that is asked for and whose DBC file can be read. -/
theorem run_cases (H : RunHost) (args : List Str) (h1 : runApp H args ≠ .help) (h2 : runApp H args ≠ .noFile) (h3 : runApp H args ≠ .exit1) :
    ∃ path text, Asks args path ∧ H.dbc path = some (some text) := by
  obtain ⟨r1, r2, r3⟩ := C70_refused H args
  by_cases h : ∃ p, Asks args p
  · obtain ⟨p, hp⟩ := h
    cases hd : H.dbc p with
    | none => exact absurd (r2.2 ⟨p, hp, hd⟩) h2
    | some t =>
      cases t with
      | none => exact absurd (r3.2 ⟨p, hp, hd⟩) h3
      | some t => exact ⟨p, t, hp, hd⟩
  · exact absurd (r1.2 fun p hp => h ⟨p, hp⟩) h1

/-- **C70**, an exception: a run ends with an exception that nobody catches only if the DBC file has a version number `unsigned long` cannot hold, or
the output directories cannot be made. -/
theorem C70_throws (H : RunHost) (args : List Str) (h : runApp H args = .throws) :
    ∃ path text, Asks args path ∧ H.dbc path = some (some text) ∧
      ((∃ l ∈ fileLines H.plat text, ∃ w a b, VersionShape l w a b ∧ (H.plat.ulongMax < digitsVal a ∨ H.plat.ulongMax < digitsVal b)) ∨
       prepareDirectory H.fs (configure (getOptions args).drvname.1 (finalPath (getOptions args))) (getOptions args).isRewrite = .throws) := by
  obtain ⟨path, text, hA, hd⟩ := run_cases H args (by rw [h]; exact (nomatch ·)) (by rw [h]; exact (nomatch ·)) (by rw [h]; exact (nomatch ·))
  refine ⟨path, text, hA, hd, ?_⟩
  rw [runApp_read hA hd] at h
  cases ht : trimDbcText H.plat text with
  | throws => exact .inl (C49_only_partial _ _ ht)
  | ub => rw [ht] at h; cases h
  | ok out =>
    rw [ht] at h
    dsimp only at h
    unfold generate at h
    dsimp only at h
    split at h
    · rename_i e
      exact .inr e
    · cases h
    · cases h
    · split at h <;> cases h

/-- The directory of the util files. -/
def InButl (o : GenOptions) (p : Str) : Prop := (finalPath o ++ "/butl/".toList) <+: p

/-- **C70**, to the end.  When a run ends regularly, the command line asked for it, the DBC file it names was read and got through the scanner.  If no output
directory was available nothing is written.  Otherwise the files written are those of the list of C38 that can be opened, in its order. -/
theorem C70_done (H : RunHost) (hsort : ∀ l, SortedBy (H.sort l) l) (args : List Str) (files : List (Str × Str)) (h : runApp H args = .done files) :
    ∃ path text out, Asks args path ∧ H.dbc path = some (some text) ∧ trimDbcText H.plat text = .ok out ∧
      files.map (·.1) = (runPaths (getOptions args) out.msgs H.fs).filter H.canOpen ∧
      (files ≠ [] → ∃ d, prepareDirectory H.fs (configure (getOptions args).drvname.1 (finalPath (getOptions args))) (getOptions args).isRewrite = .ret true d) ∧
      ∃ A B, runApp (openAll H) args = .done (A ++ B) ∧ (∀ x ∈ A, ¬ InButl (getOptions args) x.1) ∧ (∀ x ∈ B, InButl (getOptions args) x.1) ∧
        files = carryOver H.canOpen [] A ++ carryOver H.canOpen [] B := by
  obtain ⟨path, text, hA, hd⟩ := run_cases H args (by rw [h]; exact (nomatch ·)) (by rw [h]; exact (nomatch ·)) (by rw [h]; exact (nomatch ·))
  have hO : runApp (openAll H) args = _ := runApp_read (H := openAll H) hA hd
  rw [runApp_read hA hd] at h
  cases ht : trimDbcText H.plat text with
  | throws => rw [ht] at h; cases h
  | ub => rw [ht] at h; cases h
  | ok out =>
    have ht' : trimDbcText (openAll H).plat text = .ok out := ht
    rw [ht'] at hO
    rw [ht] at h
    refine ⟨path, text, out, hA, hd, ht, ?_⟩
    dsimp only at h hO
    unfold generate at h hO
    dsimp only at h hO
    unfold runPaths
    cases hp : prepareDirectory H.fs (configure (getOptions args).drvname.1 (finalPath (getOptions args))) (getOptions args).isRewrite with
    | throws => rw [hp] at h; cases h
    | ub => rw [hp] at h; cases h
    | ret ok d =>
      have hp' : prepareDirectory (openAll H).fs (configure (getOptions args).drvname.1 (finalPath (getOptions args))) (getOptions args).isRewrite = .ret ok d := hp
      rw [hp] at h
      rw [hp'] at hO
      cases ok with
      | false =>
        cases h
        exact ⟨rfl, fun q => absurd rfl q, [], [], hO, (fun _ q => nomatch q), (fun _ q => nomatch q), rfl⟩
      | true =>
        dsimp only at h hO
        rw [main_open, utils_open] at h
        generalize hgd : configureGen (getOptions args).drvname.1 (commonInfoOf (getOptions args) H.date) (driverSrcInfo (extractFileName (getOptions args).dbc.1)) out.verHi out.verLow = g at h
        have hgd' : configureGen (getOptions args).drvname.1 (commonInfoOf (getOptions args) (openAll H).date) (driverSrcInfo (extractFileName (getOptions args).dbc.1)) out.verHi out.verLow = g := hgd
        rw [hgd'] at hO
        obtain ⟨uops, hu, hU⟩ := utils_files (H := openAll H) hsort (o := getOptions args) (c := configure (getOptions args).drvname.1 (finalPath (getOptions args))) (g := g) (out := out)
          (fun _ _ => rfl)
        have hmain : ∃ hops sops, mainHeaderOps g out.maxDlc (H.sort out.msgs) = some hops ∧ mainSourceOps g (H.sort out.msgs) = some sops := by
          unfold mainOps at h
          cases h1 : mainHeaderOps g out.maxDlc (H.sort out.msgs) with
          | none => rw [h1] at h; cases h
          | some hops =>
            cases h2 : mainSourceOps g (H.sort out.msgs) with
            | none => rw [h1, h2] at h; cases h
            | some sops => exact ⟨hops, sops, rfl, rfl⟩
        obtain ⟨hops, sops, e1, e2⟩ := hmain
        obtain ⟨mops, hm, hM⟩ := main_files (H := openAll H) (o := getOptions args) (c := configure (getOptions args).drvname.1 (finalPath (getOptions args))) e1 e2 (fun _ _ => rfl)
        have hm' : mainOps (openAll H) (getOptions args) (configure (getOptions args).drvname.1 (finalPath (getOptions args))) g out.maxDlc ((openAll H).sort out.msgs) = some mops := hm
        rw [hm, hu] at h
        rw [hm', hu] at hO
        dsimp only [Option.map_some] at h hO
        have x1 : mops = mops.map (setOpen fun _ => true) := by
          have := main_open (openAll H) (getOptions args) (configure (getOptions args).drvname.1 (finalPath (getOptions args))) g out.maxDlc ((openAll H).sort out.msgs)
          have e : openAll (openAll H) = openAll H := rfl
          rw [e, hm'] at this
          exact Option.some.inj this
        have x2 : uops = uops.map (setOpen fun _ => true) := by
          have := utils_open (openAll H) (getOptions args) (configure (getOptions args).drvname.1 (finalPath (getOptions args))) g out
          have e : openAll (openAll H) = openAll H := rfl
          rw [e, hu] at this
          exact Option.some.inj this
        have plain : ∀ ops : List WOp, ops = ops.map (setOpen fun _ => true) → (Writer.run {} ops).files = expectedFiles [] ops := by
          intro ops e
          have := writer_carry (fun _ => true) ops [] [] []
          rw [← e, carry_all _ _ (fun _ _ => rfl)] at this
          exact this
        have c1 : (Writer.run {} (mops.map (setOpen H.canOpen))).files = carryOver H.canOpen [] (expectedFiles [] mops) := writer_carry H.canOpen mops [] [] []
        have c2 : (Writer.run {} (uops.map (setOpen H.canOpen))).files = carryOver H.canOpen [] (expectedFiles [] uops) := writer_carry H.canOpen uops [] [] []
        rw [← plain _ x1, hM] at c1
        rw [← plain _ x2, hU] at c2
        rw [c1, c2] at h
        rw [hM, hU] at hO
        cases h
        refine ⟨?_, fun _ => ⟨d, rfl⟩, _, _, hO, ?_, ?_, rfl⟩
        · have hr := run_paths (openAll H) (getOptions args) out hops sops d
          rw [List.map_append, carry_paths, carry_paths, ← List.filter_append, ← List.map_append, ← hr]
          unfold runFiles
          dsimp only
          rw [hgd']
          rfl
        · intro x hx
          have hx' : subDir (finalPath (getOptions args)) x.1 ≠ ['/', 'b'] := by
            unfold mainFiles at hx
            simp only [List.mem_append, List.mem_cons, List.not_mem_nil, or_false] at hx
            rcases hx with (((rfl | rfl | rfl) | hx) | hx) | hx
            · rw [sub_coreH]; decide
            · rw [sub_coreC]; decide
            · rw [sub_fmonH]; decide
            · split at hx
              · cases hx
              · rw [List.mem_singleton.1 hx, sub_fmonC]; decide
            · split at hx
              · cases hx
              · simp only [List.mem_cons, List.not_mem_nil, or_false] at hx
                rcases hx with rfl | rfl
                · rw [sub_config]; decide
                · rw [sub_codeconf]; decide
            · split at hx
              · cases hx
              · rw [List.mem_singleton.1 hx, sub_canmon]; decide
          rintro ⟨t, ht⟩
          apply hx'
          rw [← ht]
          unfold subDir
          rw [List.append_assoc, List.drop_left]
          rfl
        · intro x hx
          have hn : ∀ n, InButl (getOptions args) (nodeUtilH (configure (getOptions args).drvname.1 (finalPath (getOptions args))).utildir (getOptions args).drvname.1 n) ∧
              InButl (getOptions args) (nodeUtilC (configure (getOptions args).drvname.1 (finalPath (getOptions args))).utildir (getOptions args).drvname.1 n) := by
            intro n
            unfold InButl nodeUtilH nodeUtilC configure
            dsimp only
            exact ⟨⟨_, by simp only [List.append_assoc]; rfl⟩, ⟨_, by simp only [List.append_assoc]; rfl⟩⟩
          have ha : InButl (getOptions args) (configure (getOptions args).drvname.1 (finalPath (getOptions args))).utilH ∧
              InButl (getOptions args) (configure (getOptions args).drvname.1 (finalPath (getOptions args))).utilC := by
            unfold InButl configure
            dsimp only
            exact ⟨⟨_, by simp only [List.append_assoc]; rfl⟩, ⟨_, by simp only [List.append_assoc]; rfl⟩⟩
          unfold utilsFiles utilPair at hx
          split at hx
          · obtain ⟨n, -, hx⟩ := List.mem_flatMap.1 hx
            simp only [List.mem_cons, List.not_mem_nil, or_false] at hx
            rcases hx with rfl | rfl
            · exact (hn n).1
            · exact (hn n).2
          · simp only [List.mem_cons, List.not_mem_nil, or_false] at hx
            rcases hx with rfl | rfl
            · exact ha.1
            · exact ha.2

/-- **C70**, the texts: a file that is written ends with the text it is to have (the one it has when all files can be opened); it has exactly this
text when all files of the run can be opened. -/
theorem C70_texts_partial (H : RunHost) (hsort : ∀ l, SortedBy (H.sort l) l) (args : List Str) (files : List (Str × Str)) (h : runApp H args = .done files) :
    ∃ good, runApp (openAll H) args = .done good ∧ (∀ x ∈ files, ∃ t, (x.1, t) ∈ good ∧ t <:+ x.2) ∧
      ((∀ x ∈ good, H.canOpen x.1 = true) → files = good) := by
  obtain ⟨path, text, out, -, -, -, -, -, A, B, h1, -, -, h2⟩ := C70_done H hsort args files h
  refine ⟨A ++ B, h1, fun x hx => ?_, fun ho => ?_⟩
  · rw [h2] at hx
    rcases List.mem_append.1 hx with hx | hx
    · obtain ⟨-, t, q, r⟩ := carry_suffix _ _ _ _ hx
      exact ⟨t, List.mem_append_left _ q, r⟩
    · obtain ⟨-, t, q, r⟩ := carry_suffix _ _ _ _ hx
      exact ⟨t, List.mem_append_right _ q, r⟩
  · rw [h2, carry_all _ _ fun x hx => ho x (List.mem_append_left _ hx), carry_all _ _ fun x hx => ho x (List.mem_append_right _ hx)]

/-- **C70** is false in full: when the header of the driver cannot be opened (it is there and write protected, say), the run goes on, and the source file
gets the text of the header and then its own. -/
theorem C70_refuted (H : RunHost) (hsort : ∀ l, SortedBy (H.sort l) l) (args : List Str) (files : List (Str × Str)) (h : runApp H args = .done files)
    (ht tc : Str) (rest : List (Str × Str)) (hg : runApp (openAll H) args = .done
      (((configure (getOptions args).drvname.1 (finalPath (getOptions args))).coreH, ht) :: ((configure (getOptions args).drvname.1 (finalPath (getOptions args))).coreC, tc) :: rest))
    (h1 : H.canOpen (configure (getOptions args).drvname.1 (finalPath (getOptions args))).coreH = false)
    (h2 : H.canOpen (configure (getOptions args).drvname.1 (finalPath (getOptions args))).coreC = true) :
    ∃ rest', files = ((configure (getOptions args).drvname.1 (finalPath (getOptions args))).coreC, ht ++ tc) :: rest' := by
  obtain ⟨path, text, out, -, -, -, -, -, A, B, e1, e2, e3, e4⟩ := C70_done H hsort args files h
  have hl : ∀ b, ¬ InButl (getOptions args) (finalPath (getOptions args) ++ "/lib".toList ++ b) := by
    rintro b ⟨t, q⟩
    rw [List.append_assoc, List.append_assoc] at q
    have := congrArg (List.take 2) (List.append_cancel_left q)
    cases this
  rw [e1] at hg
  replace hg := RunRes.done.inj hg
  cases A with
  | nil =>
    have : ((configure (getOptions args).drvname.1 (finalPath (getOptions args))).coreH, ht) ∈ B := by rw [List.nil_append] at hg; rw [hg]; exact List.mem_cons_self
    exact absurd (e3 _ this) (hl _)
  | cons a A =>
    rw [List.cons_append] at hg
    obtain ⟨rfl, hg2⟩ := List.cons.inj hg
    clear hg
    cases A with
    | nil =>
      have : ((configure (getOptions args).drvname.1 (finalPath (getOptions args))).coreC, tc) ∈ B := by rw [List.nil_append] at hg2; rw [hg2]; exact List.mem_cons_self
      exact absurd (e3 _ this) (hl _)
    | cons b A =>
      rw [List.cons_append] at hg2
      obtain ⟨rfl, -⟩ := List.cons.inj hg2
      refine ⟨carryOver H.canOpen [] A ++ carryOver H.canOpen [] B, ?_⟩
      rw [e4, carryOver, if_neg (by rw [h1]; decide), carryOver, if_pos h2]
      rfl

/-! ### Examples: the run of C65 -/

namespace Fix

/-- The same host, but the header of the driver is write protected. -/
def lockedHost : RunHost := { runHost with canOpen := fun p => p != "gen/lib/drv.h".toList }

theorem runDone : ∃ files, runApp runHost runArgs = .done files ∧ files.map (·.1) = runPaths runOpts pipeOut.msgs runHost.fs := by
  have hD := Fix.dashDriver
  obtain ⟨e1, e2, e3⟩ := Fix.runSorted
  rw [← e1, ← e2, ← e3, ← Fix.runFile] at hD
  have key := C65_node_partial (φ := Unit) (who := some "Dash".toList) Fix.runHost Fix.runArgs Fix.pipeText Fix.pipeOut Fix.goodRun platIns_sorts rfl (fun v e => by cases e) Fix.dashIds
    (by rw [Fix.runOpts_eq]; rfl) ⟨by rw [Fix.runOpts_eq]; rfl, by decide +kernel, by decide +kernel⟩
    (D0 := Fix.userHooks) (on := Fix.dashOn) (fl := .float) (tick := .call "GetTick".toList) (hash := .call "GetHash".toList) (maxW := "8U".toList) (initW := "0U".toList)
    (by rw [Fix.runOpts_eq]; exact hD) 8 0
  rw [Fix.runOpts_eq] at key
  obtain ⟨files, r1, r2, -⟩ := key
  exact ⟨files, r1, r2⟩

/-- A run on a host can be carried over to one on which other files can be opened. -/
theorem reopen {H : RunHost} {args : List Str} {files : List (Str × Str)} (f : Str → Bool) (h : runApp H args = .done files) :
    ∃ files', runApp { H with canOpen := f } args = .done files' := by
  unfold runApp at h ⊢
  dsimp only at h ⊢
  split
  · rename_i hv
    rw [if_pos hv] at h
    cases hd : H.dbc (getOptions args).dbc.1 with
    | none => rw [hd] at h; cases h
    | some t =>
      rw [hd] at h
      cases t with
      | none => cases h
      | some text =>
        dsimp only at h ⊢
        cases ht : trimDbcText H.plat text with
        | throws => rw [ht] at h; cases h
        | ub => rw [ht] at h; cases h
        | ok out =>
          rw [ht] at h
          dsimp only at h ⊢
          unfold generate at h ⊢
          dsimp only at h ⊢
          cases hp : prepareDirectory H.fs (configure (getOptions args).drvname.1 (finalPath (getOptions args))) (getOptions args).isRewrite with
          | throws => rw [hp] at h; cases h
          | ub => rw [hp] at h; cases h
          | ret ok d =>
            cases ok with
            | false => exact ⟨_, rfl⟩
            | true =>
              rw [hp] at h
              dsimp only at h ⊢
              generalize configureGen (getOptions args).drvname.1 (commonInfoOf (getOptions args) H.date) (driverSrcInfo (extractFileName (getOptions args).dbc.1)) out.verHi out.verLow = g at h ⊢
              generalize configure (getOptions args).drvname.1 (finalPath (getOptions args)) = c at h ⊢
              have m1 := main_open H (getOptions args) c g out.maxDlc (H.sort out.msgs)
              have m2 := main_open { H with canOpen := f } (getOptions args) c g out.maxDlc (H.sort out.msgs)
              have u1 := utils_open H (getOptions args) c g out
              have u2 := utils_open { H with canOpen := f } (getOptions args) c g out
              have e : openAll { H with canOpen := f } = openAll H := rfl
              rw [e] at m2 u2
              cases hx : mainOps (openAll H) (getOptions args) c g out.maxDlc (H.sort out.msgs) with
              | none =>
                rw [hx] at m1
                rw [m1] at h
                cases h
              | some mops =>
                rw [hx] at m2
                rw [m2]
                cases hy : utilsOps (openAll H) (getOptions args) c g out with
                | none =>
                  rw [hy] at u1
                  rw [hx] at m1
                  rw [m1, u1] at h
                  cases h
                | some uops =>
                  rw [hy] at u2
                  rw [u2]
                  exact ⟨_, rfl⟩
  · rename_i hv
    rw [if_neg hv] at h
    cases h

end Fix

/-- The run of C65 with a write protected header: it ends regularly, and `drv.c` starts with the text meant for `drv.h`. -/
example : ∃ files ht tc rest, runApp Fix.lockedHost Fix.runArgs = .done files ∧ files = ("gen/lib/drv.c".toList, ht ++ tc) :: rest ∧
    ∃ rest', runApp Fix.runHost Fix.runArgs = .done (("gen/lib/drv.h".toList, ht) :: ("gen/lib/drv.c".toList, tc) :: rest') := by
  obtain ⟨good, g1, g2⟩ := Fix.runDone
  obtain ⟨files, f1⟩ := Fix.reopen (fun p => p != "gen/lib/drv.h".toList) g1
  have hp : runPaths Fix.runOpts Fix.pipeOut.msgs Fix.runHost.fs = "gen/lib/drv.h".toList :: "gen/lib/drv.c".toList :: (runPaths Fix.runOpts Fix.pipeOut.msgs Fix.runHost.fs).drop 2 := by decide +kernel
  rw [hp] at g2
  match good, g2 with
  | (p1, ht) :: (p2, tc) :: rest, g2 =>
    rw [List.map_cons, List.map_cons] at g2
    obtain ⟨q1, g2⟩ := List.cons.inj g2
    obtain ⟨q2, -⟩ := List.cons.inj g2
    dsimp only at q1 q2
    subst q1 q2
    have c1 : (configure (getOptions Fix.runArgs).drvname.1 (finalPath (getOptions Fix.runArgs))).coreH = "gen/lib/drv.h".toList := by rw [Fix.runOpts_eq]; decide +kernel
    have c2 : (configure (getOptions Fix.runArgs).drvname.1 (finalPath (getOptions Fix.runArgs))).coreC = "gen/lib/drv.c".toList := by rw [Fix.runOpts_eq]; decide +kernel
    have e : openAll Fix.lockedHost = Fix.runHost := rfl
    obtain ⟨rest', r⟩ := C70_refuted Fix.lockedHost Fix.insSort_ok Fix.runArgs files f1 ht tc rest (by rw [e, c1, c2]; exact g1) (by rw [c1]; decide) (by rw [c2]; decide)
    rw [c2] at r
    exact ⟨files, ht, tc, rest', f1, r, rest, g1⟩

/-- A run whose DBC file is not there. -/
example : runApp { Fix.runHost with dbc := fun _ => none } Fix.runArgs = .noFile ∧ Asks Fix.runArgs "in/my.dbc".toList :=
  have h : Asks Fix.runArgs "in/my.dbc".toList := (asks_iff _ _).2 (by rw [Fix.runOpts_eq]; decide)
  ⟨(C70_refused _ _).2.1.2 ⟨_, h, rfl⟩, h⟩

end Verif
