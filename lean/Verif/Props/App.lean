import Verif.Model.App
import Verif.Props.Text
/-
C36-C39, C48: file writer, command line, output directory, paths.
-/
namespace Verif
open Spec

/-! ### C36: file writer -/

/-- Text a call adds to the current file, spelled out independently of the buffer: a line is closed
by a line feed unless it has one. -/
def addedText : WOp → Str
  | .appendF t => if printLoc t = [] then ['\n'] else if (printLoc t).getLast? = some '\n' then printLoc t else printLoc t ++ ['\n']
  | .appendTextF t => printLoc t
  | .append s => if s = [] then ['\n'] else if s.getLast? = some '\n' then s else s ++ ['\n']
  | .appendText s => s
  | .lines n => List.replicate n '\n'
  | .flush _ _ => []

/-- The files a sequence of calls should produce: every flush writes what was added since the previous
one (`cur` is what is pending). -/
def expectedFiles : Str → List WOp → List (Str × Str)
  | _, [] => []
  | cur, .flush p _ :: rest => (p, cur) :: expectedFiles [] rest
  | cur, op :: rest => expectedFiles (cur ++ addedText op) rest

theorem lineText_eq (s : Str) :
    lineText s = if s = [] then ['\n'] else if s.getLast? = some '\n' then s else s ++ ['\n'] := by
  unfold lineText
  cases h : s.getLast? with
  | none => rw [if_pos (List.getLast?_eq_none_iff.mp h)]
  | some c =>
    have hne : s ≠ [] := by rintro rfl; cases h
    rw [if_neg hne]
    by_cases hc : c = '\n'
    · subst hc; rw [if_pos rfl]; rfl
    · rw [if_neg (fun e => hc (Option.some.inj e))]
      dsimp only
      rw [if_pos hc]

theorem step_nonflush (w : Writer) (op : WOp) (h : ∀ p ok, op ≠ .flush p ok) :
    w.step op = { w with buf := w.buf ++ addedText op } := by
  cases op with
  | flush p ok => exact absurd rfl (h p ok)
  | appendF t => simp only [Writer.step, addedText, lineText_eq]
  | append t => simp only [Writer.step, addedText, lineText_eq]
  | appendTextF t => rfl
  | appendText t => rfl
  | lines n => rfl

theorem writer_files (w : Writer) (ops : List WOp) (h : ∀ p ok, WOp.flush p ok ∈ ops → ok = true) :
    (w.run ops).files = w.files ++ expectedFiles w.buf ops := by
  induction ops generalizing w with
  | nil => simp [Writer.run, expectedFiles]
  | cons op rest ih =>
    have ih' := fun w => ih w (fun p ok hm => h p ok (by simp [hm]))
    show ((w.step op).run rest).files = _
    rw [ih']
    cases op with
    | flush p ok =>
      have hok := h p ok (by simp)
      subst hok
      simp [Writer.step, expectedFiles]
    | _ => rw [step_nonflush _ _ (by intro p ok h; cases h)]; rfl

/-- **C36**: when all files can be opened, every file gets exactly the text appended since the previous
flush. -/
theorem C36_files_partial (ops : List WOp) (h : ∀ p ok, WOp.flush p ok ∈ ops → ok = true) :
    (Writer.run {} ops).files = expectedFiles [] ops := by
  rw [writer_files _ _ h]; rfl

/-- **C36** with files that cannot be opened: exactly their text is carried over to the next file. -/
theorem C36_failed_open (w : Writer) (p : Str) (rest : List WOp) :
    w.run (.flush p false :: rest) = w.run rest := rfl

/-- **C36** is false: the header cannot be opened, its text ends up in the source file. -/
theorem C36_refuted :
    (Writer.run {} [.append "head".toList, .flush "a.h".toList false,
      .append "source".toList, .flush "a.c".toList true]).files = [("a.c".toList, "head\nsource\n".toList)] := by
  decide

/-- **C36**: formatted lines of 10000 or more characters lose their end. -/
theorem C36_long_line (t : Str) (h : 9999 < t.length) : (addedText (.appendTextF t)).length = 9999 ∧
    addedText (.appendTextF t) ≠ t := by
  have : (addedText (.appendTextF t)).length = 9999 := by
    show (t.take 9999).length = 9999
    rw [List.length_take]; omega
  refine ⟨this, fun e => ?_⟩
  rw [e] at this
  omega

example : (Writer.run {} [.appendF "#pragma once".toList, .lines 1, .appendText "x".toList, .flush "a.h".toList true,
    .append "y\n".toList, .flush "a.c".toList true]).files =
    [("a.h".toList, "#pragma once\n\nx".toList), ("a.c".toList, "y\n".toList)] := by decide

/-! ### C37: options -/

/-- Keys and values, by position: an argument that starts with a dash is a key; its value is the next
argument unless that starts with a dash (or there is none). -/
def keyValues (args : List Str) : List (Str × Str) :=
  (args.zip (args.drop 1 ++ [[]])).filterMap fun p =>
    if p.1.head? = some '-' then some (p.1, if p.2.head? = some '-' then [] else p.2) else none

theorem collectPairs_eq (args : List Str) : collectPairs args = keyValues args := by
  fun_induction collectPairs args with
  | case1 => rfl
  | case2 a h => simp [keyValues, startsDash] at *; simp [h]
  | case3 a h => simp [keyValues, startsDash] at *; simp [h]
  | case4 a b rest ha hb ih =>
    rw [ih]
    simp only [startsDash, beq_iff_eq] at ha hb
    simp [keyValues, ha, hb]
  | case5 a b rest ha hb ih =>
    rw [ih]
    simp only [startsDash, beq_iff_eq] at ha hb
    cases rest <;> simp [keyValues, ha, hb]
  | case6 a b rest ha ih =>
    rw [ih]
    simp only [startsDash, beq_iff_eq] at ha
    simp [keyValues, ha]

/-- **C37**: keys are the arguments with a leading dash, values the following arguments without. -/
theorem C37_pairs (args : List Str) : collectPairs args = keyValues args := collectPairs_eq args

/-- The value of the last occurrence of a key. -/
def lastValue (key : Str) (ps : List (Str × Str)) : Option Str := (ps.reverse.find? (·.1 == key)).map (·.2)

theorem lastValue_append (key : Str) (ps : List (Str × Str)) (p : Str × Str) :
    lastValue key (ps ++ [p]) = if p.1 = key then some p.2 else lastValue key ps := by
  unfold lastValue
  rw [List.reverse_append, List.reverse_singleton, List.singleton_append, List.find?_cons]
  by_cases h : p.1 = key
  · simp [h]
  · have : (p.1 == key) = false := by simpa using h
    simp [this, h]

/-- The key occurs. -/
def hasKey (key : Str) (ps : List (Str × Str)) : Bool := ps.any (·.1 == key)

/-- What the options should be, field by field. -/
def expectedOptions (ps : List (Str × Str)) : GenOptions :=
  { dbc := match lastValue "-dbc".toList ps with | some v => (v, true) | none => ([], false)
    outdir := match lastValue "-out".toList ps with | some v => (v, true) | none => ([], false)
    drvname := match lastValue "-drvname".toList ps with
      | some v => (makeCName v, decide (makeCName v ≠ []))
      | none => ([], false)
    isRewrite := hasKey "-rw".toList ps
    isDriverDir := hasKey "-driverdir".toList ps
    addGenDate := hasKey "-gendate".toList ps
    isNodeutils := hasKey "-nodeutils".toList ps
    isNoconfig := hasKey "-noconfig".toList ps
    isNocanmon := hasKey "-noinc".toList ps
    isNofmon := hasKey "-nofmon".toList ps
    isHelp := hasKey "-help".toList ps }

theorem hasKey_append (key : Str) (ps : List (Str × Str)) (p : Str × Str) :
    hasKey key (ps ++ [p]) = (hasKey key ps || (p.1 == key)) := by
  simp [hasKey]

theorem foldl_snoc_induction {α : Type} {P : List α → Prop} (h0 : P []) (h1 : ∀ l a, P l → P (l ++ [a])) (l : List α) :
    P l := by
  have : ∀ l : List α, P l.reverse := by
    intro l
    induction l with
    | nil => exact h0
    | cons a l ih => rw [List.reverse_cons]; exact h1 _ _ ih
  have := this l.reverse
  rwa [List.reverse_reverse] at this

theorem options_eq (ps : List (Str × Str)) : ps.foldl applyPair {} = expectedOptions ps := by
  refine foldl_snoc_induction (P := fun ps => ps.foldl applyPair {} = expectedOptions ps) rfl ?_ ps
  intro ps p ih
  rw [List.foldl_append, ih]
  show applyPair (expectedOptions ps) p = _
  have hlen : ∀ s : Str, decide (s.length ≠ 0) = decide (s ≠ []) := by
    intro s; cases s <;> simp
  unfold expectedOptions
  simp only [lastValue_append, hasKey_append]
  unfold applyPair
  by_cases h1 : p.1 = "-dbc".toList
  · simp [h1]
  by_cases h2 : p.1 = "-out".toList
  · simp [h2]
  by_cases h3 : p.1 = "-drvname".toList
  · simp [h3]
  by_cases h4 : p.1 = "-rw".toList
  · simp [h4]
  by_cases h5 : p.1 = "-nodeutils".toList
  · simp [h5]
  by_cases h6 : p.1 = "-help".toList
  · simp [h6]
  by_cases h7 : p.1 = "-noinc".toList
  · simp [h7]
  by_cases h8 : p.1 = "-noconfig".toList
  · simp [h8]
  by_cases h9 : p.1 = "-nofmon".toList
  · simp [h9]
  by_cases h10 : p.1 = "-driverdir".toList
  · simp [h10]
  by_cases h11 : p.1 = "-gendate".toList
  · simp [h11]
  have hb : ∀ k : Str, p.1 ≠ k → (p.1 == k) = false := fun k h => by simpa using h
  rw [if_neg h1, if_neg h2, if_neg h3, if_neg h4, if_neg h5, if_neg h6, if_neg h7, if_neg h8, if_neg h9, if_neg h10,
    if_neg h11]
  simp only [if_neg h1, if_neg h2, if_neg h3, hb _ h4, hb _ h5, hb _ h6, hb _ h7, hb _ h8, hb _ h9, hb _ h10, hb _ h11,
    Bool.or_false]

/-- **C37**: every argument vector is read as specified: the last occurrence of a key with a value
counts, flags are set iff their key occurs, everything else is ignored. -/
theorem C37_options (args : List Str) : getOptions args = expectedOptions (keyValues args) := by
  unfold getOptions
  rw [collectPairs_eq, options_eq]

/-- Keys that take a value. -/
def valueKeys : List Str := ["-dbc".toList, "-out".toList, "-drvname".toList]

theorem lastValue_perm {key : Str} {a b : List (Str × Str)} (hp : a.Perm b)
    (h1 : (a.filter (·.1 == key)).length ≤ 1) : lastValue key a = lastValue key b := by
  have hform : ∀ l : List (Str × Str), lastValue key l = ((l.filter (·.1 == key)).reverse.head?).map (·.2) := by
    intro l
    unfold lastValue
    rw [← List.filter_reverse, List.head?_filter]
  rw [hform, hform]
  have hpf := hp.filter (fun p => p.1 == key)
  have h2 : (b.filter (·.1 == key)).length ≤ 1 := by rw [← hpf.length_eq]; exact h1
  cases ha : a.filter (·.1 == key) with
  | nil => rw [ha] at hpf; rw [List.nil_perm.mp hpf]
  | cons x xs =>
    rw [ha] at hpf h1
    have : xs = [] := by
      cases xs with
      | nil => rfl
      | cons y ys => simp at h1
    subst this
    rw [List.singleton_perm.mp hpf]

/-- **C37**: the order of the options is irrelevant as long as no option with a value is repeated. -/
theorem C37_order (a b : List Str) (hp : (keyValues a).Perm (keyValues b))
    (h1 : ∀ k ∈ valueKeys, ((keyValues a).filter (·.1 == k)).length ≤ 1) : getOptions a = getOptions b := by
  rw [C37_options, C37_options]
  have hk : ∀ key, hasKey key (keyValues a) = hasKey key (keyValues b) := fun key => hp.any_eq
  unfold expectedOptions
  rw [lastValue_perm hp (h1 _ (by simp [valueKeys])), lastValue_perm hp (h1 _ (by simp [valueKeys])),
    lastValue_perm hp (h1 _ (by simp [valueKeys]))]
  simp only [hk]

/-- **C37**: a run starts iff all three mandatory options are there, the driver name has an identifier
character, and help is not requested. -/
theorem C37_valid (args : List Str) :
    areParamsValid (getOptions args) = true ↔
      "-dbc".toList ∈ args ∧ "-out".toList ∈ args ∧
      (∃ v, lastValue "-drvname".toList (keyValues args) = some v ∧ makeCName v ≠ []) ∧ "-help".toList ∉ args := by
  have hmem : ∀ key : Str, key.head? = some '-' → ((∃ p ∈ keyValues args, p.1 = key) ↔ key ∈ args) := by
    intro key hd
    unfold keyValues
    constructor
    · rintro ⟨p, hp, rfl⟩
      obtain ⟨⟨x, y⟩, hxy, e⟩ := List.mem_filterMap.mp hp
      dsimp only at e
      split at e
      · cases e
        exact (List.of_mem_zip hxy).1
      · cases e
    · intro hm
      obtain ⟨i, hi, e⟩ := List.getElem_of_mem hm
      have hlen : (args.drop 1 ++ [[]]).length = args.length := by
        rw [List.length_append, List.length_drop, List.length_singleton]; omega
      have hz : (args.zip (args.drop 1 ++ [[]]))[i]'(by rw [List.length_zip, hlen]; omega) =
          (args[i], (args.drop 1 ++ [[]])[i]'(by omega)) := List.getElem_zip
      have hil : i < (args.zip (args.drop 1 ++ [[]])).length := by
        rw [List.length_zip, hlen, Nat.min_self]; exact hi
      refine ⟨(key, if ((args.drop 1 ++ [[]])[i]'(by omega)).head? = some '-' then []
        else (args.drop 1 ++ [[]])[i]'(by omega)), List.mem_filterMap.mpr ⟨_, List.getElem_mem hil, ?_⟩, rfl⟩
      rw [hz]
      dsimp only
      rw [e, if_pos hd]
  have hlast : ∀ key : Str, key.head? = some '-' → ((lastValue key (keyValues args)).isSome = true ↔ key ∈ args) := by
    intro key hd
    rw [← hmem key hd]
    unfold lastValue
    rw [Option.isSome_map, List.find?_isSome]
    simp
  have hkey : ∀ key : Str, key.head? = some '-' → (hasKey key (keyValues args) = true ↔ key ∈ args) := by
    intro key hd
    rw [← hmem key hd]
    unfold hasKey
    simp
  rw [C37_options]
  unfold areParamsValid expectedOptions
  simp only [Bool.and_eq_true, beq_iff_eq]
  have hm : ∀ o : Option Str, ((match o with | some v => (v, true) | none => ([], false) : Str × Bool).2 = true) ↔
      o.isSome = true := by
    intro o; cases o <;> simp
  rw [hm, hm, hlast _ rfl, hlast _ rfl]
  have hh : hasKey "-help".toList (keyValues args) = false ↔ "-help".toList ∉ args := by
    rw [← hkey _ rfl]; simp
  rw [hh]
  have hd : ((match lastValue "-drvname".toList (keyValues args) with
      | some v => (makeCName v, decide (makeCName v ≠ [])) | none => ([], false) : Str × Bool).2 = true) ↔
      ∃ v, lastValue "-drvname".toList (keyValues args) = some v ∧ makeCName v ≠ [] := by
    cases lastValue "-drvname".toList (keyValues args) <;> simp
  rw [hd, and_assoc, and_assoc]

example : getOptions ["coderdbc".toList, "-dbc".toList, "a.dbc".toList, "-rw".toList, "-out".toList, "d".toList,
    "-drvname".toList, "my drv".toList, "-x".toList, "-dbc".toList, "b.dbc".toList] =
    { dbc := ("b.dbc".toList, true), outdir := ("d".toList, true), drvname := ("my_drv".toList, true), isRewrite := true } := by
  decide

/-! ### C39: paths -/

/-- A path separator. -/
def Sep (c : Char) : Prop := c = '/' ∨ c = '\\'

theorem isSep_iff (c : Char) : isSep c = true ↔ Sep c := by
  unfold isSep Sep
  simp

/-- **C39**: the extracted file name is the longest suffix without separator. -/
theorem C39_file_name (s : Str) :
    ∃ pre, s = pre ++ extractFileName s ∧ (∀ c ∈ extractFileName s, ¬ Sep c) ∧
      (pre = [] ∨ ∃ t c, pre = t ++ [c] ∧ Sep c) := by
  unfold extractFileName
  cases h : s.reverse.findIdx? isSep with
  | none =>
    refine ⟨[], rfl, ?_, Or.inl rfl⟩
    intro c hc hs
    rw [List.findIdx?_eq_none_iff] at h
    have := h c (List.mem_reverse.mpr hc)
    rw [(isSep_iff c).mpr hs] at this
    cases this
  | some k =>
    dsimp only
    rw [List.findIdx?_eq_some_iff_getElem] at h
    obtain ⟨hk, hsep, hlt⟩ := h
    rw [List.length_reverse] at hk
    have hn : s.length - 1 - k + 1 = s.length - k := by omega
    rw [hn]
    refine ⟨s.take (s.length - k), (List.take_append_drop _ s).symm, ?_, Or.inr ?_⟩
    · intro c hc hs
      obtain ⟨i, hi, e⟩ := List.getElem_of_mem hc
      rw [List.getElem_drop] at e
      rw [List.length_drop] at hi
      have hj : s.length - 1 - (s.length - k + i) < k := by omega
      have := hlt _ hj
      rw [List.getElem_reverse] at this
      have hidx : s.length - 1 - (s.length - 1 - (s.length - k + i)) = s.length - k + i := by omega
      simp only [hidx] at this
      rw [e, (isSep_iff c).mpr hs] at this
      exact this rfl
    · rw [List.getElem_reverse, isSep_iff] at hsep
      refine ⟨s.take (s.length - 1 - k), s[s.length - 1 - k]'(by omega), ?_, hsep⟩
      have : s.length - k = s.length - 1 - k + 1 := by omega
      rw [this, List.take_add_one, List.getElem?_eq_getElem (by omega)]
      rfl

/-- **C39**: joining puts exactly one separator between the two parts, if neither part has more than one
separator at the joint. -/
theorem C39_combine (p f : Str) (hp : ∀ t a b, p = t ++ [a, b] → ¬ (Sep a ∧ Sep b)) 
    (hf : ∀ t a b, f = a :: b :: t → ¬ (Sep a ∧ Sep b)) :
    ∃ a s b, combinePath p f = a ++ s :: b ∧ Sep s ∧ (p = a ∨ ∃ x, Sep x ∧ p = a ++ [x]) ∧
      (f = b ∨ ∃ x, Sep x ∧ f = x :: b) ∧ (∀ t c, a = t ++ [c] → ¬ Sep c) ∧ (∀ t c, b = c :: t → ¬ Sep c) := by
  unfold combinePath
  have hlast : ∀ c, p.getLast? = some c → ∃ t, p = t ++ [c] := by
    intro c h
    have hne : p ≠ [] := by rintro rfl; cases h
    refine ⟨p.dropLast, ?_⟩
    have := List.dropLast_concat_getLast hne
    rw [List.getLast?_eq_some_getLast hne] at h
    cases h
    exact this.symm
  -- the two conditions
  cases hpl : p.getLast? with
  | none =>
    have hp0 : p = [] := List.getLast?_eq_none_iff.mp hpl
    subst hp0
    cases f with
    | nil => exact ⟨[], '/', [], by simp, Or.inl rfl, Or.inl rfl, Or.inl rfl, by simp, by simp⟩
    | cons x f =>
      by_cases hx : Sep x
      · refine ⟨[], x, f, ?_, hx, Or.inl rfl, Or.inr ⟨x, hx, rfl⟩, by simp, ?_⟩
        · simp [(isSep_iff x).mpr hx]
        · intro t c e hc
          exact hf t x c (by rw [e]) ⟨hx, hc⟩
      · have hx' : isSep x = false := by
          cases h : isSep x
          · rfl
          · exact absurd ((isSep_iff x).mp h) hx
        refine ⟨[], '/', x :: f, by simp [hx'], Or.inl rfl, Or.inl rfl, Or.inl rfl, by simp, ?_⟩
        intro t c e hc
        cases e
        exact hx hc
  | some c =>
    obtain ⟨t, rfl⟩ := hlast c hpl
    by_cases hc : Sep c
    · have hc' := (isSep_iff c).mpr hc
      have hta : ∀ t' a, t = t' ++ [a] → ¬ Sep a := by
        intro t' a e ha
        exact hp t' a c (by rw [e]; simp) ⟨ha, hc⟩
      cases f with
      | nil => exact ⟨t, c, [], by simp [hc'], hc, Or.inr ⟨c, hc, rfl⟩, Or.inl rfl, hta, by simp⟩
      | cons x f =>
        by_cases hx : Sep x
        · refine ⟨t, c, f, by simp [hc', (isSep_iff x).mpr hx], hc, Or.inr ⟨c, hc, rfl⟩, Or.inr ⟨x, hx, rfl⟩, hta, ?_⟩
          intro t' d e hd
          exact hf t' x d (by rw [e]) ⟨hx, hd⟩
        · have hx' : isSep x = false := by
            cases h : isSep x
            · rfl
            · exact absurd ((isSep_iff x).mp h) hx
          refine ⟨t, c, x :: f, by simp [hc', hx'], hc, Or.inr ⟨c, hc, rfl⟩, Or.inl rfl, hta, ?_⟩
          intro t' d e hd
          cases e
          exact hx hd
    · have hc' : isSep c = false := by
        cases h : isSep c
        · rfl
        · exact absurd ((isSep_iff c).mp h) hc
      have hpe : ∀ t' d, t ++ [c] = t' ++ [d] → ¬ Sep d := by
        intro t' d e hd
        have := List.append_inj_right' e rfl
        cases this
        exact hc hd
      cases f with
      | nil => exact ⟨t ++ [c], '/', [], by simp [hc'], Or.inl rfl, Or.inl rfl, Or.inl rfl, hpe, by simp⟩
      | cons x f =>
        by_cases hx : Sep x
        · refine ⟨t ++ [c], x, f, by simp [hc', (isSep_iff x).mpr hx], hx, Or.inl rfl, Or.inr ⟨x, hx, rfl⟩, hpe, ?_⟩
          intro t' d e hd
          exact hf t' x d (by rw [e]) ⟨hx, hd⟩
        · have hx' : isSep x = false := by
            cases h : isSep x
            · rfl
            · exact absurd ((isSep_iff x).mp h) hx
          refine ⟨t ++ [c], '/', x :: f, by simp [hc', hx'], Or.inl rfl, Or.inl rfl, Or.inl rfl, hpe, ?_⟩
          intro t' d e hd
          cases e
          exact hx hd

example : combinePath "gen/".toList "drv".toList = "gen/drv".toList ∧
    combinePath "gen".toList "drv".toList = "gen/drv".toList ∧
    combinePath "gen/".toList "/drv".toList = "gen/drv".toList ∧
    combinePath [] "drv".toList = "/drv".toList ∧
    extractFileName "a/b\\c.dbc".toList = "c.dbc".toList := by decide

/-! ### C38: output directory -/

/-- A run with these options on this file system: the selected directory and the paths written. -/
def runPaths (o : GenOptions) (msgs : List Msg) (fs : FileSys) : List Str :=
  writtenPaths o msgs (prepareDirectory fs (configure o.drvname.1 (finalPath o)) o.isRewrite)

theorem prepLoop_spec (fs : FileSys) (pre : Str) (l : List Nat) (ok : Bool) (d : Option Str)
    (h : prepLoop fs pre l = .ret ok d) :
    (ok = true ∧ ∃ l1 n l2, l = l1 ++ n :: l2 ∧ d = some (pre ++ num3 n) ∧ fs.node (pre ++ num3 n) = .absent ∧
      ∀ k ∈ l1, fs.node (pre ++ num3 k) = .dir) ∨
    (ok = false ∧ d = none ∧ ∀ k ∈ l, fs.node (pre ++ num3 k) = .dir) := by
  induction l with
  | nil => cases h; exact Or.inr ⟨rfl, rfl, by simp⟩
  | cons n rest ih =>
    unfold prepLoop at h
    cases hn : fs.node (pre ++ num3 n) with
    | absent =>
      simp only [hn] at h
      by_cases hc : fs.canCreate (pre ++ num3 n)
      · rw [if_pos hc] at h
        cases h
        exact Or.inl ⟨rfl, [], n, rest, rfl, rfl, hn, by simp⟩
      · rw [if_neg hc] at h; cases h
    | dir =>
      simp only [hn] at h
      rcases ih h with ⟨h1, l1, m, l2, e, hd, hm, hk⟩ | ⟨h1, h2, hk⟩
      · refine Or.inl ⟨h1, n :: l1, m, l2, by rw [e]; rfl, hd, hm, ?_⟩
        intro k hk'
        rcases List.mem_cons.mp hk' with rfl | hk'
        · exact hn
        · exact hk k hk'
      · refine Or.inr ⟨h1, h2, ?_⟩
        intro k hk'
        rcases List.mem_cons.mp hk' with rfl | hk'
        · exact hn
        · exact hk k hk'
    | other => simp only [hn] at h; cases h

/-- The path of the numbered directory `n` below `base`. -/
def numbered (base : Str) (n : Nat) : Str := base ++ (if base.getLast? = some '/' then [] else ['/']) ++ num3 n

theorem prepare_select {fs : FileSys} {c : OutPaths} {rw : Bool} {ok : Bool} {d : Option Str}
    (h : prepareDirectory fs c rw = .ret ok d) : selectDirectory fs c.base rw = .ret ok d := by
  unfold prepareDirectory at h
  cases hs : selectDirectory fs c.base rw with
  | ret o2 d2 =>
    simp only [hs] at h
    split at h
    · exact h
    · cases h
  | throws => simp only [hs] at h; cases h
  | ub => simp only [hs] at h; cases h

/-- **C38**, what holds: without `-rw` the directory that is created was not there before and has the
first free number; if all thousand are taken, nothing is written. -/
theorem C38_fresh_partial (fs : FileSys) (c : OutPaths) (ok : Bool) (d : Option Str)
    (h : prepareDirectory fs c false = .ret ok d) :
    (ok = true ∧ ∃ n < 1000, d = some (numbered c.base n) ∧ fs.node (numbered c.base n) = .absent ∧
      ∀ k < n, fs.node (numbered c.base k) = .dir) ∨
    (ok = false ∧ ∀ k < 1000, fs.node (numbered c.base k) = .dir) := by
  have hs := prepare_select h
  unfold selectDirectory at hs
  rw [if_neg (by decide)] at hs
  cases hb : c.base.getLast? with
  | none => simp only [hb] at hs; cases hs
  | some x =>
    simp only [hb] at hs
    have hnum : ∀ n, (c.base ++ if x = '/' then [] else ['/']) ++ num3 n = numbered c.base n := by
      intro n
      unfold numbered
      rw [hb]
      by_cases hx : x = '/'
      · simp [hx]
      · simp [hx]
    rcases prepLoop_spec _ _ _ _ _ hs with ⟨h1, l1, n, l2, e, hd, hm, hk⟩ | ⟨h1, h2, hk⟩
    · rw [hnum] at hd hm
      have hn : l1 = List.range n ∧ n < 1000 := by
        have hlen : l1.length < 1000 := by
          have := congrArg List.length e
          rw [List.length_range, List.length_append, List.length_cons] at this
          omega
        have h1 := congrArg (fun l => l[l1.length]?) e
        simp only [List.getElem?_range hlen] at h1
        rw [List.getElem?_append_right (Nat.le_refl _), Nat.sub_self] at h1
        have hn : l1.length = n := by simpa using h1
        have h2 := congrArg (List.take l1.length) e
        rw [List.take_left, List.take_range, Nat.min_eq_left (by omega)] at h2
        exact ⟨by rw [← h2, hn], by omega⟩
      refine Or.inl ⟨h1, n, hn.2, hd, hm, fun k hkn => ?_⟩
      rw [← hnum]
      exact hk k (by rw [hn.1]; exact List.mem_range.mpr hkn)
    · refine Or.inr ⟨h1, fun k hk' => ?_⟩
      rw [← hnum]
      exact hk k (List.mem_range.mpr hk')

/-- **C38**: nothing is written when no directory is available or the preparation throws. -/
theorem C38_no_write (o : GenOptions) (msgs : List Msg) (prep : PrepRes)
    (h : ∀ d, prep ≠ .ret true d) : writtenPaths o msgs prep = [] := by
  cases prep with
  | ret ok d =>
    cases ok with
    | true => exact absurd rfl (h d)
    | false => rfl
  | throws => rfl
  | ub => rfl

/-- Every written path is below a fixed subdirectory of the base path. -/
theorem written_form (o : GenOptions) (msgs : List Msg) (prep : PrepRes) (p : Str)
    (hp : p ∈ writtenPaths o msgs prep) :
    ∃ x r, p = finalPath o ++ '/' :: x :: r ∧ ¬ IsDigit x := by
  unfold writtenPaths at hp
  split at hp
  · simp only [List.mem_append, List.mem_cons, List.not_mem_nil, or_false] at hp
    have lib : ∀ t, ∃ x r, finalPath o ++ "/lib".toList ++ t = finalPath o ++ '/' :: x :: r ∧ ¬ IsDigit x :=
      fun t => ⟨'l', 'i' :: 'b' :: t, by simp, by decide⟩
    have usr : ∀ t, ∃ x r, finalPath o ++ "/usr".toList ++ t = finalPath o ++ '/' :: x :: r ∧ ¬ IsDigit x :=
      fun t => ⟨'u', 's' :: 'r' :: t, by simp, by decide⟩
    have conf : ∀ t, ∃ x r, finalPath o ++ "/conf".toList ++ t = finalPath o ++ '/' :: x :: r ∧ ¬ IsDigit x :=
      fun t => ⟨'c', 'o' :: 'n' :: 'f' :: t, by simp, by decide⟩
    have inc : ∀ t, ∃ x r, finalPath o ++ "/inc".toList ++ t = finalPath o ++ '/' :: x :: r ∧ ¬ IsDigit x :=
      fun t => ⟨'i', 'n' :: 'c' :: t, by simp, by decide⟩
    have butl : ∀ t, ∃ x r, finalPath o ++ "/butl".toList ++ t = finalPath o ++ '/' :: x :: r ∧ ¬ IsDigit x :=
      fun t => ⟨'b', 'u' :: 't' :: 'l' :: t, by simp, by decide⟩
    rcases hp with ((((rfl | rfl | rfl) | h) | h) | h) | h
    · exact lib _
    · exact lib _
    · exact lib _
    · split at h
      · cases h
      · rcases List.mem_singleton.mp h with rfl
        exact usr _
    · split at h
      · cases h
      · rcases List.mem_cons.mp h with rfl | h
        · exact conf _
        · rcases List.mem_singleton.mp h with rfl
          exact conf _
    · split at h
      · cases h
      · rcases List.mem_singleton.mp h with rfl
        exact inc _
    · split at h
      · obtain ⟨n, _, h⟩ := List.mem_flatMap.mp h
        rcases List.mem_cons.mp h with rfl | h
        · unfold nodeUtilH; rw [List.append_assoc]; exact butl _
        · rcases List.mem_singleton.mp h with rfl
          unfold nodeUtilC; rw [List.append_assoc]; exact butl _
      · rcases List.mem_cons.mp h with rfl | h
        · exact butl _
        · rcases List.mem_singleton.mp h with rfl
          exact butl _
  · cases hp

/-- **C38** is false for every run: no file is ever written into the numbered directory. -/
theorem C38_outside (o : GenOptions) (msgs : List Msg) (prep : PrepRes) (n : Nat) (p : Str)
    (hp : p ∈ writtenPaths o msgs prep) : ¬ numbered (finalPath o) n <+: p := by
  obtain ⟨x, r, rfl, hx⟩ := written_form o msgs prep p hp
  obtain ⟨d, ds, hd⟩ : ∃ d ds, num3 n = d :: ds := by
    cases h : num3 n with
    | nil =>
      have := padDigits_length 3 n
      unfold num3 at h
      rw [h] at this
      cases this
    | cons d ds => exact ⟨d, ds, rfl⟩
  have hdig : IsDigit d := padDigits_isDigit 3 n d (by
    have : padDigits 3 n = d :: ds := hd
    rw [this]; simp)
  unfold numbered
  rw [hd, List.append_assoc, List.prefix_append_right_inj]
  split
  · rw [List.nil_append, List.cons_prefix_cons]
    rintro ⟨rfl, -⟩
    exact absurd hdig (by decide)
  · rw [List.singleton_append, List.cons_prefix_cons, List.cons_prefix_cons]
    rintro ⟨-, rfl, -⟩
    exact hx hdig

/-- **C38** is false for every repetition: whatever the file systems were, two successful runs with the
same options (with or without `-rw`) write the same files, so the second overwrites the first. -/
theorem C38_overwrites (o : GenOptions) (msgs : List Msg) (fs1 fs2 : FileSys) (rw1 rw2 : Bool)
    (d1 d2 : Option Str)
    (h1 : prepareDirectory fs1 (configure o.drvname.1 (finalPath o)) rw1 = .ret true d1)
    (h2 : prepareDirectory fs2 (configure o.drvname.1 (finalPath o)) rw2 = .ret true d2) :
    runPaths { o with isRewrite := rw1 } msgs fs1 = runPaths { o with isRewrite := rw2 } msgs fs2 ∧
    (configure o.drvname.1 (finalPath o)).coreH ∈ runPaths { o with isRewrite := rw1 } msgs fs1 := by
  have hf : ∀ r, finalPath { o with isRewrite := r } = finalPath o := fun r => rfl
  unfold runPaths
  simp only [hf, h1, h2]
  refine ⟨rfl, ?_⟩
  simp [writtenPaths, hf]

/-- Options of `-dbc a.dbc -out gen -drvname drv`. -/
def c38Opts : GenOptions := getOptions ["coderdbc".toList, "-dbc".toList, "a.dbc".toList, "-out".toList, "gen".toList,
  "-drvname".toList, "drv".toList]

/-- File system after a first run. -/
def c38Fs : FileSys where
  node p := if p = "gen/lib/drv.h".toList then .other
    else if p = "gen".toList ∨ p = "gen/000".toList ∨ p = "gen/lib".toList ∨ p = "gen/usr".toList ∨ p = "gen/inc".toList ∨
      p = "gen/conf".toList ∨ p = "gen/butl".toList then .dir else .absent
  canCreate _ := true

/-- **C38** is false: the second run creates `gen/001` but overwrites the header of the first run. -/
theorem C38_refuted :
    areParamsValid c38Opts = true ∧ c38Opts.isRewrite = false ∧
    prepareDirectory c38Fs (configure c38Opts.drvname.1 (finalPath c38Opts)) false =
      .ret true (some "gen/001".toList) ∧
    ∃ p ∈ runPaths c38Opts [] c38Fs, c38Fs.node p = .other := by
  refine ⟨by decide, by decide, by decide +kernel, "gen/lib/drv.h".toList, by decide +kernel, by decide⟩

/-! ### C48: an output directory is needed -/

/-- **C48**, what holds: with a non-empty output directory the preparation of the directory has no undefined
behaviour. -/
theorem C48_defined_partial (fs : FileSys) (c : OutPaths) (rw : Bool) (h : c.base ≠ []) :
    prepareDirectory fs c rw ≠ .ub := by
  have hl : ∀ (pre : Str) (l : List Nat), prepLoop fs pre l ≠ .ub := by
    intro pre l
    induction l with
    | nil => intro h; cases h
    | cons n rest ih =>
      unfold prepLoop
      dsimp only
      split
      · split <;> exact fun h => by cases h
      · exact ih
      · exact fun h => by cases h
  have hs : selectDirectory fs c.base rw ≠ .ub := by
    unfold selectDirectory
    cases rw with
    | true =>
      rw [if_pos rfl]
      split
      · split <;> exact fun h => by cases h
      · exact fun h => by cases h
    | false =>
      rw [if_neg (by decide)]
      split
      · rename_i hb
        exact absurd (List.getLast?_eq_none_iff.mp hb) h
      · exact hl _ _
  unfold prepareDirectory
  split
  · split <;> exact fun h => by cases h
  · exact hs

/-- **C48**: with `-driverdir` the base path is never empty. -/
theorem C48_driverdir (o : GenOptions) (h : o.isDriverDir = true) (hd : o.drvname.1 ≠ []) : finalPath o ≠ [] := by
  unfold finalPath
  rw [if_pos h]
  have key : ∀ (pe fs : Bool) (p f : Str), f ≠ [] → (p = [] → pe = false) →
      (if pe && fs then p ++ f.drop 1 else if !pe && !fs then p ++ '/' :: f else p ++ f) ≠ [] := by
    intro pe fs p f hf hp e
    cases pe <;> cases fs <;> simp at e hp
    · exact hf e.2
    · exact hf e.2
    · exact hp e.1
  refine key _ _ _ _ hd ?_
  intro hp
  rw [hp]
  rfl

/-- **C48** is false: `-out` without a value (here followed by another option) is accepted and leads to
`back()` of an empty string. -/
theorem C48_refuted (fs : FileSys) :
    let o := getOptions ["coderdbc".toList, "-dbc".toList, "a.dbc".toList, "-out".toList, "-drvname".toList, "drv".toList]
    areParamsValid o = true ∧ prepareDirectory fs (configure o.drvname.1 (finalPath o)) o.isRewrite = .ub := by
  refine ⟨by decide, rfl⟩

end Verif
