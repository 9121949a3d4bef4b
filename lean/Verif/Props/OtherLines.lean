import Verif.Props.LineEnds
/-
C82, C83: lines of kinds the tool does not use.
-/
namespace Verif
open Spec

/-- How lines begin that the tool does not use (nodes, bit timing, value tables that are not bound to a signal, definitions of attributes, attributes of relations,
types and groups of signals, extended multiplexing, environment variables, categories). -/
def Spec.otherKeywords : List Str :=
  ["BU_", "BS_", "NS_", "VAL_TABLE_", "BA_DEF_", "BA_REL_", "BA_SGTYPE_", "SIG_", "SIGTYPE_", "SGTYPE_", "SG_MUL_VAL_", "EV_", "ENVVAR_DATA_", "CAT_"].map String.toList

/-- A word of the line that is not its first begins with `SG_`. -/
def Spec.SgWord (t : Str) : Prop := ∃ a w b, t = a ++ w :: ("SG_".toList ++ b) ∧ (w = ' ' ∨ 9 ≤ w.toNat ∧ w.toNat ≤ 13)

theorem not_sgWord (t : Str) : ¬ SgWord t ↔ isSignalLine t = false := by
  rw [← Bool.not_eq_true]
  exact not_congr (C27_signal_line t).symm

/-- The line (of a file) begins with such a keyword; no word of it begins with `SG_`, or it has no colon. -/
def Spec.OtherLine (P : Platform) (l : Str) : Prop :=
  (∃ kw ∈ otherKeywords, kw <+: strTrim P.charMax l) ∧ (¬ SgWord (strTrim P.charMax l) ∨ ':' ∉ strTrim P.charMax l)

/-- Two files that differ in such lines only, none of which stands inside a statement. -/
inductive Spec.SameButOther (P : Platform) : List Str → List Str → Prop
  | nil : SameButOther P [] []
  | line {a b : List Str} (l : Str) : SameButOther P a b → SameButOther P (a ++ [l]) (b ++ [l])
  | left {a b : List Str} {l : Str} : SameButOther P a b → OtherLine P l → (∀ k, ¬ StillOpen k (a.map (strTrim P.charMax))) → SameButOther P (a ++ [l]) b
  | right {a b : List Str} {l : Str} : SameButOther P a b → OtherLine P l → (∀ k, ¬ StillOpen k (b.map (strTrim P.charMax))) → SameButOther P a (b ++ [l])

/-! ### Such lines say nothing -/

theorem splitGo_front (m : Str → Option Nat) (f : Nat) (hit : Bool) (acc s : Str) (h : acc ≠ []) : ∃ r ps, splitGo m f hit acc s = (acc.reverse ++ r) :: ps := by
  induction f generalizing acc s with
  | zero => exact ⟨[], [], by simp [splitGo]⟩
  | succ f ih =>
    cases s with
    | nil =>
      refine ⟨[], [], ?_⟩
      cases acc with
      | nil => exact absurd rfl h
      | cons c acc => simp [splitGo]
    | cons c s =>
      rw [splitGo]
      split
      · exact ⟨[], _, by rw [List.append_nil]⟩
      · obtain ⟨r, ps, e⟩ := ih (c :: acc) s (List.cons_ne_nil _ _)
        exact ⟨c :: r, ps, by rw [e]; simp⟩

theorem splitGo_whole {m : Str → Option Nat} (f : Nat) (hit : Bool) (acc s : Str) (h : ∀ t, t <:+ s → m t = none) : (splitGo m f hit acc s).length ≤ 1 := by
  induction f generalizing acc s with
  | zero => simp [splitGo]
  | succ f ih =>
    cases s with
    | nil => rw [splitGo]; split <;> simp
    | cons c s =>
      rw [splitGo, h _ (List.suffix_refl _)]
      exact ih _ _ fun t ht => h t (ht.trans (List.suffix_cons _ _))

theorem mColon_none {s : Str} (h : ':' ∉ s) : mColon s = none := by
  unfold mColon
  dsimp only
  split
  · rename_i r e
    refine absurd ?_ h
    have : ':' ∈ s.drop (s.takeWhile isWs).length := by rw [e]; exact List.mem_cons_self
    exact List.mem_of_mem_drop this
  · rfl

theorem noColon_sig (P : Platform) {l : Str} (h : ':' ∉ l) : parseSignalLine P l = .ok none := by
  have hl : (resplit mColon l).length < 2 :=
    Nat.lt_succ_of_le (splitGo_whole (m := mColon) (l.length + 1) false [] l fun t ht => mColon_none fun q => h (ht.subset q))
  unfold parseSignalLine
  generalize resplit mColon l = p at hl
  exact if_pos hl

/-- Two word characters in front other than those of `BO_TX_BU_`. -/
theorem front_tx (P : Platform) {a b : Char} {r : Str} (ha : isWord a = true) (hb : isWord b = true) (h : ¬ (a = 'B' ∧ b = 'O')) : IsTx P (a :: b :: r) = false := by
  have hn : ∀ (c : Char) (t : Str), isWord c = true → mTrans (c :: t) = none := by
    intro c t hc
    unfold mTrans mRun
    rw [if_pos]
    rw [List.takeWhile_cons_of_neg (by rw [hc]; decide)]
    rfl
  have e : resplit mTrans (a :: b :: r) = splitGo mTrans (r.length + 1) false [b, a] r := by
    unfold resplit
    rw [List.length_cons, List.length_cons, splitGo, hn _ _ ha]
    dsimp only
    rw [splitGo, hn _ _ hb]
  obtain ⟨t, ps, e2⟩ := splitGo_front mTrans (r.length + 1) false [b, a] r (List.cons_ne_nil _ _)
  unfold IsTx parseMultiTrans
  dsimp only
  rw [e, e2, if_neg]
  · rfl
  · rintro ⟨-, q⟩
    have q : a :: b :: t = 'B' :: 'O' :: "_TX_BU_".toList := q
    injection q with q1 q
    injection q with q2 q
    exact h ⟨q1, q2⟩

/-- Letters and then an underscore: no version. -/
theorem under_version (P : Platform) {a r : Str} (ha : ∀ c ∈ a, isAlpha c = true) : findVersion P (a ++ '_' :: r) = .ok none := by
  have e : (a ++ '_' :: r).dropWhile isAlpha = '_' :: r := by
    induction a with
    | nil => rfl
    | cons c a ih =>
      rw [List.cons_append, List.dropWhile_cons_of_pos (ha c List.mem_cons_self)]
      exact ih fun x hx => ha x (List.mem_cons_of_mem _ hx)
  have : matchVersion (a ++ '_' :: r) = none := by
    unfold matchVersion
    dsimp only
    rw [e, if_neg]
    rintro ⟨-, q, -⟩
    exact q rfl
  unfold findVersion
  rw [this]

theorem under_split {k : Str} (hu : '_' ∈ k) (h : (k.takeWhile (· != '_')).all isAlpha = true) : ∃ u v, k = u ++ '_' :: v ∧ ∀ c ∈ u, isAlpha c = true := by
  induction k with
  | nil => cases hu
  | cons c k ih =>
    by_cases hc : c = '_'
    · exact ⟨[], k, by rw [hc]; rfl, fun _ q => nomatch q⟩
    · rw [List.takeWhile_cons_of_pos (p := (· != '_')) (bne_iff_ne.2 hc), List.all_cons, Bool.and_eq_true] at h
      have hu' : '_' ∈ k := by
        rcases List.mem_cons.1 hu with q | q
        · exact absurd q.symm hc
        · exact q
      obtain ⟨u, v, rfl, hv⟩ := ih hu' h.2
      refine ⟨c :: u, v, rfl, fun x hx => ?_⟩
      rcases List.mem_cons.1 hx with rfl | hx
      · exact h.1
      · exact hv x hx

/-- What all the keywords have in common. -/
def kwShape (kw : Str) : Bool :=
  match kw with
  | a :: b :: _ => isWord a && isWord b && !(a == 'B' && b == 'O') && kw.contains '_' && (kw.takeWhile (· != '_')).all isAlpha && !(kw.isPrefixOf "BO_ ".toList) &&
      [Kw.comment, .attr, .value].all fun k => !(kw.isPrefixOf k.text) && !(k.text.isPrefixOf kw)
  | _ => false

theorem other_shape : ∀ kw ∈ otherKeywords, kwShape kw = true := by decide +kernel

theorem both_prefix {a b l : Str} (h1 : a <+: l) (h2 : b <+: l) : a.isPrefixOf b = true ∨ b.isPrefixOf a = true := by
  rcases Nat.le_total a.length b.length with h | h
  · exact .inl (List.isPrefixOf_iff_prefix.2 (List.prefix_of_prefix_length_le h1 h2 h))
  · exact .inr (List.isPrefixOf_iff_prefix.2 (List.prefix_of_prefix_length_le h2 h1 h))

theorem other_kw {P : Platform} {l : Str} (h : OtherLine P l) (k : Kw) : ¬ k.text <+: strTrim P.charMax l := by
  obtain ⟨⟨kw, hk, hp⟩, -⟩ := h
  have hs := other_shape kw hk
  intro q
  unfold kwShape at hs
  split at hs
  · simp only [Bool.and_eq_true] at hs
    have := List.all_eq_true.1 hs.2 k (by cases k <;> decide)
    simp only [Bool.and_eq_true, Bool.not_eq_true'] at this
    rcases both_prefix hp q with e | e
    · rw [this.1] at e; cases e
    · rw [this.2] at e; cases e
  · cases hs

theorem other_inert {P : Platform} {l : Str} (h : OtherLine P l) : Inert P (strTrim P.charMax l) := by
  obtain ⟨⟨kw, hk, hp⟩, hc⟩ := h
  have hs := other_shape kw hk
  generalize strTrim P.charMax l = x at *
  obtain ⟨r, rfl⟩ := hp
  unfold kwShape at hs
  split at hs
  · rename_i a b t
    simp only [Bool.and_eq_true, Bool.not_eq_true'] at hs
    obtain ⟨⟨⟨⟨⟨⟨ha, hb⟩, hbo⟩, hu⟩, hal⟩, -⟩, -⟩ := hs
    have hbo' : ¬ (a = 'B' ∧ b = 'O') := by
      rintro ⟨rfl, rfl⟩
      exact absurd hbo (by decide)
    refine ⟨?_, ?_, front_tx P ha hb hbo', fun q => ?_⟩
    · obtain ⟨u, v, e, hnu⟩ := under_split (List.contains_iff_mem.1 hu) hal
      rw [e, List.append_assoc, List.cons_append]
      exact under_version P hnu
    · show "BO_ ".toList.isPrefixOf (a :: b :: (t ++ r)) = false
      show ('B' == a && ('O' == b && "_ ".toList.isPrefixOf (t ++ r))) = false
      by_cases h1 : a = 'B'
      · by_cases h2 : b = 'O'
        · exact absurd ⟨h1, h2⟩ hbo'
        · rw [beq_eq_false_iff_ne.2 (Ne.symm h2)]
          simp
      · rw [beq_eq_false_iff_ne.2 (Ne.symm h1)]
        rfl
    · rcases hc with hc | hc
      · rw [(not_sgWord _).1 hc] at q; cases q
      · exact noColon_sig P hc
  · cases hs

/-- Such a line outside statements does nothing in the second pass. -/
theorem other_step {P : Platform} {s : Scan2} (h0 : ∀ k, lineOf s k = []) {a : List Str} (ha : ∀ k, ¬ StillOpen k (a.map (strTrim P.charMax))) {l : Str} (hl : OtherLine P l) :
    parseOtherInfo P s (a ++ [l]) = parseOtherInfo P s a := by
  have hc : ∀ k, lineOf (parseOtherInfo P s a) k = [] := fun k => Classical.not_not.1 fun q => ha k (by
    have := collected_open P k (pre := []) (fun q' => absurd (h0 k) q') q
    exact this)
  rw [parseOtherInfo_append]
  generalize parseOtherInfo P s a = t at hc
  show scanLine2 P t _ = t
  unfold scanLine2
  rw [commentStep_other P (hc .comment) (other_kw hl .comment), valueStep_other P (hc .value) (other_kw hl .value), attribStep_other P (hc .attr) (other_kw hl .attr)]

theorem sameOther_scan {P : Platform} {a b : List Str} (h : SameButOther P a b) (st : Scan) : scanLines P st a = scanLines P st b := by
  induction h with
  | nil => rfl
  | line _ _ ih => rw [scanLines_append, scanLines_append, ih]
  | left _ hl _ ih =>
    rw [scanLines_append, ih]
    cases scanLines P st _ with
    | ok s => exact scan_inert (fun x hx => List.mem_singleton.1 hx ▸ other_inert hl) s
    | ub => rfl
    | throws => rfl
  | right _ hl _ ih =>
    rw [scanLines_append, ih]
    cases scanLines P st _ with
    | ok s => exact (scan_inert (fun x hx => List.mem_singleton.1 hx ▸ other_inert hl) s).symm
    | ub => rfl
    | throws => rfl

theorem sameOther_other {P : Platform} {a b : List Str} (h : SameButOther P a b) {s : Scan2} (h0 : ∀ k, lineOf s k = []) : parseOtherInfo P s a = parseOtherInfo P s b := by
  induction h with
  | nil => rfl
  | line _ _ ih => rw [parseOtherInfo_append, parseOtherInfo_append, ih]
  | left _ hl ho ih => rw [other_step h0 ho hl, ih]
  | right _ hl ho ih => rw [other_step h0 ho hl, ih]

/-- The scanner returns the same list for both files, or fails in the same way. -/
theorem C82_scanner_partial (P : Platform) (text text' : Str) (h : SameButOther P (getLines text) (getLines text')) : trimDbcText P text' = trimDbcText P text := by
  unfold trimDbcText parseMessageInfo
  rw [sameOther_scan h]
  cases scanLines P { list := {} } (getLines text') with
  | ok st =>
    dsimp only
    rw [sameOther_other h fun k => by cases k <;> rfl]
  | ub => rfl
  | throws => rfl

/-- **C82**, except for lines with a colon and a word that begins with `SG_`: for every command line the run on the second file ends the same way and writes the same files. -/
theorem C82_run_partial (H : RunHost) (dbc' : Str → Option (Option Str)) (args : List Str) (path text text' : Str) (ha : Asks args path)
    (h1 : H.dbc path = some (some text)) (h2 : dbc' path = some (some text')) (h : SameButOther H.plat (getLines text) (getLines text')) :
    runApp { H with dbc := dbc' } args = runApp H args := by
  rw [runApp_read ha h1, runApp_read (H := { H with dbc := dbc' }) ha h2, C82_scanner_partial H.plat text text' h]
  rfl

/-! ### Files without such lines -/

/-- A check for `OtherLine`. -/
def otherB (P : Platform) (l : Str) : Bool :=
  (otherKeywords.any fun kw => kw.isPrefixOf (strTrim P.charMax l)) && (!isSignalLine (strTrim P.charMax l) || !(strTrim P.charMax l).contains ':')

theorem otherB_iff (P : Platform) (l : Str) : otherB P l = true ↔ OtherLine P l := by
  unfold otherB OtherLine
  rw [Bool.and_eq_true, List.any_eq_true, Bool.or_eq_true, Bool.not_eq_true', Bool.not_eq_true']
  refine and_congr ⟨fun ⟨k, h1, h2⟩ => ⟨k, h1, List.isPrefixOf_iff_prefix.1 h2⟩, fun ⟨k, h1, h2⟩ => ⟨k, h1, List.isPrefixOf_iff_prefix.2 h2⟩⟩ (or_congr (not_sgWord _).symm ?_)
  rw [← Bool.not_eq_true, List.contains_iff_mem]

theorem sameOther_strip (P : Platform) {ls r r' : List Str} (hr : SameButOther P r r') (h : ∀ a l b, ls = a ++ l :: b → OtherLine P l → ∀ k, ¬ StillOpen k ((r ++ a).map (strTrim P.charMax))) :
    SameButOther P (r ++ ls) (r' ++ ls.filter fun l => !otherB P l) := by
  induction ls generalizing r r' with
  | nil => rw [List.filter_nil, List.append_nil, List.append_nil]; exact hr
  | cons l ls ih =>
    have hn : ∀ a x b, ls = a ++ x :: b → OtherLine P x → ∀ k, ¬ StillOpen k (((r ++ [l]) ++ a).map (strTrim P.charMax)) := by
      intro a x b e hx k
      have := h (l :: a) x b (by rw [e]; rfl) hx k
      rwa [show r ++ l :: a = (r ++ [l]) ++ a by simp] at this
    rw [show r ++ l :: ls = (r ++ [l]) ++ ls by simp]
    cases ho : otherB P l with
    | true =>
      rw [List.filter_cons_of_neg (by rw [ho]; decide)]
      have hl := (otherB_iff P l).1 ho
      have := h [] l ls rfl hl
      rw [List.append_nil] at this
      exact ih (.left hr hl this) hn
    | false =>
      rw [List.filter_cons_of_pos (by rw [ho]; rfl), show ∀ x : List Str, r' ++ l :: x = (r' ++ [l]) ++ x from fun x => by simp]
      exact ih (.line l hr) hn

/-- **C82**: all such lines can be left out, if none stands inside a statement. -/
theorem C82_strip_partial (H : RunHost) (dbc' : Str → Option (Option Str)) (args : List Str) (path text text' : Str) (ha : Asks args path)
    (h1 : H.dbc path = some (some text)) (h2 : dbc' path = some (some text')) (drop : Str → Bool) (hd : ∀ l, drop l = true ↔ OtherLine H.plat l)
    (he : getLines text' = (getLines text).filter fun l => !drop l)
    (h : ∀ a l b, getLines text = a ++ l :: b → OtherLine H.plat l → ∀ k, ¬ StillOpen k (a.map (strTrim H.plat.charMax))) :
    runApp { H with dbc := dbc' } args = runApp H args := by
  refine C82_run_partial H dbc' args path text text' ha h1 h2 ?_
  have := sameOther_strip H.plat (ls := getLines text) (r := []) (r' := []) .nil h
  rw [he, show drop = otherB H.plat from funext fun l => Bool.eq_iff_iff.2 ((hd l).trans (otherB_iff _ l).symm)]
  exact this

/-- **C83**, what is true instead: a declaration of the type of a signal at the end of the file, whatever it says, does not change what the tool does. -/
theorem C83_ignored (H : RunHost) (dbc' : Str → Option (Option Str)) (args : List Str) (path text text' l : Str) (ha : Asks args path)
    (h1 : H.dbc path = some (some text)) (h2 : dbc' path = some (some text')) (he : getLines text' = getLines text ++ [l])
    (hl : "SIG_VALTYPE_ ".toList <+: strTrim H.plat.charMax l) (hs : ¬ SgWord (strTrim H.plat.charMax l))
    (h : ∀ k, ¬ StillOpen k ((getLines text).map (strTrim H.plat.charMax))) :
    runApp { H with dbc := dbc' } args = runApp H args := by
  refine C82_run_partial H dbc' args path text text' ha h1 h2 ?_
  rw [he]
  have refl : ∀ (ls r : List Str), SameButOther H.plat r r → SameButOther H.plat (r ++ ls) (r ++ ls) := by
    intro ls
    induction ls with
    | nil => intro r hr; rw [List.append_nil]; exact hr
    | cons x ls ih => intro r hr; rw [show r ++ x :: ls = (r ++ [x]) ++ ls by simp]; exact ih _ (.line x hr)
  exact .right (refl (getLines text) [] .nil) ⟨⟨"SIG_".toList, by decide +kernel, List.IsPrefix.trans (by decide +kernel) hl⟩, .inl hs⟩ h

/-! ### Examples -/

/-- No such line inside a statement. -/
def otherClosedB (P : Platform) (ls : List Str) : Bool :=
  (List.range ls.length).all fun i => !otherB P (ls.getD i []) || [Kw.comment, .attr, .value].all fun k => !openB k ((ls.take i).map (strTrim P.charMax))

theorem otherClosedB_of {P : Platform} {ls : List Str} (h : otherClosedB P ls = true) : ∀ a l b, ls = a ++ l :: b → OtherLine P l → ∀ k, ¬ StillOpen k (a.map (strTrim P.charMax)) := by
  rintro a l b rfl hl k ho
  have h := List.all_eq_true.1 h a.length (List.mem_range.2 (by simp))
  rw [List.take_left' rfl, Bool.or_eq_true] at h
  rcases h with h | h
  · rw [show (a ++ l :: b).getD a.length [] = l by simp [List.getD], (otherB_iff P l).2 hl] at h
    cases h
  · have := List.all_eq_true.1 h k (by cases k <;> decide)
    rw [openB_of ho] at this
    cases this

namespace Fix

def otherLines : List Str := ["VERSION \"1.2\"", "", "NS_ :", "\tCM_", "\tBA_", "", "BS_:", "", "BU_: A B", "VAL_TABLE_ Onoff 1 \"on\" 0 \"off\" ;", "BO_ 5 Y: 8 B",
  " SG_ T : 0|32@1+ (1,0) [0|0] \"\" B", "EV_ Env: 0 [0|100] \"km\" 0 1 DUMMY_NODE_VECTOR0 Vector__XXX;", " SG_ U : 32|8@1+ (1,0) [0|0] \"\" B", "",
  "CM_ SG_ 5 T \"the first", "line\";", "BA_DEF_ SG_  \"GenSigStartValue\" INT 0 100;", "BA_DEF_DEF_  \"GenSigStartValue\" 0;", "VAL_ 5 U 0 \"off\" 1 \"on\" ;", "SIG_VALTYPE_ 5 T : 1;"].map String.toList

/-- A file with all sorts of lines, and the same without those the tool does not use. -/
def otherText : Str := unlines otherLines
def strippedText : Str := unlines (otherLines.filter fun l => !otherB (openHost []).plat l)

/-- A line that begins like a line of nodes and reads like a signal. -/
def nodeSigText : Str := "BO_ 5 Y: 8 B\n SG_ T : 0|8@1+ (1,0) [0|0] \"\" B\n".toList
def nodeSigText' : Str := nodeSigText ++ "BU_ SG_ X : 8|8@1+ (1,0) [0|0] \"\" B\n".toList

/-- A signal declared to be a `float`. -/
def floatText : Str := "BO_ 5 Y: 8 B\n SG_ T : 0|32@1+ (1,0) [0|0] \"\" B\nSIG_VALTYPE_ 5 T : 1;\n".toList

/-- Whether the header of the run declares the member as an integer. -/
def intT (p : Str) : RunRes → Bool
  | .done a => match onDisk a p with
    | some h => (ppLines h).any fun l => "  uint32_t T;".toList.isPrefixOf l
    | none => false
  | _ => false

end Fix

example : runApp (Fix.openHost Fix.strippedText) Fix.dirArgs = runApp (Fix.openHost Fix.otherText) Fix.dirArgs :=
  C82_strip_partial (Fix.openHost Fix.otherText) (Fix.otherDbc Fix.strippedText) Fix.dirArgs "in/my.dbc".toList Fix.otherText Fix.strippedText ((asks_iff _ _).2 (by decide +kernel)) rfl rfl
    (otherB _) (otherB_iff _) (by decide +kernel) (otherClosedB_of (by decide +kernel))

/-- Eight lines are left out. -/
example : (getLines Fix.otherText).length = 21 ∧ (getLines Fix.strippedText).length = 13 := by decide +kernel

example : runApp (Fix.openHost Fix.floatText) Fix.dirArgs = runApp (Fix.openHost "BO_ 5 Y: 8 B\n SG_ T : 0|32@1+ (1,0) [0|0] \"\" B\n".toList) Fix.dirArgs :=
  C83_ignored (Fix.openHost _) (Fix.otherDbc Fix.floatText) Fix.dirArgs "in/my.dbc".toList _ Fix.floatText "SIG_VALTYPE_ 5 T : 1;".toList ((asks_iff _ _).2 (by decide +kernel)) rfl rfl
    (by decide +kernel) (List.isPrefixOf_iff_prefix.1 (by decide +kernel)) ((not_sgWord _).2 (by decide +kernel)) (fun k q => absurd (openB_of q) (by cases k <;> decide +kernel))

/-- A line that begins with the keyword of a line of nodes is taken for a signal of the message before it. -/
theorem C82_refuted : ∃ (H : RunHost) (dbc' : Str → Option (Option Str)) (args : List Str) (path text l : Str) (files files' : List (Str × Str)) (p : Str),
    SortsByStart H.plat ∧ (∀ l, SortedBy (H.sort l) l) ∧ (∀ p, H.canOpen p = true) ∧ H.dbc path = some (some text) ∧ "BU_".toList <+: l ∧ dbc' path = some (some (text ++ (l ++ ['\n']))) ∧
    (∀ k, ¬ StillOpen k ((getLines text).map (strTrim H.plat.charMax))) ∧ Asks args path ∧
    runApp H args = .done files ∧ runApp { H with dbc := dbc' } args = .done files' ∧ onDisk files' p ≠ onDisk files p := by
  have h : Fix.differ "gen/lib/drv.h".toList (runApp (Fix.openHost Fix.nodeSigText) Fix.dirArgs) (runApp (Fix.openHost Fix.nodeSigText') Fix.dirArgs) = true := by decide +kernel
  cases h1 : runApp (Fix.openHost Fix.nodeSigText) Fix.dirArgs with
  | done files =>
    cases h2 : runApp (Fix.openHost Fix.nodeSigText') Fix.dirArgs with
    | done files' =>
      rw [h1, h2] at h
      refine ⟨Fix.openHost Fix.nodeSigText, Fix.otherDbc Fix.nodeSigText', Fix.dirArgs, "in/my.dbc".toList, Fix.nodeSigText, "BU_ SG_ X : 8|8@1+ (1,0) [0|0] \"\" B".toList, files, files',
        "gen/lib/drv.h".toList, platIns_sorts, Fix.insSort_ok, fun _ => rfl, rfl, List.isPrefixOf_iff_prefix.1 (by decide +kernel), ?_, fun k q => absurd (openB_of q) (by cases k <;> decide +kernel),
        (asks_iff _ _).2 (by decide +kernel), h1, h2, Ne.symm (bne_iff_ne.1 ((Bool.and_eq_true _ _).mp h).2)⟩
      exact congrArg (fun t => some (some t)) (by decide +kernel)
    | _ => rw [h1, h2] at h; cases h
  | _ => rw [h1] at h; cases h

/-- A signal declared to be a `float` is an integer in the header. -/
theorem C83_refuted : ∃ (H : RunHost) (args : List Str) (path text : Str) (files : List (Str × Str)) (p h : Str),
    SortsByStart H.plat ∧ (∀ l, SortedBy (H.sort l) l) ∧ (∀ p, H.canOpen p = true) ∧ H.dbc path = some (some text) ∧
    "SIG_VALTYPE_ 5 T : 1;".toList ∈ getLines text ∧ Asks args path ∧ runApp H args = .done files ∧ onDisk files p = some h ∧ ∃ l ∈ ppLines h, "  uint32_t T;".toList <+: l := by
  have hd : Fix.intT "gen/lib/drv.h".toList (runApp (Fix.openHost Fix.floatText) Fix.dirArgs) = true := by decide +kernel
  cases h1 : runApp (Fix.openHost Fix.floatText) Fix.dirArgs with
  | done files =>
    rw [h1] at hd
    cases h3 : onDisk files "gen/lib/drv.h".toList with
    | none => simp only [Fix.intT, h3] at hd; cases hd
    | some h =>
      simp only [Fix.intT, h3] at hd
      obtain ⟨l, hl, hp⟩ := List.any_eq_true.mp hd
      exact ⟨Fix.openHost Fix.floatText, Fix.dirArgs, "in/my.dbc".toList, Fix.floatText, files, "gen/lib/drv.h".toList, h, platIns_sorts, Fix.insSort_ok, fun _ => rfl, rfl, by decide +kernel,
        (asks_iff _ _).2 (by decide +kernel), h1, h3, l, hl, List.isPrefixOf_iff_prefix.mp hp⟩
  | _ => rw [h1] at hd; cases hd

end Verif
