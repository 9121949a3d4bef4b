import Verif.Proofs.DriverText
/-
A source file together with a header of another version: the `#error` line is reached.
-/
namespace Verif
open Spec

variable {files : List (Str × Str)}

/-! ### A failure stays -/

theorem push_fail (st : PP) (c : Bool) : (st.push c).fail = st.fail := rfl

theorem define_fail {st : PP} (h : st.fail = true) (s : Str) : (st.define s).fail = true := by
  unfold PP.define
  split
  · rfl
  · split
    · exact h
    · split
      · exact h
      · rfl

theorem ppLine_fail (f : Nat) {st : PP} (h : st.fail = true) (l : Str) : (ppLine f st l).fail = true := by
  unfold ppLine
  split
  · dsimp only
    split
    · exact h
    split
    · exact h
    split
    · split
      · split
        · exact h
        · rfl
      · exact h
    split
    · split
      · split
        · rfl
        · exact h
      · rfl
    split
    · split
      · exact h
      · rfl
    split
    · exact h
    split
    · exact define_fail h _
    split
    · exact h
    split
    · exact h
    · rfl
  · split
    · split
      · exact h
      · rfl
    · exact h

theorem ppText_fail (f d : Nat) : ∀ {st : PP}, st.fail = true → ∀ t, (ppText f files d st t).fail = true := by
  induction d with
  | zero => intro st _ t; rfl
  | succ d ih =>
    intro st h t
    have hs : ∀ (ls : List Str) (st : PP), st.fail = true → (ls.foldl (ppStep f files d) st).fail = true := by
      intro ls
      induction ls with
      | nil => exact fun _ h => h
      | cons l r ihl =>
        intro st h
        rw [List.foldl_cons]
        refine ihl _ ?_
        unfold ppStep
        split
        · split
          · split
            · exact ih h _
            · exact h
          · exact h
        · exact ppLine_fail f h l
    rw [ppText_succ]
    split
    · exact hs _ _ h
    · rfl

theorem steps_fail (f d : Nat) (ls : List Str) : ∀ {st : PP}, st.fail = true → (ls.foldl (ppStep f files d) st).fail = true := by
  induction ls with
  | nil => exact fun h => h
  | cons l r ihl =>
    intro st h
    rw [List.foldl_cons]
    refine ihl ?_
    unfold ppStep
    split
    · split
      · split
        · exact ppText_fail f d h _
        · exact h
      · exact h
    · exact ppLine_fail f h l

/-- An `#error` line in a processed group. -/
theorem ppStep_error {l rest : Str} (h : IsDir l "error".toList rest) (f d : Nat) (st : PP) (hl : st.live = true) : (ppStep f files d st l).fail = true := by
  rw [ppStep_dir h (by decide)]
  obtain ⟨r, h1, h2⟩ := h
  unfold ppLine
  rw [h1]
  simp only [h2]
  rw [if_neg (by decide), if_neg (by decide), if_neg (by decide), if_neg (by decide), if_neg (by decide), hl, if_neg (by decide), if_neg (by decide),
    if_neg (by decide), if_neg (by decide)]

/-- The call is no `Flush`. -/
def noFlush : WOp → Bool
  | .flush _ _ => false
  | _ => true

/-- No call is a `Flush`. -/
def NoFlush (l : List WOp) : Prop := ∀ x ∈ l, noFlush x = true

theorem NoFlush.nil : NoFlush [] := fun _ h => by cases h
theorem NoFlush.append {a b : List WOp} (h1 : NoFlush a) (h2 : NoFlush b) : NoFlush (a ++ b) := fun x hx => (List.mem_append.1 hx).elim (h1 x) (h2 x)
theorem NoFlush.cons {x : WOp} {b : List WOp} (h1 : noFlush x = true) (h2 : NoFlush b) : NoFlush (x :: b) := by
  intro y hy
  rcases List.mem_cons.1 hy with rfl | hy
  · exact h1
  · exact h2 y hy

theorem NoFlush.emits {l : List WOp} (h : NoFlush l) : ∃ t, Emits l t := by
  induction l with
  | nil => exact ⟨[], Emits.nil⟩
  | cons x r ih =>
    obtain ⟨t, ht⟩ := ih fun y hy => h y (by simp [hy])
    have hx := h x (by simp)
    have : ∃ s, Emits [x] s := by
      cases x with
      | appendF t => exact ⟨_, emits_appendF t⟩
      | appendTextF t => exact ⟨_, emits_appendTextF t⟩
      | append t => exact ⟨_, emits_append t⟩
      | appendText t => exact ⟨_, emits_appendText t⟩
      | lines n => exact ⟨_, emits_lines n⟩
      | flush p b => cases hx
    obtain ⟨s, hs⟩ := this
    exact ⟨s ++ t, hs.append ht⟩

theorem opsText_append {a b : List WOp} {t : Str} (h : Emits a t) (hb : NoFlush b) : opsText (a ++ b) = t ++ opsText b := by
  obtain ⟨u, hu⟩ := hb.emits
  rw [(h.append hu).text, hu.text]

/-- A source file that reaches its `#error` line does not compile, whatever follows. -/
theorem error_compile {a rest : List WOp} {x y : WOp} {l e er : Str} {D D' : Defs} {us : List Tok} (ha : Gen files a D D' us) (hx : OL [x] [l])
    (hi : ∀ out, IfLine files l ⟨D', out, false⟩ true) (hy : OL [y] [e]) (he : IsDir e "error".toList er) (hr : NoFlush rest) :
    ∃ F, ∀ f, F ≤ f → compile f files D (opsText (a ++ ([x] ++ [y]) ++ rest)) = none := by
  obtain ⟨ls, o, r⟩ := ha
  obtain ⟨-, F1, h1⟩ := r []
  obtain ⟨-, F2, h2⟩ := hi us
  obtain ⟨t, et, pt⟩ := o.append (hx.append hy)
  refine ⟨F1 + F2 + 1, fun f hf => ?_⟩
  unfold compile
  dsimp only
  rw [if_pos]
  left
  obtain ⟨k, rfl⟩ : ∃ k, f = k + 1 := ⟨f - 1, by omega⟩
  have hq : ((ppLines (opsText (a ++ ([x] ++ [y]) ++ rest))).foldl (ppStep (k + 1) files k) { defs := D }).fail = true := by
    rw [opsText_append et hr, pt, List.foldl_append]
    refine steps_fail _ _ _ ?_
    rw [List.foldl_append]
    have e1 : ls.foldl (ppStep (k + 1) files k) { defs := D } = mkPP [] ⟨D', us, false⟩ := by
      have := h1 (k + 1) (by omega) k (by omega) [] rfl
      rw [List.nil_append] at this
      exact this
    rw [e1, List.foldl_append, List.foldl_cons, List.foldl_nil, List.foldl_cons, List.foldl_nil, h2 (k + 1) (by omega) k (by omega) [] rfl]
    exact ppStep_error he _ _ _ rfl
  rw [ppText_succ]
  split
  · exact hq
  · rfl

/-! ### The calls that print a source file -/

theorem NoFlush.of {l : List WOp} (h : l.all noFlush = true) : NoFlush l := fun x hx => List.all_eq_true.1 h x hx

theorem NoFlush.flatten {l : List (List WOp)} (h : ∀ a ∈ l, NoFlush a) : NoFlush l.flatten := by
  intro x hx
  obtain ⟨a, ha, hx⟩ := List.mem_flatten.1 hx
  exact h a ha x hx

theorem unpackSigs_noFlush (g : GenDesc) : ∀ (ss : List Sig) (es : List Str), NoFlush (unpackSigsOps g ss es)
  | [], _ => NoFlush.nil
  | _ :: _, [] => NoFlush.nil
  | s :: ss, e :: es => by
    rw [unpackSigsOps]
    refine NoFlush.append ?_ (unpackSigs_noFlush g ss es)
    unfold unpackSigOps
    refine NoFlush.append (.of rfl) ?_
    split
    · split
      · exact .of rfl
      · exact .of rfl
    · exact .of rfl

theorem unpackBody_noFlush {g : GenDesc} {m : Msg} {es : List Str} {l : List WOp} (h : unpackBodyOps g m es = some l) : NoFlush l := by
  obtain ⟨roll, hr, rfl⟩ := Option.map_eq_some_iff.1 h
  have h1 : NoFlush roll := by
    unfold unpackRollOps at hr
    split at hr
    · cases hr
      exact .nil
    · obtain ⟨msk, -, rfl⟩ := Option.map_eq_some_iff.1 hr
      exact .of rfl
  have h2 : NoFlush (unpackCsmOps g m) := by
    unfold unpackCsmOps
    split
    · exact .nil
    · exact .of rfl
  exact ((((unpackSigs_noFlush g _ _).append (.of rfl)).append h1).append h2).append (.of rfl)

theorem packCommon_noFlush {g : GenDesc} {m : Msg} {arr : Str} {bs : List Str} {l : List WOp} (h : packCommonOps g arr m bs = some l) : NoFlush l := by
  obtain ⟨roll, hr, h⟩ := Option.bind_eq_some_iff.1 h
  obtain ⟨csm, hc, rfl⟩ := Option.map_eq_some_iff.1 h
  have h1 : NoFlush roll := by
    unfold packRollOps at hr
    split at hr
    · cases hr
      exact .nil
    · obtain ⟨msk, -, rfl⟩ := Option.map_eq_some_iff.1 hr
      exact .of rfl
  have h2 : NoFlush csm := by
    unfold packCsmOps at hc
    split at hc
    · cases hc
      exact .nil
    · obtain ⟨t, -, rfl⟩ := Option.map_eq_some_iff.1 hc
      exact .of rfl
  have h3 : NoFlush (packClearOps g m) := by
    unfold packClearOps
    split
    · exact .nil
    · exact .of rfl
  have h4 : NoFlush (packPhysOps g m) := by
    unfold packPhysOps
    split
    · refine NoFlush.append (NoFlush.append (.of rfl) ?_) (.of rfl)
      intro x hx
      obtain ⟨s, -, rfl⟩ := List.mem_map.1 hx
      rfl
    · exact .nil
  have h5 : NoFlush (packByteOps arr bs) := by
    intro x hx
    obtain ⟨s, -, rfl⟩ := List.mem_map.1 hx
    rfl
  exact ((((((NoFlush.of rfl).append h1).append h3).append h4).append h5).append (.of rfl)).append h2

theorem sourceMsg_noFlush {g : GenDesc} {m : Msg} {l : List WOp} (h : sourceMsgOps g m = some l) : NoFlush l := by
  unfold sourceMsgOps at h
  split at h
  · obtain ⟨t, -, h⟩ := Option.bind_eq_some_iff.1 h
    obtain ⟨u, h1, h⟩ := Option.bind_eq_some_iff.1 h
    obtain ⟨p, h2, h⟩ := Option.bind_eq_some_iff.1 h
    obtain ⟨q, h3, rfl⟩ := Option.map_eq_some_iff.1 h
    obtain ⟨p', h4, rfl⟩ := Option.map_eq_some_iff.1 h2
    obtain ⟨q', h5, rfl⟩ := Option.map_eq_some_iff.1 h3
    have h1 := unpackBody_noFlush h1
    have h2 := packCommon_noFlush h4
    have h3 := packCommon_noFlush h5
    have e1 : NoFlush (packStructEnd m) := .of rfl
    have e2 : NoFlush (packArrayEnd m) := .of rfl
    unfold functionsText
    exact (((((((NoFlush.of rfl).append h1).append (.of rfl)).append (.of rfl)).append (((NoFlush.of rfl).append h2).append e1)).append (.of rfl)).append
      (((NoFlush.of rfl).append h3).append e2)).append (.of rfl)
  · cases h
    exact .nil

theorem sourceMsgs_noFlush {g : GenDesc} {msgs : List Msg} {ms : List (List WOp)} (h : allSome (msgs.map (sourceMsgOps g)) = some ms) : NoFlush ms.flatten := by
  refine NoFlush.flatten fun a ha => ?_
  have ha : some a ∈ ms.map some := List.mem_map.2 ⟨a, ha, rfl⟩
  rw [← allSome_mem h] at ha
  obtain ⟨m, -, hm⟩ := List.mem_map.1 ha
  exact sourceMsg_noFlush hm

/-- The beginning of the source file behind the version check. -/
def sourceRest (g : GenDesc) : List WOp := (sourceStartOps g).drop 7

variable {drv : Str} {file : Source} {hi lo maxDlc : Nat} {msgs : List Msg} {D0 : Defs} {tick hash : Hook} {maxW initW : Str}

/-- The macros of the main header. -/
def headerTable (g : GenDesc) (maxDlc : Nat) (msgs : List Msg) (D0 : Defs) : Defs := addAll D0 (headerDefs g maxDlc msgs)

theorem version_lookup {g : GenDesc} (hf : Fresh D0 (headerDefs g maxDlc msgs)) :
    (headerTable g maxDlc msgs D0).lookup g.verhigh = some (.obj (par [.word (decStr g.hiver ++ "U".toList)])) ∧
    (headerTable g maxDlc msgs D0).lookup g.verlow = some (.obj (par [.word (decStr g.lowver ++ "U".toList)])) :=
  ⟨strict_lookup hf (e := ⟨false, g.verhigh, .obj (par [.word (decStr g.hiver ++ "U".toList)])⟩) (by unfold headerDefs startDefs; simp) rfl,
   strict_lookup hf (e := ⟨false, g.verlow, .obj (par [.word (decStr g.lowver ++ "U".toList)])⟩) (by unfold headerDefs startDefs; simp) rfl⟩

/-- `#include` of the main header. -/
theorem include_main {files : List (Str × Str)} {g : GenDesc} {E : Defs} (hd : HeadOk g files D0 E) (hx : maxDlc < 2 ^ 64) (hm : ∀ m ∈ msgs, HdrMsg g E m) {hops : List WOp}
    (ho : mainHeaderOps g maxDlc msgs = some hops) (hF : files.lookup (g.drvLow ++ ".h".toList) = some (opsText hops))
    (hE : Sub (headerTable g maxDlc msgs D0) E) (hf : Fresh D0 (headerDefs g maxDlc msgs)) :
    GItems files [.appendF ("#include \"".toList ++ g.drvLow ++ ".h\"".toList)] D0 (headerTable g maxDlc msgs D0)
      (headerItems g (fun f => (E.lookup (flagName g f)).isSome) msgs) := by
  have h1 : GItems files _ D0 (headerTable g maxDlc msgs D0) _ := header_read hd hx hm ho D0 (Sub.refl _) hE hf
  have hp := plain_low hd (s := ".h") (by decide) (by decide)
  have hi := h1.include hp.1 hp.2 hF
  have eh : "#include \"".toList ++ g.drvLow ++ ".h\"".toList = "#include \"".toList ++ (g.drvLow ++ ".h".toList) ++ "\"".toList := by
    simp only [List.append_assoc]
    rfl
  rw [eh]
  exact hi

theorem headerTable_sub (g : GenDesc) : Sub (headerTable g maxDlc msgs D0) (macroTable g maxDlc msgs D0) := by
  unfold macroTable headerTable
  rw [addAll_append]
  exact Sub.addAll _ _

theorem ol_error {s : Str} (hd : IsIdent s ∧ s.length ≤ 500) {t : String} (ht : t.toList.all plainCh = true) (hl : t.toList.length ≤ 1000) :
    OL [.appendF ("#error The ".toList ++ s ++ t.toList)] ["#error The ".toList ++ s ++ t.toList] := by
  refine ol_plain (((plain_lit (by decide)).append (plainT_word (isWord_ident hd.1))).append (plain_lit ht)) ?_
  have := hd.2
  have e : "#error The ".toList.length = 11 := by decide
  rw [List.length_append, List.length_append, e]
  omega

/-- The main source file of another version. -/
theorem source_mismatch (h : DriverRd drv file hi lo maxDlc msgs D0 tick hash maxW initW) {hops : List WOp}
    (ho : mainHeaderOps (driverDesc drv file hi lo) maxDlc msgs = some hops) {file' : Source} (hf' : SourceOk file') {hi' lo' : Nat}
    (hv : hi' < 2 ^ 32 ∧ lo' < 2 ^ 32) (hne : ¬ (hi = hi' ∧ lo = lo')) {msgs' : List Msg} {sops : List WOp}
    (hs : mainSourceOps (driverDesc drv file' hi' lo') msgs' = some sops) :
    ∃ F, ∀ f, F ≤ f → compile f (genFiles (driverDesc drv file hi lo) hops msgs) D0 (opsText sops) = none := by
  have hU := h.unit hops false 0 0
  have hfr := ((fresh_append _ _ _).1 h.fresh).1
  have hl := version_lookup hfr
  have hinc := include_main hU.head hU.max hU.hdr ho (files_ok _ _ _).header (headerTable_sub _) hfr
  have hl2 := versionCheck_line (files := genFiles (driverDesc drv file hi lo) hops msgs) (g := driverDesc drv file hi lo) (hi' := hi') (lo' := lo')
    ((headerTable_sub _).base hU.head.base) ⟨words_of_ident hU.head.verhigh.1, hU.head.verhigh.2⟩ ⟨words_of_ident hU.head.verlow.1, hU.head.verlow.2⟩ hl.1 hl.2
    h.ver.1 h.ver.2 hv.1 hv.2
  have hne : ¬ ((driverDesc drv file hi lo).hiver = hi' ∧ (driverDesc drv file hi lo).lowver = lo') := hne
  rw [decide_eq_true hne] at hl2
  obtain ⟨us, hg, -⟩ := hinc
  have hpre := (Gen.commentText (files := genFiles (driverDesc drv file hi lo) hops msgs) (D := D0) (common_comment hf')).cons
    ((Gen.commentText (driver_comment hf'.1.1 hf'.1.2)).cons (hg.cons ((Gen.lines 2).cons (gen_cmt "// DBC file version" (by decide) _))))
  unfold mainSourceOps at hs
  cases hm : allSome (msgs'.map (sourceMsgOps (driverDesc drv file' hi' lo'))) with
  | none => rw [hm] at hs; cases hs
  | some ms =>
    rw [hm] at hs
    cases hs
    have := error_compile (rest := sourceRest (driverDesc drv file' hi' lo') ++ ms.flatten) hpre hl2.1 hl2.2
      (ol_error hU.head.drvUp (t := " dbc source files have different versions") (by decide) (by decide))
      (isDir_error ("The ".toList ++ strUpper drv ++ " dbc source files have different versions".toList)) (NoFlush.append (.of rfl) (sourceMsgs_noFlush hm))
    rw [← List.append_assoc] at this
    exact this

end Verif
