import Verif.Proofs.FmonSrc
import Verif.Spec.CLink
/-
The source file of the monitor functions in the complete generated directory.
-/
namespace Verif
open Spec

variable {dir files : List (Str × Str)} {cur : Str} {D D0 U E : Defs} {g : GenDesc} {on : List Str} {fl : ConfEdit} {hops : List WOp} {msgs : List Msg}

/-! ### Tables -/

theorem addOne_none {e : DefE} {n : Str} (h : (addOne D e).lookup n = none) : D.lookup n = none := by
  rw [addOne_lookup] at h
  exact (Option.or_eq_none_iff.1 h).1

theorem Fresh.none {ds : List DefE} (hf : Fresh D ds) (hg : ∀ e ∈ ds, e.guard = false) : ∀ e ∈ ds, D.lookup e.name = none := by
  induction ds generalizing D with
  | nil => intro e h; cases h
  | cons x r ih =>
    intro e he
    rcases List.mem_cons.1 he with rfl | he
    · exact hf.1 (hg e (by simp))
    · exact addOne_none (ih hf.2 (fun y hy => hg y (by simp [hy])) e he)

theorem Fresh.nodup {ds : List DefE} (hf : Fresh D ds) (hg : ∀ e ∈ ds, e.guard = false) : (ds.map (·.name)).Nodup := by
  induction ds generalizing D with
  | nil => exact List.nodup_nil
  | cons x r ih =>
    rw [List.map_cons, List.nodup_cons]
    refine ⟨fun h => ?_, ih hf.2 fun y hy => hg y (by simp [hy])⟩
    obtain ⟨e, he, h⟩ := List.mem_map.1 h
    have := Fresh.none hf.2 (fun y hy => hg y (by simp [hy])) e he
    rw [h, addOne_lookup] at this
    have := (Option.or_eq_none_iff.1 this).2
    simp at this

theorem addAll_none {ds : List DefE} {n : Str} (h : (addAll D ds).lookup n = none) : D.lookup n = none ∧ (defsOf ds).lookup n = none := by
  rw [addAll_lookup] at h
  exact Option.or_eq_none_iff.1 h

/-- Macros added behind others may be added before them. -/
theorem fresh_mid {a b : List DefE} (hf : Fresh (addAll D a) b) (hg : ∀ e ∈ b, e.guard = false) :
    Fresh D b ∧ DEq (addAll (addAll D b) a) (addAll (addAll D a) b) := by
  have h0 := hf.none hg
  refine ⟨hf.congr fun e he => (h0 e he).trans (addAll_none (h0 e he)).1.symm, addAll_comm D fun e he => (addAll_none (h0 e he)).2⟩

theorem fresh_swap {a b : List DefE} (hf : Fresh (addAll D a) b) (hg : ∀ e ∈ b, e.guard = false) (ha : Fresh D a) : Fresh (addAll D b) a := by
  have h0 := hf.none hg
  refine ha.congr fun e he => ?_
  rw [addAll_lookup]
  cases hv : (defsOf b).lookup e.name with
  | none => simp
  | some d =>
    have := mem_of_lookup hv
    unfold defsOf at this
    obtain ⟨v, hv, e2⟩ := List.mem_map.1 this
    have hname : v.name = e.name := congrArg Prod.fst e2
    have := (addAll_none (h0 v hv)).2
    rw [hname] at this
    have hm := List.lookup_eq_none_iff.1 this (e.name, e.d) (by unfold defsOf; exact List.mem_map.2 ⟨e, he, rfl⟩)
    simp at hm

theorem HeadOk.sub (h : HeadOk g files D0 E) (s : Sub D E) : HeadOk g files D0 D :=
  { base := s.base h.base, common := h.common, driver := h.driver, drvUp := h.drvUp, drvLow := h.drvLow, drvOrig := h.drvOrig, verhigh := h.verhigh, verlow := h.verlow, ver := h.ver
    flag := fun f => (h.flag f).imp id s.none, flagW := h.flagW, mono := h.mono.imp id s.none, cpp := s.none h.cpp, stdint := h.stdint, config := h.config
    monutil := fun q => h.monutil (s.isSome q) }

/-- The version macros of the monitor functions are none of the names the files use. -/
structure VerFar (g : GenDesc) : Prop where
  words : ∀ e ∈ fmonVerDefs g, ∀ w ∈ "__cplusplus".toList :: (codeWords ++ confWords), w ≠ e.name
  num : ∀ e ∈ fmonVerDefs g, inNumber e.name = false
  flag : ∀ e ∈ fmonVerDefs g, ∀ f, flagName g f ≠ e.name
  mono : ∀ e ∈ fmonVerDefs g, monoName g ≠ e.name

theorem far_lookup {n : Str} (h : ∀ e ∈ fmonVerDefs g, n ≠ e.name) : (addAll E (fmonVerDefs g)).lookup n = E.lookup n := by
  rw [addAll_lookup]
  have : (defsOf (fmonVerDefs g)).lookup n = none := by
    rw [List.lookup_eq_none_iff]
    intro p hp
    obtain ⟨e, he, rfl⟩ := List.mem_map.1 hp
    simpa using h e he
  rw [this, Option.or_none]

theorem HeadOk.far (h : HeadOk g files D0 E) (hv : VerFar g) : HeadOk g files D0 (addAll E (fmonVerDefs g)) :=
  { base := ⟨fun w hw => (far_lookup fun e he q => absurd (hw.symm.trans (q ▸ hv.num e he)) (by decide)).trans (h.base.num w hw),
      fun w hw => (far_lookup fun e he => hv.words e he w (List.mem_cons_of_mem _ (List.mem_append_left _ hw))).trans (h.base.code w hw)⟩
    common := h.common, driver := h.driver, drvUp := h.drvUp, drvLow := h.drvLow, drvOrig := h.drvOrig, verhigh := h.verhigh, verlow := h.verlow, ver := h.ver
    flag := fun f => (h.flag f).imp id fun q => (far_lookup fun e he => hv.flag e he f).trans q
    flagW := h.flagW
    mono := h.mono.imp id fun q => (far_lookup fun e he => hv.mono e he).trans q
    cpp := (far_lookup fun e he => hv.words e he _ List.mem_cons_self).trans h.cpp
    stdint := h.stdint, config := h.config
    monutil := fun q => h.monutil (by
      have e : (addAll E (fmonVerDefs g)).lookup g.usemon = E.lookup g.usemon := far_lookup fun e he => hv.flag e he .useMon
      rw [e] at q
      exact q) }

/-- The macros behind the header of the monitor functions. -/
def fmonTable (g : GenDesc) (U : Defs) (mon mono : Bool) (msgs : List Msg) : Defs := addAll (addAll U (fmonVerDefs g)) (if mon then msgs.map (fmonDef g mono) else [])

/-- What is needed to read the header and the source file of the monitor functions. -/
structure FmonRd (g : GenDesc) (files : List (Str × Str)) (U : Defs) (mon mono : Bool) (msgs : List Msg) : Prop where
  head : HeadOk g files U (fmonTable g U mon mono msgs)
  words : ∀ w ∈ confWords, (fmonTable g U mon mono msgs).lookup w = none
  ver : Fresh U (fmonVerDefs g)
  fresh : Fresh (addAll U (fmonVerDefs g)) (if mon then msgs.map (fmonDef g mono) else [])
  monE : mon = ((fmonTable g U mon mono msgs).lookup g.usemon).isSome
  monoE : mono = ((fmonTable g U mon mono msgs).lookup (monoName g)).isSome
  names : ∀ m ∈ msgs, IsIdent m.name ∧ m.name.length ≤ 500
  fmon : mon = true → (∀ m ∈ msgs, FmonOk g (fmonTable g U mon mono msgs) mono m) ∧ (fmonTable g U mon mono msgs).lookup (fmonFn g true []) = none

theorem fmonVer_guard : ∀ e ∈ fmonVerDefs g, e.guard = false := by
  intro e he
  unfold fmonVerDefs at he
  simp only [List.mem_cons, List.not_mem_nil, or_false] at he
  rcases he with rfl | rfl <;> rfl

theorem fmonMap_guard {mono : Bool} : ∀ e ∈ msgs.map (fmonDef g mono), e.guard = false := by
  intro e he
  obtain ⟨m, -, rfl⟩ := List.mem_map.1 he
  rfl

/-- From what is needed to read the main source file. -/
theorem fmonRd {maxDlc : Nat} {mono : Bool} {cfg : Cfg} {K : Look} (h : UnitRd g maxDlc msgs files U E mono cfg K) (hw : ∀ w ∈ confWords, E.lookup w = none)
    (hn : ∀ m ∈ msgs, IsIdent m.name ∧ m.name.length ≤ 500) (hv : VerFar g) (hf : cfg.flag .useMon = false → Fresh U (fmonVerDefs g)) :
    FmonRd g files U (cfg.flag .useMon) mono msgs := by
  have hmon : cfg.flag .useMon = (E.lookup g.usemon).isSome := h.flag .useMon
  have hfr := h.fresh
  have hE := h.table
  rw [fresh_append] at hfr
  rw [addAll_append] at hE
  unfold tailDefs at hfr hE
  rw [fresh_append] at hfr
  rw [addAll_append] at hE
  have sU : Sub U E := by
    rw [h.table]
    exact Sub.addAll _ _
  cases hm : cfg.flag .useMon with
  | true =>
    rw [hm, if_pos rfl, fmonDefs_eq] at hfr hE
    have hg : ∀ e ∈ fmonVerDefs g ++ msgs.map (fmonDef g mono), e.guard = false := by
      intro e he
      rcases List.mem_append.1 he with he | he
      · exact fmonVer_guard e he
      · exact fmonMap_guard e he
    obtain ⟨f1, f2⟩ := fresh_mid hfr.2.1 hg
    have sE : Sub (fmonTable g U true mono msgs) E := by
      unfold fmonTable
      rw [if_pos rfl, ← addAll_append, hE]
      exact ((Sub.addAll _ _).trans f2.sub).trans (Sub.addAll _ _)
    have sT : Sub U (fmonTable g U true mono msgs) := (Sub.addAll _ _).trans (Sub.addAll _ _)
    rw [fresh_append] at f1
    have em : ∀ {n : Str}, (U.lookup n).isSome = true ∨ E.lookup n = none → ((fmonTable g U true mono msgs).lookup n).isSome = (E.lookup n).isSome := by
      rintro n (q | q)
      · rw [sT.isSome q, sU.isSome q]
      · rw [q, sE.none q]
    refine ⟨h.head.sub sE, fun w hww => sE.none (hw w hww), f1.1, by rw [if_pos rfl]; exact f1.2, ?_, ?_, hn, fun _ => ?_⟩
    · exact (hm.symm.trans hmon).trans (em (n := g.usemon) (h.head.flag .useMon)).symm
    · exact h.monoE.trans (em (n := monoName g) h.head.mono).symm
    · obtain ⟨a, b⟩ := h.fmon hm
      exact ⟨fun m hmm => ⟨(a m hmm).name, sE.none (a m hmm).fn⟩, sE.none b⟩
  | false =>
    have eT : fmonTable g U false mono msgs = addAll U (fmonVerDefs g) := by
      unfold fmonTable
      rw [if_neg Bool.false_ne_true]
      rfl
    have hU := (h.head.sub sU).far hv
    have em : ∀ {n : Str}, (U.lookup n).isSome = true ∨ E.lookup n = none → (U.lookup n).isSome = (E.lookup n).isSome := by
      rintro n (q | q)
      · rw [q, sU.isSome q]
      · rw [q, sU.none q]
    refine ⟨by rw [eT]; exact hU, fun w hww => ?_, hf hm, by rw [if_neg Bool.false_ne_true]; trivial, ?_, ?_, hn, fun q => absurd q Bool.false_ne_true⟩
    · rw [eT, far_lookup fun e he => hv.words e he w (List.mem_cons_of_mem _ (List.mem_append_right _ hww))]
      exact sU.none (hw w hww)
    · rw [eT, far_lookup (n := g.usemon) fun e he => hv.flag e he .useMon]
      exact (hm.symm.trans hmon).trans (em (h.head.flag .useMon)).symm
    · rw [eT, far_lookup fun e he => hv.mono e he]
      exact h.monoE.trans (em h.head.mono).symm

/-! ### The files -/

def fsrcFile (g : GenDesc) : Str := g.drvLow ++ "-fmon.c".toList

theorem ne_fsrc {t : Str} (h : t.getLast? = some 'h') : t ≠ fsrcFile g := by
  intro e
  rw [e] at h
  have e2 : fsrcFile g = (g.drvLow ++ "-fmon.".toList) ++ ['c'] := by simp [fsrcFile]
  rw [e2, List.getLast?_concat] at h
  exact absurd (Option.some.inj h) (by decide)

theorem cfg_fsrc : cfgFile g ≠ fsrcFile g := ne_fsrc (last_h _ "-config.h" ⟨"-config.".toList, rfl⟩)
theorem fmon_fsrc : fmonFile g ≠ fsrcFile g := ne_fsrc (last_h _ "-fmon.h" ⟨"-fmon.".toList, rfl⟩)
theorem cc_fsrc : ccFile ≠ fsrcFile g := ne_fsrc (by decide)
theorem mu_fsrc : muFile ≠ fsrcFile g := ne_fsrc (by decide)

variable {mon mono : Bool}

/-- The header of the monitor functions, read first. -/
theorem fmonHead_run (hd : DirOk dir g on fl hops msgs) (hsw : SwitchOk g) (h : FmonRd g files (addAll D0 (confDefs g on)) mon mono msgs) (hc : Fresh D0 (confDefs g on)) :
    TItems dir (fmonFile g) (Once [] [fmonFile g, cfgFile g, ccFile, muFile]) (Once (readFiles g mon) []) (fmonHeaderOps g msgs) D0
      (fmonTable g (addAll D0 (confDefs g on)) mon mono msgs) (confItems fl mon ++ if mon then fmonItems g mono msgs else []) := by
  have hHd := h.head
  have hB : ConfBase (fmonTable g (addAll D0 (confDefs g on)) mon mono msgs) := ⟨hHd.base, h.words⟩
  have t1 : Fresh D0 (fmonVerDefs g) ∧ DEq (addAll (addAll D0 (fmonVerDefs g)) (confDefs g on)) (addAll (addAll D0 (confDefs g on)) (fmonVerDefs g)) := fresh_mid h.ver fmonVer_guard
  have t2 : Fresh (addAll D0 (fmonVerDefs g)) (confDefs g on) := fresh_swap h.ver fmonVer_guard hc
  have hw : IsWord g.usemon ∧ g.usemon.length ≤ 1100 := hHd.flagW .useMon
  have hmE := h.monE
  have hoE := h.monoE
  have hfm := h.fmon
  have hfr := h.fresh
  have s0 : Sub (addAll D0 (confDefs g on)) (addAll (addAll D0 (confDefs g on)) (fmonVerDefs g)) := Sub.addAll _ _
  have s1 : Sub (addAll (addAll D0 (confDefs g on)) (fmonVerDefs g)) (fmonTable g (addAll D0 (confDefs g on)) mon mono msgs) := Sub.addAll _ _
  have eT : fmonTable g (addAll D0 (confDefs g on)) mon mono msgs = addAll (addAll (addAll D0 (confDefs g on)) (fmonVerDefs g)) (if mon then msgs.map (fmonDef g mono) else []) := rfl
  have hu := (hHd.flagEq s0 s1 .useMon).trans hmE.symm
  have hu0 := (hHd.flagEq (Sub.refl _) (s0.trans s1) .useMon).trans hmE.symm
  revert hHd hB t1 hmE hoE hfm hfr s0 s1 eT hu hu0
  generalize fmonTable g (addAll D0 (confDefs g on)) mon mono msgs = T
  generalize addAll D0 (confDefs g on) = U
  generalize addAll U (fmonVerDefs g) = D2
  intro hHd hB t1 hmE hoE hfm hfr s0 s1 eT hu hu0
  have hu : (D2.lookup g.usemon).isSome = mon := hu
  have c1 : cfgFile g ∉ [muFile] := fun q => cfg_mu (List.mem_singleton.1 q)
  have c2 : ccFile ∉ [muFile] := by decide
  have c3 : fmonFile g ∉ [cfgFile g, ccFile, muFile] := by
    simp only [List.mem_cons, List.not_mem_nil, or_false, not_or]
    exact ⟨fmon_cfg, fmon_cc, fmon_mu⟩
  have c4 : fmonFile g ∉ [muFile] := fun q => fmon_mu (List.mem_singleton.1 q)
  have sv : Sub (addAll D0 (fmonVerDefs g)) T := ((Sub.addAll _ _).trans t1.2.sub).trans s1
  have a1 : TItems dir (fmonFile g) (Once [] [fmonFile g, cfgFile g, ccFile, muFile]) (Once [] [cfgFile g, ccFile, muFile]) (fmonHeadA g) D0 (addAll D0 (fmonVerDefs g)) [] :=
    TItems.hp (D0 := []) (E := T) [] (fun _ _ => fmonHeadA_read hHd) (fun _ _ q => nomatch q) sv t1.1 (fun _ _ _ h => nomatch h)
      (Once.grows fun n hn => ⟨List.mem_cons_of_mem _ hn, fun e => c3 (e ▸ hn)⟩)
  have hp := plain_low hHd (s := "-config.h") (by decide) (by decide)
  have a2 : TItems dir (fmonFile g) (Once [] [cfgFile g, ccFile, muFile]) (Once [cfgFile g] [muFile]) [configIncOp g] (addAll D0 (fmonVerDefs g)) D2 (codeConfItems fl) := by
    rw [configIncOp_eq]
    refine ((config_run hd hHd.common hHd.driver hsw (ConfBase.sub sv hB) t2 c1 c2).weaken (fun _ q => q) (fun _ q => q) (DEq.refl _) t1.2).include hp.1 hp.2 hd.config
      fun x hx => hx.2 _ List.mem_cons_self
  have a3 : TItems dir (fmonFile g) (Once [cfgFile g] [muFile]) (Once [cfgFile g] [muFile]) [opEmpty] D2 D2 [] := TItems.gen (fun _ => Gen.empty) (grows_same c4)
  have a4 : TItems dir (fmonFile g) (Once [cfgFile g] [muFile]) (Once (readFiles g mon) []) ([opIfdef g.usemon] ++ ([opEmpty] ++ ([opLine "#include \"canmonitorutil.h\""] ++ fmonRest g msgs)) ++ [opEndif g.usemon])
      D2 T ((if mon then monUtilItems else []) ++ if mon then fmonItems g mono msgs else []) := by
    cases mon with
    | true =>
      rw [if_pos rfl] at eT hfr
      rw [if_pos rfl, if_pos rfl]
      refine TItems.ifdefT hw.1 (by have := hw.2; omega) hu ?_
      have b2 : TItems dir (fmonFile g) (Once [cfgFile g] [muFile]) (Once (readFiles g true) []) [opLine "#include \"canmonitorutil.h\""] D2 D2 monUtilItems :=
        have ⟨_, hc', hl⟩ := hd.monutil.info hHd.common
        (monUtil_run hd.stdint hc' (ConfBase.sub s1 hB) (s1.none hHd.cpp) (L := [cfgFile g]) (R := []) (by decide)).include (by decide) (by decide) hl fun x hx => hx.2 _ (by simp)
      have b3 : TItems dir (fmonFile g) (Once (readFiles g true) []) (Once (readFiles g true) []) (fmonRest g msgs) D2 T (fmonItems g mono msgs) := by
        have hf2 := (hfm rfl)
        rw [hoE] at hf2 hfr eT ⊢
        have q := TItems.hp (I := Once (readFiles g true) []) (I' := Once (readFiles g true) []) (dir := dir) (cur := fmonFile g) (D := D2) (stdFile :: readFiles g true)
          (fun files hs => fmonRest_read (head_other hHd hmE hs) hf2.1 hf2.2) s0 (by rw [← eT]; exact Sub.refl _) hfr (read_ok hd.stdint)
          (Once.grows fun n hn => nomatch hn)
        rw [← eT] at q
        exact q
      exact (TItems.append (TItems.gen (fun _ => Gen.empty) (grows_same c4)) (b2.append b3)).eqI (by simp)
    | false =>
      rw [if_neg Bool.false_ne_true] at eT
      have eT : T = D2 := eT
      rw [eT]
      refine TItems.gen (fun files => ?_) (Once.grows fun n hn => nomatch hn)
      exact Gen.ifdefF (files := files) hw.1 (by have := hw.2; omega) hu (closeOp_comment hw.1 (by have := hw.2; omega))
        (GSkip.append (Gen.empty (D := [])).skip (GSkip.append (skip_include (n := muFile) (by decide) (by decide)) (fmonRest_skip hHd.drvUp hHd.drvLow h.names)))
  have a5 : TItems dir (fmonFile g) (Once (readFiles g mon) []) (Once (readFiles g mon) []) fmonHeadB T T [] :=
    TItems.hp (D0 := []) (E := T) [] (fun files _ => fmonHeadB_read hHd.cpp) (fun _ _ q => nomatch q) (Sub.refl _) trivial (fun _ _ _ h => nomatch h) (Once.grows fun n hn => nomatch hn)
  rw [fmonHeader_eq]
  refine (a1.append (a2.append (a3.append (a4.append a5)))).eqI ?_
  unfold confItems
  simp only [List.append_assoc, List.nil_append, List.append_nil]

/-- What the source file of the monitor functions declares. -/
def fmonUnit (g : GenDesc) (fl : ConfEdit) (mon mono : Bool) (msgs : List Msg) : List Spec.Item :=
  confItems fl mon ++ ((if mon then fmonItems g mono msgs else []) ++ if mon then fmonFuncs g mono msgs else [])

theorem fmonSource_run (hd : DirOk dir g on fl hops msgs) (hsw : SwitchOk g) (h : FmonRd g files (addAll D0 (confDefs g on)) mon mono msgs) (hc : Fresh D0 (confDefs g on)) :
    TItems dir (fsrcFile g) (Once [] [fmonFile g, cfgFile g, ccFile, muFile]) (Once (readFiles g mon) []) (fmonSourceOps g msgs) D0
      (fmonTable g (addAll D0 (confDefs g on)) mon mono msgs) (fmonUnit g fl mon mono msgs) := by
  have hHd := h.head
  have n1 : fsrcFile g ∉ [fmonFile g, cfgFile g, ccFile, muFile] := by
    simp only [List.mem_cons, List.not_mem_nil, or_false, not_or]
    exact ⟨fmon_fsrc.symm, cfg_fsrc.symm, cc_fsrc.symm, mu_fsrc.symm⟩
  have hp := plain_low hHd (s := "-fmon.h") (by decide) (by decide)
  have hw : IsWord g.usemon ∧ g.usemon.length ≤ 1100 := hHd.flagW .useMon
  have a1 : TItems dir (fsrcFile g) (Once [] [fmonFile g, cfgFile g, ccFile, muFile]) (Once [] [fmonFile g, cfgFile g, ccFile, muFile])
      [.appendText g.commonInfo, .appendText g.driverInfo] D0 D0 [] :=
    TItems.gen (fun files => Gen.cons (Gen.commentText hHd.common) (Gen.commentText hHd.driver)) (grows_same n1)
  have a2 := (fmonHead_run hd hsw h hc).include (cur := fsrcFile g) hp.1 hp.2 hd.fmon fun x hx => hx.2 _ List.mem_cons_self
  have hmE := h.monE
  have hoE := h.monoE
  have hfm := h.fmon
  have sT : Sub (addAll D0 (confDefs g on)) (fmonTable g (addAll D0 (confDefs g on)) mon mono msgs) := (Sub.addAll _ _).trans (Sub.addAll _ _)
  revert a2 hmE hoE hfm hHd sT
  generalize fmonTable g (addAll D0 (confDefs g on)) mon mono msgs = T
  intro hHd a2 hmE hoE hfm sT
  have a3 : TItems dir (fsrcFile g) (Once (readFiles g mon) []) (Once (readFiles g mon) []) [opEmpty] T T [] := TItems.gen (fun _ => Gen.empty) (Once.grows fun n hn => nomatch hn)
  have a4 : TItems dir (fsrcFile g) (Once (readFiles g mon) []) (Once (readFiles g mon) []) ([opIfdef g.usemon] ++ fmonBodyOps g msgs ++ [opEndif g.usemon]) T T
      (if mon then fmonFuncs g mono msgs else []) := by
    cases mon with
    | true =>
      rw [if_pos rfl]
      refine TItems.ifdefT hw.1 (by have := hw.2; omega) hmE.symm ?_
      have hf2 := (hfm rfl)
      rw [hoE] at hf2 ⊢
      exact TItems.hp (ds := []) (stdFile :: readFiles g true) (fun files hs => fmonBody_read (head_other hHd hmE hs) hf2.1 hf2.2) sT (Sub.refl _) trivial (read_ok hd.stdint)
        (Once.grows fun n hn => nomatch hn)
    | false =>
      rw [if_neg Bool.false_ne_true]
      refine TItems.gen (fun files => ?_) (Once.grows fun n hn => nomatch hn)
      exact Gen.ifdefF (files := files) hw.1 (by have := hw.2; omega) hmE.symm (closeOp_comment hw.1 (by have := hw.2; omega)) (fmonBody_skip hHd.drvUp hHd.drvLow h.names)
  rw [fmonSource_eq]
  refine (a1.append (a2.append (a3.append a4))).eqI ?_
  unfold fmonUnit
  simp only [List.append_assoc, List.nil_append]


/-! ### What the source file declares -/

theorem fmonUnit_mem {i : Spec.Item} (h : i ∈ fmonUnit g fl mon mono msgs) :
    i ∈ confItems fl mon ∨ mon = true ∧ ∃ n ∈ fmonNames g mono msgs, i = .proto "void".toList n fmonParams ∨ i = .func (fmonFunc n) := by
  unfold fmonUnit at h
  rcases List.mem_append.1 h with h | h
  · exact .inl h
  · refine .inr ?_
    cases mon with
    | false => cases h
    | true =>
      refine ⟨rfl, ?_⟩
      rw [if_pos rfl, if_pos rfl, fmonItems_eq] at h
      rcases List.mem_append.1 h with h | h
      · obtain ⟨n, hn, rfl⟩ := List.mem_map.1 h
        exact ⟨n, hn, .inl rfl⟩
      · unfold fmonFuncs at h
        obtain ⟨n, hn, rfl⟩ := List.mem_map.1 h
        exact ⟨n, hn, .inr rfl⟩

theorem fmonUnit_proto (hm : mon = true) {n : Str} (hn : n ∈ fmonNames g mono msgs) : .func (fmonFunc n) ∈ fmonUnit g fl mon mono msgs := by
  rw [hm]
  unfold fmonUnit fmonFuncs
  rw [if_pos rfl, if_pos rfl]
  exact List.mem_append_right _ (List.mem_append_right _ (List.mem_map.2 ⟨n, hn, rfl⟩))

theorem fmonUnit_defines : (fmonUnit g fl mon mono msgs).flatMap Item.defines = (confItems fl mon).flatMap Item.defines ++ if mon then fmonNames g mono msgs else [] := by
  unfold fmonUnit
  rw [List.flatMap_append]
  congr 1
  cases mon with
  | false => rfl
  | true =>
    rw [if_pos rfl, if_pos rfl, if_pos rfl, fmonItems_eq, List.flatMap_append]
    have e1 : ((fmonNames g mono msgs).map fun n => Spec.Item.proto "void".toList n fmonParams).flatMap Item.defines = [] := by
      rw [List.flatMap_eq_nil_iff]
      intro i hi
      obtain ⟨n, -, rfl⟩ := List.mem_map.1 hi
      rfl
    have e2 : (fmonFuncs g mono msgs).flatMap Item.defines = fmonNames g mono msgs := by
      unfold fmonFuncs
      generalize fmonNames g mono msgs = l
      induction l with
      | nil => rfl
      | cons n r ih =>
        rw [List.map_cons, List.flatMap_cons, ih]
        rfl
    rw [e1, e2, List.nil_append]

theorem fmonNames_nodup {D : Defs} (h : Fresh D (msgs.map (fmonDef g mono))) : (fmonNames g mono msgs).Nodup := by
  have h := h.nodup fmonMap_guard
  rw [List.map_map] at h
  unfold fmonNames
  split
  · simp
  · rw [List.nodup_iff_pairwise_ne, List.pairwise_map] at h ⊢
    refine h.imp fun {a b} hab e => hab ?_
    have e1 : "_FMon_".toList ++ a.name ++ "_".toList ++ g.drvLow = "_FMon_".toList ++ b.name ++ "_".toList ++ g.drvLow := e
    have : a.name = b.name := by
      simp only [List.append_assoc] at e1
      exact List.append_cancel_right (List.append_cancel_left e1)
    show fmonMac g a.name = fmonMac g b.name
    rw [this]

theorem fmonUnit_nodup (h : mon = true → (fmonNames g mono msgs).Nodup) : ((fmonUnit g fl mon mono msgs).flatMap Item.defines).Nodup := by
  rw [fmonUnit_defines, List.nodup_append]
  refine ⟨by cases fl <;> cases mon <;> decide, ?_, ?_⟩
  · cases mon with
    | false => exact List.nodup_nil
    | true => exact h rfl
  · intro a ha b hb e
    cases mon with
    | false => cases hb
    | true =>
      rw [if_pos rfl] at hb
      exact conf_head ha (e ▸ fmonNames_head hb)

theorem fmonUnit_types : typesKnown baseTypes (fmonUnit g fl mon mono msgs) = true := by
  unfold fmonUnit
  rw [typesKnown_app, Bool.and_eq_true]
  refine ⟨by cases fl <;> cases mon <;> decide, typesKnown_all fun i hi t ht => ?_⟩
  have hmem : i ∈ fmonUnit g fl mon mono msgs := List.mem_append_right _ hi
  cases mon with
  | false => cases hi
  | true =>
    have : t ∈ ["void".toList, "FrameMonitor_t".toList, "uint32_t".toList] := by
      rw [if_pos rfl, if_pos rfl, fmonItems_eq] at hi
      rcases List.mem_append.1 hi with hi | hi
      · obtain ⟨n, -, rfl⟩ := List.mem_map.1 hi
        exact ht
      · unfold fmonFuncs at hi
        obtain ⟨n, -, rfl⟩ := List.mem_map.1 hi
        exact ht
    simp only [List.mem_cons, List.not_mem_nil, or_false] at this
    rcases this with rfl | rfl | rfl <;> cases fl <;> decide

theorem conf_sig {mon : Bool} : ∀ i ∈ confItems fl mon, i.sig = none := by cases fl <;> cases mon <;> decide

theorem fmonUnit_agree : declsAgree (fmonUnit g fl mon mono msgs) = true := by
  have key : ∀ i ∈ fmonUnit g fl mon mono msgs, (i.sig = none ∧ i ∈ confItems fl mon) ∨ ∃ n ∈ fmonNames g mono msgs, i.sig = some (n, "void".toList, paramTys fmonParams) := by
    intro i hi
    rcases fmonUnit_mem hi with hi | ⟨-, n, hn, rfl | rfl⟩
    · exact .inl ⟨conf_sig i hi, hi⟩
    · exact .inr ⟨n, hn, rfl⟩
    · exact .inr ⟨n, hn, rfl⟩
  unfold declsAgree
  rw [List.all_eq_true]
  intro a ha
  rw [List.all_eq_true]
  intro b hb
  rcases key a ha with ⟨ea, -⟩ | ⟨n, hn, ea⟩
  · rw [ea]
  · rw [ea]
    rcases key b hb with ⟨eb, hb⟩ | ⟨k, hk, eb⟩
    · rw [eb]
      dsimp only
      rw [Bool.not_eq_true', ← Bool.not_eq_true, List.contains_iff_mem]
      exact fun q => conf_head (List.mem_flatMap.2 ⟨b, hb, q⟩) (fmonNames_head hn)
    · rw [eb]
      dsimp only
      exact decide_eq_true fun e => by rw [e]

/-- The source file of the monitor functions compiles. -/
theorem fmonUnit_compile (hd : DirOk dir g on fl hops msgs) (hsw : SwitchOk g) (h : FmonRd g files (addAll D0 (confDefs g on)) mon mono msgs) (hc : Fresh D0 (confDefs g on))
    (hs : dir.lookup (fsrcFile g) = some (opsText (fmonSourceOps g msgs))) : ∃ F, ∀ f, F ≤ f → compileTree f dir D0 (fsrcFile g) = some (fmonUnit g fl mon mono msgs) := by
  obtain ⟨F, hF⟩ := (fmonSource_run hd hsw h hc).compile hs ⟨fun _ q => (nomatch q), fun _ _ q => (nomatch q)⟩
  refine ⟨F, fun f hf => (hF f hf).trans (if_pos ⟨fmonUnit_nodup fun q => ?_, fmonUnit_types, fmonUnit_agree⟩)⟩
  have hf := h.fresh
  rw [q, if_pos rfl] at hf
  exact fmonNames_nodup hf

/-! ### Linking -/

theorem gives_defines (is : List Spec.Item) : ((is.filterMap Item.gives).map (·.1)).Sublist (is.flatMap Item.defines) := by
  induction is with
  | nil => exact List.Sublist.refl _
  | cons i r ih =>
    rw [List.flatMap_cons]
    cases i with
    | func f => exact ih.cons_cons f.name
    | var ext t n =>
      cases ext with
      | true => exact ih
      | false => exact ih.cons_cons n
    | struct n ms => exact ih.cons n
    | alias n t => exact ih.cons n
    | proto t n ps => exact ih
    | enum n cs =>
      have := List.Sublist.append (List.nil_sublist (n :: cs)) ih
      exact this

theorem gives_name {i : Spec.Item} {s : Sym} (h : i.gives = some s) : s.1 ∈ i.defines := by
  cases i with
  | func f => cases h; exact List.mem_cons_self
  | var ext t n =>
    cases ext with
    | true => cases h
    | false => cases h; exact List.mem_cons_self
  | struct n ms => cases h
  | alias n t => cases h
  | proto t n ps => cases h
  | enum n cs => cases h

variable {cfg : Cfg} {K : Look} {ls : List (List Spec.Item)}

/-- The two source files link. -/
theorem unit_links (h : ∀ p ∈ msgs.zip ls, IsFuncs g cfg K p.1 p.2) (hl : ls.length = msgs.length) (hk : K.frame = cfg.flag .useCanStruct)
    (hn : ((confItems fl (cfg.flag .useMon)).flatMap Item.defines ++ definedNames g msgs).Nodup)
    (hf : cfg.flag .useMon = true → ∀ n ∈ fmonNames g mono msgs, n ∉ (msgs.filter (·.frameNotEmpty)).map typeName)
    (hu : cfg.flag .useMon = true → (fmonNames g mono msgs).Nodup) :
    links [confItems fl (cfg.flag .useMon) ++ unitItems g cfg.flag mono msgs ls, fmonUnit g fl (cfg.flag .useMon) mono msgs] = true := by
  have eA : (confItems fl (cfg.flag .useMon) ++ unitItems g cfg.flag mono msgs ls).flatMap Item.defines = (confItems fl (cfg.flag .useMon)).flatMap Item.defines ++ definedNames g msgs := by
    rw [List.flatMap_append, unit_defines hl h]
  unfold links
  rw [Bool.and_eq_true, List.flatten_cons, List.flatten_cons, List.flatten_nil, List.append_nil]
  constructor
  · apply decide_eq_true
    rw [List.filterMap_append, List.map_append, List.nodup_append]
    refine ⟨(gives_defines _).nodup (by rw [eA]; exact hn), (gives_defines _).nodup (fmonUnit_nodup hu), ?_⟩
    intro a ha b hb e
    have ha := (gives_defines _).subset ha
    rw [eA] at ha
    obtain ⟨s, hs, rfl⟩ := List.mem_map.1 hb
    obtain ⟨i, hi, hg⟩ := List.mem_filterMap.1 hs
    have hb : (∃ n ∈ fmonNames g mono msgs, s.1 = n) ∧ cfg.flag .useMon = true := by
      rcases fmonUnit_mem hi with hi | ⟨q, n, hn, rfl | rfl⟩
      · have : ∀ fl mon, ∀ i ∈ confItems fl mon, i.gives = none := by decide
        rw [this _ _ i hi] at hg
        cases hg
      · cases hg
      · cases hg
        exact ⟨⟨n, hn, rfl⟩, q⟩
    obtain ⟨⟨n, hnn, e2⟩, q⟩ := hb
    have e := e.trans e2
    have hd := fmonNames_head hnn
    rcases List.mem_append.1 ha with ha | ha
    · exact conf_head ha (e ▸ hd)
    · unfold definedNames at ha
      rcases List.mem_append.1 ha with ha | ha
      · exact hf q n hnn (e ▸ ha)
      · rw [← e] at hd
        rcases List.mem_cons.1 ha with rfl | ha
        · exact absurd hd (by decide)
        · obtain ⟨m, -, ha⟩ := List.mem_flatMap.1 ha
          simp only [List.mem_cons, List.not_mem_nil, or_false] at ha
          have u : ∀ m : Msg, (unpackName g m).take 2 = ['U', 'n'] := fun _ => rfl
          have p : ∀ m : Msg, (packName g m).take 2 = ['P', 'a'] := fun _ => rfl
          rcases ha with rfl | rfl
          · exact absurd ((u m).symm.trans hd) (by decide)
          · exact absurd ((p m).symm.trans hd) (by decide)
  · rw [List.all_eq_true]
    intro s hs
    rw [List.contains_iff_mem]
    obtain ⟨i, hi, hw⟩ := List.mem_filterMap.1 hs
    have fm : ∀ n ∈ fmonNames g mono msgs, cfg.flag .useMon = true → (n, "void".toList, some (fmonParams.map fun p => (p.ty, p.ptr))) ∈
        ((confItems fl (cfg.flag .useMon) ++ unitItems g cfg.flag mono msgs ls) ++ fmonUnit g fl (cfg.flag .useMon) mono msgs).filterMap Item.gives := fun n hn q =>
      List.mem_filterMap.2 ⟨.func (fmonFunc n), List.mem_append_right _ (fmonUnit_proto q hn), rfl⟩
    have cw : ∀ fl mon, ∀ i ∈ confItems fl mon, i.wants = none := by decide
    rcases List.mem_append.1 hi with hi | hi
    · rcases List.mem_append.1 hi with hi | hi
      · rw [cw _ _ i hi] at hw
        cases hw
      · have up : ∀ j, j ∈ ls.flatten → ∀ x, j.gives = some x →
            x ∈ ((confItems fl (cfg.flag .useMon) ++ unitItems g cfg.flag mono msgs ls) ++ fmonUnit g fl (cfg.flag .useMon) mono msgs).filterMap Item.gives := fun j hj x hx =>
          List.mem_filterMap.2 ⟨j, List.mem_append_left _ (List.mem_append_right _ (List.mem_append_right _ hj)), hx⟩
        unfold unitItems headerItems tailItems at hi
        rcases List.mem_append.1 hi with hi | hi
        · rcases List.mem_append.1 hi with hi | hi
          · rcases List.mem_append.1 hi with hi | hi
            · obtain ⟨m, hm, hi⟩ := List.mem_flatMap.1 hi
              unfold structItems at hi
              split at hi
              · rw [List.mem_singleton.1 hi] at hw
                cases hw
              · cases hi
            · obtain ⟨m, hm, hi⟩ := List.mem_flatMap.1 hi
              unfold protoItems at hi
              cases hne : m.frameNotEmpty with
              | false => rw [hne, if_neg Bool.false_ne_true] at hi; cases hi
              | true =>
                rw [hne, if_pos rfl] at hi
                obtain ⟨y, hy, hz⟩ := zip_mem hl hm
                have hx := h _ hz
                unfold IsFuncs at hx
                rw [hne, if_pos rfl] at hx
                obtain ⟨xs, tb, u, p, -, -, -, h4⟩ := hx
                have h4 : y = _ := h4
                have mem : ∀ j ∈ y, j ∈ ls.flatten := fun j hj => List.mem_flatten.2 ⟨y, hy, hj⟩
                rcases List.mem_cons.1 hi with rfl | hi
                · refine up _ (mem (.func (unpackFunc g m K (preprocess cfg.flag [] u))) (by rw [h4]; exact List.mem_cons_self)) s ?_
                  cases hw
                  rfl
                · rw [List.mem_singleton.1 hi] at hw
                  refine up _ (mem (.func (packFunc g m K (preprocess cfg.flag [] p))) (by rw [h4]; exact List.mem_cons_of_mem _ List.mem_cons_self)) s ?_
                  cases hw
                  show some (packName g m, "uint32_t".toList, some ((packParams K.frame m).map fun p => (p.ty, p.ptr))) = _
                  rw [hk]
          · rcases List.mem_append.1 hi with hi | hi
            · cases q : cfg.flag .useMon with
              | false => rw [q, if_neg Bool.false_ne_true] at hi; cases hi
              | true =>
                have fm := fm
                rw [q] at fm hi
                rw [if_pos rfl, fmonItems_eq] at hi
                obtain ⟨n, hn, rfl⟩ := List.mem_map.1 hi
                cases hw
                exact fm n hn rfl
            · rw [List.mem_singleton.1 hi] at hw
              cases hw
        · obtain ⟨y, hy, hi⟩ := List.mem_flatten.1 hi
          obtain ⟨m, hz⟩ : ∃ m, (m, y) ∈ msgs.zip ls := by
            obtain ⟨k, hk, rfl⟩ := List.mem_iff_getElem.1 hy
            have hk2 : k < msgs.length := hl ▸ hk
            refine ⟨msgs[k], ?_⟩
            rw [List.mem_iff_getElem]
            exact ⟨k, by rw [List.length_zip]; omega, by simp⟩
          have hx := h _ hz
          unfold IsFuncs at hx
          dsimp only at hx
          cases hne : m.frameNotEmpty with
          | false =>
            rw [hne, if_neg Bool.false_ne_true] at hx
            rw [hx] at hi
            cases hi
          | true =>
            rw [hne, if_pos rfl] at hx
            obtain ⟨xs, tb, u, p, -, -, -, e⟩ := hx
            rw [e] at hi
            rcases List.mem_cons.1 hi with rfl | hi
            · cases hw
            · rw [List.mem_singleton.1 hi] at hw
              cases hw
    · rcases fmonUnit_mem hi with hi | ⟨q, n, hn, rfl | rfl⟩
      · rw [cw _ _ i hi] at hw
        cases hw
      · cases hw
        exact fm n hn q
      · cases hw

/-! ### The driver -/

theorem tail_ne {a b s t : Str} (n : Nat) (hs : n ≤ s.length) (ht : n ≤ t.length) (h : s.reverse.take n ≠ t.reverse.take n) : a ++ s ≠ b ++ t := by
  intro e
  have e : (a ++ s).reverse.take n = (b ++ t).reverse.take n := congrArg (fun x => x.reverse.take n) e
  rw [List.reverse_append, List.reverse_append, List.take_append_of_le_length (by simpa using hs), List.take_append_of_le_length (by simpa using ht)] at e
  exact h e

variable {drv : Str} {file : Source} {hi lo : Nat}

theorem driver_verFar (h : IsIdent drv ∧ drv.length ≤ 400) : VerFar (driverDesc drv file hi lo) := by
  have e1 : (driverDesc drv file hi lo).verhigh ++ "_FMON".toList = ("VER_".toList ++ strUpper drv) ++ "_MAJ_FMON".toList := by
    have : (driverDesc drv file hi lo).verhigh = "VER_".toList ++ strUpper drv ++ "_MAJ".toList :=
      tmpb_short (by simp only [List.length_append, strUpper_length, String.reduceToList, List.length_cons, List.length_nil]; omega)
    rw [this, List.append_assoc]
    rfl
  have e2 : (driverDesc drv file hi lo).verlow ++ "_FMON".toList = ("VER_".toList ++ strUpper drv) ++ "_MIN_FMON".toList := by
    have : (driverDesc drv file hi lo).verlow = "VER_".toList ++ strUpper drv ++ "_MIN".toList :=
      tmpb_short (by simp only [List.length_append, strUpper_length, String.reduceToList, List.length_cons, List.length_nil]; omega)
    rw [this, List.append_assoc]
    rfl
  have key : ∀ e ∈ fmonVerDefs (driverDesc drv file hi lo), ∃ s ∈ ["_MAJ_FMON", "_MIN_FMON"].map String.toList, e.name = ("VER_".toList ++ strUpper drv) ++ s := by
    intro e he
    unfold fmonVerDefs at he
    simp only [List.mem_cons, List.not_mem_nil, or_false] at he
    rcases he with rfl | rfl
    · exact ⟨_, by decide, e1⟩
    · exact ⟨_, by decide, e2⟩
  have hs : ∀ s ∈ ["_MAJ_FMON", "_MIN_FMON"].map String.toList, 7 ≤ s.length ∧ s.reverse.take 5 = "NOMF_".toList ∧ s.reverse.take 7 ≠ "NOMF_ON".toList := by decide
  refine ⟨fun e he w hw q => ?_, fun e he => ?_, fun e he f => ?_, fun e he => ?_⟩
  · obtain ⟨s, m, en⟩ := key e he
    obtain ⟨l, t, -⟩ := hs s m
    have hw2 : ∀ w ∈ "__cplusplus".toList :: (codeWords ++ confWords), w.reverse.take 5 ≠ "NOMF_".toList := by decide
    refine hw2 w hw ?_
    rw [q, en, List.reverse_append, List.take_append_of_le_length (by rw [List.length_reverse]; omega), t]
  · obtain ⟨s, m, en⟩ := key e he
    rw [en]
    rfl
  · obtain ⟨s, m, en⟩ := key e he
    obtain ⟨l, t, -⟩ := hs s m
    have k : ∀ x : String, x.toList.length ≤ 100 → tmpb (strUpper drv ++ x.toList) = strUpper drv ++ x.toList := fun x hx =>
      tmpb_short (by rw [List.length_append, strUpper_length]; omega)
    have fin : ∀ x : String, x.toList.length ≤ 100 → 5 ≤ x.toList.length → x.toList.reverse.take 5 ≠ "NOMF_".toList → tmpb (strUpper drv ++ x.toList) ≠ e.name := fun x h1 h2 h3 => by
      rw [k x h1, en]
      exact tail_ne 5 h2 (by omega) (by rw [t]; exact h3)
    cases f with
    | useBits => exact fin "_USE_BITS_SIGNAL" (by decide) (by decide) (by decide)
    | useCanStruct => exact fin "_USE_CANSTRUCT" (by decide) (by decide) (by decide)
    | useSigFloat => exact fin "_USE_SIGFLOAT" (by decide) (by decide) (by decide)
    | useMon => exact fin "_USE_DIAG_MONITORS" (by decide) (by decide) (by decide)
    | autoRoll => exact fin "_AUTO_ROLL" (by decide) (by decide) (by decide)
    | autoCsm => exact fin "_AUTO_CSM" (by decide) (by decide) (by decide)
  · obtain ⟨s, m, en⟩ := key e he
    obtain ⟨l, -, t⟩ := hs s m
    rw [en]
    exact tail_ne 7 (by decide) l (fun q => t (q.symm.trans (by decide)))

end Verif
