import Verif.Proofs.DirFmon
import Verif.Proofs.NodeUtil
/-
The util files of a node in the generated directory.
-/
namespace Verif
open Spec

variable {dir files : List (Str × Str)} {cur : Str} {D D0 E : Defs} {g : GenDesc} {on : List Str} {fl : ConfEdit} {hops : List WOp} {msgs rx tx : List Msg} {maxDlc : Nat} {mono : Bool} {cfg : Cfg} {K : Look}
  {u : UtilDesc}

theorem Once.weak {L R L' R' : List Str} (h1 : ∀ n ∈ L', n ∈ L) (h2 : ∀ n ∈ R', n ∈ R) : ∀ x, Once L R x → Once L' R' x :=
  fun _ h => ⟨fun n hn => h.1 n (h1 n hn), fun n hn => h.2 n (h2 n hn)⟩

theorem TItems.once {L R L' R' : List Str} {I' : List Str → Prop} {D' : Defs} {a : List WOp} {l : List Spec.Item} (h : TItems dir cur (Once L R) I' a D D' l) (h1 : ∀ n ∈ L, n ∈ L') (h2 : ∀ n ∈ R, n ∈ R') :
    TItems dir cur (Once L' R') I' a D D' l := h.weaken (Once.weak h1 h2) (fun _ q => q) (DEq.refl _) (DEq.refl _)

/-- The files that have not been read at the start. -/
def dirFiles (g : GenDesc) : List Str := [hdrFile g, cfgFile g, ccFile, muFile, fmonFile g]

/-- The util files belong to the driver. -/
structure UtilOf (u : UtilDesc) (g : GenDesc) : Prop where
  desc : u.g = g
  low : strLower u.drv = g.drvLow
  other : u.hname ∉ dirFiles g
  plain : PlainT u.hname
  short : u.hname.length ≤ 4000

/-- The header of the util files. -/
theorem dirUtilHeader_run (hd : DirOk dir g on fl hops msgs) (hN : NamesOk g) (hsw : SwitchOk g) (h : UnitRd g maxDlc msgs files (addAll D0 (confDefs g on)) E mono cfg K)
    (hw : ∀ w ∈ confWords, E.lookup w = none) (hc : Fresh D0 (confDefs g on)) (ho : mainHeaderOps g maxDlc msgs = some hops) (hu : UtilOf u g)
    (hk : UtilOk u (addAll (addAll D0 (confDefs g on)) (headerDefs g maxDlc msgs)) rx tx) :
    TItems dir u.hname (Once [] (dirFiles g)) (Once [] []) (utilHeaderOps u rx tx) D0 (addAll (addAll D0 (confDefs g on)) (headerDefs g maxDlc msgs))
      (confItems fl (cfg.flag .useMon) ++ headerItems g cfg.flag msgs ++ utilHeaderItems u (addAll (addAll D0 (confDefs g on)) (headerDefs g maxDlc msgs)) rx tx) := by
  have hHd := h.head
  have hB : ConfBase E := ⟨hHd.base, hw⟩
  have s0E : Sub D0 E := by
    have := h.table
    rw [this]
    exact (Sub.addAll _ _).trans (Sub.addAll _ _)
  have hsub : ∀ {R : List Str}, (∀ n ∈ R, n ∈ dirFiles g) → u.hname ∉ R := fun q hm => hu.other (q _ hm)
  have a1 : TItems dir u.hname (Once [] (dirFiles g)) (Once [] (dirFiles g)) [.appendText u.g.commonInfo, .appendText u.g.driverInfo] D0 D0 [] :=
    TItems.gen (fun files => Gen.cons (Gen.commentText (hu.desc ▸ hHd.common)) (Gen.commentText (hu.desc ▸ hHd.driver))) (grows_same hu.other)
  have a2 : TItems dir u.hname (Once [] (dirFiles g)) (Once [u.hname] (dirFiles g)) [opLine "#pragma once"] D0 D0 [] := TItems.pragma fun n hn => ⟨hn, fun e => hu.other (e ▸ hn)⟩
  have a3 : TItems dir u.hname (Once [u.hname] (dirFiles g)) (Once [u.hname] (dirFiles g)) ([opEmpty] ++ ([.append "#ifdef __cplusplus\nextern \"C\" {\n#endif".toList] ++ [opEmpty])) D0 D0 [] :=
    TItems.gen (fun files => Gen.append Gen.empty (Gen.append (Gen.toAppend (gen_cppOpen (s0E.none hHd.cpp)) (by decide)) Gen.empty)) (grows_same hu.other)
  have nd : ccFile ∉ [hdrFile g, cfgFile g, muFile, fmonFile g] := by
    simp only [List.mem_cons, List.not_mem_nil, or_false, not_or]
    exact ⟨hN.cc.symm, cfg_cc.symm, by decide, fmon_cc.symm⟩
  have a4 : TItems dir u.hname (Once [u.hname] (dirFiles g)) (Once [ccFile] [hdrFile g, cfgFile g, muFile, fmonFile g]) [opLine "#include \"dbccodeconf.h\""] D0 D0 (codeConfItems fl) := by
    refine TItems.once (((codeConf_once hd hHd.common (ConfBase.sub s0E hB) (L := []) nd).include (cur := u.hname) (by decide) (by decide) hd.codeconf fun x hx => hx.2 _ (by simp))) (by simp) ?_
    intro n hn
    unfold dirFiles
    simp only [List.mem_cons, List.not_mem_nil, or_false] at hn ⊢
    rcases hn with rfl | rfl | rfl | rfl | rfl <;> simp
  have a5 : TItems dir u.hname (Once [ccFile] [hdrFile g, cfgFile g, muFile, fmonFile g]) (Once [ccFile] [hdrFile g, cfgFile g, muFile, fmonFile g]) [opEmpty] D0 D0 [] := by
    refine TItems.gen (fun _ => Gen.empty) (grows_same (hsub fun n hn => ?_))
    unfold dirFiles
    simp only [List.mem_cons, List.not_mem_nil, or_false] at hn ⊢
    rcases hn with rfl | rfl | rfl | rfl <;> simp
  have hp := plain_low hHd (s := ".h") (by decide) (by decide)
  have a6 := (dirHeader_seen hd hN hsw h hw hc ho).include (cur := u.hname) hp.1 hp.2 hd.header fun x hx => hx.2 _ List.mem_cons_self
  revert a6 hk
  generalize addAll (addAll D0 (confDefs g on)) (headerDefs g maxDlc msgs) = D1
  intro hk a6
  have a7 : TItems dir u.hname (Once (readFiles g (cfg.flag .useMon)) [fmonFile g]) (Once [] []) ([opEmpty] ++ utilRest u rx tx) D1 D1 (utilHeaderItems u D1 rx tx) :=
    TItems.lift [] (fun files _ => GItems.quiet Gen.empty (utilRest_read hk)) (fun _ _ _ h => nomatch h) fun x x' _ _ _ => ⟨fun _ q => (nomatch q), fun _ q => (nomatch q)⟩
  have := a1.append (a2.append (a3.append (a4.append (a5.append (a6.append a7)))))
  refine (this.eqI ?_).eqO ?_
  · unfold confItems
    simp only [List.append_assoc, List.nil_append]
  · rw [utilHeader_eq]
    have : "#include \"".toList ++ strLower u.drv ++ ".h\"".toList = "#include \"".toList ++ hdrFile g ++ "\"".toList := by
      rw [hu.low]
      unfold hdrFile
      simp only [List.append_assoc]
      rfl
    rw [this]
    simp only [List.append_assoc, List.cons_append, List.nil_append]

/-- The name of the source file of the util files. -/
def usrcFile (u : UtilDesc) : Str := strLower (u.name ++ "-binutil.c".toList)

/-- The source file of the util files. -/
theorem dirUtilSource_run (hd : DirOk dir g on fl hops msgs) (hN : NamesOk g) (hsw : SwitchOk g) (h : UnitRd g maxDlc msgs files (addAll D0 (confDefs g on)) E mono cfg K)
    (hw : ∀ w ∈ confWords, E.lookup w = none) (hc : Fresh D0 (confDefs g on)) (ho : mainHeaderOps g maxDlc msgs = some hops) (hu : UtilOf u g)
    (hk : UtilOk u (addAll (addAll D0 (confDefs g on)) (headerDefs g maxDlc msgs)) rx tx) (hf : dir.lookup u.hname = some (opsText (utilHeaderOps u rx tx)))
    (hs : rx.Pairwise fun a b => a.msgId ≤ b.msgId) (hsrc : usrcFile u ∉ u.hname :: dirFiles g) :
    ∃ ops t, utilSourceOps u g.hiver g.lowver rx tx = some ops ∧ (0 < rx.length → fillTree rx (rx.length + 1) 0 rx.length false = some t) ∧
      TItems dir (usrcFile u) (Once [] (u.hname :: dirFiles g)) (Once [] []) ops D0 (addAll (addAll D0 (confDefs g on)) (headerDefs g maxDlc msgs))
        (utilItems u (addAll (addAll D0 (confDefs g on)) (headerDefs g maxDlc msgs)) (confItems fl (cfg.flag .useMon) ++ headerItems g cfg.flag msgs) rx tx t) := by
  have hHd := h.head
  have hfr := h.fresh
  rw [fresh_append] at hfr
  obtain ⟨l1, l2⟩ := version_lookup hfr.1
  unfold headerTable at l1 l2
  have a1 : TItems dir (usrcFile u) (Once [] (u.hname :: dirFiles g)) (Once [] (u.hname :: dirFiles g)) [.appendText u.g.commonInfo, .appendText u.g.driverInfo] D0 D0 [] :=
    TItems.gen (fun files => Gen.cons (Gen.commentText (hu.desc ▸ hHd.common)) (Gen.commentText (hu.desc ▸ hHd.driver))) (grows_same hsrc)
  have a2 := (((dirUtilHeader_run hd hN hsw h hw hc ho hu hk).once (L' := []) (R' := u.hname :: dirFiles g) (by simp) fun n hn => List.mem_cons_of_mem _ hn)).include (cur := usrcFile u) hu.plain hu.short hf
    fun x hx => hx.2 _ List.mem_cons_self
  revert a2 hk l1 l2
  generalize addAll (addAll D0 (confDefs g on)) (headerDefs g maxDlc msgs) = D1
  intro hk l1 l2 a2
  have eg := hu.desc
  have a3 : TItems dir (usrcFile u) (Once [] []) (Once [] []) ([opEmpty, opLine "// DBC file version"] ++ ([.appendF (versionCheck u.g g.hiver g.lowver), .appendF (utilError u), opLine "#endif"] ++ [opEmpty])) D1 D1 [] := by
    refine TItems.gen (fun files => ?_) (Once.grows fun n hn => nomatch hn)
    have p2 := gen_utilVersion (files := files) hk (hi := g.hiver) (lo := g.lowver) (by rw [eg]; exact ⟨words_of_ident hHd.verhigh.1, hHd.verhigh.2⟩) (by rw [eg]; exact ⟨words_of_ident hHd.verlow.1, hHd.verlow.2⟩)
      (by rw [eg]; exact l1) (by rw [eg]; exact l2) h.ver.1 h.ver.2
    exact Gen.append (Gen.cons Gen.empty (gen_cmt _ (by decide) D1)) (Gen.append p2 Gen.empty)
  have a4 := TItems.lift (dir := dir) (cur := usrcFile u) (I := Once [] []) (I' := Once [] []) [] (fun files _ => util_vars hk (ext := false) (p := "") (files := files) (util_var hk)) (fun _ _ _ h => nomatch h)
    (Once.grows fun n hn => nomatch hn)
  rw [utilSource_eq]
  unfold utilItems
  by_cases hr : rx.length > 0
  · obtain ⟨t, ht, hn, -⟩ := fillTree_some hs hr
    have hm := fillTree_msgs ht
    have er : receiveOps u rx = some [.appendF ("uint32_t ".toList ++ u.name ++ "_Receive(".toList ++ u.name ++ "_rx_t* _m, const uint8_t* _d, uint32_t _id, uint8_t dlc_)".toList),
       opLine "{", opLine " uint32_t recid = 0;", .append (printCode u.drv (writeCode t 1)), opEmpty, opLine " return recid;", opLine "}", opEmpty] := by
      unfold receiveOps
      rw [if_pos hr, ht]
      rfl
    have a5 := TItems.lift (dir := dir) (cur := usrcFile u) (I := Once [] []) (I' := Once [] []) [] (fun files _ => recv_func (files := files) hk hn hm) (fun _ _ _ h => nomatch h) (Once.grows fun n hn => nomatch hn)
    refine ⟨_, t, by rw [er]; rfl, fun _ => ht, ?_⟩
    rw [if_pos (c := rx.length > 0) (t := [Spec.Item.func _]) hr]
    have := a1.append (a2.append (a3.append (a4.append a5)))
    refine (this.eqI ?_).eqO ?_
    · simp only [List.append_assoc, List.nil_append]
    · simp only [List.append_assoc, List.cons_append, List.nil_append]
  · have er : receiveOps u rx = some [] := by
      unfold receiveOps
      rw [if_neg hr]
    refine ⟨_, .null, by rw [er]; rfl, fun x => absurd x hr, ?_⟩
    rw [if_neg (c := rx.length > 0) (t := [Spec.Item.func _]) hr]
    have := a1.append (a2.append (a3.append a4))
    refine (this.eqI ?_).eqO ?_
    · simp only [List.append_assoc, List.nil_append, List.append_nil]
    · simp only [List.append_assoc, List.cons_append, List.nil_append, List.append_nil]

end Verif
