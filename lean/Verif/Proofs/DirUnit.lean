import Verif.Proofs.DirRead
import Verif.Proofs.MonUtilRead
import Verif.Proofs.SourceInfo
/-
The complete generated directory: the source file with all files it reads.
-/
namespace Verif
open Spec

variable {dir files : List (Str × Str)} {cur : Str} {D D0 E : Defs} {g : GenDesc} {I I' : List Str → Prop} {a : List WOp} {l : List Spec.Item}

/-! ### Tables -/

theorem addAll_congr {D E : Defs} (h : DEq D E) (ds : List DefE) : DEq (addAll D ds) (addAll E ds) := fun n => by
  rw [addAll_lookup, addAll_lookup, h n]

theorem Fresh.congr {D E : Defs} {ds : List DefE} (hf : Fresh D ds) (h : ∀ e ∈ ds, D.lookup e.name = E.lookup e.name) : Fresh E ds := by
  induction ds generalizing D E with
  | nil => trivial
  | cons e r ih =>
    refine ⟨fun hg => ?_, ih hf.2 fun x hx => ?_⟩
    · rw [← h e (by simp)]
      exact hf.1 hg
    · rw [addOne_lookup, addOne_lookup, h x (by simp [hx])]

theorem DEq.sub {D E : Defs} (h : DEq D E) : Sub D E := fun n d e => by rw [← h n]; exact e

/-- Two groups of macros with different names, in either order. -/
theorem addAll_comm (D : Defs) {x y : List DefE} (h : ∀ e ∈ x, (defsOf y).lookup e.name = none) : DEq (addAll (addAll D x) y) (addAll (addAll D y) x) := fun n => by
  rw [addAll_lookup, addAll_lookup, addAll_lookup, addAll_lookup, Option.or_assoc, Option.or_assoc]
  cases hx : (defsOf x).lookup n with
  | none => simp
  | some d =>
    have : n ∈ x.map (·.name) := by
      have := mem_of_lookup hx
      unfold defsOf at this
      obtain ⟨e, he, e2⟩ := List.mem_map.1 this
      exact List.mem_map.2 ⟨e, he, congrArg Prod.fst e2⟩
    obtain ⟨e, he, rfl⟩ := List.mem_map.1 this
    rw [h e he]
    simp

theorem TItems.hp (S : List Str) {ds : List DefE} (h : ∀ files : List (Str × Str), (∀ n ∈ S, files.lookup n = none) → HP files D0 E a ds l) (s1 : Sub D0 D) (s2 : Sub (addAll D ds) E)
    (hf : Fresh D ds) (hS : ∀ x, I x → ∀ n ∈ S, n ∈ x ∨ dir.lookup n = some []) (hI : OGrows cur I I') : TItems dir cur I I' a D (addAll D ds) l :=
  TItems.lift S (fun files hn => h files hn D s1 s2 hf) hS hI

theorem TItems.gen (h : ∀ files : List (Str × Str), Gen files a D D []) (hI : OGrows cur I I') : TItems dir cur I I' a D D [] :=
  TItems.lift [] (fun files _ => GItems.silent (h files)) (fun _ _ _ h => nomatch h) hI

theorem HeadOk.other {files' : List (Str × Str)} (h : HeadOk g files D0 E) (h1 : files'.lookup "stdint.h".toList = none) (h2 : files'.lookup (g.drvLow ++ "-config.h".toList) = none)
    (h3 : (E.lookup g.usemon).isSome = true → files'.lookup "canmonitorutil.h".toList = none) : HeadOk g files' D0 E :=
  ⟨h.base, h.common, h.driver, h.drvUp, h.drvLow, h.drvOrig, h.verhigh, h.verlow, h.ver, h.flag, h.flagW, h.mono, h.cpp, h1, h2, h3⟩

/-! ### The files -/

def hdrFile (g : GenDesc) : Str := g.drvLow ++ ".h".toList
def cfgFile (g : GenDesc) : Str := g.drvLow ++ "-config.h".toList
def fmonFile (g : GenDesc) : Str := g.drvLow ++ "-fmon.h".toList
def srcFile (g : GenDesc) : Str := g.drvLow ++ ".c".toList
def ccFile : Str := "dbccodeconf.h".toList
def muFile : Str := "canmonitorutil.h".toList
def stdFile : Str := "stdint.h".toList

/-- The configuration header with the switches `on` switched on by the user. -/
def userConfigOps (g : GenDesc) (on : List Str) : List WOp := [.appendText g.commonInfo, .appendText g.driverInfo] ++ fillConfigWith (switchLine on) g

/-- The header of the monitor struct is in the directory: that of the driver, or that of another run of the generator, which differs in the comment block. -/
def Spec.MonHeader (dir : List (Str × Str)) (g : GenDesc) : Prop :=
  dir.lookup "canmonitorutil.h".toList = some (opsText (canMonUtilOps g)) ∨
  ∃ s, SourceOk s ∧ dir.lookup "canmonitorutil.h".toList = some (opsText (canMonUtilOps { g with commonInfo := sourceInfo s }))

theorem Spec.MonHeader.info {dir : List (Str × Str)} {g : GenDesc} (h : MonHeader dir g) (hc : CommentText g.commonInfo) :
    ∃ g', CommentText g'.commonInfo ∧ dir.lookup muFile = some (opsText (canMonUtilOps g')) := by
  rcases h with h | ⟨s, hs, h⟩
  · exact ⟨g, hc, h⟩
  · exact ⟨_, common_comment hs, h⟩

theorem Spec.MonHeader.same {dir dir' : List (Str × Str)} {g : GenDesc} (h : MonHeader dir g) (e : dir'.lookup muFile = dir.lookup muFile) : MonHeader dir' g := by
  rcases h with h | ⟨s, hs, h⟩
  · exact .inl (e.trans h)
  · exact .inr ⟨s, hs, e.trans h⟩

/-- The files of the directory the source file reads. -/
structure DirOk (dir : List (Str × Str)) (g : GenDesc) (on : List Str) (fl : ConfEdit) (hops : List WOp) (msgs : List Msg) : Prop where
  header : dir.lookup (hdrFile g) = some (opsText hops)
  config : dir.lookup (cfgFile g) = some (opsText (userConfigOps g on))
  codeconf : dir.lookup ccFile = some (opsText (userCodeConf fl g))
  monutil : MonHeader dir g
  fmon : dir.lookup (fmonFile g) = some (opsText (fmonHeaderOps g msgs))
  stdint : dir.lookup stdFile = some []

/-- The name of the driver is none of the fixed file names. -/
structure NamesOk (g : GenDesc) : Prop where
  cc : hdrFile g ≠ ccFile
  mu : hdrFile g ≠ muFile

theorem ne_dash {a b : Str} (h1 : '-' ∈ a) (h2 : '-' ∉ b) : a ≠ b := fun e => h2 (e ▸ h1)

theorem cfg_ne : cfgFile g ≠ hdrFile g := fun e => absurd (List.append_cancel_left e) (by decide)
theorem fmon_ne : fmonFile g ≠ hdrFile g := fun e => absurd (List.append_cancel_left e) (by decide)
theorem fmon_cfg : fmonFile g ≠ cfgFile g := fun e => absurd (List.append_cancel_left e) (by decide)
theorem dash_cfg : '-' ∈ cfgFile g := by simp [cfgFile]
theorem dash_fmon : '-' ∈ fmonFile g := by simp [fmonFile]
theorem cfg_cc : cfgFile g ≠ ccFile := ne_dash dash_cfg (by decide)
theorem cfg_mu : cfgFile g ≠ muFile := ne_dash dash_cfg (by decide)
theorem fmon_cc : fmonFile g ≠ ccFile := ne_dash dash_fmon (by decide)
theorem fmon_mu : fmonFile g ≠ muFile := ne_dash dash_fmon (by decide)

theorem ne_src {t : Str} (h : t.getLast? = some 'h') : t ≠ srcFile g := by
  intro e
  rw [e] at h
  have e2 : srcFile g = (g.drvLow ++ ['.']) ++ ['c'] := by simp [srcFile]
  rw [e2, List.getLast?_concat] at h
  exact absurd (Option.some.inj h) (by decide)

theorem last_h (t : Str) (s : String) (h : ∃ u, s.toList = u ++ ['h']) : (t ++ s.toList).getLast? = some 'h' := by
  obtain ⟨u, e⟩ := h
  rw [e, ← List.append_assoc, List.getLast?_concat]

theorem hdr_src : hdrFile g ≠ srcFile g := ne_src (last_h _ ".h" ⟨['.'], rfl⟩)
theorem cfg_src : cfgFile g ≠ srcFile g := ne_src (last_h _ "-config.h" ⟨"-config.".toList, rfl⟩)
theorem fmon_src : fmonFile g ≠ srcFile g := ne_src (last_h _ "-fmon.h" ⟨"-fmon.".toList, rfl⟩)
theorem cc_src : ccFile ≠ srcFile g := ne_src (by decide)
theorem mu_src : muFile ≠ srcFile g := ne_src (by decide)

/-! ### The parts of the run -/

theorem grows_same {L R : List Str} (h : cur ∉ R) : OGrows cur (Once L R) (Once L R) := Once.grows fun _ hn => ⟨hn, fun e => h (e ▸ hn)⟩

variable {on : List Str} {fl : ConfEdit} {hops : List WOp} {msgs : List Msg}

theorem std_ok (h : dir.lookup stdFile = some []) : ∀ x, I x → ∀ n ∈ [stdFile], n ∈ x ∨ dir.lookup n = some [] := by
  intro x _ n hn
  rw [List.mem_singleton.1 hn]
  exact .inr h

/-- The common configuration; it is not read again. -/
theorem codeConf_once (hd : DirOk dir g on fl hops msgs) (hc : CommentText g.commonInfo) (hB : ConfBase D) {L R : List Str} (hR : ccFile ∉ R) :
    TItems dir ccFile (Once L (ccFile :: R)) (Once (ccFile :: L) R) (userCodeConf fl g) D D (codeConfItems fl) := by
  rw [codeConf_eq]
  have g1 : ∀ n ∈ R, n ∈ ccFile :: R ∧ n ≠ ccFile := fun n hn => ⟨List.mem_cons_of_mem _ hn, fun e => hR (e ▸ hn)⟩
  have a1 : TItems dir ccFile (Once L (ccFile :: R)) (Once L R) [.appendText g.commonInfo] D D [] := TItems.gen (fun files => Gen.commentText hc) (Once.grows g1)
  have a2 : TItems dir ccFile (Once L R) (Once (ccFile :: L) R) [opLine "#pragma once"] D D [] := TItems.pragma fun n hn => ⟨hn, (g1 n hn).2⟩
  exact a1.append (a2.append (TItems.lift [stdFile] (fun files hs => codeConf_read hB fl (hs stdFile List.mem_cons_self)) (std_ok hd.stdint) (grows_same hR)))

/-- The common configuration. -/
theorem codeConf_run (hd : DirOk dir g on fl hops msgs) (hc : CommentText g.commonInfo) (hB : ConfBase D) {L R : List Str} (hR : ccFile ∉ R) :
    TItems dir ccFile (Once L (ccFile :: R)) (Once L R) (userCodeConf fl g) D D (codeConfItems fl) :=
  (codeConf_once hd hc hB hR).weaken (fun _ q => q) (fun _ q => ⟨fun n hn => q.1 n (List.mem_cons_of_mem _ hn), q.2⟩) (DEq.refl _) (DEq.refl _)

/-- The configuration of the driver. -/
theorem config_run (hd : DirOk dir g on fl hops msgs) (hc : CommentText g.commonInfo) (hv : CommentText g.driverInfo) (hsw : SwitchOk g) (hB : ConfBase D) (hf : Fresh D (confDefs g on))
    {R : List Str} (h1 : cfgFile g ∉ R) (h2 : ccFile ∉ R) :
    TItems dir (cfgFile g) (Once [] (cfgFile g :: ccFile :: R)) (Once [cfgFile g] R) (userConfigOps g on) D (addAll D (confDefs g on)) (codeConfItems fl) := by
  have n1 : cfgFile g ∉ ccFile :: R := by
    intro h
    rcases List.mem_cons.1 h with h | h
    · exact cfg_cc h
    · exact h1 h
  have a1 : TItems dir (cfgFile g) (Once [] (cfgFile g :: ccFile :: R)) (Once [] (ccFile :: R)) [.appendText g.commonInfo, .appendText g.driverInfo] D D [] :=
    TItems.gen (fun files => Gen.cons (Gen.commentText hc) (Gen.commentText hv)) (Once.grows fun n hn => ⟨List.mem_cons_of_mem _ hn, fun e => n1 (e ▸ hn)⟩)
  have a2 : TItems dir (cfgFile g) (Once [] (ccFile :: R)) (Once [cfgFile g] (ccFile :: R)) [opLine "#pragma once"] D D [] := TItems.pragma fun n hn => ⟨hn, fun e => n1 (e ▸ hn)⟩
  have a3 : TItems dir (cfgFile g) (Once [cfgFile g] (ccFile :: R)) (Once [cfgFile g] (ccFile :: R)) confHead D D [] := TItems.gen (fun files => confHead_read D) (grows_same n1)
  have a4 : TItems dir (cfgFile g) (Once [cfgFile g] (ccFile :: R)) (Once [cfgFile g] R) [opLine "#include \"dbccodeconf.h\""] D D (codeConfItems fl) :=
    (codeConf_run hd hc hB h2).include (by decide) (by decide) hd.codeconf fun x hx => hx.2 _ (by simp)
  have a5 : TItems dir (cfgFile g) (Once [cfgFile g] R) (Once [cfgFile g] R) (confTail (switchLine on) g) D (addAll D (confDefs g on)) [] :=
    TItems.hp (D0 := D) (E := addAll D (confDefs g on)) [] (fun files _ => confTail_read on hsw) (Sub.refl _) (Sub.refl _) hf (fun _ _ _ h => nomatch h) (grows_same h1)
  have := a1.append (a2.append (a3.append (a4.append a5)))
  refine (this.eqI (by simp)).eqO ?_
  unfold userConfigOps
  rw [fillConfig_eq]
  simp only [List.cons_append, List.nil_append]

/-- The configuration of the driver, with the common configuration already read. -/
theorem config_seen (hc : CommentText g.commonInfo) (hv : CommentText g.driverInfo) (hsw : SwitchOk g) (hf : Fresh D (confDefs g on)) {R : List Str} (h1 : cfgFile g ∉ R) :
    TItems dir (cfgFile g) (Once [ccFile] (cfgFile g :: R)) (Once [cfgFile g] R) (userConfigOps g on) D (addAll D (confDefs g on)) [] := by
  have a1 : TItems dir (cfgFile g) (Once [ccFile] (cfgFile g :: R)) (Once [ccFile] R) [.appendText g.commonInfo, .appendText g.driverInfo] D D [] :=
    TItems.gen (fun files => Gen.cons (Gen.commentText hc) (Gen.commentText hv)) (Once.grows fun n hn => ⟨List.mem_cons_of_mem _ hn, fun e => h1 (e ▸ hn)⟩)
  have a2 : TItems dir (cfgFile g) (Once [ccFile] R) (Once [cfgFile g, ccFile] R) [opLine "#pragma once"] D D [] := TItems.pragma fun n hn => ⟨hn, fun e => h1 (e ▸ hn)⟩
  have a3 : TItems dir (cfgFile g) (Once [cfgFile g, ccFile] R) (Once [cfgFile g, ccFile] R) confHead D D [] := TItems.gen (fun files => confHead_read D) (grows_same h1)
  have a4 : TItems dir (cfgFile g) (Once [cfgFile g, ccFile] R) (Once [cfgFile g, ccFile] R) [opLine "#include \"dbccodeconf.h\""] D D [] := by
    refine TItems.lift [ccFile] (fun files hs => GItems.silent (gen_include (n := ccFile) (plain_lit (s := "dbccodeconf.h") (by decide)) (by decide) (hs ccFile List.mem_cons_self) _)) (fun x hx n hn => ?_) (grows_same h1)
    rw [List.mem_singleton.1 hn]
    exact .inl (hx.1 _ (by simp))
  have a5 : TItems dir (cfgFile g) (Once [cfgFile g, ccFile] R) (Once [cfgFile g, ccFile] R) (confTail (switchLine on) g) D (addAll D (confDefs g on)) [] :=
    TItems.hp (D0 := D) (E := addAll D (confDefs g on)) [] (fun files _ => confTail_read on hsw) (Sub.refl _) (Sub.refl _) hf (fun _ _ _ h => nomatch h) (grows_same h1)
  have := a1.append (a2.append (a3.append (a4.append a5)))
  have := this.weaken (J := Once [ccFile] (cfgFile g :: R)) (J' := Once [cfgFile g] R) (fun _ q => q) (fun _ q => ⟨fun n hn => q.1 n (List.mem_append_left [ccFile] hn), q.2⟩) (DEq.refl _) (DEq.refl _)
  refine (this.eqI (by simp)).eqO ?_
  unfold userConfigOps
  rw [fillConfig_eq]
  simp only [List.cons_append, List.nil_append]

/-- The monitor struct. -/
theorem monUtil_run {g : GenDesc} (hst : dir.lookup stdFile = some []) (hc : CommentText g.commonInfo) (hB : ConfBase D) (hp : D.lookup "__cplusplus".toList = none) {L R : List Str} (hR : muFile ∉ R) :
    TItems dir muFile (Once L (muFile :: R)) (Once (muFile :: L) R) (canMonUtilOps g) D D monUtilItems := by
  have g1 : ∀ n ∈ R, n ∈ muFile :: R ∧ n ≠ muFile := fun n hn => ⟨List.mem_cons_of_mem _ hn, fun e => hR (e ▸ hn)⟩
  have a1 : TItems dir muFile (Once L (muFile :: R)) (Once L R) [.appendText g.commonInfo] D D [] := TItems.gen (fun files => Gen.commentText hc) (Once.grows g1)
  have a2 : TItems dir muFile (Once L R) (Once (muFile :: L) R) [opLine "#pragma once"] D D [] := TItems.pragma fun n hn => ⟨hn, (g1 n hn).2⟩
  have a3 : TItems dir muFile (Once (muFile :: L) R) (Once (muFile :: L) R) monUtilTail D D monUtilItems :=
    TItems.lift [stdFile] (fun files hs => monUtil_read hB hp (hs stdFile List.mem_cons_self)) (std_ok hst) (grows_same hR)
  rw [monUtil_eq]
  exact a1.append (a2.append a3)

/-- The part of the header with the monitor struct. -/
theorem headMon_run (hd : DirOk dir g on fl hops msgs) (hc : CommentText g.commonInfo) (hB : ConfBase D) (hp : D.lookup "__cplusplus".toList = none) (hw : IsWord g.usemon ∧ g.usemon.length ≤ 1100)
    {L R : List Str} (hR : muFile ∉ R) (hm : cur ∉ R) :
    TItems dir cur (Once L (muFile :: R)) (Once (if (D.lookup g.usemon).isSome then muFile :: L else L) R) (headMon g) D D (if (D.lookup g.usemon).isSome then monUtilItems else []) := by
  cases hu : (D.lookup g.usemon).isSome with
  | true =>
    rw [if_pos rfl, if_pos rfl]
    refine TItems.ifdefT hw.1 (by have := hw.2; omega) hu ?_
    obtain ⟨g', hc', hl⟩ := hd.monutil.info hc
    refine (monUtil_run hd.stdint hc' hB hp hR).includeAt (p := [[' ']] ++ [[' ']]) (q := [[]]) ?_ hl (fun x hx => hx.2 _ (by simp)) ?_ ?_
    · have := ol_monInclude
      rw [← List.append_assoc] at this
      exact this
    · intro t ht
      simp only [List.cons_append, List.nil_append, List.mem_cons, List.not_mem_nil, or_false, or_self] at ht
      exact .inr ht
    · intro t ht
      exact .inl (List.mem_singleton.1 ht)
  | false =>
    rw [if_neg Bool.false_ne_true, if_neg Bool.false_ne_true]
    refine TItems.gen (fun files => ?_) (Once.grows fun n hn => ⟨List.mem_cons_of_mem _ hn, fun e => hm (e ▸ hn)⟩)
    exact Gen.ifdefF hw.1 (by have := hw.2; omega) hu (closeOp_comment hw.1 (by have := hw.2; omega)) skip_monInclude

/-! ### The header and the source file -/

variable {maxDlc : Nat} {mono : Bool} {cfg : Cfg} {K : Look}

/-- The tables of the run: version macros come before the switches of the configuration. -/
structure Tables (g : GenDesc) (on : List Str) (D0 E : Defs) (D2 : Defs) : Prop where
  ver : Fresh D0 (verDefs g)
  verE : Sub (addAll D0 (verDefs g)) E
  conf : Fresh (addAll D0 (verDefs g)) (confDefs g on)
  both : DEq (addAll (addAll D0 (verDefs g)) (confDefs g on)) D2

theorem tables (hf : Fresh (addAll D0 (confDefs g on)) (verDefs g)) (hs : Sub (addAll (addAll D0 (confDefs g on)) (verDefs g)) E) (hc : Fresh D0 (confDefs g on)) :
    Tables g on D0 E (addAll (addAll D0 (confDefs g on)) (verDefs g)) := by
  have hn : ∀ e ∈ verDefs g, (addAll D0 (confDefs g on)).lookup e.name = none := by
    intro e he
    unfold verDefs at hf he
    rcases List.mem_cons.1 he with rfl | he
    · exact hf.1 rfl
    · rw [List.mem_singleton.1 he]
      have := hf.2.1 rfl
      rw [addOne_lookup] at this
      exact (Option.or_eq_none_iff.1 this).1
  have h0 : ∀ e ∈ verDefs g, D0.lookup e.name = none ∧ (defsOf (confDefs g on)).lookup e.name = none := fun e he => by
    have := hn e he
    rw [addAll_lookup] at this
    exact Option.or_eq_none_iff.1 this
  have hcomm := addAll_comm D0 fun e he => (h0 e he).2
  refine ⟨hf.congr fun e he => (hn e he).trans (h0 e he).1.symm, ?_, hc.congr fun e he => ?_, hcomm⟩
  · exact ((Sub.addAll _ (confDefs g on)).trans hcomm.sub).trans hs
  · rw [addAll_lookup]
    cases hv : (defsOf (verDefs g)).lookup e.name with
    | none => simp
    | some d =>
      have := mem_of_lookup hv
      unfold defsOf at this
      obtain ⟨v, hv, e2⟩ := List.mem_map.1 this
      have hname : v.name = e.name := congrArg Prod.fst e2
      have := (h0 v hv).2
      rw [hname] at this
      have hm := List.lookup_eq_none_iff.1 this (e.name, e.d) (by unfold defsOf; exact List.mem_map.2 ⟨e, he, rfl⟩)
      simp at hm

/-- Files that need not be read again behind the monitor struct. -/
def readFiles (g : GenDesc) (mon : Bool) : List Str := if mon then [muFile, cfgFile g] else [cfgFile g]

theorem read_ok (h : dir.lookup stdFile = some []) {mon : Bool} {R : List Str} :
    ∀ x, Once (readFiles g mon) R x → ∀ n ∈ stdFile :: readFiles g mon, n ∈ x ∨ dir.lookup n = some [] := by
  intro x hx n hn
  rcases List.mem_cons.1 hn with rfl | hn
  · exact .inr h
  · exact .inl (hx.1 n hn)

theorem head_other (hd : HeadOk g files D0 E) {mon : Bool} (hm : mon = (E.lookup g.usemon).isSome) {files' : List (Str × Str)} (h : ∀ n ∈ stdFile :: readFiles g mon, files'.lookup n = none) :
    HeadOk g files' D0 E := by
  refine hd.other (h stdFile List.mem_cons_self) (h (cfgFile g) ?_) fun q => h muFile ?_
  · unfold readFiles
    cases mon <;> simp
  · rw [← hm] at q
    rw [q]
    simp [readFiles]

/-- The header, from what reading the configuration gives. -/
theorem dirHeader_of (hd : DirOk dir g on fl hops msgs) {L R : List Str} {ci : List Spec.Item} (hR : hdrFile g ∉ cfgFile g :: R) (hRm : muFile ∈ R ∧ fmonFile g ∈ R)
    (hconf : ∀ {D : Defs}, ConfBase D → Fresh D (confDefs g on) → TItems dir (cfgFile g) (Once L (cfgFile g :: R)) (Once [cfgFile g] [muFile, fmonFile g]) (userConfigOps g on) D (addAll D (confDefs g on)) ci)
    (h : UnitRd g maxDlc msgs files (addAll D0 (confDefs g on)) E mono cfg K)
    (hw : ∀ w ∈ confWords, E.lookup w = none) (hc : Fresh D0 (confDefs g on)) (ho : mainHeaderOps g maxDlc msgs = some hops) :
    TItems dir (hdrFile g) (Once L (hdrFile g :: cfgFile g :: R)) (Once (readFiles g (cfg.flag .useMon)) [fmonFile g]) hops D0
      (addAll (addAll D0 (confDefs g on)) (headerDefs g maxDlc msgs))
      (ci ++ (if cfg.flag .useMon then monUtilItems else []) ++ headerItems g cfg.flag msgs) := by
  have hfr := h.fresh
  rw [fresh_append] at hfr
  have hE := h.table
  rw [addAll_append] at hE
  have eD : headerDefs g maxDlc msgs = verDefs g ++ (limitDefs g maxDlc ++ hdrDefs g msgs []) := rfl
  rw [eD] at hfr hE ⊢
  rw [fresh_append] at hfr
  have hmon : cfg.flag .useMon = (E.lookup g.usemon).isSome := h.flag .useMon
  have ef : (fun f => (E.lookup (flagName g f)).isSome) = cfg.flag := funext fun f => (h.flag f).symm
  rw [addAll_append] at hE ⊢
  have hHd := h.head
  have h3E : Sub (addAll (addAll (addAll D0 (confDefs g on)) (verDefs g)) (limitDefs g maxDlc ++ hdrDefs g msgs [])) E := by
    rw [hE]
    exact Sub.addAll _ _
  have h2E := (Sub.addAll _ _).trans h3E
  have s02 := Sub.addAll (addAll D0 (confDefs g on)) (verDefs g)
  have T := tables hfr.1.1 h2E hc
  have hf3 := hfr.1.2
  have hB : ConfBase E := ⟨hHd.base, hw⟩
  unfold mainHeaderOps at ho
  obtain ⟨ms, h1, rfl⟩ := Option.map_eq_some_iff.1 ho
  revert T h2E h3E hf3 s02
  generalize addAll (addAll D0 (confDefs g on)) (verDefs g) = D2
  intro h3E h2E s02 T hf3
  have c5 : hdrFile g ∉ [muFile, fmonFile g] := by
    simp only [List.mem_cons, List.not_mem_nil, or_false, not_or]
    exact ⟨fun e => hR (List.mem_cons_of_mem _ (e ▸ hRm.1)), fun e => hR (List.mem_cons_of_mem _ (e ▸ hRm.2))⟩
  have c4 : hdrFile g ∉ [fmonFile g] := fun q => c5 (List.mem_cons_of_mem _ q)
  have c6 : muFile ∉ [fmonFile g] := fun q => fmon_mu (List.mem_singleton.1 q).symm
  have a1 : TItems dir (hdrFile g) (Once L (hdrFile g :: cfgFile g :: R)) (Once L (cfgFile g :: R)) (headA g) D0 (addAll D0 (verDefs g)) [] :=
    TItems.hp (D0 := []) [stdFile] (fun files hs => headA_read hHd (hs stdFile List.mem_cons_self)) (fun _ _ q => nomatch q) T.verE T.ver (std_ok hd.stdint)
      (Once.grows fun n hn => ⟨List.mem_cons_of_mem _ hn, fun e => hR (e ▸ hn)⟩)
  have hp := plain_low hHd (s := "-config.h") (by decide) (by decide)
  have a2 : TItems dir (hdrFile g) (Once L (cfgFile g :: R)) (Once [cfgFile g] [muFile, fmonFile g]) [configIncOp g] (addAll D0 (verDefs g)) D2 ci := by
    rw [configIncOp_eq]
    refine ((hconf (ConfBase.sub T.verE hB) T.conf).weaken (fun _ q => q) (fun _ q => q) (DEq.refl _) T.both).include hp.1 hp.2 hd.config
      fun x hx => hx.2 _ List.mem_cons_self
  have a3 : TItems dir (hdrFile g) (Once [cfgFile g] [muFile, fmonFile g]) (Once [cfgFile g] [muFile, fmonFile g]) [opEmpty] D2 D2 [] :=
    TItems.gen (fun _ => Gen.empty) (grows_same c5)
  have em : (D2.lookup g.usemon).isSome = cfg.flag .useMon := (hHd.flagEq s02 h2E .useMon).trans hmon.symm
  have a4 := headMon_run (cur := hdrFile g) (L := [cfgFile g]) hd hHd.common (ConfBase.sub h2E hB) (h2E.none hHd.cpp) (hHd.flagW .useMon) c6 c4
  rw [em] at a4
  have a4 : TItems dir (hdrFile g) (Once [cfgFile g] [muFile, fmonFile g]) (Once (readFiles g (cfg.flag .useMon)) [fmonFile g]) (headMon g) D2 D2 (if cfg.flag .useMon then monUtilItems else []) := a4
  have a5 : TItems dir (hdrFile g) (Once (readFiles g (cfg.flag .useMon)) [fmonFile g]) (Once (readFiles g (cfg.flag .useMon)) [fmonFile g]) (headB g maxDlc ++ ms ++ headerEndOps g msgs) D2
      (addAll D2 (limitDefs g maxDlc ++ hdrDefs g msgs [])) (headerItems g cfg.flag msgs) := by
    rw [← ef]
    exact TItems.hp (stdFile :: readFiles g (cfg.flag .useMon)) (fun files hs => headerRest_read (head_other hHd hmon hs) h.max h.hdr h1) s02 h3E hf3 (by rw [ef]; exact read_ok hd.stdint) (grows_same c4)
  have := a1.append (a2.append (a3.append (a4.append a5)))
  refine (this.eqI ?_).eqO ?_
  · simp only [List.append_assoc, List.nil_append]
  · rw [headerStart_eq]
    simp only [List.append_assoc, List.cons_append, List.nil_append]

theorem cfg_rest : cfgFile g ∉ [muFile, fmonFile g] := by
  simp only [List.mem_cons, List.not_mem_nil, or_false, not_or]
  exact ⟨cfg_mu, fmon_cfg.symm⟩

theorem cc_rest : ccFile ∉ [muFile, fmonFile g] := by
  simp only [List.mem_cons, List.not_mem_nil, or_false, not_or]
  exact ⟨by decide, fmon_cc.symm⟩

/-- The header is the first file that is read. -/
theorem dirHeader_run (hd : DirOk dir g on fl hops msgs) (hN : NamesOk g) (hsw : SwitchOk g) (h : UnitRd g maxDlc msgs files (addAll D0 (confDefs g on)) E mono cfg K)
    (hw : ∀ w ∈ confWords, E.lookup w = none) (hc : Fresh D0 (confDefs g on)) (ho : mainHeaderOps g maxDlc msgs = some hops) :
    TItems dir (hdrFile g) (Once [] [hdrFile g, cfgFile g, ccFile, muFile, fmonFile g]) (Once (readFiles g (cfg.flag .useMon)) [fmonFile g]) hops D0
      (addAll (addAll D0 (confDefs g on)) (headerDefs g maxDlc msgs))
      (codeConfItems fl ++ (if cfg.flag .useMon then monUtilItems else []) ++ headerItems g cfg.flag msgs) := by
  refine dirHeader_of hd (R := [ccFile, muFile, fmonFile g]) ?_ ⟨by simp, by simp⟩ (fun hB hf => config_run hd h.head.common h.head.driver hsw hB hf cfg_rest cc_rest) h hw hc ho
  simp only [List.mem_cons, List.not_mem_nil, or_false, not_or]
  exact ⟨cfg_ne.symm, hN.cc, hN.mu, fmon_ne.symm⟩

/-- The header, with the common configuration already read. -/
theorem dirHeader_seen (hd : DirOk dir g on fl hops msgs) (hN : NamesOk g) (hsw : SwitchOk g) (h : UnitRd g maxDlc msgs files (addAll D0 (confDefs g on)) E mono cfg K)
    (hw : ∀ w ∈ confWords, E.lookup w = none) (hc : Fresh D0 (confDefs g on)) (ho : mainHeaderOps g maxDlc msgs = some hops) :
    TItems dir (hdrFile g) (Once [ccFile] [hdrFile g, cfgFile g, muFile, fmonFile g]) (Once (readFiles g (cfg.flag .useMon)) [fmonFile g]) hops D0
      (addAll (addAll D0 (confDefs g on)) (headerDefs g maxDlc msgs))
      ((if cfg.flag .useMon then monUtilItems else []) ++ headerItems g cfg.flag msgs) := by
  refine dirHeader_of hd (R := [muFile, fmonFile g]) (ci := []) ?_ ⟨by simp, by simp⟩ (fun hB hf => config_seen h.head.common h.head.driver hsw hf cfg_rest) h hw hc ho
  simp only [List.mem_cons, List.not_mem_nil, or_false, not_or]
  exact ⟨cfg_ne.symm, hN.mu, fmon_ne.symm⟩

/-- The monitor functions in the source file. -/
theorem monPart_run (hd : DirOk dir g on fl hops msgs) {mon : Bool} (hHd : HeadOk g files D0 E) (hmon : mon = (E.lookup g.usemon).isSome) (s1 : Sub D0 D) (s2 : Sub (addAll D (if mon then fmonDefs g (E.lookup (monoName g)).isSome msgs else [])) E)
    (hf : Fresh D (if mon then fmonDefs g (E.lookup (monoName g)).isSome msgs else []))
    (hm : mon = true → (∀ m ∈ msgs, FmonOk g E (E.lookup (monoName g)).isSome m) ∧ E.lookup (fmonFn g true []) = none) :
    TItems dir (srcFile g) (Once (readFiles g mon) [fmonFile g]) (Once (readFiles g mon) []) (monPart g) D (addAll D (if mon then fmonDefs g (E.lookup (monoName g)).isSome msgs else []))
      (if mon then fmonItems g (E.lookup (monoName g)).isSome msgs else []) := by
  have hw : IsWord g.usemon ∧ g.usemon.length ≤ 1100 := hHd.flagW .useMon
  have hp := plain_low hHd (s := "-fmon.h") (by decide) (by decide)
  have s3 := (Sub.addAll D (if mon then fmonDefs g (E.lookup (monoName g)).isSome msgs else [])).trans s2
  have eu : (D.lookup g.usemon).isSome = mon := (hHd.flagEq s1 s3 .useMon).trans hmon.symm
  cases mon with
  | true =>
    rw [if_pos rfl] at s2 hf
    rw [if_pos rfl, if_pos rfl]
    have h0 : ((D0 : Defs).lookup g.usemon).isSome = true := (hHd.flagEq (Sub.refl _) (s1.trans s3) .useMon).trans hmon.symm
    have b1 : TItems dir (srcFile g) (Once (readFiles g true) [fmonFile g]) (Once (readFiles g true) [fmonFile g]) [monCmtOp] D D [] :=
      TItems.gen (fun _ => monCmt_read D) (grows_same fun q => fmon_src (List.mem_singleton.1 q).symm)
    have b2 : TItems dir (fmonFile g) (Once (readFiles g true) [fmonFile g]) (Once (readFiles g true) []) (fmonHeaderOps g msgs) D (addAll D (fmonDefs g (E.lookup (monoName g)).isSome msgs))
        (fmonItems g (E.lookup (monoName g)).isSome msgs) :=
      TItems.hp (stdFile :: readFiles g true) (fun files hs => fmonHeader_read (head_other hHd hmon hs) h0 (hm rfl).1 (hm rfl).2) s1 s2 hf (read_ok hd.stdint) (Once.grows fun n hn => nomatch hn)
    have b3 := b2.include (cur := srcFile g) hp.1 hp.2 hd.fmon fun x hx => hx.2 _ List.mem_cons_self
    have b4 : TItems dir (srcFile g) (Once (readFiles g true) []) (Once (readFiles g true) []) [opEmpty] (addAll D (fmonDefs g (E.lookup (monoName g)).isSome msgs))
        (addAll D (fmonDefs g (E.lookup (monoName g)).isSome msgs)) [] := TItems.gen (fun _ => Gen.empty) (Once.grows fun n hn => nomatch hn)
    exact (TItems.ifdefT hw.1 (by have := hw.2; omega) eu (b1.append (b3.append b4))).eqI (by simp)
  | false =>
    rw [if_neg Bool.false_ne_true, if_neg Bool.false_ne_true]
    refine TItems.gen (fun files => ?_) (Once.grows fun n hn => nomatch hn)
    exact Gen.ifdefF (files := files) hw.1 (by have := hw.2; omega) eu (closeOp_comment hw.1 (by have := hw.2; omega))
      (GSkip.append (a := [_]) (monCmt_read []).skip (GSkip.append (a := [_]) (skip_include hp.1 hp.2) (Gen.empty (D := [])).skip))

/-- What the files of the configuration declare. -/
def confItems (fl : ConfEdit) (mon : Bool) : List Spec.Item := codeConfItems fl ++ if mon then monUtilItems else []

theorem dirSource_run (hd : DirOk dir g on fl hops msgs) (hN : NamesOk g) (hsw : SwitchOk g) (h : UnitRd g maxDlc msgs files (addAll D0 (confDefs g on)) E mono cfg K)
    (hw : ∀ w ∈ confWords, E.lookup w = none) (hc : Fresh D0 (confDefs g on)) (ho : mainHeaderOps g maxDlc msgs = some hops) :
    ∃ sops ls, mainSourceOps g msgs = some sops ∧ ls.length = msgs.length ∧ (∀ p ∈ msgs.zip ls, IsFuncs g cfg K p.1 p.2) ∧
      TItems dir (srcFile g) (Once [] [hdrFile g, cfgFile g, ccFile, muFile, fmonFile g]) (Once (readFiles g (cfg.flag .useMon)) []) sops D0 E
        (confItems fl (cfg.flag .useMon) ++ unitItems g cfg.flag mono msgs ls) := by
  have hHd := h.head
  have hmon : cfg.flag .useMon = (E.lookup g.usemon).isSome := h.flag .useMon
  have hS := fun files => sourceMsgs_read (files := files) (g := g) (D := E) (K := K) (cfg := cfg) (msgs := msgs) (fun m hm hne =>
    ⟨src_of h.head h.hdr h.table h.fresh hmon (fun q => (h.fmon q).1) h.flag h.user h.look hm hne (h.src m hm hne), (h.hdr m hm).fn hne, h.print m hm hne⟩)
    (h.look.frame.trans (h.flag .useCanStruct).symm)
  obtain ⟨ms, ls, b1, b2, b3, b4⟩ := hS []
  refine ⟨sourceStartOps g ++ ms.flatten, ls, ?_, b2, b3, ?_⟩
  · unfold mainSourceOps
    rw [b1]
    rfl
  have a7 : TItems dir (srcFile g) (Once (readFiles g (cfg.flag .useMon)) []) (Once (readFiles g (cfg.flag .useMon)) []) ms.flatten E E ls.flatten := by
    refine TItems.lift' [] b4 (fun files _ => ?_) (fun _ _ _ h => nomatch h) (Once.grows fun n hn => nomatch hn)
    obtain ⟨ms2, ls2, c1, -, -, c4⟩ := hS files
    rw [b1] at c1
    rw [← Option.some.inj c1] at c4
    exact ⟨_, _, c4⟩
  have a2 := dirHeader_run hd hN hsw h hw hc ho
  have hfr := h.fresh
  rw [fresh_append] at hfr
  have hE := h.table
  rw [addAll_append] at hE
  obtain ⟨l1, l2⟩ := version_lookup hfr.1
  unfold headerTable at l1 l2
  have s01 := Sub.addAll (addAll D0 (confDefs g on)) (headerDefs g maxDlc msgs)
  have hf2 := hfr.2
  have s1E : Sub (addAll (addAll D0 (confDefs g on)) (headerDefs g maxDlc msgs)) E := by
    rw [hE]
    exact Sub.addAll _ _
  revert a2 hE l1 l2 s01 hf2 s1E
  generalize addAll (addAll D0 (confDefs g on)) (headerDefs g maxDlc msgs) = D1
  intro a2 hE l1 l2 s01 hf2 s1E
  have em := h.monoE
  subst em
  have hE : E = addAll D1 ((if cfg.flag .useMon then fmonDefs g (E.lookup (monoName g)).isSome msgs else []) ++ [tickDef, hashDef]) := hE
  have hf2 : Fresh D1 ((if cfg.flag .useMon then fmonDefs g (E.lookup (monoName g)).isSome msgs else []) ++ [tickDef, hashDef]) := hf2
  rw [addAll_append] at hE
  rw [fresh_append] at hf2
  have n1 : srcFile g ∉ [hdrFile g, cfgFile g, ccFile, muFile, fmonFile g] := by
    simp only [List.mem_cons, List.not_mem_nil, or_false, not_or]
    exact ⟨hdr_src.symm, cfg_src.symm, cc_src.symm, mu_src.symm, fmon_src.symm⟩
  have a1 : TItems dir (srcFile g) (Once [] [hdrFile g, cfgFile g, ccFile, muFile, fmonFile g]) (Once [] [hdrFile g, cfgFile g, ccFile, muFile, fmonFile g])
      [.appendText g.commonInfo, .appendText g.driverInfo] D0 D0 [] :=
    TItems.gen (fun files => Gen.cons (Gen.commentText hHd.common) (Gen.commentText hHd.driver)) (grows_same n1)
  have hp := plain_low hHd (s := ".h") (by decide) (by decide)
  have a2 := a2.include (cur := srcFile g) hp.1 hp.2 hd.header fun x hx => hx.2 _ List.mem_cons_self
  have a3 : TItems dir (srcFile g) (Once (readFiles g (cfg.flag .useMon)) [fmonFile g]) (Once (readFiles g (cfg.flag .useMon)) [fmonFile g])
      (.lines 2 :: opLine "// DBC file version" :: (verCheck g ++ [opEmpty])) D1 D1 [] := by
    refine TItems.gen (fun files => ?_) (grows_same fun q => fmon_src (List.mem_singleton.1 q).symm)
    have p2 := gen_versionSame (files := files) (s1E.base hHd.base) ⟨words_of_ident hHd.verhigh.1, hHd.verhigh.2⟩ ⟨words_of_ident hHd.verlow.1, hHd.verlow.2⟩ l1 l2 h.ver.1 h.ver.2 hHd.drvUp
    exact Gen.cons (Gen.lines 2) (Gen.cons (gen_cmt "// DBC file version" (by decide) D1) (Gen.append p2 Gen.empty))
  have s2E : Sub (addAll D1 (if cfg.flag .useMon then fmonDefs g (E.lookup (monoName g)).isSome msgs else [])) E := by
    have := Sub.addAll (addAll D1 (if cfg.flag .useMon then fmonDefs g (E.lookup (monoName g)).isSome msgs else [])) [tickDef, hashDef]
    rw [← hE] at this
    exact this
  have a4 := monPart_run hd hHd hmon s01 s2E hf2.1 h.fmon
  have a5 : TItems dir (srcFile g) (Once (readFiles g (cfg.flag .useMon)) []) (Once (readFiles g (cfg.flag .useMon)) []) sourceTail
      (addAll D1 (if cfg.flag .useMon then fmonDefs g (E.lookup (monoName g)).isSome msgs else []))
      (addAll (addAll D1 (if cfg.flag .useMon then fmonDefs g (E.lookup (monoName g)).isSome msgs else [])) [tickDef, hashDef]) [.func extFunc] :=
    TItems.hp (D0 := []) (E := E) [] (fun files _ => sourceTail_read hHd.base) (fun _ _ q => nomatch q) (by rw [← hE]; exact Sub.refl _) hf2.2 (fun _ _ _ h => nomatch h) (Once.grows fun n hn => nomatch hn)
  rw [← hE] at a5
  have := (a1.append (a2.append (a3.append (a4.append a5)))).append a7
  refine (this.eqI ?_).eqO ?_
  · unfold confItems unitItems tailItems
    simp only [List.append_assoc, List.nil_append]
  · rw [sourceStart_eq]
    rfl

/-- The directory is read; the source file compiles when nothing is defined twice, every type is declared, and declarations agree. -/
theorem dir_compile_iff (hd : DirOk dir g on fl hops msgs) (hN : NamesOk g) (hsw : SwitchOk g) (h : UnitRd g maxDlc msgs files (addAll D0 (confDefs g on)) E mono cfg K)
    (hw : ∀ w ∈ confWords, E.lookup w = none) (hc : Fresh D0 (confDefs g on)) (ho : mainHeaderOps g maxDlc msgs = some hops) :
    ∃ sops ls, mainSourceOps g msgs = some sops ∧ ls.length = msgs.length ∧ (∀ p ∈ msgs.zip ls, IsFuncs g cfg K p.1 p.2) ∧
      (dir.lookup (srcFile g) = some (opsText sops) → ∃ F, ∀ f, F ≤ f → compileTree f dir D0 (srcFile g) =
        if ((confItems fl (cfg.flag .useMon)).flatMap Item.defines ++ definedNames g msgs).Nodup ∧ typesKnown baseTypes (confItems fl (cfg.flag .useMon) ++ unitItems g cfg.flag mono msgs ls) = true ∧
          declsAgree (confItems fl (cfg.flag .useMon) ++ unitItems g cfg.flag mono msgs ls) = true
        then some (confItems fl (cfg.flag .useMon) ++ unitItems g cfg.flag mono msgs ls) else none) := by
  obtain ⟨sops, ls, a1, a2, a3, a4⟩ := dirSource_run hd hN hsw h hw hc ho
  refine ⟨sops, ls, a1, a2, a3, fun hs => ?_⟩
  obtain ⟨F, hF⟩ := a4.compile hs (show Once _ _ _ from ⟨fun _ q => (nomatch q), fun _ _ q => (nomatch q)⟩)
  refine ⟨F, fun f hf => ?_⟩
  rw [hF f hf, List.flatMap_append, unit_defines a2 a3]

end Verif
