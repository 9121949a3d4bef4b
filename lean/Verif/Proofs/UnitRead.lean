import Verif.Proofs.SourceRead
import Verif.Proofs.CallRun
import Verif.Proofs.ExtRun
import Verif.Proofs.Macros
/-
The whole source file with its headers, read by the preprocessor and the C parser.
-/
namespace Verif
open Spec

variable {files : List (Str × Str)} {D D0 E : Defs} {g : GenDesc} {m : Msg}

/-! ### Which conversion macros there are -/

theorem sigDefs_conv {l : List Sig} {seen : List Str} {n : Str} {o : Sig} (hn : n ∉ seen)
    (h : (l.filter fun s => !s.isSimple).find? (fun s => s.name == n) = some o) : ∀ e ∈ convDefs g o, e ∈ sigDefs g m l seen := by
  induction l generalizing seen with
  | nil => cases h
  | cons s r ih =>
    intro e he
    unfold sigDefs
    by_cases hs : s.isSimple = true
    · have hc : convNew s seen = false := by simp [convNew, hs]
      have ha : convAfter s seen = seen := by simp [convAfter, hc]
      rw [List.filter_cons_of_neg (by simp [hs])] at h
      rw [ha]
      exact List.mem_append_right _ (ih hn h e he)
    · have hs : s.isSimple = false := by simpa using hs
      rw [List.filter_cons_of_pos (by simp [hs])] at h
      by_cases hq : s.name = n
      · rw [List.find?_cons_of_pos (by simp [hq])] at h
        have hc : convNew s seen = true := by simp [convNew, hs, hq, hn]
        rw [hc, if_pos rfl]
        cases h
        exact List.mem_append_left _ (List.mem_append_left _ he)
      · rw [List.find?_cons_of_neg (by simp [hq])] at h
        refine List.mem_append_right _ (ih (fun hx => ?_) h e he)
        unfold convAfter at hx
        split at hx
        · rcases List.mem_append.1 hx with hx | hx
          · exact hn hx
          · exact hq (List.mem_singleton.1 hx).symm
        · exact hn hx

theorem seenAfter_none {l : List Sig} {seen : List Str} {n : Str} (hn : n ∉ seen)
    (h : (l.filter fun s => !s.isSimple).find? (fun s => s.name == n) = none) : n ∉ seenAfter l seen := by
  induction l generalizing seen with
  | nil => exact hn
  | cons s r ih =>
    unfold seenAfter
    by_cases hs : s.isSimple = true
    · have hc : convNew s seen = false := by simp [convNew, hs]
      have ha : convAfter s seen = seen := by simp [convAfter, hc]
      rw [List.filter_cons_of_neg (by simp [hs])] at h
      rw [ha]
      exact ih hn h
    · have hs : s.isSimple = false := by simpa using hs
      rw [List.filter_cons_of_pos (by simp [hs])] at h
      by_cases hq : s.name = n
      · rw [List.find?_cons_of_pos (by simp [hq])] at h
        cases h
      · rw [List.find?_cons_of_neg (by simp [hq])] at h
        refine ih (fun hx => ?_) h
        unfold convAfter at hx
        split at hx
        · rcases List.mem_append.1 hx with hx | hx
          · exact hn hx
          · exact hq (List.mem_singleton.1 hx).symm
        · exact hn hx

theorem hdrDefs_conv {msgs : List Msg} {seen : List Str} {n : Str} {o : Sig} (hn : n ∉ seen)
    (h : (macroSigs msgs).find? (fun s => s.name == n) = some o) : ∀ e ∈ convDefs g o, e ∈ hdrDefs g msgs seen := by
  induction msgs generalizing seen with
  | nil => cases h
  | cons m r ih =>
    intro e he
    unfold hdrDefs
    cases hne : m.frameNotEmpty with
    | false =>
      rw [if_neg Bool.false_ne_true]
      have em : macroSigs (m :: r) = macroSigs r := by
        unfold macroSigs
        rw [List.filter_cons_of_neg (by simp [hne])]
      rw [em] at h
      exact List.mem_append_right _ (ih hn h e he)
    | true =>
      rw [if_pos rfl]
      have em : macroSigs (m :: r) = m.signals.filter (fun s => !s.isSimple) ++ macroSigs r := by
        unfold macroSigs
        rw [List.filter_cons_of_pos (by simp [hne])]
        simp
      rw [em, List.find?_append] at h
      cases hq : (m.signals.filter fun s => !s.isSimple).find? (fun s => s.name == n) with
      | some x =>
        rw [hq, Option.some_or] at h
        cases h
        exact List.mem_append_left _ (List.mem_append_right _ (sigDefs_conv hn hq e he))
      | none =>
        rw [hq, Option.none_or] at h
        exact List.mem_append_right _ (ih (seenAfter_none hn hq) h e he)

theorem hdrDefs_msg {msgs : List Msg} {seen : List Str} (hm : m ∈ msgs) : ∀ e ∈ msgDefs m, e ∈ hdrDefs g msgs seen := by
  induction msgs generalizing seen with
  | nil => cases hm
  | cons x r ih =>
    intro e he
    unfold hdrDefs
    rcases List.mem_cons.1 hm with rfl | hm
    · split
      · exact List.mem_append_left _ (List.mem_append_left _ he)
      · exact List.mem_append_left _ he
    · split
      · exact List.mem_append_right _ (ih hm e he)
      · exact List.mem_append_right _ (ih hm e he)

/-- Every signal that is not simple finds macros under its name. -/
theorem driverMac_of {msgs : List Msg} (hm : m ∈ msgs) (hne : m.frameNotEmpty = true) {s : Sig} (hs : s ∈ m.signals) (h1 : s.isSimple = false) :
    ∃ o, (driverMacros msgs).lookup s.name = some o ∧ o.name = s.name ∧ o ∈ macroSigs msgs := by
  rw [driverMacros_lookup]
  have hmem : s ∈ macroSigs msgs := mem_macroSigs.2 ⟨m, hm, hne, hs, h1⟩
  cases hq : (macroSigs msgs).find? (fun x => x.name == s.name) with
  | none => exact absurd (List.find?_eq_none.1 hq s hmem) (by simp)
  | some o => exact ⟨o, rfl, by simpa using List.find?_some hq, List.mem_of_find?_eq_some hq⟩

/-! ### What the user brings along -/

/-- The macros with a default, as they are in the end. -/
structure UserOk (g : GenDesc) (E : Defs) (K : Look) : Prop where
  tick : E.lookup "GetSystemTick".toList = some (.fn [] (tickBody K.tick)) ∧ HookOk E K.tick
  hash : E.lookup "GetFrameHash".toList = some (.fn hashParams (hashToks K.hash (hashParams.map fun p => [.word p]))) ∧ HookOk E K.hash
  max : ∃ d, E.lookup (maxDlcName g) = some d ∧ NumDef d K.maxW
  init : ∃ d, E.lookup (initByteName g) = some d ∧ NumDef d K.initW

/-- The first of several macros of a name counts. -/
theorem first_lookup {a b : List DefE} {e : DefE} (h : ∀ x ∈ a, x.name ≠ e.name) :
    (addAll D0 (a ++ e :: b)).lookup e.name = some ((D0.lookup e.name).getD e.d) := by
  rw [addAll_lookup]
  cases D0.lookup e.name with
  | some x => rfl
  | none =>
    have q : (defsOf (a ++ e :: b)).lookup e.name = some e.d := by
      induction a with
      | nil =>
        show List.lookup e.name ((e.name, e.d) :: defsOf b) = _
        rw [List.lookup_cons]
        simp
      | cons x r ih =>
        show List.lookup e.name ((x.name, x.d) :: defsOf (r ++ e :: b)) = _
        have hne : (e.name == x.name) = false := by simpa using fun q => h x (by simp) q.symm
        rw [List.lookup_cons, hne]
        exact ih fun y hy => h y (by simp [hy])
    rw [q]
    rfl

/-! ### The functions of a message -/

/-- What is needed of a message for reading its functions. -/
structure SrcMsg (E : Defs) (m : Msg) : Prop where
  expt : ∀ s ∈ m.signals, E.lookup (exptName s.name) = none
  csm : ∀ c, m.sigAt m.csmSig = some c → Nm E 500 m.csmMethod ∧ m.csmOp < 2 ^ 31

/-- What the macros of the files stand for. -/
structure LookOk (g : GenDesc) (E : Defs) (msgs : List Msg) (mono : Bool) (K : Look) : Prop where
  frame : K.frame = (E.lookup g.usestruct).isSome
  fmon : K.fmon = fmonFn g mono
  mac : ∀ n, K.mac n = (driverMacros msgs).lookup n

theorem fmonFn_head (mono : Bool) (n : Str) : exprHead [.word (fmonFn g mono n)] = true := by
  have h : ∀ t : Str, exprHead [.word ('_' :: 'F' :: t)] = true := by
    intro t
    unfold exprHead
    have h1 : isType ('_' :: 'F' :: t) = false := by
      unfold isType
      simp [typeNames]
    show (!isType ('_' :: 'F' :: t) && _) = true
    rw [h1]
    simp
  unfold fmonFn
  cases mono
  · exact h _
  · exact h _

theorem fmonFn_ne (mono : Bool) (n : Str) {c : Char} : fmonFn g mono n ≠ [c] := by
  unfold fmonFn
  cases mono <;> simp

theorem src_of {maxDlc : Nat} {msgs : List Msg} {mono mon : Bool} {K : Look} {cfg : Cfg} (hd : HeadOk g files D0 E) (hm : ∀ m ∈ msgs, HdrMsg g E m)
    (hE : E = addAll D0 (headerDefs g maxDlc msgs ++ tailDefs g mon mono msgs)) (hf : Fresh D0 (headerDefs g maxDlc msgs ++ tailDefs g mon mono msgs))
    (hmon : mon = (E.lookup g.usemon).isSome) (hfm : mon = true → ∀ m ∈ msgs, FmonOk g E mono m)
    (hc : ∀ f, cfg.flag f = (E.lookup (flagName g f)).isSome)
    (hu : UserOk g E K) (hK : LookOk g E msgs mono K) (hmm : m ∈ msgs) (hne : m.frameNotEmpty = true) (hs : SrcMsg E m) : Src g m cfg K E := by
  have h := hm m hmm
  have look : ∀ e ∈ headerDefs g maxDlc msgs ++ tailDefs g mon mono msgs, e.guard = false → E.lookup e.name = some e.d := by
    intro e he hg
    rw [hE]
    exact strict_lookup hf he hg
  have hdr : ∀ e ∈ hdrDefs g msgs [], e.guard = false → E.lookup e.name = some e.d := fun e he =>
    look e (List.mem_append_left _ (List.mem_append_right _ he))
  have hmsg : ∀ e ∈ msgDefs m, e.guard = false → E.lookup e.name = some e.d := fun e he => hdr e (hdrDefs_msg hmm e he)
  refine ⟨hd.base, fun f => (hc f).symm, hd.flagW, hd.drvUp, hd.drvLow, h.text.name, ?_, ?_, ?_, ?_, ?_, hu.tick, hu.hash, hs.csm, ?_, ?_, hu.max, hu.init⟩
  · exact hmsg ⟨false, m.name ++ "_DLC".toList, _⟩ (by simp [msgDefs]) rfl
  · exact hmsg ⟨false, m.name ++ "_CANID".toList, _⟩ (by simp [msgDefs]) rfl
  · exact hmsg ⟨false, m.name ++ "_IDE".toList, _⟩ (by simp [msgDefs]) rfl
  · intro s hss
    have a := (h.struct hne).sig s hss
    exact ⟨⟨a.name.id, (h.sig hne s hss).1.name.2, a.name.mac⟩, a.flt, hs.expt s hss⟩
  · intro s hss hsi
    obtain ⟨o, ho, hon, -⟩ := driverMac_of hmm hne hss hsi
    refine ⟨o, (hK.mac _).trans ho, ?_, ?_⟩
    all_goals rw [driverMacros_lookup] at ho
    · have := hdr _ (hdrDefs_conv (seen := []) (by simp) ho ⟨false, convBase g o ++ "_fromS".toList, .fn ["x".toList] (fromToks o [.word "x".toList])⟩
        (.tail _ (.tail _ (.head _)))) rfl
      rw [show convBase g o = g.drvUp ++ "_".toList ++ s.name by unfold convBase; rw [hon]] at this
      exact this
    · have := hdr _ (hdrDefs_conv (seen := []) (by simp) ho ⟨false, convBase g o ++ "_toS".toList, .fn ["x".toList] (toToks o [.word "x".toList])⟩
        (.tail _ (.head _))) rfl
      rw [show convBase g o = g.drvUp ++ "_".toList ++ s.name by unfold convBase; rw [hon]] at this
      exact this
  · intro hq
    have hmt : mon = true := by
      rw [hmon]
      rw [hc] at hq
      exact hq
    have hi := fmonFn_ident hd.drvLow h.text.name mono
    rw [hK.fmon]
    refine ⟨?_, hi.1, fmonFn_ne _ _, fmonFn_ne _ _, (hfm hmt m hmm).fn, fmonFn_head _ _⟩
    refine look ⟨false, fmonMac g m.name, .fn ["x".toList, "y".toList] (fmonBody (fmonFn g mono m.name))⟩ ?_ rfl
    refine List.mem_append_right _ ?_
    unfold tailDefs
    rw [hmt, if_pos rfl]
    refine List.mem_append_left _ (List.mem_append_right _ ?_)
    exact List.mem_map.2 ⟨m, hmm, rfl⟩
  · exact look ⟨false, validateName g, .fn ["msgDlc".toList] (validBody g)⟩ (List.mem_append_left _ (List.mem_append_left _
      (.tail _ (.tail _ (.tail _ (.head _)))))) rfl

/-! ### The source file -/

/-- What is needed of a message for printing. -/
structure PrintMsg (m : Msg) : Prop where
  ex : ∃ xs tb, Printed m xs tb

/-- The functions of a message as they are in the source file. -/
def IsFuncs (g : GenDesc) (cfg : Cfg) (K : Look) (m : Msg) (l : List Spec.Item) : Prop :=
  if m.frameNotEmpty then
    ∃ xs tb u p, Printed m xs tb ∧ writeUnpackBody m xs = some u ∧ (if cfg.flag .useCanStruct then writePackStructBody m tb else writePackArrayBody m tb) = some p ∧
      l = [.func (unpackFunc g m K (preprocess cfg.flag [] u)), .func (packFunc g m K (preprocess cfg.flag [] p))]
  else l = []

theorem sourceMsgs_read {K : Look} {cfg : Cfg} {msgs : List Msg} (hs : ∀ m ∈ msgs, m.frameNotEmpty = true → Src g m cfg K D ∧ FnNames g m D ∧ ∃ xs tb, Printed m xs tb)
    (hk : K.frame = cfg.flag .useCanStruct) :
    ∃ ms ls, allSome (msgs.map (sourceMsgOps g)) = some ms ∧ ls.length = msgs.length ∧
      (∀ p ∈ msgs.zip ls, IsFuncs g cfg K p.1 p.2) ∧ GItems files ms.flatten D D ls.flatten := by
  induction msgs with
  | nil => exact ⟨[], [], rfl, rfl, by simp, GItems.nil⟩
  | cons m r ih =>
    obtain ⟨ms, ls, e1, e3, e4, e5⟩ := ih fun x hx => hs x (by simp [hx])
    rw [List.map_cons]
    cases hne : m.frameNotEmpty with
    | false =>
      refine ⟨[] :: ms, [] :: ls, ?_, by simp [e3], ?_, e5⟩
      · rw [show sourceMsgOps g m = some [] by unfold sourceMsgOps; rw [hne, if_neg Bool.false_ne_true], allSome, e1]
        rfl
      · intro p hp
        rw [List.zip_cons_cons] at hp
        rcases List.mem_cons.1 hp with rfl | hp
        · unfold IsFuncs
          rw [hne, if_neg Bool.false_ne_true]
        · exact e4 p hp
    | true =>
      obtain ⟨q1, q2, xs, tb, q3⟩ := hs m (by simp) hne
      obtain ⟨ops, u, p, r1, r2, r3, r4⟩ := functions_read (files := files) q1 q2 q3 hne hk
      refine ⟨ops :: ms, _ :: ls, ?_, by simp [e3], ?_, r4.append e5⟩
      · rw [r1, allSome, e1]
        rfl
      · intro p hp
        rw [List.zip_cons_cons] at hp
        rcases List.mem_cons.1 hp with rfl | hp
        · unfold IsFuncs
          rw [hne, if_pos rfl]
          exact ⟨xs, tb, u, _, q3, r2, r3, rfl⟩
        · exact e4 p hp

end Verif
