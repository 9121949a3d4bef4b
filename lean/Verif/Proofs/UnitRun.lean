import Verif.Proofs.UnitRead
/-
The whole source file as a C program: what it compiles to, and calls of its functions.
-/
namespace Verif
open Spec

variable {files : List (Str × Str)} {D D0 E : Defs} {g : GenDesc} {m : Msg}

/-! ### Lookup in a translation unit -/

theorem funcOf_mem {is : List Spec.Item} (hn : (is.flatMap Item.defines).Nodup) {fn : Func} (h : .func fn ∈ is) : funcOf is fn.name = some fn := by
  unfold funcOf
  induction is with
  | nil => cases h
  | cons i r ih =>
    rw [List.flatMap_cons] at hn
    obtain ⟨n1, n2, n3⟩ := List.nodup_append.1 hn
    rw [List.findSome?_cons]
    rcases List.mem_cons.1 h with e | h'
    · rw [← e]
      simp
    · have hd : fn.name ∈ r.flatMap Item.defines := List.mem_flatMap.2 ⟨_, h', by simp [Item.defines]⟩
      cases i with
      | struct n ms => exact ih n2 h'
      | proto a b c => exact ih n2 h'
      | «alias» a b => exact ih n2 h'
      | enum a b => exact ih n2 h'
      | var a b c => exact ih n2 h'
      | func x =>
        have hx : x.name ≠ fn.name := fun e => n3 x.name (by simp [Item.defines]) _ hd e
        simp only [hx, if_false]
        exact ih n2 h'

theorem funcOf_none {is : List Spec.Item} {n : Str} (h : n ∉ is.flatMap Item.defines) : funcOf is n = none := by
  unfold funcOf
  rw [List.findSome?_eq_none_iff]
  intro i hi
  cases i with
  | struct n ms => rfl
  | proto a b c => rfl
  | «alias» a b => rfl
  | enum a b => rfl
  | var a b c => rfl
  | func x =>
    have hx : x.name ≠ n := fun e => h (List.mem_flatMap.2 ⟨_, hi, by simp [Item.defines, e]⟩)
    simp [hx]

theorem structOf_mem {is : List Spec.Item} (hn : (is.flatMap Item.defines).Nodup) {n : Str} {ms : List (Str × MTy)} (h : .struct n ms ∈ is) : structOf is n = some ms := by
  unfold structOf
  induction is with
  | nil => cases h
  | cons i r ih =>
    rw [List.flatMap_cons] at hn
    obtain ⟨n1, n2, n3⟩ := List.nodup_append.1 hn
    rw [List.findSome?_cons]
    rcases List.mem_cons.1 h with e | h'
    · rw [← e]
      simp
    · have hd : n ∈ r.flatMap Item.defines := List.mem_flatMap.2 ⟨_, h', by simp [Item.defines]⟩
      cases i with
      | struct k ks =>
        have hx : k ≠ n := fun e => n3 k (by simp [Item.defines]) _ hd e
        simp only [hx, if_false]
        exact ih n2 h'
      | proto a b c => exact ih n2 h'
      | func x => exact ih n2 h'
      | «alias» a b => exact ih n2 h'
      | enum a b => exact ih n2 h'
      | var a b c => exact ih n2 h'

theorem isProto_mem {is : List Spec.Item} {t n : Str} {ps : List Param} (h : .proto t n ps ∈ is) : isProto is n = true := by
  unfold isProto
  exact List.any_eq_true.2 ⟨_, h, by simp⟩

/-! ### The members of the struct -/

theorem filter_flatMap' {α β : Type} (l : List α) (f : α → List β) (p : β → Bool) : (l.flatMap f).filter p = l.flatMap fun x => (f x).filter p := by
  induction l with
  | nil => rfl
  | cons x r ih => rw [List.flatMap_cons, List.filter_append, ih, List.flatMap_cons]

def isInt : Str × MTy → Bool
  | (_, .int _ _) => true
  | _ => false

def isFlt : Str × MTy → Bool
  | (_, .flt) => true
  | _ => false

/-- Members for signals. -/
theorem partMembers_eq (cfg : Cfg) (m : Msg) : partMembers (cfg.flag .useSigFloat) (cfg.flag .useBits) (cfg.flag .autoRoll) m =
    (structSigs cfg m).flatMap (memsOf (cfg.flag .useSigFloat) (cfg.flag .useBits)) := by
  unfold partMembers structSigs
  rw [List.flatMap_append]
  congr 1
  cases m.sigAt m.rollSig with
  | none => rfl
  | some r =>
    dsimp only
    cases cfg.flag .autoRoll with
    | false => rfl
    | true =>
      rw [if_pos rfl, if_pos rfl, List.flatMap_cons, List.flatMap_nil, List.append_nil]
      rfl

theorem memsOf_int (cfg : Cfg) (s : Sig) : (memsOf (cfg.flag .useSigFloat) (cfg.flag .useBits) s).filter isInt =
    (sigDecls cfg s).map fun p => (p.1, .int p.2.ty p.2.width) := by
  unfold memsOf sigDecls sigDecl fieldTy
  cases s.isSimple <;> cases cfg.flag .useSigFloat <;> cases s.isDouble <;> rfl

theorem memsOf_flt (cfg : Cfg) (s : Sig) : (memsOf (cfg.flag .useSigFloat) (cfg.flag .useBits) s).filter isFlt =
    (sigFloats cfg s).map fun n => (n, .flt) := by
  unfold memsOf sigFloats fieldTy
  cases s.isSimple <;> cases cfg.flag .useSigFloat <;> cases s.isDouble <;> rfl

theorem members_int (cfg : Cfg) (m : Msg) : (structMembers cfg.flag m).filter isInt = (structDecls cfg m).map fun p => (p.1, .int p.2.ty p.2.width) := by
  unfold structMembers structDecls
  rw [partMembers_eq, List.filter_append, filter_flatMap', List.map_flatMap]
  have : (if cfg.flag .useMon then [("mon1".toList, MTy.named "FrameMonitor_t".toList)] else []).filter isInt = [] := by
    cases cfg.flag .useMon <;> rfl
  rw [this, List.append_nil]
  congr 1
  funext s
  exact memsOf_int cfg s

theorem members_flt (cfg : Cfg) (m : Msg) : (structMembers cfg.flag m).filter isFlt = (floatDecls cfg m).map fun n => (n, .flt) := by
  unfold structMembers floatDecls
  rw [partMembers_eq, List.filter_append, filter_flatMap', List.map_flatMap]
  have : (if cfg.flag .useMon then [("mon1".toList, MTy.named "FrameMonitor_t".toList)] else []).filter isFlt = [] := by
    cases cfg.flag .useMon <;> rfl
  rw [this, List.append_nil]
  congr 1
  funext s
  exact memsOf_flt cfg s

theorem mem_of_lookup {α : Type} {l : List (Str × α)} {n : Str} {a : α} (h : l.lookup n = some a) : (n, a) ∈ l := by
  obtain ⟨l1, l2, e, -⟩ := List.lookup_eq_some_iff.1 h
  rw [e]
  simp

theorem decls_mem {cfg : Cfg} {n : Str} {d : FDecl} (h : (structDecls cfg m).lookup n = some d) : (n, .int d.ty d.width) ∈ structMembers cfg.flag m := by
  have := mem_of_lookup h
  have h2 : (n, MTy.int d.ty d.width) ∈ (structMembers cfg.flag m).filter isInt := by
    rw [members_int]
    exact List.mem_map.2 ⟨_, this, rfl⟩
  exact (List.mem_filter.1 h2).1

theorem floats_mem {cfg : Cfg} {n : Str} (h : n ∈ floatDecls cfg m) : (n, .flt) ∈ structMembers cfg.flag m := by
  have h2 : (n, MTy.flt) ∈ (structMembers cfg.flag m).filter isFlt := by
    rw [members_flt]
    exact List.mem_map.2 ⟨_, h, rfl⟩
  exact (List.mem_filter.1 h2).1

theorem decls_nodup {cfg : Cfg} (h : ((structMembers cfg.flag m).map (·.1)).Nodup) : ((structDecls cfg m).map (·.1) ++ floatDecls cfg m).Nodup := by
  have e1 : (structDecls cfg m).map (·.1) = ((structMembers cfg.flag m).filter isInt).map (·.1) := by
    rw [members_int, List.map_map]
    rfl
  have e2 : floatDecls cfg m = ((structMembers cfg.flag m).filter isFlt).map (·.1) := by
    rw [members_flt, List.map_map]
    exact (List.map_id _).symm
  rw [e1, e2]
  have hs : ∀ p : Str × MTy → Bool, (((structMembers cfg.flag m).filter p).map (·.1)).Nodup := fun p =>
    List.Nodup.sublist (List.Sublist.map _ List.filter_sublist) h
  refine List.nodup_append.2 ⟨hs _, hs _, ?_⟩
  intro a ha b hb e
  subst e
  obtain ⟨⟨n1, t1⟩, q1, rfl⟩ := List.mem_map.1 ha
  obtain ⟨⟨n2, t2⟩, q2, e⟩ := List.mem_map.1 hb
  obtain ⟨q1, p1⟩ := List.mem_filter.1 q1
  obtain ⟨q2, p2⟩ := List.mem_filter.1 q2
  have e : n2 = n1 := e
  subst e
  have := lookup_of_nodup h q1
  rw [lookup_of_nodup h q2] at this
  cases this
  cases t1 <;> simp [isInt, isFlt] at p1 p2

theorem decl_width {cfg : Cfg} {n : Str} {d : FDecl} (h : (structDecls cfg m).lookup n = some d) : ∀ w, d.width = some w → w ≤ d.ty.bits := by
  intro w hw
  have := mem_of_lookup h
  unfold structDecls at this
  obtain ⟨s, -, hs⟩ := List.mem_flatMap.1 this
  unfold sigDecls at hs
  rcases List.mem_cons.1 hs with e | hs
  · injection e with _ e
    subst e
    unfold sigDecl at hw ⊢
    dsimp only at hw ⊢
    split at hw
    · injection hw with hw
      subst hw
      rename_i hb
      have : s.lengthBit < 8 := by exact of_decide_eq_true (Bool.and_eq_true _ _ ▸ hb).2
      have : 8 ≤ s.typeRo.bits := by cases s.typeRo <;> decide
      omega
    · cases hw
  · split at hs
    · rw [List.mem_singleton] at hs
      injection hs with _ e
      subst e
      cases hw
    · cases hs

/-! ### The translation unit -/

/-- Names the source file defines: struct types, functions. -/
def definedNames (g : GenDesc) (msgs : List Msg) : List Str :=
  (msgs.filter (·.frameNotEmpty)).map typeName ++ "__ext_sig__".toList :: (msgs.filter (·.frameNotEmpty)).flatMap fun m => [unpackName g m, packName g m]

/-- The generated headers as files. -/
def genFiles (g : GenDesc) (hops : List WOp) (msgs : List Msg) : List (Str × Str) :=
  [(g.drvLow ++ ".h".toList, opsText hops), (g.drvLow ++ "-fmon.h".toList, opsText (fmonHeaderOps g msgs))]

/-- What reading the files of a driver needs.  `D0`: macros of the user; `E`: macros in the end. -/
structure UnitRd (g : GenDesc) (maxDlc : Nat) (msgs : List Msg) (files : List (Str × Str)) (D0 E : Defs) (mono : Bool) (cfg : Cfg) (K : Look) : Prop where
  table : E = addAll D0 (headerDefs g maxDlc msgs ++ tailDefs g (cfg.flag .useMon) mono msgs)
  fresh : Fresh D0 (headerDefs g maxDlc msgs ++ tailDefs g (cfg.flag .useMon) mono msgs)
  head : HeadOk g files D0 E
  flag : ∀ f, cfg.flag f = (E.lookup (flagName g f)).isSome
  monoE : mono = (E.lookup (monoName g)).isSome
  fmon : cfg.flag .useMon = true → (∀ m ∈ msgs, FmonOk g E mono m) ∧ E.lookup (fmonFn g true []) = none
  max : maxDlc < 2 ^ 64
  ver : g.hiver < 2 ^ 32 ∧ g.lowver < 2 ^ 32
  hdr : ∀ m ∈ msgs, HdrMsg g E m
  src : ∀ m ∈ msgs, m.frameNotEmpty = true → SrcMsg E m
  user : UserOk g E K
  look : LookOk g E msgs mono K
  print : ∀ m ∈ msgs, m.frameNotEmpty = true → ∃ xs tb, Printed m xs tb

/-- What compiling the files of a driver needs. -/
structure UnitGood (g : GenDesc) (maxDlc : Nat) (msgs : List Msg) (files : List (Str × Str)) (D0 E : Defs) (mono : Bool) (cfg : Cfg) (K : Look) : Prop
    extends UnitRd g maxDlc msgs files D0 E mono cfg K where
  names : (definedNames g msgs).Nodup

/-- The declarations of the unit. -/
def unitItems (g : GenDesc) (flag : Flag → Bool) (mono : Bool) (msgs : List Msg) (ls : List (List Spec.Item)) : List Spec.Item :=
  headerItems g flag msgs ++ tailItems g (flag .useMon) mono msgs ++ ls.flatten

variable {maxDlc : Nat} {msgs : List Msg} {mono : Bool} {cfg : Cfg} {K : Look}

theorem source_read (h : UnitRd g maxDlc msgs files D0 E mono cfg K) {hops : List WOp} (ho : mainHeaderOps g maxDlc msgs = some hops)
    (hF : FilesOk g files hops (fmonHeaderOps g msgs)) :
    ∃ sops ls, mainSourceOps g msgs = some sops ∧ ls.length = msgs.length ∧ (∀ p ∈ msgs.zip ls, IsFuncs g cfg K p.1 p.2) ∧
      GItems files sops D0 E (unitItems g cfg.flag mono msgs ls) := by
  have ef : (fun f => (E.lookup (flagName g f)).isSome) = cfg.flag := funext fun f => (h.flag f).symm
  have hmon : cfg.flag .useMon = (E.lookup g.usemon).isSome := h.flag .useMon
  have a := sourceStart_read h.head h.max h.hdr ho hF hmon h.monoE h.fmon h.table h.fresh h.ver
  obtain ⟨ms, ls, b1, b2, b3, b4⟩ := sourceMsgs_read (files := files) (g := g) (D := E) (K := K) (cfg := cfg) (msgs := msgs) (fun m hm hne =>
    ⟨src_of h.head h.hdr h.table h.fresh hmon (fun q => (h.fmon q).1) h.flag h.user h.look hm hne (h.src m hm hne), (h.hdr m hm).fn hne, h.print m hm hne⟩)
    (h.look.frame.trans (h.flag .useCanStruct).symm)
  refine ⟨sourceStartOps g ++ ms.flatten, ls, ?_, b2, b3, ?_⟩
  · unfold mainSourceOps
    rw [b1]
    rfl
  · rw [ef] at a
    exact a.append b4

theorem funcs_defines {ls : List (List Spec.Item)} (hl : ls.length = msgs.length) (h : ∀ p ∈ msgs.zip ls, IsFuncs g cfg K p.1 p.2) :
    ls.flatten.flatMap Item.defines = (msgs.filter (·.frameNotEmpty)).flatMap fun m => [unpackName g m, packName g m] := by
  induction msgs generalizing ls with
  | nil =>
    cases ls with
    | nil => rfl
    | cons _ _ => cases hl
  | cons m r ih =>
    cases ls with
    | nil => cases hl
    | cons x ls =>
      rw [List.flatten_cons, List.flatMap_append, ih (by simpa using hl) fun p hp => h p (by rw [List.zip_cons_cons]; exact List.mem_cons_of_mem _ hp)]
      have hx := h (m, x) (by rw [List.zip_cons_cons]; exact List.mem_cons_self)
      unfold IsFuncs at hx
      cases hne : m.frameNotEmpty with
      | false =>
        rw [hne, if_neg Bool.false_ne_true] at hx
        have hx : x = [] := hx
        rw [hx, List.filter_cons_of_neg (by simp [hne])]
        rfl
      | true =>
        rw [hne, if_pos rfl] at hx
        obtain ⟨xs, tb, u, p, -, -, -, e⟩ := hx
        have e : x = _ := e
        rw [e, List.filter_cons_of_pos (by simp [hne])]
        rfl

theorem unit_defines {ls : List (List Spec.Item)} (hl : ls.length = msgs.length) (h : ∀ p ∈ msgs.zip ls, IsFuncs g cfg K p.1 p.2) (flag : Flag → Bool) :
    (unitItems g flag mono msgs ls).flatMap Item.defines = definedNames g msgs := by
  unfold unitItems
  rw [List.flatMap_append, List.flatMap_append, funcs_defines hl h]
  have e1 : (headerItems g flag msgs).flatMap Item.defines = (msgs.filter (·.frameNotEmpty)).map typeName := by
    unfold headerItems
    rw [List.flatMap_append]
    have p : ((msgs.flatMap (protoItems g (flag .useCanStruct))).flatMap Item.defines) = [] := by
      rw [List.flatMap_eq_nil_iff]
      intro i hi
      obtain ⟨m, -, hi⟩ := List.mem_flatMap.1 hi
      unfold protoItems at hi
      split at hi
      · rcases List.mem_cons.1 hi with rfl | hi
        · rfl
        · rw [List.mem_singleton.1 hi]; rfl
      · cases hi
    rw [p, List.append_nil]
    clear hl h ls p
    induction msgs with
    | nil => rfl
    | cons m r ih =>
      rw [List.flatMap_cons, List.flatMap_append, ih]
      unfold structItems
      cases hne : m.frameNotEmpty with
      | false => rw [if_neg Bool.false_ne_true, List.filter_cons_of_neg (by simp [hne])]; rfl
      | true => rw [if_pos rfl, List.filter_cons_of_pos (by simp [hne])]; rfl
  have e2 : (tailItems g (flag .useMon) mono msgs).flatMap Item.defines = ["__ext_sig__".toList] := by
    unfold tailItems
    rw [List.flatMap_append]
    have p : ((if flag .useMon then fmonItems g mono msgs else []) : List Spec.Item).flatMap Item.defines = [] := by
      rw [List.flatMap_eq_nil_iff]
      intro i hi
      split at hi
      · unfold fmonItems at hi
        split at hi
        · rw [List.mem_singleton.1 hi]; rfl
        · obtain ⟨m, -, rfl⟩ := List.mem_map.1 hi
          rfl
      · cases hi
    rw [p]
    rfl
  rw [e1, e2]
  unfold definedNames
  rw [List.append_assoc]
  rfl

/-- The files are read; they compile when nothing is defined twice. -/
theorem unit_compile_iff (h : UnitRd g maxDlc msgs files D0 E mono cfg K) {hops : List WOp} (ho : mainHeaderOps g maxDlc msgs = some hops)
    (hF : FilesOk g files hops (fmonHeaderOps g msgs)) :
    ∃ sops ls, mainSourceOps g msgs = some sops ∧ ls.length = msgs.length ∧ (∀ p ∈ msgs.zip ls, IsFuncs g cfg K p.1 p.2) ∧
      ∃ F, ∀ f, F ≤ f → compile f files D0 (opsText sops) = if (definedNames g msgs).Nodup then some (unitItems g cfg.flag mono msgs ls) else none := by
  obtain ⟨sops, ls, a1, a2, a3, us, ⟨lines, o, r⟩, p⟩ := source_read h ho hF
  refine ⟨sops, ls, a1, a2, a3, ?_⟩
  obtain ⟨F1, h1⟩ := Run.file o.ppl (r [])
  obtain ⟨F2, h2⟩ := p.unit
  refine ⟨F1 + F2, fun f hf => ?_⟩
  unfold compile
  have e := h1 f (by omega) f (by omega) [] rfl
  rw [List.nil_append] at e
  have e : ppText f files f { defs := D0 } (opsText sops) = mkPP [] ⟨E, us, false⟩ := e
  dsimp only
  rw [e]
  rw [if_neg (by simp [mkPP])]
  show (parseUnit f us).bind _ = _
  rw [h2 f (by omega), Option.bind_some, unit_defines a2 a3]

/-- The files compile. -/
theorem unit_compile (h : UnitGood g maxDlc msgs files D0 E mono cfg K) {hops : List WOp} (ho : mainHeaderOps g maxDlc msgs = some hops)
    (hF : FilesOk g files hops (fmonHeaderOps g msgs)) :
    ∃ sops ls, mainSourceOps g msgs = some sops ∧ ls.length = msgs.length ∧ (∀ p ∈ msgs.zip ls, IsFuncs g cfg K p.1 p.2) ∧
      ∃ F, ∀ f, F ≤ f → compile f files D0 (opsText sops) = some (unitItems g cfg.flag mono msgs ls) := by
  obtain ⟨sops, ls, a1, a2, a3, F, hF⟩ := unit_compile_iff h.toUnitRd ho hF
  refine ⟨sops, ls, a1, a2, a3, F, fun f hf => ?_⟩
  rw [hF f hf, if_pos h.names]

end Verif
