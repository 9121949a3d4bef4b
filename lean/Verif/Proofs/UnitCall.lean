import Verif.Proofs.UnitRun
/-
Calls of the functions of the compiled source file against the model.
-/
namespace Verif
open Spec

variable {files : List (Str × Str)} {D D0 E : Defs} {g : GenDesc} {m : Msg} {maxDlc : Nat} {msgs : List Msg} {mono : Bool} {cfg : Cfg} {K : Look}
  {φ : Type} {T : Target φ} {hash : List Nat → Nat → Nat → Str → Nat → Nat} {tick dlcArg : Nat}

/-- The user's function behind `GetFrameHash` against the hash of the model. -/
def HashT (T : Target φ) (hash : List Nat → Nat → Nat → Str → Nat → Nat) (defd : List Str) (h : Hook) (dlc id : Nat) (method : Str) (op : Nat) : Prop :=
  match h with
  | .zero => ∀ d, hash d dlc id method op % 256 = 0
  | .call f => f ∉ defd ∧ ∃ z u, T.const method = some z ∧ T.user f = some u ∧
      ∀ d, ∃ v : CVal, u [.p .data, .i ⟨.u32, (dlc : Nat)⟩, .i ⟨.u32, (id : Nat)⟩, .i ⟨.i32, z⟩, .i ⟨.i32, (op : Nat)⟩] d = some (.i v) ∧
        CTy.u8.conv v.val = (hash d dlc id method op % 256 : Nat)

/-- The user's function behind `GetSystemTick` against the time of the model. -/
def TickT (T : Target φ) (tick : Nat) : Hook → Prop
  | .zero => tick % 2 ^ 32 = 0
  | .call f => ∃ u, T.user f = some u ∧ ∀ d, ∃ v : CVal, u [] d = some (.i v) ∧ CTy.u32.conv v.val = (tick % 2 ^ 32 : Nat)

/-- What running the functions needs of the target: the user's functions and the numbers behind the macros. -/
structure TargetOk (g : GenDesc) (msgs : List Msg) (mono : Bool) (cfg : Cfg) (K : Look) (T : Target φ) (hash : List Nat → Nat → Nat → Str → Nat → Nat) (tick : Nat) : Prop where
  ext64 : cfg.ext64 = T.ext64
  tick : TickT T tick K.tick
  hash : cfg.flag .autoCsm = true → ∀ m ∈ msgs, m.frameNotEmpty = true → ∀ x, m.sigAt m.csmSig = some x → HashT T hash (definedNames g msgs) K.hash m.dlc m.msgId m.csmMethod m.csmOp
  fmon : cfg.flag .useMon = true → ∀ m ∈ msgs, m.frameNotEmpty = true → T.user (fmonFn g mono m.name) = none
  max : K.maxW.contains '.' = false ∧ ∃ v, litOf K.maxW = some v ∧ v.val = (cfg.maxDlc : Nat) ∧ cfg.maxDlc < 2 ^ 31
  init : K.initW.contains '.' = false ∧ ∃ v, litOf K.initW = some v ∧ CTy.u8.conv v.val = (cfg.initByte : Nat)

/-- What running the functions needs of a message. -/
structure CallMsg (m : Msg) : Prop where
  consts : ∀ s ∈ m.signals, s.isSimple = false → IntConsts s
  bits : ∀ s ∈ m.signals, s.lengthBit < 256
  dlc : m.dlc < 256
  csm : ∀ x, m.sigAt m.csmSig = some x → m.csmMethod ∉ ["_m".toList, "_d".toList, "dlc_".toList, "cframe".toList, "_len".toList, "_ide".toList, "i".toList]

/-- The environment of a call. -/
def unitEnv (f : Nat) (T : Target φ) (is : List Spec.Item) (mem : List (Str × MTy)) : Env φ :=
  { F := T.F, ext64 := T.ext64, mem := mem, const := T.const, user := T.user, defd := helper f T is, proto := isProto is, ret := T.ret }

theorem fmonFn_defd (mono : Bool) (n : Str) : fmonFn g mono n ∉ (msgs.filter (·.frameNotEmpty)).flatMap (fun m => [unpackName g m, packName g m]) := by
  intro h
  obtain ⟨m, -, h⟩ := List.mem_flatMap.1 h
  have hu : unpackName g m = 'U' :: ("npack_".toList ++ m.name ++ "_".toList ++ g.drvOrig) := rfl
  have hp : packName g m = 'P' :: ("ack_".toList ++ m.name ++ "_".toList ++ g.drvOrig) := rfl
  have hf : ∃ t, fmonFn g mono n = '_' :: 'F' :: t := by cases mono <;> exact ⟨_, rfl⟩
  obtain ⟨t, hf⟩ := hf
  rw [hf, hu, hp] at h
  simp at h

variable {ls : List (List Spec.Item)} {f : Nat}

theorem struct_mem (hm : m ∈ msgs) (hne : m.frameNotEmpty = true) : .struct (typeName m) (structMembers cfg.flag m) ∈ unitItems g cfg.flag mono msgs ls := by
  refine List.mem_append_left _ (List.mem_append_left _ (List.mem_append_left _ (List.mem_flatMap.2 ⟨m, hm, ?_⟩)))
  unfold structItems
  rw [hne, if_pos rfl]
  exact List.mem_singleton.2 rfl

theorem ext_mem : .func extFunc ∈ unitItems g cfg.flag mono msgs ls :=
  List.mem_append_left _ (List.mem_append_right _ (List.mem_append_right _ (List.mem_singleton.2 rfl)))

theorem fmon_mem (hmon : cfg.flag .useMon = true) (hm : m ∈ msgs) : isProto (unitItems g cfg.flag mono msgs ls) (fmonFn g mono m.name) = true := by
  refine isProto_mem (t := "void".toList) (ps := fmonParams) (List.mem_append_left _ (List.mem_append_right _ (List.mem_append_left _ ?_)))
  rw [hmon, if_pos rfl]
  unfold fmonItems
  cases mono with
  | true =>
    rw [if_pos rfl]
    exact List.mem_singleton.2 rfl
  | false =>
    rw [if_neg Bool.false_ne_true]
    exact List.mem_map.2 ⟨m, hm, rfl⟩

theorem zip_mem {α β : Type} {l : List α} {k : List β} (h : k.length = l.length) {x : α} (hx : x ∈ l) : ∃ y ∈ k, (x, y) ∈ l.zip k := by
  induction l generalizing k with
  | nil => cases hx
  | cons a l ih =>
    cases k with
    | nil => cases h
    | cons b k =>
      rcases List.mem_cons.1 hx with rfl | hx
      · exact ⟨b, by simp, by simp⟩
      · obtain ⟨y, h1, h2⟩ := ih (by simpa using h) hx
        exact ⟨y, by simp [h1], by simp [h2]⟩

theorem unit_link (h : UnitGood g maxDlc msgs files D0 E mono cfg K) (hl : ls.length = msgs.length) (hls : ∀ p ∈ msgs.zip ls, IsFuncs g cfg K p.1 p.2)
    (hT : TargetOk g msgs mono cfg K T hash tick) (hd : dlcArg < 256) (hm : m ∈ msgs) (hne : m.frameNotEmpty = true) {k : FnKind}
    (hk : k ≠ .unpack → (K.frame = true ↔ k = .packS)) :
    Link (mkCtx cfg msgs m (fltOps T.F) hash tick dlcArg) K k (unitEnv f T (unitItems g cfg.flag mono msgs ls) (structMembers cfg.flag m)) := by
  have ef : (fun f => (E.lookup (flagName g f)).isSome) = cfg.flag := funext fun f => (h.flag f).symm
  have hnd := (h.hdr m hm).members hne
  rw [ef] at hnd
  have hN : ((unitItems g cfg.flag mono msgs ls).flatMap Item.defines).Nodup := by
    rw [unit_defines hl hls]
    exact h.names
  refine ⟨rfl, h.look.mac, fun n d hn => ⟨lookup_of_nodup hnd (decls_mem hn), decl_width hn⟩, fun n hn => lookup_of_nodup hnd (floats_mem hn), ?_, ?_, hk, ?_, hT.max, hT.init, hd⟩
  · intro hmon
    have hmon : cfg.flag .useMon = true := hmon
    refine lookup_of_nodup hnd ?_
    unfold structMembers
    rw [hmon, if_pos rfl]
    exact List.mem_append_right _ (List.mem_singleton.2 rfl)
  · have hq : funcOf (unitItems g cfg.flag mono msgs ls) "__ext_sig__".toList = some extFunc := funcOf_mem hN ext_mem
    refine ⟨fun vs => (callFunc f { F := T.F, ext64 := T.ext64, mem := [], const := fun _ => none, user := fun _ => none, defd := fun _ => none, proto := fun _ => false } extFunc vs
      { fld := fun _ => 0, flt := fun _ => T.F.ofInt 0, mon := fun _ => 0, dat := [] }).map (·.2), ?_, ?_⟩
    · show helper f T (unitItems g cfg.flag mono msgs ls) "__ext_sig__".toList = _
      unfold helper
      rw [hq]
      rfl
    · intro v bits hb
      dsimp only
      rw [ext_call _ _ _ _ hb]
      show (extSig T.ext64 v bits).map V.i = (extSig cfg.ext64 v bits).map V.i
      rw [hT.ext64]
  · have := hT.tick
    unfold TickT at this
    unfold TickRel
    exact this

theorem unit_run (h : UnitGood g maxDlc msgs files D0 E mono cfg K) (hl : ls.length = msgs.length) (hls : ∀ p ∈ msgs.zip ls, IsFuncs g cfg K p.1 p.2)
    (hT : TargetOk g msgs mono cfg K T hash tick) (hM : ∀ m ∈ msgs, m.frameNotEmpty = true → CallMsg m) (hm : m ∈ msgs) (hne : m.frameNotEmpty = true) :
    RunOk (mkCtx cfg msgs m (fltOps T.F) hash tick dlcArg) K (unitEnv f T (unitItems g cfg.flag mono msgs ls) (structMembers cfg.flag m)) m := by
  have ef : (fun f => (E.lookup (flagName g f)).isSome) = cfg.flag := funext fun f => (h.flag f).symm
  have hnd := (h.hdr m hm).members hne
  rw [ef] at hnd
  have hdef := unit_defines (mono := mono) hl hls cfg.flag
  have hc := hM m hm hne
  have hnone : ∀ n, n ∉ definedNames g msgs → helper f T (unitItems g cfg.flag mono msgs ls) n = none := by
    intro n hn
    unfold helper
    rw [funcOf_none (by rw [hdef]; exact hn)]
    rfl
  refine ⟨rfl, rfl, decls_nodup hnd, fun s hs => ((h.hdr m hm).sig hne s hs).1.name.1, ?_, hc.bits, (h.hdr m hm).text.id, hc.dlc, ?_, ?_⟩
  · intro s hs hsi
    obtain ⟨o, h1, -, h3⟩ := driverMac_of hm hne hs hsi
    obtain ⟨m', q1, q2, q3, q4⟩ := mem_macroSigs.1 h3
    exact ⟨o, h1, (hM m' q1 q2).consts o q3 q4⟩
  · intro x hx hcs
    have hcs : cfg.flag .autoCsm = true := hcs
    refine ⟨((h.src m hm hne).csm x hx).2, ?_, hc.csm x hx⟩
    have := hT.hash hcs m hm hne x hx
    unfold HashT at this
    unfold HashRel
    cases hh : K.hash with
    | zero =>
      rw [hh] at this
      exact this
    | call u =>
      rw [hh] at this
      exact ⟨hnone u this.1, this.2⟩
  · intro hmon
    have hmon : cfg.flag .useMon = true := hmon
    rw [h.look.fmon]
    refine ⟨?_, hT.fmon hmon m hm hne, fmon_mem hmon hm⟩
    show helper f T (unitItems g cfg.flag mono msgs ls) (fmonFn g mono m.name) = none
    unfold helper
    have : funcOf (unitItems g cfg.flag mono msgs ls) (fmonFn g mono m.name) = none := by
      unfold funcOf
      rw [List.findSome?_eq_none_iff]
      intro i hi
      cases i with
      | struct n ms => rfl
      | proto a b c => rfl
      | «alias» a b => rfl
      | enum a b => rfl
      | var a b c => rfl
      | func x =>
        have hx : x.name ≠ fmonFn g mono m.name := by
          intro e
          rcases List.mem_append.1 hi with hi | hi
          · rcases List.mem_append.1 hi with hi | hi
            · unfold headerItems at hi
              rcases List.mem_append.1 hi with hi | hi
              · obtain ⟨y, -, hy⟩ := List.mem_flatMap.1 hi
                unfold structItems at hy
                split at hy
                · cases List.mem_singleton.1 hy
                · cases hy
              · obtain ⟨y, -, hy⟩ := List.mem_flatMap.1 hi
                unfold protoItems at hy
                split at hy
                · rcases List.mem_cons.1 hy with hy | hy
                  · cases hy
                  · cases List.mem_singleton.1 hy
                · cases hy
            · unfold tailItems at hi
              rcases List.mem_append.1 hi with hi | hi
              · rw [hmon, if_pos rfl] at hi
                unfold fmonItems at hi
                cases mono with
                | true => rw [if_pos rfl] at hi; cases List.mem_singleton.1 hi
                | false =>
                  rw [if_neg Bool.false_ne_true] at hi
                  obtain ⟨y, -, hy⟩ := List.mem_map.1 hi
                  cases hy
              · cases List.mem_singleton.1 hi
                have hf : ∃ t, fmonFn g mono m.name = '_' :: 'F' :: t := by cases mono <;> exact ⟨_, rfl⟩
                obtain ⟨t, hf⟩ := hf
                rw [hf] at e
                have e : '_' :: '_' :: "ext_sig__".toList = '_' :: 'F' :: t := e
                injection e with _ e
                injection e with e _
                exact absurd e (by decide)
          · refine fmonFn_defd (g := g) (msgs := msgs) mono m.name ?_
            rw [← funcs_defines hl hls]
            exact List.mem_flatMap.2 ⟨_, hi, by simp [Item.defines, e]⟩
        simp [hx]
    rw [this]
    rfl

/-- Calls of the compiled functions do what the model says. -/
theorem unit_call (h : UnitGood g maxDlc msgs files D0 E mono cfg K) (hl : ls.length = msgs.length) (hls : ∀ p ∈ msgs.zip ls, IsFuncs g cfg K p.1 p.2)
    (hT : TargetOk g msgs mono cfg K T hash tick) (hM : ∀ m ∈ msgs, m.frameNotEmpty = true → CallMsg m) (hd : dlcArg < 256) (hm : m ∈ msgs) (hne : m.frameNotEmpty = true)
    (hf : 256 ≤ f) {N : OutNames} (hN : cfg.flag .useCanStruct = true → N.len = "DLC".toList ∧ N.ide = "IDE".toList) {st : St φ} {cst : CSt φ} (ho : Obs K N st cst)
    (ht : Typed (mkCtx cfg msgs m (fltOps T.F) hash tick dlcArg) st) {v : CVal} (hv : CTy.u8.conv v.val = (dlcArg : Nat)) :
    Same K N m.msgId (runUnpack (mkCtx cfg msgs m (fltOps T.F) hash tick dlcArg) m st)
      (callUnit f T (unitItems g cfg.flag mono msgs ls) (unpackName g m) (unpackArgs v) cst) ∧
    Same K N m.msgId (runPack (mkCtx cfg msgs m (fltOps T.F) hash tick dlcArg) m st)
      (callUnit f T (unitItems g cfg.flag mono msgs ls) (packName g m) (packArgs (cfg.flag .useCanStruct) N) cst) := by
  have hnd : ((unitItems g cfg.flag mono msgs ls).flatMap Item.defines).Nodup := by
    rw [unit_defines hl hls]
    exact h.names
  have hfr : K.frame = cfg.flag .useCanStruct := h.look.frame.trans (h.flag .useCanStruct).symm
  obtain ⟨y, hy, hz⟩ := zip_mem hl hm
  have hx := hls _ hz
  unfold IsFuncs at hx
  rw [hne, if_pos rfl] at hx
  obtain ⟨xs, tb, u, p, h1, h2, h3, h4⟩ := hx
  have h4 : y = _ := h4
  have mem : ∀ i ∈ y, i ∈ unitItems g cfg.flag mono msgs ls := fun i hi => List.mem_append_right _ (List.mem_flatten.2 ⟨y, hy, hi⟩)
  have q1 : funcOf (unitItems g cfg.flag mono msgs ls) (unpackName g m) = some (unpackFunc g m K (preprocess cfg.flag [] u)) :=
    funcOf_mem hnd (mem _ (by rw [h4]; exact List.mem_cons_self))
  have q2 : funcOf (unitItems g cfg.flag mono msgs ls) (packName g m) = some (packFunc g m K (preprocess cfg.flag [] p)) :=
    funcOf_mem hnd (mem _ (by rw [h4]; exact List.mem_cons_of_mem _ List.mem_cons_self))
  have q3 := structOf_mem hnd (struct_mem (g := g) (cfg := cfg) (mono := mono) (ls := ls) hm hne)
  have hR := unit_run (f := f) (dlcArg := dlcArg) h hl hls hT hM hm hne
  constructor
  · unfold callUnit
    rw [q1]
    dsimp only
    have e : msgType (unpackFunc g m K (preprocess cfg.flag [] u)).params (unpackArgs (φ := φ) v) = some (typeName m) := rfl
    rw [e, Option.bind_some, q3]
    exact unpack_call (unit_link h hl hls hT hd hm hne (fun q => absurd rfl q)) hR h1 hf h2 ho ht hv
  · unfold callUnit
    rw [q2]
    dsimp only
    have e : msgType (packFunc g m K (preprocess cfg.flag [] p)).params (packArgs (φ := φ) (cfg.flag .useCanStruct) N) = some (typeName m) := by
      show msgType (packParams K.frame m) _ = _
      rw [hfr]
      cases cfg.flag .useCanStruct <;> rfl
    rw [e, Option.bind_some, q3, ← hfr]
    refine pack_call (k := if cfg.flag .useCanStruct then .packS else .packA) rfl hfr (unit_link h hl hls hT hd hm hne ?_) ?_ hR h1 hf h3 ho ht
    · intro _
      rw [hfr]
      cases cfg.flag .useCanStruct <;> simp
    · intro hq
      refine hN ?_
      cases hb : cfg.flag .useCanStruct with
      | true => rfl
      | false => rw [hb] at hq; cases hq

end Verif
