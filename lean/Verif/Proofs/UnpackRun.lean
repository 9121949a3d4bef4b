import Verif.Proofs.Frame
import Verif.Proofs.Values
import Verif.Spec.Signals
/- Running a generated Unpack function. -/
namespace Verif

/-- The raw value of a signal, with its sign. -/
def Sig.value (s : Sig) (d : List Nat) : Int :=
  if s.signed then Spec.signedOf s.lengthBit (s.raw d) else (s.raw d : Int)
open Spec
variable {φ : Type}

/-- Value assigned to the raw member of a signal by Unpack, before the store; `none` when the
assignment is undefined. -/
def Sig.unpacked (s : Sig) (d : List Nat) : Option Int :=
  if s.signed then
    if s.lengthBit ≤ 32 then some (s.typeRo.conv (signedOf s.lengthBit (s.raw d))) else none
  else some (s.typeRo.conv (orFrags d (frags s)))

/-- The assignment to the raw member. -/
def rawStmt (s : Sig) : CStmt :=
  if s.signed then .setSigExt s.name s.typeRo (.expr (joinFrags (frags s))) s.lengthBit
  else .setSig s.name s.typeRo (.expr (joinFrags (frags s)))

/-- Statements of one signal after the raw assignment. -/
def physStmts (cfg : Cfg) (s : Sig) : List CStmt :=
  if !s.isSimple && cfg.flag .useSigFloat then
    [if s.isDouble then .fromSFloat s.nameFloat s.name else .fromSInt s.nameFloat s.typePhys s.name]
  else []

theorem sigStmts_eq (cfg : Cfg) (s : Sig) :
    sigStmts cfg s (.expr (joinFrags (frags s))) = rawStmt s :: physStmts cfg s := rfl

theorem rawStmt_writes (s : Sig) : (rawStmt s).writes = [s.name] := by
  unfold rawStmt; split <;> rfl

theorem sigStmts_writes (cfg : Cfg) (s : Sig) :
    (rawStmt s :: physStmts cfg s).flatMap CStmt.writes = (sigDecls cfg s).map (·.1) := by
  rw [List.flatMap_cons, rawStmt_writes]
  unfold physStmts sigDecls
  cases s.isSimple <;> cases cfg.flag .useSigFloat <;> cases s.isDouble <;> simp [CStmt.writes]

/-- Statements of all signals. -/
def unpackSigStmts (cfg : Cfg) (sigs : List Sig) : List CStmt :=
  sigs.flatMap fun s => rawStmt s :: physStmts cfg s

theorem unpackSigStmts_writes (cfg : Cfg) (sigs : List Sig) :
    (unpackSigStmts cfg sigs).flatMap CStmt.writes = (sigs.flatMap (sigDecls cfg)).map (·.1) := by
  induction sigs with
  | nil => rfl
  | cons s sigs ih =>
    unfold unpackSigStmts at *
    rw [List.flatMap_cons, List.flatMap_append, sigStmts_writes, ih, List.flatMap_cons, List.map_append]

theorem physStmts_dat {cfg : Cfg} {s : Sig} {x : CStmt} (h : x ∈ physStmts cfg s) :
    x.writesDat = false ∧ x.writesMon = false := by
  unfold physStmts at h
  split at h
  · rw [List.mem_singleton] at h; subst h; split <;> exact ⟨rfl, rfl⟩
  · cases h

theorem unpackSigStmts_dat {cfg : Cfg} {sigs : List Sig} {x : CStmt} (h : x ∈ unpackSigStmts cfg sigs) :
    x.writesDat = false ∧ x.writesMon = false := by
  unfold unpackSigStmts at h
  obtain ⟨s, -, h⟩ := List.mem_flatMap.1 h
  rcases List.mem_cons.1 h with h | h
  · subst h; unfold rawStmt; split <;> exact ⟨rfl, rfl⟩
  · exact physStmts_dat h

theorem exec_raw {c : Ctx φ} {st : St φ} {s : Sig} {n : Nat} (hp : PrintableSig n s)
    (hd : IsPayload st.dat) (hlen : n ≤ st.dat.length) {d : FDecl} (hdecl : c.decl s.name = some d) :
    exec c st (rawStmt s) = (s.unpacked st.dat).map fun z => st.upd s.name (d.store z) := by
  obtain ⟨hl, hl2, hf⟩ := hp
  have hb : ∀ f ∈ frags s, f.byte < (c.env st).dat.length := by
    intro f hm
    have := frags_lt_of_fits hl hf f hm
    show f.byte < st.dat.length
    omega
  obtain ⟨t, ht, hlt, he⟩ := eval_joinFrags (env := c.env st) hd hl hl2 hb
  have hed : (c.env st).dat = st.dat := rfl
  rw [hed] at he hlt
  unfold rawStmt Sig.unpacked
  cases hs : s.signed
  · simp only [Bool.false_eq_true, if_false, exec, he, Option.bind_eq_bind, Option.bind_some, Ctx.assign,
      hdecl, Option.map_some, CVal.cast]
  · simp only [if_true, exec, he, Option.bind_eq_bind, Option.bind_some]
    by_cases h32 : s.lengthBit ≤ 32
    · rw [if_pos h32, orFrags_eq_raw _ hl hl2 (Or.inl h32), extSig_ok _ hl h32 (s.raw_lt _)]
      simp only [Option.bind_some, Ctx.assign, hdecl, Option.map_some, CVal.cast]
    · rw [if_neg h32, extSig_undef _ _ (Or.inr (by omega)) (by omega)]
      rfl

/-- A signal's member name occurs once among the declarations. -/
theorem name_unique {cfg : Cfg} {m : Msg} (hn : ((structDecls cfg m).map (·.1)).Nodup)
    {a b : List Sig} {s : Sig} (hm : m.signals = a ++ s :: b) :
    s.name ∉ (physStmts cfg s).flatMap CStmt.writes ∧
    s.name ∉ (b.flatMap (sigDecls cfg)).map (·.1) ∧ s.name ∉ (a.flatMap (sigDecls cfg)).map (·.1) ∧
    (∀ r, m.sigAt m.rollSig = some r → cfg.flag .autoRoll = true → s.name ≠ exptName r.name) := by
  unfold structDecls structSigs at hn
  rw [hm, List.flatMap_append, List.flatMap_append, List.flatMap_cons, List.map_append, List.map_append,
    List.map_append] at hn
  have hw : (sigDecls cfg s).map (·.1) = s.name :: (physStmts cfg s).flatMap CStmt.writes := by
    rw [← sigStmts_writes, List.flatMap_cons, rawStmt_writes]; rfl
  rw [hw] at hn
  simp only [List.nodup_append, List.nodup_cons, List.cons_append, List.mem_append, List.mem_cons] at hn
  obtain ⟨⟨h1, ⟨h2, h3⟩, h4⟩, h5, h6⟩ := hn
  refine ⟨fun h => h2 (Or.inl h), fun h => h2 (Or.inr h), fun h => h4 _ h s.name (Or.inl rfl) rfl, ?_⟩
  intro r hr hf heq
  refine h6 s.name (Or.inr (Or.inl rfl)) (exptName r.name) ?_ heq
  rw [hr]
  simp only [hf, if_true, List.flatMap_cons, List.flatMap_nil, List.append_nil]
  unfold sigDecls
  simp

/-- The monitor statements write at most the expected counter. -/
theorem monStmts_writes {cfg : Cfg} {m : Msg} {n : Str} (h : n ∈ (monStmts cfg m).flatMap CStmt.writes) :
    ∃ r, m.sigAt m.rollSig = some r ∧ cfg.flag .autoRoll = true ∧ cfg.flag .useMon = true ∧ n = exptName r.name := by
  unfold monStmts at h
  split at h
  next hm =>
    cases hr : m.sigAt m.rollSig with
    | none =>
      cases hc : m.sigAt m.csmSig with
      | none => simp [hr, hc, CStmt.writes] at h
      | some s => cases hf : cfg.flag .autoCsm <;> simp [hr, hc, hf, CStmt.writes] at h
    | some r =>
      refine ⟨r, rfl, ?_⟩
      cases ha : cfg.flag .autoRoll <;> cases hc : m.sigAt m.csmSig with
      | none => simp [hr, hc, ha, CStmt.writes] at h <;> exact ⟨rfl, hm, h⟩
      | some s =>
        cases hf : cfg.flag .autoCsm <;> simp [hr, hc, hf, ha, CStmt.writes] at h <;> exact ⟨rfl, hm, h⟩
  next => cases h

theorem monStmts_dat {cfg : Cfg} {m : Msg} {x : CStmt} (h : x ∈ monStmts cfg m) : x.writesDat = false := by
  have : (monStmts cfg m).all (fun x => !x.writesDat) = true := by
    unfold monStmts
    cases cfg.flag .useMon <;> cases m.sigAt m.rollSig <;> cases m.sigAt m.csmSig <;>
      cases cfg.flag .autoRoll <;> cases cfg.flag .autoCsm <;> rfl
  simpa using List.all_eq_true.1 this x h

theorem buildExprs_ok {m : Msg} (h : MsgOk m) :
    buildExprs m = .ok (m.signals.map fun s => .expr (joinFrags (frags s)))
      ((itemsOf m.signals).foldl Item.apply (List.replicate m.dlc .empty)) := by
  unfold buildExprs
  rw [buildLoop_ok m.signals [] _ (by simpa using h.1) (by simpa using h.2)]
  simp

theorem zip_map_flatMap {α β γ : Type} (l : List α) (f : α → β) (g : α × β → List γ) :
    (l.zip (l.map f)).flatMap g = l.flatMap fun a => g (a, f a) := by
  induction l with
  | nil => rfl
  | cons a l ih => simp [ih]

/-- Unpack is the execution of the preprocessed statements. -/
theorem runUnpack_eq (c : Ctx φ) {m : Msg} (hm : MsgOk m) (st : St φ) :
    (¬ RollOk m → runUnpack c m st = .genUB) ∧
    (RollOk m → runUnpack c m st =
      if c.declsOk then
        match execAll c st (unpackSigStmts c.cfg m.signals ++ monStmts c.cfg m ++ [.ret m.msgId]) with
        | none => .bad
        | some st => .ok st
      else .bad) := by
  unfold runUnpack
  rw [buildExprs_ok hm]
  dsimp only
  obtain ⟨h1, h2⟩ := writeUnpackBody_eq c.cfg m (m.signals.map fun s => .expr (joinFrags (frags s)))
  constructor
  · intro h; rw [h1 h]
  · intro h
    obtain ⟨lines, e1, e2⟩ := h2 h
    rw [e1]
    dsimp only
    unfold runBody
    rw [e2, zip_map_flatMap]
    rfl

theorem nodup_of_declsOk {c : Ctx φ} (h : c.declsOk = true) : (c.decls.map (·.1)).Nodup := by
  unfold Ctx.declsOk at h
  exact (List.nodup_append.1 (of_decide_eq_true h)).1

/-- Effect of the signal statements on the raw members. -/
theorem sigPart_fields {c : Ctx φ} {m : Msg} (hc : c.decls = structDecls c.cfg m) (hm : MsgOk m)
    (hn : (c.decls.map (·.1)).Nodup)
    {st st' : St φ} (hd : IsPayload st.dat) (hlen : m.dlc ≤ st.dat.length)
    (he : execAll c st (unpackSigStmts c.cfg m.signals) = some st') :
    ∀ s ∈ m.signals, ∃ z, s.unpacked st.dat = some z ∧ st'.fld s.name = (sigDecl c.cfg s).store z := by
  intro s hs
  obtain ⟨a, b, hab⟩ := List.append_of_mem hs
  have hsplit : unpackSigStmts c.cfg m.signals =
      unpackSigStmts c.cfg a ++ rawStmt s :: (physStmts c.cfg s ++ unpackSigStmts c.cfg b) := by
    rw [hab]; unfold unpackSigStmts; simp
  rw [hsplit] at he
  obtain ⟨st1, st2, x1, x2, x3⟩ := execAll_split he
  have hdat : st1.dat = st.dat := (execAll_frame x1).2.1 fun x hx => (unpackSigStmts_dat hx).1
  have hdecl : c.decl s.name = some (sigDecl c.cfg s) := decl_of_mem hc hn (structSigs_mem hs)
  rw [exec_raw (hm.2 s hs) (by rw [hdat]; exact hd) (by rw [hdat]; exact hlen) hdecl, hdat,
    Option.map_eq_some_iff] at x2
  obtain ⟨z, hz, rfl⟩ := x2
  refine ⟨z, hz, ?_⟩
  rw [(execAll_frame x3).1 s.name, upd_same]
  obtain ⟨u1, u2, u3, u4⟩ := name_unique (hc ▸ hn) hab
  simp only [List.flatMap_append, List.mem_append, not_or]
  exact ⟨u1, by rw [unpackSigStmts_writes]; exact u2⟩

/-- A successful Unpack, split into its parts. -/
theorem runUnpack_parts {c : Ctx φ} {m : Msg} (hm : MsgOk m) {st st' : St φ}
    (h : runUnpack c m st = .ok st') :
    c.declsOk = true ∧ RollOk m ∧ ∃ st1 st2, execAll c st (unpackSigStmts c.cfg m.signals) = some st1 ∧
      execAll c st1 (monStmts c.cfg m) = some st2 ∧ st' = { st2 with retv := some m.msgId } := by
  obtain ⟨e1, e2⟩ := runUnpack_eq c hm st
  by_cases hr' : ¬ RollOk m
  · rw [e1 hr'] at h; cases h
  have hr : RollOk m := Classical.not_not.1 hr'
  rw [e2 hr] at h
  by_cases hdo' : ¬ c.declsOk = true
  · rw [if_neg hdo'] at h; cases h
  have hdo := Classical.not_not.1 hdo'
  rw [if_pos hdo] at h
  split at h
  · cases h
  next st3 he =>
  cases h
  obtain ⟨st2, st3, x1, x2, x3⟩ := execAll_split he
  rw [execAll_append, Option.bind_eq_some_iff] at x1
  obtain ⟨st1, y1, y2⟩ := x1
  simp only [exec, Option.some.injEq] at x2
  simp only [execAll, Option.some.injEq] at x3
  exact ⟨hdo, hr, st1, st2, y1, y2, by rw [← x3, ← x2]⟩

/-- Effect of Unpack on the raw members. -/
theorem unpack_fields {c : Ctx φ} {m : Msg} (hc : c.decls = structDecls c.cfg m) (hm : MsgOk m)
    {st st' : St φ} (hd : IsPayload st.dat) (hlen : m.dlc ≤ st.dat.length)
    (h : runUnpack c m st = .ok st') :
    st'.dat = st.dat ∧ st'.retv = some m.msgId ∧
    ∀ s ∈ m.signals, ∃ z, s.unpacked st.dat = some z ∧ st'.fld s.name = (sigDecl c.cfg s).store z := by
  obtain ⟨hdo, hr, st1, st2, h1, h2, rfl⟩ := runUnpack_parts hm h
  have hn := nodup_of_declsOk hdo
  refine ⟨?_, rfl, ?_⟩
  · show st2.dat = st.dat
    rw [(execAll_frame h2).2.1 fun x hx => monStmts_dat hx,
      (execAll_frame h1).2.1 fun x hx => (unpackSigStmts_dat hx).1]
  · intro s hs
    obtain ⟨z, hz, e⟩ := sigPart_fields hc hm hn hd hlen h1 s hs
    refine ⟨z, hz, ?_⟩
    show st2.fld s.name = _
    rw [(execAll_frame h2).1, e]
    intro hx
    obtain ⟨a, b, hab⟩ := List.append_of_mem hs
    obtain ⟨u1, u2, u3, u4⟩ := name_unique (hc ▸ hn) hab
    obtain ⟨r, r1, r2, -, r3⟩ := monStmts_writes hx
    exact u4 r r1 r2 r3

/-! ### Totality -/

theorem execAll_total {c : Ctx φ} (I : St φ → Prop) (l : List CStmt)
    (h : ∀ s ∈ l, ∀ st, I st → ∃ st', exec c st s = some st' ∧ I st') :
    ∀ st, I st → ∃ st', execAll c st l = some st' ∧ I st' := by
  induction l with
  | nil => intro st hi; exact ⟨st, rfl, hi⟩
  | cons s l ih =>
    intro st hi
    obtain ⟨st1, e1, i1⟩ := h s (List.mem_cons_self ..) st hi
    obtain ⟨st2, e2, i2⟩ := ih (fun x hx => h x (List.mem_cons_of_mem _ hx)) st1 i1
    exact ⟨st2, by simp only [execAll, e1]; exact e2, i2⟩

theorem sigAt_mem {m : Msg} {i : Option Nat} {r : Sig} (h : m.sigAt i = some r) : r ∈ m.signals := by
  unfold Msg.sigAt at h
  cases i with
  | none => cases h
  | some k => exact List.mem_of_getElem? h

theorem physStmts_nil {cfg : Cfg} {m : Msg} (h : NoPhys cfg m) {s : Sig} (hs : s ∈ m.signals) :
    physStmts cfg s = [] := by
  unfold physStmts
  rcases h with h | h
  · simp [h]
  · simp [h s hs]

theorem sigRange_bound {s : Sig} {z : Int} (hl : s.lengthBit < 31)
    (hz : InSigRange s.signed s.lengthBit z) : -(2:Int) ^ 30 ≤ z ∧ z < 2 ^ 30 := by
  unfold InSigRange at hz
  split at hz
  · have : (2:Int) ^ (s.lengthBit - 1) ≤ 2 ^ 30 := by
      exact_mod_cast Nat.pow_le_pow_right (n := 2) (by decide) (by omega)
    omega
  · have : (2:Int) ^ s.lengthBit ≤ 2 ^ 30 := by
      exact_mod_cast Nat.pow_le_pow_right (n := 2) (by decide) (by omega)
    omega

/-- `(x + 1) & mask` -/
theorem incr_val {t : CTy} {z : Int} {len : Nat} (hl : len < 31) (hb : -(2:Int) ^ 30 ≤ z ∧ z < 2 ^ 30) :
    ∃ v, (⟨t, z⟩ : CVal).add ⟨.i32, 1⟩ = some v ∧
      (v.land ⟨.u32, ((2 ^ len - 1 : Nat) : Int)⟩).val = (z + 1) % 2 ^ len := by
  have hv : ∃ v, (⟨t, z⟩ : CVal).add ⟨.i32, 1⟩ = some v ∧ v.val % 2 ^ 32 = (z + 1) % 2 ^ 32 := by
    have c32 : CTy.conv .i32 z = z :=
      CTy.conv_inRange ⟨by simp [CTy.minV, CTy.signed, CTy.bits]; omega, by simp [CTy.maxV, CTy.signed, CTy.bits]; omega⟩
    have c64 : CTy.conv .i64 z = z :=
      CTy.conv_inRange ⟨by simp [CTy.minV, CTy.signed, CTy.bits]; omega, by simp [CTy.maxV, CTy.signed, CTy.bits]; omega⟩
    have o32 : CTy.conv .i32 1 = 1 := by decide
    have o64 : CTy.conv .i64 1 = 1 := by decide
    have ou32 : CTy.conv .u32 1 = 1 := by decide
    have ou64 : CTy.conv .u64 1 = 1 := by decide
    have r32 : CTy.InRange .i32 (z + 1) :=
      ⟨by simp [CTy.minV, CTy.signed, CTy.bits]; omega, by simp [CTy.maxV, CTy.signed, CTy.bits]; omega⟩
    have r64 : CTy.InRange .i64 (z + 1) :=
      ⟨by simp [CTy.minV, CTy.signed, CTy.bits]; omega, by simp [CTy.maxV, CTy.signed, CTy.bits]; omega⟩
    unfold CVal.add CVal.arith
    cases t <;> dsimp only <;>
      first
      | (rw [show CTy.common _ _ = CTy.i32 from by decide]; rw [c32, o32, if_pos (by decide), if_pos r32]; exact ⟨_, rfl, rfl⟩)
      | (rw [show CTy.common _ _ = CTy.i64 from by decide]; rw [c64, o64, if_pos (by decide), if_pos r64]; exact ⟨_, rfl, rfl⟩)
      | (rw [if_neg (by decide), show CTy.common .u32 .i32 = CTy.u32 from by decide, ou32]
         refine ⟨_, rfl, ?_⟩
         simp only [CTy.conv, CTy.signed, CTy.bits, Bool.false_eq_true, if_false]; omega)
      | (rw [if_neg (by decide), show CTy.common .u64 .i32 = CTy.u64 from by decide, ou64]
         refine ⟨_, rfl, ?_⟩
         simp only [CTy.conv, CTy.signed, CTy.bits, Bool.false_eq_true, if_false]; omega)
  obtain ⟨v, hv, hmod⟩ := hv
  refine ⟨v, hv, ?_⟩
  have hc : ((2 ^ len - 1 : Nat) : Int) = 2 ^ len - 1 := by
    rw [Int.natCast_sub (Nat.two_pow_pos len)]; push_cast; rfl
  rw [hc, CVal.land_mask30 v (by omega)]
  have hp' : (0:Int) < 2 ^ len := by have := Nat.two_pow_pos len; exact_mod_cast this
  simp only [Int.toNat_of_nonneg (Int.emod_nonneg v.val (b := (2:Int) ^ len) (by omega))]
  have hdvd : ((2:Int) ^ len) ∣ 2 ^ 32 := ⟨2 ^ (32 - len), by rw [← Int.pow_add]; congr 1; omega⟩
  rw [← Int.emod_emod_of_dvd v.val hdvd, hmod, Int.emod_emod_of_dvd _ hdvd]

theorem exec_incr {c : Ctx φ} {st : St φ} {src dst : Str} {len : Nat} {d d' : FDecl}
    (hs : c.decl src = some d') (hd : c.decl dst = some d)
    (hl : len < 31) (hb : -(2:Int) ^ 30 ≤ st.fld src ∧ st.fld src < 2 ^ 30) :
    exec c st (.incr dst src (2 ^ len - 1)) = some (st.upd dst (d.store ((st.fld src + 1) % 2 ^ len))) := by
  obtain ⟨v, hv, he⟩ := incr_val (t := d'.ty) hl hb
  have hread : c.read st src = some ⟨d'.ty, st.fld src⟩ := by unfold Ctx.read; rw [hs]; rfl
  simp only [exec, hread, Option.bind_eq_bind, Option.bind_some, hv, Ctx.assign, hd, Option.map_some, he]

/-- Unpack has no undefined behaviour when its signal part has none. -/
theorem unpack_total_of {c : Ctx φ} {m : Msg} (hc : c.decls = structDecls c.cfg m) (hm : MsgOk m)
    (hdo : c.declsOk = true) (hr : RollOk m)
    (hty : ∀ s ∈ m.signals, s.TypeOk)
    {st : St φ} (hd : IsPayload st.dat) (hlen : m.dlc ≤ st.dat.length)
    (h1 : ∃ st1, execAll c st (unpackSigStmts c.cfg m.signals) = some st1 ∧ st1.dat = st.dat) :
    ∃ st', runUnpack c m st = .ok st' := by
  have hn := nodup_of_declsOk hdo
  rw [(runUnpack_eq c hm st).2 hr, if_pos hdo]
  obtain ⟨st1, e1, hdat⟩ := h1
  have hfld := sigPart_fields hc hm hn hd hlen e1
  have hrange : ∀ s ∈ m.signals, s.lengthBit ≤ 32 → InSigRange s.signed s.lengthBit (st1.fld s.name) := by
    intro s hs h32
    obtain ⟨z, hz, e⟩ := hfld s hs
    have hp := hm.2 s hs
    have hraw := raw_inRange s st.dat hp.1
    have : z = if s.signed then signedOf s.lengthBit (s.raw st.dat) else (s.raw st.dat : Int) := by
      unfold Sig.unpacked at hz
      have hcv := conv_of_sigRange (hty s hs) hp.1 hraw
      cases hsgn : s.signed <;> simp only [hsgn, if_true, if_false, Bool.false_eq_true, h32, Option.some.injEq] at hz hcv ⊢
      · rw [orFrags_eq_raw _ hp.1 hp.2.1 (Or.inl h32), hcv] at hz; exact hz.symm
      · rw [hcv] at hz; exact hz.symm
    rw [e, this, store_of_sigRange (hty s hs) hp.1 hraw]
    exact hraw
  have h2 : ∃ st2, execAll c st1 (monStmts c.cfg m) = some st2 ∧ (∀ s ∈ m.signals, st2.fld s.name = st1.fld s.name) := by
    apply execAll_total (fun st2 => ∀ s ∈ m.signals, st2.fld s.name = st1.fld s.name) _ ?_ st1 (fun _ _ => rfl)
    intro x hx st2 hst
    have hkeep : ∀ st3, exec c st2 x = some st3 → ∀ s ∈ m.signals, st3.fld s.name = st1.fld s.name := by
      intro st3 h3 s hs
      rw [(exec_frame h3).1, hst s hs]
      intro hw
      obtain ⟨a, b, hab⟩ := List.append_of_mem hs
      obtain ⟨u1, u2, u3, u4⟩ := name_unique (hc ▸ hn) hab
      obtain ⟨r, r1, r2, -, r3⟩ := monStmts_writes (List.mem_flatMap.2 ⟨x, hx, hw⟩)
      exact u4 r r1 r2 r3
    have hex : ∃ st3, exec c st2 x = some st3 := by
      unfold monStmts at hx
      split at hx
      next =>
        simp only [List.mem_append, List.mem_cons, List.not_mem_nil, or_false] at hx
        rcases hx with (((hx | hx | hx) | hx) | hx) | hx
        · subst hx; exact ⟨_, rfl⟩
        · subst hx; exact ⟨_, rfl⟩
        · subst hx; exact ⟨_, rfl⟩
        · cases hrs : m.sigAt m.rollSig with
          | none => simp [hrs] at hx
          | some r =>
            have hrm := sigAt_mem hrs
            have hrd : c.decl r.name = some (sigDecl c.cfg r) := decl_of_mem hc hn (structSigs_mem hrm)
            cases ha : c.cfg.flag .autoRoll with
            | false => simp [hrs, ha] at hx
            | true =>
              have hrd2 : c.decl (exptName r.name) = some (sigDecl c.cfg { r with name := exptName r.name }) := by
                refine decl_of_mem (m := m) (s := { r with name := exptName r.name }) hc hn ?_
                unfold structSigs
                rw [hrs]
                simp [ha]
              simp only [hrs, ha, if_true, List.mem_cons, List.not_mem_nil, or_false] at hx
              rcases hx with hx | hx
              · subst hx
                have a1 : c.read st2 r.name = some ⟨r.typeRo, st2.fld r.name⟩ := by unfold Ctx.read; rw [hrd]; rfl
                have a2 : c.read st2 (exptName r.name) = some ⟨r.typeRo, st2.fld (exptName r.name)⟩ := by
                  unfold Ctx.read; rw [hrd2]; rfl
                simp only [exec, a1, a2, Option.bind_eq_bind, Option.bind_some]
                exact ⟨_, rfl⟩
              · subst hx
                have hl := hr r hrs
                exact ⟨_, exec_incr hrd hrd2 hl
                  (by rw [hst r hrm]; exact sigRange_bound hl (hrange r hrm (by omega)))⟩
        · cases hcs : m.sigAt m.csmSig with
          | none => simp [hcs] at hx
          | some r =>
            have hrd : c.decl r.name = some (sigDecl c.cfg r) := decl_of_mem hc hn (structSigs_mem (sigAt_mem hcs))
            cases ha : c.cfg.flag .autoCsm with
            | false => simp [hcs, ha] at hx
            | true =>
              simp only [hcs, ha, if_true, List.mem_cons, List.not_mem_nil, or_false] at hx
              subst hx
              have a1 : c.read st2 r.name = some ⟨r.typeRo, st2.fld r.name⟩ := by unfold Ctx.read; rw [hrd]; rfl
              simp only [exec, a1, Option.bind_eq_bind, Option.bind_some]
              exact ⟨_, rfl⟩
        · subst hx; exact ⟨_, rfl⟩
      next => cases hx
    obtain ⟨st3, h3⟩ := hex
    exact ⟨st3, h3, hkeep st3 h3⟩
  obtain ⟨st2, e2, -⟩ := h2
  rw [execAll_append, execAll_append, e1, Option.bind_some, e2, Option.bind_some]
  exact ⟨_, rfl⟩

/-- Unpack has no undefined behaviour. -/
theorem unpack_total {c : Ctx φ} {m : Msg} (hc : c.decls = structDecls c.cfg m) (hm : MsgOk m)
    (hdo : c.declsOk = true) (hr : RollOk m) (hph : NoPhys c.cfg m)
    (hsg : ∀ s ∈ m.signals, s.signed = true → s.lengthBit ≤ 32)
    (hty : ∀ s ∈ m.signals, s.TypeOk)
    {st : St φ} (hd : IsPayload st.dat) (hlen : m.dlc ≤ st.dat.length) :
    ∃ st', runUnpack c m st = .ok st' := by
  have hn := nodup_of_declsOk hdo
  refine unpack_total_of hc hm hdo hr hty hd hlen ?_
  apply execAll_total (fun st1 => st1.dat = st.dat) _ ?_ st rfl
  intro x hx st1 hst
  unfold unpackSigStmts at hx
  obtain ⟨s, hs, hx⟩ := List.mem_flatMap.1 hx
  rw [physStmts_nil hph hs, List.mem_singleton] at hx
  subst hx
  have hdecl : c.decl s.name = some (sigDecl c.cfg s) := decl_of_mem hc hn (structSigs_mem hs)
  rw [exec_raw (hm.2 s hs) (by rw [hst]; exact hd) (by rw [hst]; exact hlen) hdecl, hst]
  unfold Sig.unpacked
  cases hsgn : s.signed
  · exact ⟨_, rfl, hst⟩
  · simp only [if_true, hsg s hs hsgn, Option.map_some]
    exact ⟨_, rfl, hst⟩

end Verif
