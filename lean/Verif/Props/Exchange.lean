import Verif.Props.Trace
/-
C67: what one program packs, another receives.
-/
namespace Verif
open Spec

variable {φ : Type}

/-- A frame that one program sends and another receives: the message, the target of the sender, the names of the variables for length and kind of the id, the state of the
sender (the struct of the message and a buffer), the raw values meant by physical members, the target of the receiver when the frame arrives, and whether the sender
hands Pack a struct of the frame. -/
structure Spec.Send (φ : Type) where
  d : MsgDesc
  T : Target φ
  N : OutNames
  cst : CSt φ
  raw : Str → Int
  T2 : Target φ
  frame : Bool

/-- The call of `Pack_M_drv`. -/
def Spec.packCall (f : Nat) (is : List Spec.Item) (drv : Str) (x : Send φ) : Option (CSt φ × V φ) :=
  callUnit f x.T is ("Pack_".toList ++ x.d.name ++ "_".toList ++ drv) (packArgs x.frame x.N) x.cst

/-- The frame on the bus: the id is what Pack returns, the length what it has passed out, the payload that many bytes of the buffer. -/
def Spec.frameOf (x : Send φ) (r : CSt φ × V φ) : Option (Arrival φ) :=
  match r.2, r.1.out x.N.len with
  | .i v, some l => some ⟨x.T2, v.val.toNat, l.toNat, r.1.dat.take l.toNat⟩
  | _, _ => none

/-- The frames of a sequence of calls of Pack. -/
def Spec.sendAll (f : Nat) (is : List Spec.Item) (drv : Str) : List (Send φ) → Option (List (Arrival φ))
  | [] => some []
  | x :: xs => (packCall f is drv x).bind fun r => (frameOf x r).bind fun a => (sendAll f is drv xs).map fun as => a :: as

/-- No bit of the payload belongs to two signals. -/
def Spec.Apart (d : MsgDesc) : Prop :=
  ∀ s ∈ d.sigs, ∀ t ∈ d.sigs, ∀ k, k < s.len → ∀ j, j < t.len → bitPos s.intel s.start s.len k = bitPos t.intel t.start t.len j → s = t

/-- What is asked of the sender: a message the file states, with signals that do not overlap and have different members, each with a value in its range; with physical values, members
that hold the physical values of some raw values; a struct of the frame if the driver is compiled for it. -/
structure Spec.SendOk (P : Platform) (text : Str) (srt : List Msg) (flag : Flag → Bool) (is : List Spec.Item) (maxV initV : Nat) (x : Send φ) : Prop where
  stated : Stated (fileLines P text) x.d
  ok : MsgDescOk x.d
  some : x.d.sigs ≠ []
  signed : ∀ s ∈ x.d.sigs, s.signed = true → s.len ≤ 32
  csm : x.d.dlc ≤ 8 ∨ ∀ m ∈ srt, m.msgId = x.d.id → m.csmSig = none
  start : StartIn is x.d x.cst
  fits : x.d.dlc ≤ maxV
  clear : ∀ s ∈ x.d.sigs, ∀ k, k < s.len → initV.testBit (bitPos s.intel s.start s.len k % 8) = false
  apart : Apart x.d
  names : (x.d.sigs.map (·.member)).Nodup
  range : ∀ s ∈ x.d.sigs, InSigRange s.signed s.len (x.cst.fld s.member)
  outs : x.frame = flag .useCanStruct ∧ (x.frame = true → x.N.len = "DLC".toList ∧ x.N.ide = "IDE".toList)
  phys : flag .useSigFloat = false ∨ (∀ s ∈ x.d.sigs, s.plain) ∨
    (P.oob = none ∧ (∀ s ∈ x.d.sigs, ¬ s.plain → ScaleOk s ∧ ∀ m ∈ srt, ∀ t ∈ m.signals, t.name = s.member → OwnMacro srt t) ∧ PhysSet x.T.F x.d x.cst x.raw)

/-- The raw value `v` is the one the sender means for signal `s`: the member, or with physical values the raw value of the physical member. -/
def Spec.Means (flag : Flag → Bool) (x : Send φ) (s : SigDesc) (v : Int) : Prop :=
  (flag .useSigFloat = true → ¬ s.plain → v = x.raw s.member) ∧ (flag .useSigFloat = false ∨ s.plain → v = x.cst.fld s.member)

theorem payloadBit_take {d : List Nat} {n p : Nat} (h : p < 8 * n) : payloadBit (d.take n) p = payloadBit d p := by
  unfold payloadBit
  have : p / 8 < n := by omega
  simp [List.getElem?_take, this]

/-- A value in the range of a signal is the one its bits have. -/
theorem desc_value {s : SigDesc} {dat : List Nat} {z : Int} (hl : 0 < s.len) (hz : InSigRange s.signed s.len z)
    (h : ∀ k, k < s.len → payloadBit dat (bitPos s.intel s.start s.len k) = intBit z k) : s.raw dat = z := by
  let t : Sig := { startBit := s.start, lengthBit := s.len, signed := s.signed, order := if s.intel then .intel else .motorolla }
  have e : t.intel = s.intel := by
    show ((if s.intel then BitLayout.intel else BitLayout.motorolla) == .intel) = s.intel
    cases s.intel <;> rfl
  have := value_of_bits (s := t) (d := dat) (z := z) hl hz fun k hk => by
    unfold Sig.pos
    rw [e]
    exact h k hk
  unfold Sig.raw at this
  rw [e] at this
  exact this

theorem packed_value {maxV initV : Nat} {N : OutNames} {d : MsgDesc} {cst : CSt φ} {r : CSt φ × V φ} (hd : MsgDescOk d) (hfits : d.dlc ≤ maxV)
    (hclear : ∀ s ∈ d.sigs, ∀ k, k < s.len → initV.testBit (bitPos s.intel s.start s.len k % 8) = false) (hap : Apart d) (hp : Packed maxV initV N d cst r)
    {s : SigDesc} (hs : s ∈ d.sigs) (hr : InSigRange s.signed s.len (r.1.fld s.member)) : s.raw (r.1.dat.take d.dlc) = r.1.fld s.member := by
  refine desc_value (hd.sigs s hs).pos hr fun k hk => ?_
  have hpk : bitPos s.intel s.start s.len k < 8 * d.dlc := (hd.sigs s hs).fits k hk
  rw [payloadBit_take hpk, Bool.eq_iff_iff, (hp.2.2.2.2.2 hfits _).1 hpk, hclear s hs k hk]
  simp only [Bool.false_eq_true, false_or]
  constructor
  · rintro ⟨t, ht, j, hj, hpos, hbit⟩
    have := hap s hs t ht k hk j hj hpos.symm
    subst this
    have : j = k := bitPos_inj hj hk hpos
    subst this
    exact hbit
  · intro hbit
    exact ⟨s, hs, k, hk, rfl, hbit⟩

section
variable {P : Platform} {text drv1 drv2 : Str} {file1 file2 : Source} {who : Option Str} {out : DbcList} {srt1 srt2 rx : List Msg} {D1 D2 : Defs} {on1 on2 : List Str} {tick1 hash1 tick2 hash2 : Hook}
  {maxW1 initW1 maxW2 initW2 : Str} {max1 init1 max2 init2 : Nat} {dir1 dir2 : List (Str × Str)}

/-- What the sender does with one frame; `ok` tells which hash a target has. -/
def Spec.SentAs (flag : Flag → Bool) (srt : List Msg) (ok : Target φ → (List Nat → Nat → Nat → Str → Nat → Nat) → Nat → Prop) (maxV initV f : Nat) (is : List Spec.Item) (drv : Str)
    (x : Send φ) (r : CSt φ × V φ) : Prop :=
  packCall f is drv x = some r ∧ Packed maxV initV x.N x.d x.cst r ∧ (∀ s ∈ x.d.sigs, ¬ AutoMember flag srt x.d s.member → Means flag x s (r.1.fld s.member)) ∧
    ∀ hashF now, ok x.T hashF now → Automatic flag srt hashF x.d x.cst r.1

/-- The unit of the driver, with the calls of Pack as in `SendOk`. -/
theorem driver_sends (hids : IdsDistinct out.msgs) (h : DriverProgram φ P text drv1 file1 out srt1 D1 on1 tick1 hash1 maxW1 initW1 max1 init1 dir1) :
    let g := driverDesc drv1 file1 out.verHi out.verLow
    let cfg := cfgOf g (userTable g D1 on1) false max1 init1
    let K := lookOf g (userTable g D1 on1) srt1 tick1 hash1 maxW1 initW1
    ∃ is, (∃ F, ∀ f, F ≤ f → compileTree f dir1 D1 (g.drvLow ++ ".c".toList) = some is) ∧
      ∀ x : Send φ, (∃ hashF now, TargetOk g srt1 ((userTable g D1 on1).lookup (monoName g)).isSome cfg K x.T hashF now) → SendOk P text srt1 cfg.flag is max1 init1 x →
      ∀ f, 256 ≤ f → ∃ r, SentAs cfg.flag srt1 (TargetOk g srt1 ((userTable g D1 on1).lookup (monoName g)).isSome cfg K) max1 init1 f is drv1 x r := by
  intro g cfg K
  obtain ⟨is, hF, hrun⟩ := h
  refine ⟨is, hF, fun x ⟨hashF, now, hT⟩ hx f hf => ?_⟩
  have outs : cfg.flag .useCanStruct = true → x.N.len = "DLC".toList ∧ x.N.ide = "IDE".toList := fun q => hx.outs.2 (hx.outs.1.trans q)
  have auto : ∀ r, packCall f is drv1 x = some r → ∀ hashF now, TargetOk g srt1 ((userTable g D1 on1).lookup (monoName g)).isSome cfg K x.T hashF now →
      Automatic cfg.flag srt1 hashF x.d x.cst r.1 := fun r hr hashF now hT =>
    (hrun x.T hashF now hT x.d hx.stated hx.ok hx.some hx.signed hx.csm x.cst hx.start f hf).2.2 hids x.N r outs (by rw [← hx.outs.1]; exact hr)
  obtain ⟨k1, k2, -⟩ := hrun x.T hashF now hT x.d hx.stated hx.ok hx.some hx.signed hx.csm x.cst hx.start f hf
  have plain : (cfg.flag .useSigFloat = false ∨ ∀ s ∈ x.d.sigs, s.plain) →
      ∃ r, SentAs cfg.flag srt1 (TargetOk g srt1 ((userTable g D1 on1).lookup (monoName g)).isSome cfg K) max1 init1 f is drv1 x r := fun q => by
    obtain ⟨r, r1, r2, r3⟩ := (k1 q).2 x.N outs hx.range
    rw [← hx.outs.1] at r1
    refine ⟨r, r1, r2, fun s hs ha => ⟨fun q1 q2 => ?_, fun _ => r3 _ ha⟩, auto r r1⟩
    rcases q with q | q
    · exact absurd (q.symm.trans q1) Bool.false_ne_true
    · exact absurd (q s hs) q2
  rcases hx.phys with q | q | ⟨q1, q2, q3⟩
  · exact plain (.inl q)
  · exact plain (.inr q)
  · cases hfl : cfg.flag .useSigFloat with
    | false => exact plain (.inl hfl)
    | true =>
      obtain ⟨r, r1, r2, r3, r4⟩ := (k2 q1 hfl q2).2 x.N outs (fun _ => hx.range) x.raw q3
      rw [← hx.outs.1] at r1
      refine ⟨r, r1, r2, fun s hs ha => ⟨fun _ => r3 s hs, fun q => ?_⟩, auto r r1⟩
      rcases q with q | q
      · exact absurd (hfl.symm.trans q) (by decide)
      · refine r4 _ (fun t ht hn e => ?_) ha
        exact hn (nodup_inj hx.names hs ht e ▸ q)

theorem frame_of {maxV initV : Nat} {x : Send φ} {r : CSt φ × V φ} (h : Packed maxV initV x.N x.d x.cst r) : frameOf x r = some ⟨x.T2, x.d.id, x.d.dlc, r.1.dat.take x.d.dlc⟩ := by
  obtain ⟨h1, h2, -⟩ := h
  unfold frameOf
  rw [h1, h2]
  rfl

/-- The frames of a sequence of calls of Pack. -/
theorem sendAll_frames {flag : Flag → Bool} {srt : List Msg} {ok : Target φ → (List Nat → Nat → Nat → Str → Nat → Nat) → Nat → Prop} {maxV initV f : Nat} {is : List Spec.Item} {drv : Str} {xs : List (Send φ)}
    (h : ∀ x ∈ xs, ∃ r, SentAs flag srt ok maxV initV f is drv x r) :
    ∃ fs, sendAll f is drv xs = some fs ∧
      List.Forall₂ (fun x a => ∃ r, SentAs flag srt ok maxV initV f is drv x r ∧ a = ⟨x.T2, x.d.id, x.d.dlc, r.1.dat.take x.d.dlc⟩) xs fs := by
  induction xs with
  | nil => exact ⟨[], rfl, .nil⟩
  | cons x xs ih =>
    obtain ⟨r, hr⟩ := h x List.mem_cons_self
    obtain ⟨fs, h1, h2⟩ := ih fun y hy => h y (List.mem_cons_of_mem _ hy)
    refine ⟨_, ?_, .cons ⟨r, hr, rfl⟩ h2⟩
    unfold sendAll
    rw [hr.1, Option.bind_some, frame_of hr.2.1, Option.bind_some, h1]
    rfl

theorem forall2_split {α β : Type} {R : α → β → Prop} {pre : List α} {x : α} {post : List α} {bs : List β} (h : List.Forall₂ R (pre ++ x :: post) bs) :
    ∃ pre' y post', bs = pre' ++ y :: post' ∧ R x y ∧ List.Forall₂ R post post' ∧ List.Forall₂ R pre pre' := by
  induction pre generalizing bs with
  | nil =>
    cases h with
    | cons h1 h2 => exact ⟨[], _, _, rfl, h1, h2, .nil⟩
  | cons a pre ih =>
    cases h with
    | cons h1 h2 =>
      obtain ⟨pre', y, post', rfl, q1, q2, q3⟩ := ih h2
      exact ⟨_ :: pre', y, post', rfl, q1, q2, .cons h1 q3⟩

/-- The struct of the receiver holds what the sender held after Pack. -/
def Spec.Arrived (phys : Bool) (F : Flt φ) (d : MsgDesc) (sent got : CSt φ) : Prop :=
  ∀ s ∈ d.sigs, InSigRange s.signed s.len (sent.fld s.member) →
    ((s.len ≤ 32 ∨ bitPos s.intel s.start s.len 0 % 8 = 0) → got.fld s.member = sent.fld s.member) ∧
    (phys = true → ¬ s.plain → (s.whole → got.fld s.physMember = sent.fld s.member * s.f + s.o) ∧
      (¬ s.whole → got.flt s.physMember = F.add (F.mul (F.ofInt (sent.fld s.member)) (constF F true s.factor.value)) (constF F true s.offset.value)))

theorem parseMessageLine_flag {P : Platform} {l : Str} {m : Msg} (h : parseMessageLine P l = some m) : m.frameNotEmpty = false := by
  unfold parseMessageLine at h
  dsimp only at h
  by_cases h1 : (resplit mMessage l).length < 5
  · rw [if_pos h1] at h; cases h
  · rw [if_neg h1] at h
    split at h
    · cases h
    · cases h; rfl

/-- A parsed message that is not empty has a signal. -/
theorem parsed_sigs (hs : SortsByStart P) (h : trimDbcText P text = .ok out) {m : Msg} (hm : m ∈ out.msgs) (hne : m.frameNotEmpty = true) : m.signals ≠ [] := by
  have h1 : m.core ∈ out.msgs.map Msg.core := List.mem_map_of_mem hm
  rw [trim_msgs h] at h1
  obtain ⟨m', hm', e⟩ := List.mem_map.mp h1
  obtain ⟨s, -, hs'⟩ := List.mem_filterMap.mp hm'
  have hS := (fromSection_of_core hs hs' e.symm).2.1
  unfold secMsg at hs'
  rw [Option.map_eq_some_iff] at hs'
  obtain ⟨m0, hp, e2⟩ := hs'
  intro hnil
  rw [hnil] at hS
  have h0 : sectionSigs P s.1 s.2 = [] := List.map_eq_nil_iff.1 hS.symm.eq_nil
  rw [h0, List.foldl_nil] at e2
  have e1 : (closeMessage P m0).frameNotEmpty = m.frameNotEmpty := by
    have a := congrArg (fun x : Msg => x.frameNotEmpty) e
    have b := congrArg (fun x : Msg => x.frameNotEmpty) e2
    exact b.trans a
  have e3 : (closeMessage P m0).frameNotEmpty = m0.frameNotEmpty := by
    unfold closeMessage
    split <;> rfl
  rw [← e1, e3, parseMessageLine_flag hp] at hne
  cases hne

theorem not_received (hs : SortsByStart P) (h : trimDbcText P text = .ok out) (hids : IdsDistinct out.msgs) {d : MsgDesc} (hd : MsgDescOk d) (hst : Stated (fileLines P text) d)
    (hr : ¬ Receives who d) : ∀ m ∈ out.msgs, m.frameNotEmpty = true → TakesMsg who m → m.msgId ≠ d.id := by
  intro m hm hne hn e
  obtain ⟨m', hm', n1, n2, n3, -, n4, -, ss, hF, hperm⟩ := stated_message hs h hd hst
  obtain ⟨-, d2⟩ := desc_signals hF hperm
  have em : m = m' := ids_inj hids hm hm' (e.trans n2.symm)
  subst em
  cases who with
  | none =>
    obtain ⟨t, ht⟩ := List.exists_mem_of_ne_nil _ (parsed_sigs hs h hm hne)
    obtain ⟨s, hs, -⟩ := d2 t ht
    exact hr (List.ne_nil_of_mem hs)
  | some node =>
    obtain ⟨t, ht, q⟩ := ((C31_receivers P text out h m hm).2 node).1 hn
    obtain ⟨s, hs, w⟩ := d2 t ht
    exact hr ⟨s, hs, w.recs ▸ q⟩

/-- The frames of the sender and what the receiver makes of them. -/
theorem exchange_core (hs : SortsByStart P) (h : trimDbcText P text = .ok out) (hids : IdsDistinct out.msgs) (hrx : rx ≠ [])
    (hA : DriverProgram φ P text drv1 file1 out srt1 D1 on1 tick1 hash1 maxW1 initW1 max1 init1 dir1)
    (hB : NodeTrace φ P text drv2 file2 out srt2 D2 on2 tick2 hash2 maxW2 initW2 who rx max2 init2 dir2) :
    let g1 := driverDesc drv1 file1 out.verHi out.verLow
    let g2 := driverDesc drv2 file2 out.verHi out.verLow
    let u := nodeDesc drv2 file2 out.verHi out.verLow who
    let cfg1 := cfgOf g1 (userTable g1 D1 on1) false max1 init1
    let cfg2 := cfgOf g2 (userTable g2 D2 on2) false max2 init2
    ∃ is1 is js us,
    (∃ F, ∀ f, F ≤ f → compileTree f dir1 D1 (g1.drvLow ++ ".c".toList) = some is1 ∧ compileTree f dir2 D2 (g2.drvLow ++ ".c".toList) = some is ∧
      compileTree f dir2 D2 (g2.drvLow ++ "-fmon.c".toList) = some js ∧ compileTree f dir2 D2 (strLower (u.name ++ "-binutil.c".toList)) = some us) ∧
    links [is, js, us] = true ∧
    ∀ (f : Nat) (xs : List (Send φ)) (mem : Str → CSt φ), 256 ≤ f →
      (∀ x ∈ xs, SendOk P text srt1 cfg1.flag is1 max1 init1 x ∧
        (∃ hashF now, TargetOk g1 srt1 ((userTable g1 D1 on1).lookup (monoName g1)).isSome cfg1 (lookOf g1 (userTable g1 D1 on1) srt1 tick1 hash1 maxW1 initW1) x.T hashF now) ∧
        (∃ hashF now, TargetOk g2 srt2 ((userTable g2 D2 on2).lookup (monoName g2)).isSome cfg2 (lookOf g2 (userTable g2 D2 on2) srt2 tick2 hash2 maxW2 initW2) x.T2 hashF now) ∧
        (∀ n, x.T2.user ("Unpack_".toList ++ n ++ "_".toList ++ drv2) = none) ∧
        (NodeMsg P text who srt2 cfg2.flag x.d ∨ ¬ Receives who x.d)) →
      (∀ d, NodeMsg P text who srt2 cfg2.flag d → Ready is d.name (mem d.name)) →
      ∃ fs mem' as, sendAll f is1 drv1 xs = some fs ∧ receiveAll f [is, js, us] (u.name ++ "_Receive".toList) fs mem = some (mem', as) ∧
        List.Forall₂ (fun x a => ∃ r, SentAs cfg1.flag srt1 (TargetOk g1 srt1 ((userTable g1 D1 on1).lookup (monoName g1)).isSome cfg1
          (lookOf g1 (userTable g1 D1 on1) srt1 tick1 hash1 maxW1 initW1)) max1 init1 f is1 drv1 x r ∧ a = ⟨x.T2, x.d.id, x.d.dlc, r.1.dat.take x.d.dlc⟩) xs fs ∧
        List.Forall₂ (fun (x : Arrival φ) a => (a = .i ⟨.u32, (x.id : Nat)⟩ ∧ ∃ d, NodeMsg P text who srt2 cfg2.flag d ∧ d.id = x.id) ∨
          (a = .i ⟨.u32, 0⟩ ∧ ∀ m ∈ out.msgs, m.frameNotEmpty = true → TakesMsg who m → m.msgId ≠ x.id)) fs as ∧
        ∀ d, NodeMsg P text who srt2 cfg2.flag d → Ready is d.name (mem' d.name) ∧
          After cfg2.flag srt2 (TargetOk g2 srt2 ((userTable g2 D2 on2).lookup (monoName g2)).isSome cfg2 (lookOf g2 (userTable g2 D2 on2) srt2 tick2 hash2 maxW2 initW2)) d fs
            (mem d.name) (mem' d.name) := by
  intro g1 g2 u cfg1 cfg2
  obtain ⟨is1, ⟨F1, hF1⟩, hsend⟩ := driver_sends hids hA
  obtain ⟨is, js, us, ⟨F2, hF2⟩, hl, hrun⟩ := hB
  refine ⟨is1, is, js, us, ⟨F1 + F2, fun f hf => ⟨hF1 f (by omega), hF2 f (by omega)⟩⟩, hl, fun f xs mem hf hxs hmem => ?_⟩
  obtain ⟨fs, e1, e2⟩ := sendAll_frames (xs := xs) fun x hx => hsend x (hxs x hx).2.1 (hxs x hx).1 f hf
  have hfs : ∀ a ∈ fs, ArrivalOk P text drv2 who out srt2 cfg2.flag a ∧
      ∃ hashF now, TargetOk g2 srt2 ((userTable g2 D2 on2).lookup (monoName g2)).isSome cfg2 (lookOf g2 (userTable g2 D2 on2) srt2 tick2 hash2 maxW2 initW2) a.T hashF now := by
    intro a ha
    obtain ⟨x, hx, r, hr, rfl⟩ := forall2_right e2 ha
    obtain ⟨b1, b2, b3, b4, b5⟩ := hxs x hx
    have hlen : r.1.dat.length = x.cst.dat.length := hr.2.1.2.2.2.1
    refine ⟨⟨?_, ?_, fun b hb => hr.2.1.2.2.2.2.1 b (List.mem_of_mem_take hb), b4, ?_⟩, b3⟩
    · have := b1.ok.id
      show x.d.id < 2 ^ 32
      omega
    · have := b1.ok.dlc
      show x.d.dlc < 256
      omega
    · rcases b5 with b5 | b5
      · refine .inl ⟨x.d, b5, rfl, ?_⟩
        have := b1.start.len
        show x.d.dlc ≤ (r.1.dat.take x.d.dlc).length
        rw [List.length_take]
        omega
      · exact .inr (not_received hs h hids b1.ok b1.stated b5)
  obtain ⟨mem', as, r1, r2, r3⟩ := hrun f fs mem hf hrx hfs hmem
  exact ⟨fs, mem', as, e1, r1, e2, r2, r3⟩

/-- A driver and a node that exchange frames: the conclusion of C67. -/
def Exchange (φ : Type) (P : Platform) (text : Str) (out : DbcList) (drv1 : Str) (file1 : Source) (srt1 : List Msg) (D1 : Defs) (on1 : List Str) (tick1 hash1 : Hook) (maxW1 initW1 : Str)
    (max1 init1 : Nat) (dir1 : List (Str × Str)) (drv2 : Str) (file2 : Source) (srt2 : List Msg) (D2 : Defs) (on2 : List Str) (tick2 hash2 : Hook) (maxW2 initW2 : Str) (who : Option Str) (max2 init2 : Nat)
    (dir2 : List (Str × Str)) : Prop :=
  let g1 := driverDesc drv1 file1 out.verHi out.verLow
  let g2 := driverDesc drv2 file2 out.verHi out.verLow
  let u := nodeDesc drv2 file2 out.verHi out.verLow who
  let cfg1 := cfgOf g1 (userTable g1 D1 on1) false max1 init1
  let cfg2 := cfgOf g2 (userTable g2 D2 on2) false max2 init2
  ∃ is1 is js us,
    (∃ F, ∀ f, F ≤ f → compileTree f dir1 D1 (g1.drvLow ++ ".c".toList) = some is1 ∧ compileTree f dir2 D2 (g2.drvLow ++ ".c".toList) = some is ∧
      compileTree f dir2 D2 (g2.drvLow ++ "-fmon.c".toList) = some js ∧ compileTree f dir2 D2 (strLower (u.name ++ "-binutil.c".toList)) = some us) ∧
    links [is, js, us] = true ∧
    ∀ (f : Nat) (xs : List (Send φ)) (mem : Str → CSt φ), 256 ≤ f →
      (∀ x ∈ xs, SendOk P text srt1 cfg1.flag is1 max1 init1 x ∧
        (∃ hashF now, TargetOk g1 srt1 ((userTable g1 D1 on1).lookup (monoName g1)).isSome cfg1 (lookOf g1 (userTable g1 D1 on1) srt1 tick1 hash1 maxW1 initW1) x.T hashF now) ∧
        (∃ hashF now, TargetOk g2 srt2 ((userTable g2 D2 on2).lookup (monoName g2)).isSome cfg2 (lookOf g2 (userTable g2 D2 on2) srt2 tick2 hash2 maxW2 initW2) x.T2 hashF now) ∧
        (∀ n, x.T2.user ("Unpack_".toList ++ n ++ "_".toList ++ drv2) = none) ∧
        (NodeMsg P text who srt2 cfg2.flag x.d ∨ ¬ Receives who x.d)) →
      (∀ d, NodeMsg P text who srt2 cfg2.flag d → Ready is d.name (mem d.name)) →
      ∃ fs mem' as, sendAll f is1 drv1 xs = some fs ∧ receiveAll f [is, js, us] (u.name ++ "_Receive".toList) fs mem = some (mem', as) ∧
        List.Forall₂ (fun (x : Send φ) a => (a = .i ⟨.u32, (x.d.id : Nat)⟩ ∧ NodeMsg P text who srt2 cfg2.flag x.d) ∨ (a = .i ⟨.u32, 0⟩ ∧ ¬ Receives who x.d)) xs as ∧
        ∀ pre x post, xs = pre ++ x :: post → NodeMsg P text who srt2 cfg2.flag x.d → (∀ y ∈ post, y.d.id ≠ x.d.id) →
          ∃ r, packCall f is1 drv1 x = some r ∧ Arrived (cfg2.flag .useSigFloat) x.T2.F x.d r.1 (mem' x.d.name) ∧
            (∀ s ∈ x.d.sigs, ¬ AutoMember cfg1.flag srt1 x.d s.member → Means cfg1.flag x s (r.1.fld s.member) ∧
              ((s.len ≤ 32 ∨ bitPos s.intel s.start s.len 0 % 8 = 0) → Means cfg1.flag x s ((mem' x.d.name).fld s.member))) ∧
            (cfg2.flag .useMon = true → (mem' x.d.name).mon "dlc_error".toList = 0)

/-- **C67**.  Two programs generated from the same DBC file, under any driver names, with any switches and any user macros: a driver compiled in one directory (`DriverProgram`, C64) and a node
compiled in another (`NodeTrace`, C66).  For every sequence of calls of Pack functions of the driver, with struct members in the ranges of their signals and
signals that do not overlap: the calls are defined, and the calls of `<node>_<drv>_Receive` with the id, length and bytes that Pack has returned are defined.  Each returns
the id, or 0 for a message the node does not receive.  Afterwards the struct of every received message holds in every member exactly what the struct of the
sender held after the last Pack of this message: for all members but an automatic rolling counter or checksum, what the user had put there (with physical
values: the raw value of the physical member).  No `dlc_error` is reported. -/
theorem C67_exchange_partial (hs : SortsByStart P) (h : trimDbcText P text = .ok out) (hids : IdsDistinct out.msgs) (hrx : rx ≠ [])
    (hA : DriverProgram φ P text drv1 file1 out srt1 D1 on1 tick1 hash1 maxW1 initW1 max1 init1 dir1)
    (hB : NodeTrace φ P text drv2 file2 out srt2 D2 on2 tick2 hash2 maxW2 initW2 who rx max2 init2 dir2) :
    Exchange φ P text out drv1 file1 srt1 D1 on1 tick1 hash1 maxW1 initW1 max1 init1 dir1 drv2 file2 srt2 D2 on2 tick2 hash2 maxW2 initW2 who max2 init2 dir2 := by
  unfold Exchange
  intro g1 g2 u cfg1 cfg2
  obtain ⟨is1, is, js, us, hF, hl, hrun⟩ := exchange_core hs h hids hrx hA hB
  refine ⟨is1, is, js, us, hF, hl, fun f xs mem hf hxs hmem => ?_⟩
  obtain ⟨fs, mem', as, e1, r1, e2, r2, r3⟩ := hrun f xs mem hf hxs hmem
  refine ⟨fs, mem', as, e1, r1, ?_, fun pre x post e hx hpost => ?_⟩
  · clear r1 r3 e1
    revert r2
    induction e2 generalizing as with
    | nil => intro r2; cases r2; exact .nil
    | @cons x a xs fs e _ ih =>
      intro r2
      cases r2 with
      | cons q r2 =>
        refine .cons ?_ (ih (fun y hy => hxs y (List.mem_cons_of_mem _ hy)) _ r2)
        obtain ⟨r, hr, rfl⟩ := e
        obtain ⟨b1, b2, b3, b4, b5⟩ := hxs x List.mem_cons_self
        rcases b5 with b5 | b5
        · refine .inl ⟨?_, b5⟩
          rcases q with q | q
          · exact q.1
          · obtain ⟨m, hm, n1, n2, n3⟩ := stated_receives hs h hids b5.ok b5.stated b5.recs
            have := (who_messages out.msgs who hids m).1 hm
            exact absurd n2 (q.2 m this.1 this.2.1 this.2.2)
        · refine .inr ⟨?_, b5⟩
          rcases q with q | q
          · obtain ⟨d, q1, q2⟩ := q.2
            obtain ⟨m, hm, n1, n2, n3⟩ := stated_receives hs h hids q1.ok q1.stated q1.recs
            have := (who_messages out.msgs who hids m).1 hm
            exact absurd (n2.trans q2) (not_received hs h hids b1.ok b1.stated b5 m this.1 this.2.1 this.2.2)
          · exact q.1
  · subst e
    have hxm : x ∈ pre ++ x :: post := List.mem_append_right _ List.mem_cons_self
    have hok := (hxs x hxm).1
    obtain ⟨pre', a, post', rfl, ⟨r, hr, rfl⟩, hq, -⟩ := forall2_split e2
    obtain ⟨q1, q2⟩ := (r3 x.d hx).2.last pre' _ post' rfl rfl fun b hb => by
      obtain ⟨y, hy, -, -, rfl⟩ := forall2_right hq hb
      exact hpost y hy
    have key : Arrived (cfg2.flag .useSigFloat) x.T2.F x.d r.1 (mem' x.d.name) := fun s hs hr' => by
      have hv := packed_value hok.ok hok.fits hok.clear hok.apart hr.2.1 hs hr'
      refine ⟨fun ha => ?_, fun hph hpl => ?_⟩
      · rw [← hv]
        exact q1.1 s hs ha
      · have := q1.2 hph s hs hpl
        dsimp only at this
        rw [hv] at this
        exact this
    refine ⟨r, hr.1, key, fun s hs ha => ⟨hr.2.2.1 s hs ha, fun hal => ?_⟩, fun hmon => ?_⟩
    · have hm := hr.2.2.1 s hs ha
      have hrange : InSigRange s.signed s.len (r.1.fld s.member) := by
        by_cases hc : cfg1.flag .useSigFloat = true ∧ ¬ s.plain
        · rw [hm.1 hc.1 hc.2]
          rcases hok.phys with q | q | ⟨-, -, q⟩
          · exact absurd (q.symm.trans hc.1) Bool.false_ne_true
          · exact absurd (q s hs) hc.2
          · exact (q s hs hc.2).1
        · rw [hm.2 (by
            cases hfl : cfg1.flag .useSigFloat with
            | false => exact .inl rfl
            | true => exact .inr (Classical.not_not.1 fun q => hc ⟨hfl, q⟩))]
          exact hok.range s hs
      rw [(key s hs hrange).1 hal]
      exact hm
    · have := (q2 hmon).2
      rw [if_neg (Nat.lt_irrefl _)] at this
      exact this

/-- **C67**, from two command lines.  The generator is run twice with the same DBC file (on hosts with the same C++ platform), with any options, driver names and directories; the files of the
first run make the driver of the sender, those of the second the node. -/
theorem C67_run_partial (H1 H2 : RunHost) (args1 args2 : List Str) (text : Str) (out : DbcList) (R1 : GoodRun H1 args1 text out) (R2 : GoodRun H2 args2 text out) (hP : H2.plat = H1.plat)
    (hs : SortsByStart H1.plat) (hc : H1.plat.charMax = 127) (hoob : ∀ v, H1.plat.oob = some v → 2 ^ 32 ≤ CTy.toU .u64 v) (hids : IdsDistinct out.msgs)
    (hf : (getOptions args2).isNofmon = false) (hw : UtilRun (getOptions args2) out.msgs who)
    {fl1 fl2 : ConfEdit} (hD1 : DirDriver (getOptions args1).drvname.1 (runSource H1 args1) out.verHi out.verLow out.maxDlc (H1.sort out.msgs) D1 on1 fl1 tick1 hash1 maxW1 initW1)
    (hD2 : NodeDriver (getOptions args2).drvname.1 (runSource H2 args2) out.verHi out.verLow out.maxDlc (H2.sort out.msgs) D2 on2 fl2 tick2 hash2 maxW2 initW2 who
      (H2.sort (selectRx (whoGroups out.msgs who) out.msgs)) (H2.sort (selectTx (whoGroups out.msgs who) out.msgs)))
    (hrx : H2.sort (selectRx (whoGroups out.msgs who) out.msgs) ≠ []) (max1 init1 max2 init2 : Nat) :
    ∃ files1 files2, runApp H1 args1 = .done files1 ∧ runApp H2 args2 = .done files2 ∧
      ∀ dir1 dir2, ProjectDir dir1 files1 (getOptions args1) (driverDesc (getOptions args1).drvname.1 (runSource H1 args1) out.verHi out.verLow) on1 fl1 →
        ProjectDir dir2 files2 (getOptions args2) (driverDesc (getOptions args2).drvname.1 (runSource H2 args2) out.verHi out.verLow) on2 fl2 →
        Exchange φ H1.plat text out (getOptions args1).drvname.1 (runSource H1 args1) (H1.sort out.msgs) D1 on1 tick1 hash1 maxW1 initW1 max1 init1 dir1
          (getOptions args2).drvname.1 (runSource H2 args2) (H2.sort out.msgs) D2 on2 tick2 hash2 maxW2 initW2 who max2 init2 dir2 := by
  obtain ⟨files1, a1, -, a2⟩ := C65_driver_partial (φ := φ) H1 args1 text out R1 hs hc hoob hD1 max1 init1
  obtain ⟨files2, b1, -, b2⟩ := C66_run_partial (φ := φ) H2 args2 text out R2 (hP ▸ hs) (hP ▸ hc) (hP ▸ hoob) hids hf hw hD2 max2 init2
  rw [hP] at b2
  exact ⟨files1, files2, a1, b1, fun dir1 dir2 p1 p2 => C67_exchange_partial hs R1.scan hids hrx (a2 dir1 p1) (b2 dir2 p2)⟩

end

/-! ### Example: `Motor` with torque 3, `Gear`, and again `Motor` with torque 77 -/

namespace Fix

/-- The struct of the frame is not used. -/
theorem dashFrame : false = dashCfg.flag .useCanStruct := by decide +kernel

def sendCst (v : Int) : CSt Unit := { cst0 with fld := fun n => if n = "Torque".toList then v else 3 }

def sendOf (d : MsgDesc) (v : Int) : Send Unit := ⟨d, dashTarget, ⟨"len".toList, "ide".toList, by decide, by decide, by decide⟩, sendCst v, fun _ => 0, dashTarget, false⟩

def sends : List (Send Unit) := [sendOf motor 3, sendOf gear 3, sendOf motor 77]

theorem motorApart : Apart motor := by unfold Apart; decide +kernel

theorem gearApart : Apart gear := by unfold Apart; decide +kernel

theorem sendStart (is : List Spec.Item) (d : MsgDesc) (hd : d.dlc ≤ 8) (v : Int) (hv : v = 3 ∨ v = 77) : StartIn is d (sendCst v) := by
  refine ⟨fun _ _ n t w _ => ?_, fun _ _ => Int.le_refl _, ?_, hd, rfl, rfl⟩
  · show t.conv (if n = "Torque".toList then v else 3) = if n = "Torque".toList then v else 3
    rcases hv with rfl | rfl <;> split <;> cases t <;> rfl
  · have : ∀ b ∈ cst0.dat, b < 256 := by decide
    exact this

theorem sendClear (d : MsgDesc) : ∀ s ∈ d.sigs, ∀ k, k < s.len → (0 : Nat).testBit (bitPos s.intel s.start s.len k % 8) = false := fun _ _ _ _ => Nat.zero_testBit _

theorem sendMotor (is : List Spec.Item) (v : Int) (hv : v = 3 ∨ v = 77) : SendOk platIns pipeText pipeMsgs dashCfg.flag is 8 0 (sendOf motor v) := by
  have h1 : motor.sigs ≠ [] ∧ (∀ s ∈ motor.sigs, s.signed = true → s.len ≤ 32) ∧ motor.dlc ≤ 8 ∧ (motor.sigs.map (·.member)).Nodup := by decide
  refine ⟨motorStated, motorOk, h1.1, h1.2.1, .inl h1.2.2.1, sendStart is motor h1.2.2.1 v hv, h1.2.2.1, sendClear motor, motorApart, h1.2.2.2, ?_, ⟨dashFrame, fun q => (nomatch q)⟩, .inl dashFlag.1⟩
  rcases hv with rfl | rfl <;> unfold InSigRange <;> decide +kernel

theorem sendGear (is : List Spec.Item) : SendOk platIns pipeText pipeMsgs dashCfg.flag is 8 0 (sendOf gear 3) := by
  refine ⟨gearStated, gearOk, by decide, by decide, .inl (by decide), sendStart is gear (by decide) 3 (.inl rfl), by decide, sendClear gear, gearApart, by decide, ?_, ⟨dashFrame, fun q => (nomatch q)⟩, .inl dashFlag.1⟩
  unfold InSigRange
  decide +kernel

theorem autoNot : ∀ m ∈ pipeMsgs, (m.sigAt m.rollSig).map (·.name) ≠ some "Torque".toList ∧ (m.sigAt m.csmSig).map (·.name) ≠ some "Torque".toList ∧
    (m.sigAt m.rollSig).map (·.name) ≠ some "Ratio_ro".toList ∧ (m.sigAt m.csmSig).map (·.name) ≠ some "Ratio_ro".toList := by decide +kernel

theorem notAuto {n : Str} (hn : n = "Torque".toList ∨ n = "Ratio_ro".toList) (d : MsgDesc) : ¬ AutoMember dashCfg.flag pipeMsgs d n := by
  rintro ⟨m, hm, -, h⟩
  obtain ⟨a1, a2, a3, a4⟩ := autoNot m hm
  have e : ∀ {o : Option Sig} {s : Sig}, o = some s → n = s.name → o.map (·.name) = some n := fun h1 h2 => by rw [h1, h2]; rfl
  rcases h with ⟨-, s, h1, h2⟩ | ⟨-, s, h1, h2⟩ <;> rcases hn with rfl | rfl
  · exact a1 (e h1 h2)
  · exact a3 (e h1 h2)
  · exact a2 (e h1 h2)
  · exact a4 (e h1 h2)

end Fix

example : ∃ dir is js us fs mem' as, (∃ F, ∀ f, F ≤ f → compileTree f dir Fix.userHooks "drv.c".toList = some is) ∧
    sendAll 256 is "drv".toList Fix.sends = some fs ∧
    receiveAll 256 [is, js, us] "dash_drv_Receive".toList fs (fun _ => Fix.cst0) = some (mem', as) ∧
    (mem' "Motor".toList).fld "Torque".toList = 77 ∧ (mem' "Gear".toList).fld "Ratio_ro".toList = 3 ∧ (mem' "Motor".toList).mon "dlc_error".toList = 0 := by
  obtain ⟨hops, sops, uops, h1, h2, h3, h4⟩ := C66_trace_partial (φ := Unit) platIns platIns_sorts rfl (fun v e => by cases e) Fix.pipeText Fix.pipeOut Fix.pipeOk Fix.pipeMsgs Fix.pipeSorted Fix.dashIds
    Fix.dashDriver Fix.dashRxOk Fix.dashTxOk 8 0
  obtain ⟨hops', sops', uops', dir, k1, k2, k3, hdir⟩ := C63_dir_partial Fix.dashDriver (sorted_rx Fix.pipeSorted Fix.dashRxOk) (sorted_tx Fix.pipeSorted Fix.dashTxOk)
  obtain ⟨hops2, sops2, l1, l2, l3⟩ := C64_driver_partial (φ := Unit) platIns platIns_sorts rfl (fun v e => by cases e) Fix.pipeText Fix.pipeOut Fix.pipeOk
    Fix.pipeMsgs Fix.pipeSorted Fix.dashDriver.toDirDriver 8 0
  cases h1.symm.trans k1
  cases h2.symm.trans k2
  cases h3.symm.trans k3
  cases h1.symm.trans l1
  cases h2.symm.trans l2
  obtain ⟨is1, is, js, us, ⟨F, hF⟩, -, hrun⟩ := C67_exchange_partial platIns_sorts Fix.pipeOk Fix.dashIds (by decide +kernel) (l3 dir hdir.toDirOk hdir.source) (h4 dir hdir)
  have e : is1 = is := Option.some.inj ((hF F (Nat.le_refl _)).1.symm.trans (hF F (Nat.le_refl _)).2.1)
  subst e
  obtain ⟨fs, mem', as, r1, r2, -, r3⟩ := hrun 256 Fix.sends (fun _ => Fix.cst0) (Nat.le_refl _)
    (fun x hx => by
      have hT : ∃ hashF now, TargetOk Fix.pipeG Fix.pipeMsgs ((userTable Fix.pipeG Fix.userHooks Fix.dashOn).lookup (monoName Fix.pipeG)).isSome Fix.dashCfg Fix.dashLook Fix.dashTarget hashF now :=
        ⟨Fix.pipeHash, 77, Fix.dashTargetOk⟩
      simp only [Fix.sends, List.mem_cons, List.not_mem_nil, or_false] at hx
      rcases hx with rfl | rfl | rfl
      · exact ⟨Fix.sendMotor _ _ (.inl rfl), hT, hT, Fix.dashUser, .inl Fix.dashMotor⟩
      · exact ⟨Fix.sendGear _, hT, hT, Fix.dashUser, .inl Fix.dashGear⟩
      · exact ⟨Fix.sendMotor _ _ (.inr rfl), hT, hT, Fix.dashUser, .inl Fix.dashMotor⟩)
    (fun d _ => ⟨fun _ _ k t w _ => by cases t <;> rfl, fun _ _ => Int.le_refl _, rfl, rfl⟩)
  refine ⟨dir, is1, js, us, fs, mem', as, ⟨F, fun f hf => (hF f hf).1⟩, r1, r2, ?_⟩
  obtain ⟨r, -, -, m1, m2⟩ := r3 [Fix.sendOf Fix.motor 3, Fix.sendOf Fix.gear 3] (Fix.sendOf Fix.motor 77) [] rfl Fix.dashMotor (fun _ q => (nomatch q))
  obtain ⟨r', -, -, g1, -⟩ := r3 [Fix.sendOf Fix.motor 3] (Fix.sendOf Fix.gear 3) [Fix.sendOf Fix.motor 77] rfl Fix.dashGear (by decide)
  refine ⟨?_, ?_, m2 Fix.dashFlag.2⟩
  · exact ((m1 (Fix.sd "Torque" 19 12 false true (-2048) 2047 "Nm") (by decide) (Fix.notAuto (.inl rfl) _)).2 (.inl (by decide))).2 (.inl Fix.dashFlag.1)
  · exact ((g1 Fix.ratio List.mem_cons_self (Fix.notAuto (.inr rfl) _)).2 (.inl (by decide))).2 (.inl Fix.dashFlag.1)

end Verif
