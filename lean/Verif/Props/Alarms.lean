import Verif.Props.Exchange
/-
C68: no false alarms between two programs.
-/
namespace Verif
open Spec

variable {φ : Type}

/-- The users of both programs compute the same checksum for message `d`: it depends on the bytes of the payload alone, not on the bits of the checksum `s` itself, and fits into `s`. -/
structure Spec.SameHash (d : MsgDesc) (s : SigDesc) (method : Str) (op : Nat) (hash1 hash2 : List Nat → Nat → Nat → Str → Nat → Nat) : Prop where
  same : ∀ a b, IsPayload a → IsPayload b → d.dlc ≤ a.length → d.dlc ≤ b.length →
    (∀ p, p < 8 * d.dlc → (∀ k, k < s.len → bitPos s.intel s.start s.len k ≠ p) → payloadBit a p = payloadBit b p) → hash1 a d.dlc d.id method op = hash2 b d.dlc d.id method op
  fits : ∀ a, InSigRange s.signed s.len ((hash1 a d.dlc d.id method op % 256 : Nat) : Int)

theorem expected_skip {d : MsgDesc} {s : SigDesc} {l : List (Arrival φ)} (h : ∀ y ∈ l, y.id ≠ d.id) (e : Int) : expected d s l e = e := by
  induction l generalizing e with
  | nil => rfl
  | cons x l ih =>
    unfold expected
    rw [if_neg (h x List.mem_cons_self)]
    exact ih (fun y hy => h y (List.mem_cons_of_mem _ hy)) e

theorem expected_last {d : MsgDesc} {s : SigDesc} {pre : List (Arrival φ)} {y : Arrival φ} {mid : List (Arrival φ)} (hy : y.id = d.id) (h : ∀ z ∈ mid, z.id ≠ d.id) (e : Int) :
    expected d s (pre ++ y :: mid) e = (s.raw y.data + 1) % 2 ^ s.len := by
  induction pre generalizing e with
  | nil =>
    rw [List.nil_append]
    unfold expected
    rw [if_pos hy]
    exact expected_skip h _
  | cons x l ih =>
    rw [List.cons_append]
    unfold expected
    exact ih _

theorem succ_mod_inj {a b : Int} {n : Nat} (ha : 0 ≤ a ∧ a < 2 ^ n) (hb : 0 ≤ b ∧ b < 2 ^ n) : (a + 1) % 2 ^ n = (b + 1) % 2 ^ n ↔ a = b := by
  generalize (2 ^ n : Int) = q at ha hb
  refine ⟨fun h => ?_, fun h => by rw [h]⟩
  have e : ∀ c : Int, 0 ≤ c ∧ c < q → (c + 1) % q = if c + 1 = q then 0 else c + 1 := fun c hc => by
    split
    · rename_i h
      rw [h, Int.emod_self]
    · exact Int.emod_eq_of_lt (by omega) (by omega)
  rw [e a ha, e b hb] at h
  split at h <;> split at h <;> omega

theorem counter_perm {srt msgs : List Msg} (h : SortedBy srt msgs) {d : MsgDesc} {s : SigDesc} : IsCounter msgs d s ↔ IsCounter srt d s :=
  ⟨fun ⟨m, hm, q⟩ => ⟨m, h.1.mem_iff.2 hm, q⟩, fun ⟨m, hm, q⟩ => ⟨m, h.1.mem_iff.1 hm, q⟩⟩
theorem checksum_perm {srt msgs : List Msg} (h : SortedBy srt msgs) {d : MsgDesc} {s : SigDesc} {me : Str} {op : Nat} : IsChecksum msgs d s me op ↔ IsChecksum srt d s me op :=
  ⟨fun ⟨m, hm, q⟩ => ⟨m, h.1.mem_iff.2 hm, q⟩, fun ⟨m, hm, q⟩ => ⟨m, h.1.mem_iff.1 hm, q⟩⟩

section
variable {P : Platform} {text drv1 drv2 : Str} {file1 file2 : Source} {who : Option Str} {out : DbcList} {srt1 srt2 rx : List Msg} {D1 D2 : Defs} {on1 on2 : List Str} {tick1 hash1 tick2 hash2 : Hook}
  {maxW1 initW1 maxW2 initW2 : Str} {max1 init1 max2 init2 : Nat} {dir1 dir2 : List (Str × Str)}

/-- What the monitor of the receiver reports about frames that a driver with automatic counter and checksum has packed: the conclusion of C68. -/
def Alarms (φ : Type) (P : Platform) (text : Str) (out : DbcList) (drv1 : Str) (file1 : Source) (srt1 : List Msg) (D1 : Defs) (on1 : List Str) (tick1 hash1 : Hook) (maxW1 initW1 : Str)
    (max1 init1 : Nat) (dir1 : List (Str × Str)) (drv2 : Str) (file2 : Source) (srt2 : List Msg) (D2 : Defs) (on2 : List Str) (tick2 hash2 : Hook) (maxW2 initW2 : Str) (who : Option Str) (max2 init2 : Nat)
    (dir2 : List (Str × Str)) : Prop :=
  let g1 := driverDesc drv1 file1 out.verHi out.verLow
  let g2 := driverDesc drv2 file2 out.verHi out.verLow
  let u := nodeDesc drv2 file2 out.verHi out.verLow who
  let cfg1 := cfgOf g1 (userTable g1 D1 on1) false max1 init1
  let cfg2 := cfgOf g2 (userTable g2 D2 on2) false max2 init2
  let ok1 := TargetOk (φ := φ) g1 srt1 ((userTable g1 D1 on1).lookup (monoName g1)).isSome cfg1 (lookOf g1 (userTable g1 D1 on1) srt1 tick1 hash1 maxW1 initW1)
  let ok2 := TargetOk (φ := φ) g2 srt2 ((userTable g2 D2 on2).lookup (monoName g2)).isSome cfg2 (lookOf g2 (userTable g2 D2 on2) srt2 tick2 hash2 maxW2 initW2)
  ∃ is1 is js us,
    (∃ F, ∀ f, F ≤ f → compileTree f dir1 D1 (g1.drvLow ++ ".c".toList) = some is1 ∧ compileTree f dir2 D2 (g2.drvLow ++ ".c".toList) = some is ∧
      compileTree f dir2 D2 (g2.drvLow ++ "-fmon.c".toList) = some js ∧ compileTree f dir2 D2 (strLower (u.name ++ "-binutil.c".toList)) = some us) ∧
    links [is, js, us] = true ∧
    ∀ (f : Nat) (xs : List (Send φ)) (mem : Str → CSt φ), 256 ≤ f →
      (∀ x ∈ xs, SendOk P text srt1 cfg1.flag is1 max1 init1 x ∧ (∃ hashF now, ok1 x.T hashF now) ∧ (∃ hashF now, ok2 x.T2 hashF now) ∧
        (∀ n, x.T2.user ("Unpack_".toList ++ n ++ "_".toList ++ drv2) = none) ∧
        (NodeMsg P text who srt2 cfg2.flag x.d ∨ ¬ Receives who x.d)) →
      (∀ d, NodeMsg P text who srt2 cfg2.flag d → Ready is d.name (mem d.name)) →
      ∃ fs mem' as, sendAll f is1 drv1 xs = some fs ∧ receiveAll f [is, js, us] (u.name ++ "_Receive".toList) fs mem = some (mem', as) ∧
        ∀ pre x post, xs = pre ++ x :: post → NodeMsg P text who srt2 cfg2.flag x.d → (∀ y ∈ post, y.d.id ≠ x.d.id) → cfg2.flag .useMon = true →
          (cfg1.flag .autoRoll = true → cfg2.flag .autoRoll = true → ∀ s ∈ x.d.sigs, IsCounter out.msgs x.d s → s.signed = false →
            (cfg1.flag .autoCsm = true → ∀ method op, ¬ IsChecksum out.msgs x.d s method op) →
            (∀ pre0 y mid, pre = pre0 ++ y :: mid → y.d = x.d → (∀ z ∈ mid, z.d.id ≠ x.d.id) →
              ∃ r, packCall f is1 drv1 y = some r ∧ r.1.fld s.member = (y.cst.fld s.member + 1) % 2 ^ s.len ∧ ((mem' x.d.name).mon "roll_error".toList = 0 ↔ x.cst.fld s.member = r.1.fld s.member)) ∧
            ((∀ z ∈ pre, z.d.id ≠ x.d.id) → ((mem' x.d.name).mon "roll_error".toList = 0 ↔ (x.cst.fld s.member + 1) % 2 ^ s.len = (mem x.d.name).fld s.expt))) ∧
          (cfg1.flag .autoCsm = true → cfg2.flag .autoCsm = true → ∀ s ∈ x.d.sigs, ∀ method op, IsChecksum out.msgs x.d s method op →
            ∀ h1 now1 h2 now2, ok1 x.T h1 now1 → ok2 x.T2 h2 now2 → SameHash x.d s method op h1 h2 → (mem' x.d.name).mon "csm_error".toList = 0) ∧
          (cfg2.flag .autoRoll = false ∨ (∀ s ∈ x.d.sigs, ¬ IsCounter out.msgs x.d s) → (mem' x.d.name).mon "roll_error".toList = (mem x.d.name).mon "roll_error".toList) ∧
          (cfg2.flag .autoCsm = false ∨ (∀ s ∈ x.d.sigs, ∀ method op, ¬ IsChecksum out.msgs x.d s method op) →
            (mem' x.d.name).mon "csm_error".toList = (mem x.d.name).mon "csm_error".toList)

/-- **C68**.  Two programs generated from the same DBC file, as in C67; the sender with automatic rolling counter and checksum, the receiver with monitors that check them.  For every sequence of
frames that are packed by the one and received by the other: Pack counts the counter up; for the last frame of a message, `roll_error` is 0 exactly if the user of the sender has left the counter
alone since Pack has made the previous frame of this message that arrived (frames lost in between move the counter on, so they are noticed unless their number is a multiple of
2^width: `succ_mod_inj`, C19); for the first frame of a message the counter is compared with what the receiver began with.  If both users supply the same checksum function, one that does not look at the checksum itself
and whose value fits, `csm_error` is 0.  Without a counter (a checksum) the receiver leaves `roll_error` (`csm_error`) alone. -/
theorem C68_alarms_partial (hs : SortsByStart P) (h : trimDbcText P text = .ok out) (hids : IdsDistinct out.msgs) (hp1 : SortedBy srt1 out.msgs) (hp2 : SortedBy srt2 out.msgs) (hrx : rx ≠ [])
    (hA : DriverProgram φ P text drv1 file1 out srt1 D1 on1 tick1 hash1 maxW1 initW1 max1 init1 dir1)
    (hB : NodeTrace φ P text drv2 file2 out srt2 D2 on2 tick2 hash2 maxW2 initW2 who rx max2 init2 dir2) :
    Alarms φ P text out drv1 file1 srt1 D1 on1 tick1 hash1 maxW1 initW1 max1 init1 dir1 drv2 file2 srt2 D2 on2 tick2 hash2 maxW2 initW2 who max2 init2 dir2 := by
  unfold Alarms
  intro g1 g2 u cfg1 cfg2 ok1 ok2
  obtain ⟨is1, is, js, us, hF, hl, hrun⟩ := exchange_core hs h hids hrx hA hB
  refine ⟨is1, is, js, us, hF, hl, fun f xs mem hf hxs hmem => ?_⟩
  obtain ⟨fs, mem', as, e1, r1, e2, r2, r3⟩ := hrun f xs mem hf hxs hmem
  refine ⟨fs, mem', as, e1, r1, fun pre x post e hx hpost hmon => ?_⟩
  subst e
  have hxm : x ∈ pre ++ x :: post := List.mem_append_right _ List.mem_cons_self
  obtain ⟨hok, ⟨hF1, now1, hT1⟩, -⟩ := hxs x hxm
  obtain ⟨pre', a, post', rfl, ⟨r, hr, rfl⟩, hq, hpre⟩ := forall2_split e2
  have hafter := (r3 x.d hx).2
  have hlast : ∀ b ∈ post', b.id ≠ x.d.id := fun b hb => by
    obtain ⟨y, hy, -, -, rfl⟩ := forall2_right hq hb
    exact hpost y hy
  have hpos : ∀ n : Nat, (0 : Int) < 2 ^ n := fun n => by exact_mod_cast Nat.two_pow_pos n
  refine ⟨fun hf1 hf2 s hsm hcn hu hnc => ?_, fun hf1 hf2 s hsm me op hck h1 now1 h2 now2 hT1 hT2 hh => ?_,
    fun q => hafter.noRoll hmon (q.imp_right fun q s hsm c => q s hsm ((counter_perm hp2).2 c)),
    fun q => hafter.noCsm hmon (q.imp_right fun q s hsm me op c => q s hsm me op ((checksum_perm hp2).2 c))⟩
  · have hu0 : ∀ v : Int, InSigRange s.signed s.len v ↔ 0 ≤ v ∧ v < 2 ^ s.len := fun v => by unfold InSigRange; rw [hu]; exact Iff.rfl
    have hnc1 : cfg1.flag .autoCsm = true → ∀ method op, ¬ IsChecksum srt1 x.d s method op := fun q me op c => hnc q me op ((checksum_perm hp1).2 c)
    -- what a frame of the message carries
    have carry : ∀ (y : Send φ) (ry : CSt φ × V φ), SendOk P text srt1 cfg1.flag is1 max1 init1 y → (∃ hashF now, ok1 y.T hashF now) →
        SentAs cfg1.flag srt1 ok1 max1 init1 f is1 drv1 y ry → y.d = x.d →
        ry.1.fld s.member = (y.cst.fld s.member + 1) % 2 ^ s.len ∧ s.raw (ry.1.dat.take x.d.dlc) = ry.1.fld s.member := fun y ry hy ⟨hF, nw, hT⟩ hsent hd => by
      obtain ⟨-, hpk, -, hau⟩ := hsent
      have b1 := (hau hF nw hT).roll hf1 s (hd ▸ hsm) (hd ▸ (counter_perm hp1).1 hcn) hu (hd ▸ hnc1) (hy.range s (hd ▸ hsm))
      refine ⟨b1, ?_⟩
      rw [← hd]
      refine packed_value hy.ok hy.fits hy.clear hy.apart hpk (hd ▸ hsm) ((hu0 _).2 ?_)
      rw [b1]
      exact ⟨Int.emod_nonneg _ (Int.ne_of_gt (hpos _)), Int.emod_lt_of_pos _ (hpos _)⟩
    obtain ⟨c1, c2⟩ := carry x r hok ⟨hF1, now1, hT1⟩ hr rfl
    have hroll := hafter.roll hmon hf2 s hsm ((counter_perm hp2).1 hcn) hu pre' _ post' rfl rfl hlast
    dsimp only at hroll
    rw [c2, c1] at hroll
    refine ⟨fun pre0 y mid epre hy hmid => ?_, fun hno => ?_⟩
    · subst epre
      obtain ⟨pre0', ay, mid', rfl, ⟨ry, hry, rfl⟩, hmid', -⟩ := forall2_split hpre
      obtain ⟨hoky, hTy, -⟩ := hxs y (List.mem_append_left _ (List.mem_append_right _ List.mem_cons_self))
      obtain ⟨d1, d2⟩ := carry y ry hoky hTy hry hy
      refine ⟨ry, hry.1, d1, ?_⟩
      rw [expected_last (by rw [hy]) (fun z hz => by
        obtain ⟨w, hw, -, -, rfl⟩ := forall2_right hmid' hz
        exact hmid w hw)] at hroll
      dsimp only at hroll
      rw [show y.d.dlc = x.d.dlc by rw [hy], d2] at hroll
      have hxr := (hu0 _).1 (hok.range s hsm)
      have hyr : 0 ≤ ry.1.fld s.member ∧ ry.1.fld s.member < 2 ^ s.len := by
        rw [d1]
        exact ⟨Int.emod_nonneg _ (Int.ne_of_gt (hpos _)), Int.emod_lt_of_pos _ (hpos _)⟩
      have hiff := succ_mod_inj (n := s.len) hxr hyr
      rw [hroll, ← hiff]
      split
      · rename_i hc
        exact ⟨fun _ => hc, fun _ => rfl⟩
      · rename_i hc
        exact ⟨fun q => absurd q (by decide), fun q => absurd q hc⟩
    · rw [expected_skip fun z hz => by
        obtain ⟨w, hw, -, -, rfl⟩ := forall2_right hpre hz
        exact hno w hw] at hroll
      rw [hroll]
      split
      · rename_i hc
        exact ⟨fun _ => hc, fun _ => rfl⟩
      · rename_i hc
        exact ⟨fun q => absurd q (by decide), fun q => absurd q hc⟩
  · have hcsm := hafter.csm hmon hf2 s hsm me op ((checksum_perm hp2).1 hck) pre' _ post' rfl rfl hlast h2 now2 hT2
    obtain ⟨-, hpk, -, hau⟩ := hr
    obtain ⟨d0, p1, p2, p3⟩ := (hau h1 now1 hT1).csm hf1 s hsm me op ((checksum_perm hp1).1 hck)
    have hv := p3 (hh.fits d0)
    have hraw := packed_value hok.ok hok.fits hok.clear hok.apart hpk hsm (by rw [hv]; exact hh.fits d0)
    have hlen : x.d.dlc ≤ r.1.dat.length := by
      have := hok.start.len
      rw [hpk.2.2.2.1]
      exact this
    have he := hh.same d0 (r.1.dat.take x.d.dlc) p1 (fun b hb => hpk.2.2.2.2.1 b (List.mem_of_mem_take hb)) (by rw [p2.1]; exact hlen) (by rw [List.length_take]; omega) fun p hp hns => by
      rw [payloadBit_take hp]
      exact p2.2 p hns
    dsimp only at hcsm
    rw [hraw, hv, he, if_pos rfl] at hcsm
    exact hcsm

/-- **C68**, from two command lines, as in C67. -/
theorem C68_run_partial (H1 H2 : RunHost) (args1 args2 : List Str) (text : Str) (out : DbcList) (R1 : GoodRun H1 args1 text out) (R2 : GoodRun H2 args2 text out) (hP : H2.plat = H1.plat)
    (hs : SortsByStart H1.plat) (hc : H1.plat.charMax = 127) (hoob : ∀ v, H1.plat.oob = some v → 2 ^ 32 ≤ CTy.toU .u64 v) (hids : IdsDistinct out.msgs)
    (hf : (getOptions args2).isNofmon = false) (hw : UtilRun (getOptions args2) out.msgs who)
    {fl1 fl2 : ConfEdit} (hD1 : DirDriver (getOptions args1).drvname.1 (runSource H1 args1) out.verHi out.verLow out.maxDlc (H1.sort out.msgs) D1 on1 fl1 tick1 hash1 maxW1 initW1)
    (hD2 : NodeDriver (getOptions args2).drvname.1 (runSource H2 args2) out.verHi out.verLow out.maxDlc (H2.sort out.msgs) D2 on2 fl2 tick2 hash2 maxW2 initW2 who
      (H2.sort (selectRx (whoGroups out.msgs who) out.msgs)) (H2.sort (selectTx (whoGroups out.msgs who) out.msgs)))
    (hrx : H2.sort (selectRx (whoGroups out.msgs who) out.msgs) ≠ []) (max1 init1 max2 init2 : Nat) :
    ∃ files1 files2, runApp H1 args1 = .done files1 ∧ runApp H2 args2 = .done files2 ∧
      ∀ dir1 dir2, ProjectDir dir1 files1 (getOptions args1) (driverDesc (getOptions args1).drvname.1 (runSource H1 args1) out.verHi out.verLow) on1 fl1 →
        ProjectDir dir2 files2 (getOptions args2) (driverDesc (getOptions args2).drvname.1 (runSource H2 args2) out.verHi out.verLow) on2 fl2 →
        Alarms φ H1.plat text out (getOptions args1).drvname.1 (runSource H1 args1) (H1.sort out.msgs) D1 on1 tick1 hash1 maxW1 initW1 max1 init1 dir1
          (getOptions args2).drvname.1 (runSource H2 args2) (H2.sort out.msgs) D2 on2 tick2 hash2 maxW2 initW2 who max2 init2 dir2 := by
  obtain ⟨files1, a1, -, a2⟩ := C65_driver_partial (φ := φ) H1 args1 text out R1 hs hc hoob hD1 max1 init1
  obtain ⟨files2, b1, -, b2⟩ := C66_run_partial (φ := φ) H2 args2 text out R2 (hP ▸ hs) (hP ▸ hc) (hP ▸ hoob) hids hf hw hD2 max2 init2
  rw [hP] at b2
  exact ⟨files1, files2, a1, b1, fun dir1 dir2 p1 p2 => C68_alarms_partial hs R1.scan hids (R1.sort _) (R2.sort _) hrx (a2 dir1 p1) (b2 dir2 p2)⟩

end


/-! ### Example: `Motor`, `Gear`, and again `Motor`, with the counter that Pack has left and with another one -/

namespace Fix

def countCst (c : Int) : CSt Unit := { cst0 with fld := fun n => if n = "Cnt".toList then c else 3 }

def countOf (d : MsgDesc) (c : Int) : Send Unit := ⟨d, dashTarget, ⟨"len".toList, "ide".toList, by decide, by decide, by decide⟩, countCst c, fun _ => 0, dashTarget, false⟩

/-- The second `Motor` has counter `c`. -/
def counts (c : Int) : List (Send Unit) := [countOf motor 3, countOf gear 3, countOf motor c]

theorem countStart (is : List Spec.Item) (d : MsgDesc) (hd : d.dlc ≤ 8) (c : Int) (hc : c = 3 ∨ c = 4 ∨ c = 6) : StartIn is d (countCst c) := by
  refine ⟨fun _ _ n t w _ => ?_, fun _ _ => Int.le_refl _, ?_, hd, rfl, rfl⟩
  · show t.conv (if n = "Cnt".toList then c else 3) = if n = "Cnt".toList then c else 3
    rcases hc with rfl | rfl | rfl <;> split <;> cases t <;> rfl
  · have : ∀ b ∈ cst0.dat, b < 256 := by decide
    exact this

theorem countMotor (is : List Spec.Item) (c : Int) (hc : c = 3 ∨ c = 4 ∨ c = 6) : SendOk platIns pipeText pipeMsgs dashCfg.flag is 8 0 (countOf motor c) := by
  have h1 : motor.sigs ≠ [] ∧ (∀ s ∈ motor.sigs, s.signed = true → s.len ≤ 32) ∧ motor.dlc ≤ 8 ∧ (motor.sigs.map (·.member)).Nodup := by decide
  refine ⟨motorStated, motorOk, h1.1, h1.2.1, .inl h1.2.2.1, countStart is motor h1.2.2.1 c hc, h1.2.2.1, sendClear motor, motorApart, h1.2.2.2, ?_, ⟨dashFrame, fun q => (nomatch q)⟩, .inl dashFlag.1⟩
  rcases hc with rfl | rfl | rfl <;> unfold InSigRange <;> decide +kernel

theorem countGear (is : List Spec.Item) : SendOk platIns pipeText pipeMsgs dashCfg.flag is 8 0 (countOf gear 3) := by
  refine ⟨gearStated, gearOk, by decide, by decide, .inl (by decide), countStart is gear (by decide) 3 (.inl rfl), by decide, sendClear gear, gearApart, by decide, ?_, ⟨dashFrame, fun q => (nomatch q)⟩, .inl dashFlag.1⟩
  unfold InSigRange
  decide +kernel

def cntSig : SigDesc := sd "Cnt" 0 4 true false 0 15 ""
def crcSig : SigDesc := sd "Crc" 56 8 true false 0 255 ""

theorem cntIs : IsCounter pipeOut.msgs motor cntSig := ⟨_, List.mem_cons_self, rfl, _, rfl, rfl⟩
theorem crcIs : IsChecksum pipeOut.msgs motor crcSig "XOR8".toList 1 := ⟨_, List.mem_cons_self, rfl, rfl, rfl, _, rfl, rfl⟩

theorem cntNot (method : Str) (op : Nat) : ¬ IsChecksum pipeOut.msgs motor cntSig method op := by
  have : ∀ m ∈ pipeOut.msgs, (m.sigAt m.csmSig).map (·.name) ≠ some "Cnt".toList := by decide +kernel
  rintro ⟨m, hm, -, -, -, t, h1, h2⟩
  exact this m hm (by rw [h1]; exact congrArg some h2)

theorem pipeSame : SameHash motor crcSig "XOR8".toList 1 pipeHash pipeHash := by
  refine ⟨fun a b ha hb la lb h => ?_, fun a => ?_⟩
  · unfold pipeHash
    have e : a.take 7 = b.take 7 := by
      refine List.ext_getElem? fun i => ?_
      rw [List.getElem?_take, List.getElem?_take]
      split
      · rename_i hi
        have la : 8 ≤ a.length := la
        have lb : 8 ≤ b.length := lb
        rw [List.getElem?_eq_getElem (by omega), List.getElem?_eq_getElem (by omega)]
        refine congrArg some (Nat.eq_of_testBit_eq fun j => ?_)
        by_cases hj : j < 8
        · have := h (8 * i + j) (show _ < 8 * 8 by omega) (fun k hk => by
            have hk : k < 8 := hk
            show (56 + k : Nat) ≠ _
            omega)
          unfold payloadBit at this
          rw [show (8 * i + j) / 8 = i by omega, show (8 * i + j) % 8 = j by omega, List.getD_eq_getElem?_getD, List.getD_eq_getElem?_getD,
            List.getElem?_eq_getElem (show i < a.length by omega), List.getElem?_eq_getElem (show i < b.length by omega)] at this
          exact this
        · have hbig : ∀ x : Nat, x < 256 → x.testBit j = false := fun x hx =>
            Nat.testBit_lt_two_pow (Nat.lt_of_lt_of_le hx (show 2 ^ 8 ≤ 2 ^ j from Nat.pow_le_pow_right (by omega) (by omega)))
          rw [hbig _ (ha _ (List.getElem_mem _)), hbig _ (hb _ (List.getElem_mem _))]
      · rfl
    rw [e]
  · show (0 : Int) ≤ _ ∧ _ < (2 : Int) ^ 8
    omega

end Fix

example : ∃ dir is js us, (∃ F, ∀ f, F ≤ f → compileTree f dir Fix.userHooks "drv.c".toList = some is) ∧
    ∀ c, c = 4 ∨ c = 6 → ∃ fs mem' as, sendAll 256 is "drv".toList (Fix.counts c) = some fs ∧
      receiveAll 256 [is, js, us] "dash_drv_Receive".toList fs (fun _ => Fix.cst0) = some (mem', as) ∧
      ((mem' "Motor".toList).mon "roll_error".toList = 0 ↔ c = 4) ∧ (mem' "Motor".toList).mon "csm_error".toList = 0 := by
  obtain ⟨hops, sops, uops, h1, h2, h3, h4⟩ := C66_trace_partial (φ := Unit) platIns platIns_sorts rfl (fun v e => by cases e) Fix.pipeText Fix.pipeOut Fix.pipeOk Fix.pipeMsgs Fix.pipeSorted Fix.dashIds
    Fix.dashDriver Fix.dashRxOk Fix.dashTxOk 8 0
  obtain ⟨hops', sops', uops', dir, k1, k2, k3, hdir⟩ := C63_dir_partial Fix.dashDriver (sorted_rx Fix.pipeSorted Fix.dashRxOk) (sorted_tx Fix.pipeSorted Fix.dashTxOk)
  obtain ⟨hops2, sops2, l1, l2, l3⟩ := C64_driver_partial (φ := Unit) platIns platIns_sorts rfl (fun v e => by cases e) Fix.pipeText Fix.pipeOut Fix.pipeOk
    Fix.pipeMsgs Fix.pipeSorted Fix.dashDriver.toDirDriver 8 0
  cases h1.symm.trans k1
  cases h2.symm.trans k2
  cases h3.symm.trans k3
  cases h1.symm.trans l1
  cases h2.symm.trans l2
  obtain ⟨is1, is, js, us, ⟨F, hF⟩, -, hrun⟩ := C68_alarms_partial platIns_sorts Fix.pipeOk Fix.dashIds Fix.pipeSorted Fix.pipeSorted (by decide +kernel) (l3 dir hdir.toDirOk hdir.source) (h4 dir hdir)
  have e : is1 = is := Option.some.inj ((hF F (Nat.le_refl _)).1.symm.trans (hF F (Nat.le_refl _)).2.1)
  subst e
  refine ⟨dir, is1, js, us, ⟨F, fun f hf => (hF f hf).1⟩, fun c hc => ?_⟩
  obtain ⟨fs, mem', as, r1, r2, r3⟩ := hrun 256 (Fix.counts c) (fun _ => Fix.cst0) (Nat.le_refl _)
    (fun x hx => by
      have hT : ∃ hashF now, TargetOk Fix.pipeG Fix.pipeMsgs ((userTable Fix.pipeG Fix.userHooks Fix.dashOn).lookup (monoName Fix.pipeG)).isSome Fix.dashCfg Fix.dashLook Fix.dashTarget hashF now :=
        ⟨Fix.pipeHash, 77, Fix.dashTargetOk⟩
      simp only [Fix.counts, List.mem_cons, List.not_mem_nil, or_false] at hx
      rcases hx with rfl | rfl | rfl
      · exact ⟨Fix.countMotor _ _ (.inl rfl), hT, hT, Fix.dashUser, .inl Fix.dashMotor⟩
      · exact ⟨Fix.countGear _, hT, hT, Fix.dashUser, .inl Fix.dashGear⟩
      · exact ⟨Fix.countMotor _ _ (.inr hc), hT, hT, Fix.dashUser, .inl Fix.dashMotor⟩)
    (fun d _ => ⟨fun _ _ k t w _ => by cases t <;> rfl, fun _ _ => Int.le_refl _, rfl, rfl⟩)
  refine ⟨fs, mem', as, r1, r2, ?_⟩
  obtain ⟨m1, m2, -⟩ := r3 [Fix.countOf Fix.motor 3, Fix.countOf Fix.gear 3] (Fix.countOf Fix.motor c) [] rfl Fix.dashMotor (fun _ q => (nomatch q)) Fix.dashFlag.2
  refine ⟨?_, m2 Fix.dashAuto.2 Fix.dashAuto.2 Fix.crcSig (show Fix.crcSig ∈ Fix.motor.sigs by decide) _ _ Fix.crcIs _ _ _ _ Fix.dashTargetOk Fix.dashTargetOk Fix.pipeSame⟩
  obtain ⟨r, -, e1, e2⟩ := (m1 Fix.dashAuto.1 Fix.dashAuto.1 Fix.cntSig List.mem_cons_self Fix.cntIs rfl (fun _ => Fix.cntNot)).1 [] (Fix.countOf Fix.motor 3) [Fix.countOf Fix.gear 3] rfl rfl
    (show ∀ z ∈ [Fix.countOf Fix.gear 3], z.d.id ≠ Fix.motor.id by decide)
  refine e2.trans ?_
  rw [e1]
  exact Iff.rfl

end Verif
