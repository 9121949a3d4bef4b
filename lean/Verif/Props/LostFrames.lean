import Verif.Props.Alarms
import Verif.Props.Meaning
/-
C72: frames that are lost between two generated programs, from the tags in the comments of the DBC file to the alarms of the receiver.
-/
namespace Verif
open Verif.Spec

/-- The last comment with the tag of a rolling counter for a signal of `d` is for `s`. -/
def Spec.CounterTag (xs : List FileStmt) (d : MsgDesc) (s : SigDesc) : Prop :=
  ∃ ext n t, IsLast (FileStmt.Counts d) xs (.sigComment d.id ext n t) ∧ HasRoll t ∧ d.named n = [s]

/-- The last comment with a checksum tag for a signal of `d` that can hold one is for `s`, and the tag is `<Checksum:method:op>`. -/
def Spec.ChecksumTag (xs : List FileStmt) (d : MsgDesc) (s : SigDesc) (method : Str) (op : Nat) : Prop :=
  ∃ ext n pre rest, IsLast (FileStmt.Sums d) xs (.sigComment d.id ext n (pre ++ (csmText method op ++ rest))) ∧
    '<' ∉ pre ∧ ':' ∉ method ∧ '>' ∉ method ∧ op < 2 ^ 31 ∧ ':' ∉ (('>' :: rest).take pre.length).dropLast ∧ d.named n = [s] ∧ s.Sums

/-- `s` is not the checksum. -/
def Spec.NoChecksumTag (xs : List FileStmt) (d : MsgDesc) (s : SigDesc) : Prop :=
  (∀ x ∈ xs, ¬ x.Sums d) ∨ ∃ s' method op, ChecksumTag xs d s' method op ∧ s.member ≠ s'.member

section
variable {xs : List FileStmt} {srt : List Msg} {d : MsgDesc} {s : SigDesc} {method : Str} {op : Nat}

theorem tag_mem {n : Str} (h : d.named n = [s]) : s ∈ d.sigs := by
  have : s ∈ d.named n := by rw [h]; exact List.mem_cons_self
  exact (List.mem_filter.1 this).1

theorem Spec.CounterTag.mem (h : CounterTag xs d s) : s ∈ d.sigs := by
  obtain ⟨_, _, _, -, -, h⟩ := h
  exact tag_mem h

theorem Spec.ChecksumTag.mem (h : ChecksumTag xs d s method op) : s ∈ d.sigs := by
  obtain ⟨_, _, _, _, -, -, -, -, -, -, h, -⟩ := h
  exact tag_mem h

theorem says_counter (h : FileSays xs srt d) (ht : CounterTag xs d s) : IsCounter srt d s := by
  obtain ⟨ext, n, t, h1, h2, h3⟩ := ht
  exact (h.counter ext n t s h1 h2 h3 s).2 rfl

theorem says_checksum (h : FileSays xs srt d) (ht : ChecksumTag xs d s method op) : IsChecksum srt d s method op := by
  obtain ⟨ext, n, pre, rest, h1, h2, h3, h4, h5, h6, h7, h8⟩ := ht
  exact (h.checksum ext n pre method op rest s h1 h2 h3 h4 h5 h6 h7 h8 s method op).2 ⟨rfl, rfl, rfl⟩

theorem says_noChecksum (h : FileSays xs srt d) (ht : NoChecksumTag xs d s) (method : Str) (op : Nat) : ¬ IsChecksum srt d s method op := by
  rcases ht with ht | ⟨s', me, o, ⟨ext, n, pre, rest, h1, h2, h3, h4, h5, h6, h7, h8⟩, hne⟩
  · exact h.noChecksum ht s method op
  · exact fun c => hne ((h.checksum ext n pre me o rest s' h1 h2 h3 h4 h5 h6 h7 h8 s method op).1 c).1

end

/-- The frames that arrive: those that are marked. -/
def Spec.delivered {α : Type} (all : List (α × Bool)) : List α := (all.filter (·.2)).map (·.1)

theorem delivered_append {α : Type} (a b : List (α × Bool)) : delivered (a ++ b) = delivered a ++ delivered b := by
  unfold delivered
  rw [List.filter_append, List.map_append]

theorem delivered_cons {α : Type} (x : α) (b : List (α × Bool)) : delivered ((x, true) :: b) = x :: delivered b := by
  unfold delivered
  rfl

theorem mem_delivered {α : Type} {all : List (α × Bool)} {x : α} : x ∈ delivered all ↔ (x, true) ∈ all := by
  unfold delivered
  rw [List.mem_map]
  constructor
  · rintro ⟨⟨y, b⟩, h, rfl⟩
    obtain ⟨h1, h2⟩ := List.mem_filter.1 h
    cases (h2 : b = true)
    exact h1
  · exact fun h => ⟨(x, true), List.mem_filter.2 ⟨h, rfl⟩, rfl⟩

/-- `R` holds between each element and the next. -/
def Spec.Each {α : Type} (R : α → α → Prop) : List α → Prop
  | y :: z :: l => R y z ∧ Each R (z :: l)
  | _ => True

theorem each_split {α : Type} {R : α → α → Prop} {y z : α} {b : List α} : ∀ {a : List α}, Each R (a ++ y :: z :: b) → R y z
  | [], h => h.1
  | [_], h => h.2.1
  | _ :: c :: a, h => each_split (a := c :: a) h.2

theorem each_filter {α : Type} {R : α → α → Prop} {p : α → Bool} {l a mid b : List α} {y z : α} (h : Each R (l.filter p)) (e : l = a ++ y :: (mid ++ z :: b))
    (hy : p y = true) (hz : p z = true) (hm : ∀ w ∈ mid, p w = false) : R y z := by
  have hm' : mid.filter p = [] := List.filter_eq_nil_iff.2 fun w hw => by rw [hm w hw]; exact Bool.false_ne_true
  rw [e, List.filter_append, List.filter_cons_of_pos hy, List.filter_append, hm', List.nil_append, List.filter_cons_of_pos hz] at h
  exact each_split h

/-- The number of frames of a message. -/
def Spec.countOf {φ : Type} (d : MsgDesc) (l : List (Send φ × Bool)) : Nat := (l.filter fun z => z.1.d.id = d.id).length

section
variable {P : Platform} {text drv1 drv2 : Str} {file1 file2 : Source} {who : Option Str} {out : DbcList} {srt1 srt2 rx : List Msg} {D1 D2 : Defs} {on1 on2 : List Str} {tick1 hash1 tick2 hash2 : Hook}
  {maxW1 initW1 maxW2 initW2 : Str} {max1 init1 max2 init2 : Nat} {dir1 dir2 : List (Str × Str)} {φ : Type}

/-- Two programs generated from one DBC file, between which frames get lost: the conclusion of C72. -/
def LostFrames (φ : Type) (P : Platform) (text : Str) (xs : List FileStmt) (out : DbcList) (drv1 : Str) (file1 : Source) (srt1 : List Msg) (D1 : Defs) (on1 : List Str) (tick1 hash1 : Hook)
    (maxW1 initW1 : Str) (max1 init1 : Nat) (dir1 : List (Str × Str)) (drv2 : Str) (file2 : Source) (srt2 : List Msg) (D2 : Defs) (on2 : List Str) (tick2 hash2 : Hook) (maxW2 initW2 : Str)
    (who : Option Str) (max2 init2 : Nat) (dir2 : List (Str × Str)) : Prop :=
  let g1 := driverDesc drv1 file1 out.verHi out.verLow
  let g2 := driverDesc drv2 file2 out.verHi out.verLow
  let u := nodeDesc drv2 file2 out.verHi out.verLow who
  let cfg1 := cfgOf g1 (userTable g1 D1 on1) false max1 init1
  let cfg2 := cfgOf g2 (userTable g2 D2 on2) false max2 init2
  let ok1 := TargetOk (φ := φ) g1 srt1 ((userTable g1 D1 on1).lookup (monoName g1)).isSome cfg1 (lookOf g1 (userTable g1 D1 on1) srt1 tick1 hash1 maxW1 initW1)
  let ok2 := TargetOk (φ := φ) g2 srt2 ((userTable g2 D2 on2).lookup (monoName g2)).isSome cfg2 (lookOf g2 (userTable g2 D2 on2) srt2 tick2 hash2 maxW2 initW2)
  ∃ is1 is js us,
    (∃ F, ∀ f, F ≤ f → compileTree f dir1 D1 (g1.drvLow ++ ".c".toList) = some is1 ∧ compileTree f dir2 D2 (g2.drvLow ++ ".c".toList) = some is ∧
      compileTree f dir2 D2 (g2.drvLow ++ "-fmon.c".toList) = some js ∧ compileTree f dir2 D2 (strLower (u.name ++ "-binutil.c".toList)) = some us) ∧
    links [is, js, us] = true ∧
    ∀ (f : Nat) (all : List (Send φ × Bool)) (mem : Str → CSt φ), 256 ≤ f →
      (∀ p ∈ all, SendOk P text srt1 cfg1.flag is1 max1 init1 p.1 ∧ (∃ hashF now, ok1 p.1.T hashF now) ∧ (p.2 = true → (∃ hashF now, ok2 p.1.T2 hashF now) ∧
        (∀ n, p.1.T2.user ("Unpack_".toList ++ n ++ "_".toList ++ drv2) = none) ∧ (NodeMsg P text who srt2 cfg2.flag p.1.d ∨ ¬ Receives who p.1.d))) →
      (∀ d, NodeMsg P text who srt2 cfg2.flag d → Ready is d.name (mem d.name)) →
      ∃ fs mem' as, sendAll f is1 drv1 (delivered all) = some fs ∧ receiveAll f [is, js, us] (u.name ++ "_Receive".toList) fs mem = some (mem', as) ∧
        ∀ d, NodeMsg P text who srt2 cfg2.flag d → (∀ p ∈ all, p.1.d.id = d.id → p.1.d = d) → cfg2.flag .useMon = true →
          ∀ a x b, all = a ++ (x, true) :: b → x.d = d → (∀ z ∈ b, z.2 = true → z.1.d.id ≠ d.id) →
          (cfg1.flag .autoRoll = true → cfg2.flag .autoRoll = true → ∀ s, CounterTag xs d s → s.signed = false → (cfg1.flag .autoCsm = true → NoChecksumTag xs d s) →
            Each (fun y z => ∀ r, packCall f is1 drv1 y.1 = some r → z.1.cst.fld s.member = r.1.fld s.member) (all.filter fun z => z.1.d.id = d.id) →
            (∀ a0 y lost, a = a0 ++ (y, true) :: lost → y.d = d → (∀ z ∈ lost, z.2 = true → z.1.d.id ≠ d.id) →
              ((mem' d.name).mon "roll_error".toList = 0 ↔ 2 ^ s.len ∣ countOf d lost))) ∧
          (cfg1.flag .autoCsm = true → cfg2.flag .autoCsm = true → ∀ s method op, ChecksumTag xs d s method op →
            ∀ h1 now1 h2 now2, ok1 x.T h1 now1 → ok2 x.T2 h2 now2 → SameHash d s method op h1 h2 → (mem' d.name).mon "csm_error".toList = 0) ∧
          ((∀ y ∈ xs, ¬ y.Counts d) → (mem' d.name).mon "roll_error".toList = (mem d.name).mon "roll_error".toList) ∧
          ((∀ y ∈ xs, ¬ y.Sums d) → (mem' d.name).mon "csm_error".toList = (mem d.name).mon "csm_error".toList)

theorem emod_add_back {v : Int} {q k : Nat} (hv : 0 ≤ v ∧ v < (q : Int)) : (v + k) % q = v ↔ q ∣ k := by
  constructor
  · intro h
    have h1 : (q : Int) ∣ (v + k) - v := by
      have := Int.dvd_self_sub_emod (x := v + k) (m := (q : Int))
      rwa [h] at this
    rw [show v + (k : Int) - v = k by omega] at h1
    exact Int.natCast_dvd_natCast.1 h1
  · rintro ⟨c, rfl⟩
    push_cast
    rw [Int.add_mul_emod_self_left]
    exact Int.emod_eq_of_lt hv.1 hv.2

/-- **C72**.  Two programs generated from the same DBC file as in C68, but some frames that are packed do not arrive.  Which signals are counter and checksum is told by the comments in the
text of the file (C69).  If the sender's user always gives Pack the counter that the Pack before has left (also for the frames that are lost), then for the last frame of a message that has arrived
`roll_error` is 0 exactly if the number of frames of this message lost since the previous one that has arrived is a multiple of 2^width of the counter: without a loss there is no alarm, and a loss
is noticed.  The checksum of every frame is accepted if both users supply the same checksum function.  A message without the tags raises no such alarm. -/
theorem C72_lost_partial (hs : SortsByStart P) (h : trimDbcText P text = .ok out) (hids : IdsDistinct out.msgs) (hp1 : SortedBy srt1 out.msgs) (hp2 : SortedBy srt2 out.msgs) (hrx : rx ≠ [])
    {bs : List Block} {xs : List FileStmt} (hl : EndsIn (fileLines P text) bs) (hb : List.Forall₂ Spells bs xs) (hk : ∀ x ∈ xs, ∀ id, x.about = some id → Known out.msgs id)
    (hA : DriverProgram φ P text drv1 file1 out srt1 D1 on1 tick1 hash1 maxW1 initW1 max1 init1 dir1)
    (hB : NodeTrace φ P text drv2 file2 out srt2 D2 on2 tick2 hash2 maxW2 initW2 who rx max2 init2 dir2) :
    LostFrames φ P text xs out drv1 file1 srt1 D1 on1 tick1 hash1 maxW1 initW1 max1 init1 dir1 drv2 file2 srt2 D2 on2 tick2 hash2 maxW2 initW2 who max2 init2 dir2 := by
  unfold LostFrames
  intro g1 g2 u cfg1 cfg2 ok1 ok2
  obtain ⟨is1, is, js, us, ⟨F, hF⟩, hlk, hrun⟩ := C68_alarms_partial hs h hids hp1 hp2 hrx hA hB
  obtain ⟨is1', ⟨F', hF'⟩, hsend⟩ := driver_sends hids hA
  have e1 : is1' = is1 := Option.some.inj ((hF' (max F F') (Nat.le_max_right _ _)).symm.trans (hF (max F F') (Nat.le_max_left _ _)).1)
  subst e1
  refine ⟨is1', is, js, us, ⟨F, hF⟩, hlk, fun f all mem hfuel hall hmem => ?_⟩
  obtain ⟨fs, mem', as, r1, r2, r3⟩ := hrun f (delivered all) mem hfuel
    (fun x hx => by
      obtain ⟨q1, q2, q3⟩ := hall (x, true) (mem_delivered.1 hx)
      exact ⟨q1, q2, q3 rfl⟩) hmem
  refine ⟨fs, mem', as, r1, r2, fun d hd hsame hmon a x b e hx hlast => ?_⟩
  have hsay := C69_file_partial hs h hids hl hb hk (List.Perm.refl _) hd.stated hd.ok
  subst hx
  have key := r3 (delivered a) x (delivered b) (by rw [e, delivered_append, delivered_cons]) hd (fun z hz => hlast _ (mem_delivered.1 hz) rfl) hmon
  obtain ⟨k1, k2, k3, k4⟩ := key
  refine ⟨fun hf1 hf2 s ht hu hnc hchain a0 y lost ea hy hlost => ?_, fun hf1 hf2 s me op ht => k2 hf1 hf2 s ht.mem me op (says_checksum hsay ht),
    fun q => k3 (.inr fun s _ => hsay.noCounter q s), fun q => k4 (.inr fun s _ => hsay.noChecksum q s)⟩
  have hnc' : cfg1.flag .autoCsm = true → ∀ method op, ¬ IsChecksum out.msgs x.d s method op := fun q => says_noChecksum hsay (hnc q)
  have hcn := says_counter hsay ht
  obtain ⟨ry, c1, c2, c3⟩ := (k1 hf1 hf2 s ht.mem hcn hu hnc').1 (delivered a0) y (delivered lost) (by rw [ea, delivered_append, delivered_cons]) hy
    (fun z hz => hlost _ (mem_delivered.1 hz) rfl)
  rw [c3]
  have chain : ∀ a y mid z b, all = a ++ y :: (mid ++ z :: b) → y.1.d = x.d → z.1.d = x.d → (∀ w ∈ mid, w.1.d.id ≠ x.d.id) →
      ∀ r, packCall f is1' drv1 y.1 = some r → z.1.cst.fld s.member = r.1.fld s.member := fun a y mid z b e hy hz hm =>
    each_filter hchain e (by rw [hy]; exact decide_eq_true rfl) (by rw [hz]; exact decide_eq_true rfl) fun w hw => decide_eq_false (hm w hw)
  have hpos : (0 : Int) < 2 ^ s.len := by exact_mod_cast Nat.two_pow_pos s.len
  -- what Pack leaves
  have left : ∀ p ∈ all, p.1.d = x.d → ∃ r, packCall f is1' drv1 p.1 = some r ∧ r.1.fld s.member = (p.1.cst.fld s.member + 1) % 2 ^ s.len := fun p hp hpd => by
    obtain ⟨q1, q2, -⟩ := hall p hp
    obtain ⟨r, w1, -, -, w4⟩ := hsend p.1 q2 q1 f hfuel
    obtain ⟨hashF, now, hT⟩ := q2
    refine ⟨r, w1, (w4 hashF now hT).roll hf1 s (hpd ▸ ht.mem) (hpd ▸ (counter_perm hp1).1 hcn) hu
      (fun q me op c => hnc' q me op ((checksum_perm hp1).2 (hpd ▸ c))) (q1.range s (hpd ▸ ht.mem))⟩
  have walk : ∀ (rest mid : List (Send φ × Bool)) (a1 : List (Send φ × Bool)) (y : Send φ × Bool) (r : CSt φ × V φ), all = a1 ++ y :: (mid ++ (rest ++ (x, true) :: b)) → y.1.d = x.d →
      (∀ z ∈ mid, z.1.d.id ≠ x.d.id) → packCall f is1' drv1 y.1 = some r → x.cst.fld s.member = (r.1.fld s.member + countOf x.d rest) % 2 ^ s.len := by
    intro rest
    induction rest with
    | nil =>
      intro mid a1 y r e hy hmid hr
      rw [List.nil_append] at e
      rw [chain a1 y mid (x, true) b e hy rfl hmid r hr]
      obtain ⟨r', w1, w2⟩ := left y (by rw [e]; exact List.mem_append_right _ List.mem_cons_self) hy
      cases w1.symm.trans hr
      rw [w2]
      show _ = (_ + ((0 : Nat) : Int)) % _
      rw [Int.natCast_zero, Int.add_zero, Int.emod_emod]
    | cons z rest ih =>
      intro mid a1 y r e hy hmid hr
      by_cases hz : z.1.d.id = x.d.id
      · have hzm : z ∈ all := by rw [e]; simp
        have hzd := hsame z hzm hz
        have hch := chain a1 y mid z (rest ++ (x, true) :: b) (by rw [e, List.cons_append]) hy hzd hmid r hr
        obtain ⟨rz, w1, w2⟩ := left z hzm hzd
        have := ih [] (a1 ++ y :: mid) z rz (by rw [e]; simp) hzd (fun _ q => (nomatch q)) w1
        have hcnt : countOf x.d (z :: rest) = countOf x.d rest + 1 := by
          unfold countOf
          rw [List.filter_cons_of_pos (by simpa using hz), List.length_cons]
        rw [this, w2, hch, hcnt, Int.emod_add_emod]
        congr 1
        push_cast
        omega
      · have hcnt : countOf x.d (z :: rest) = countOf x.d rest := by
          unfold countOf
          rw [List.filter_cons_of_neg (by simpa using hz)]
        rw [hcnt]
        refine ih (mid ++ [z]) a1 y r (by rw [e]; simp) hy (fun w hw => ?_) hr
        rcases List.mem_append.1 hw with hw | hw
        · exact hmid w hw
        · exact List.mem_singleton.1 hw ▸ hz
  rw [walk lost [] a0 (y, true) ry (by rw [e, ea]; simp) hy (fun _ q => (nomatch q)) c1]
  have := emod_add_back (v := ry.1.fld s.member) (q := 2 ^ s.len) (k := countOf x.d lost) (by
    rw [c2]
    push_cast
    exact ⟨Int.emod_nonneg _ (Int.ne_of_gt hpos), Int.emod_lt_of_pos _ hpos⟩)
  push_cast at this
  exact this

/-- **C72**, from two command lines, as in C67. -/
theorem C72_run_partial (H1 H2 : RunHost) (args1 args2 : List Str) (text : Str) (out : DbcList) (R1 : GoodRun H1 args1 text out) (R2 : GoodRun H2 args2 text out) (hP : H2.plat = H1.plat)
    (hs : SortsByStart H1.plat) (hc : H1.plat.charMax = 127) (hoob : ∀ v, H1.plat.oob = some v → 2 ^ 32 ≤ CTy.toU .u64 v) (hids : IdsDistinct out.msgs)
    {bs : List Block} {xs : List FileStmt} (hl : EndsIn (fileLines H1.plat text) bs) (hb : List.Forall₂ Spells bs xs) (hk : ∀ x ∈ xs, ∀ id, x.about = some id → Known out.msgs id)
    (hf : (getOptions args2).isNofmon = false) (hw : UtilRun (getOptions args2) out.msgs who)
    {fl1 fl2 : ConfEdit} (hD1 : DirDriver (getOptions args1).drvname.1 (runSource H1 args1) out.verHi out.verLow out.maxDlc (H1.sort out.msgs) D1 on1 fl1 tick1 hash1 maxW1 initW1)
    (hD2 : NodeDriver (getOptions args2).drvname.1 (runSource H2 args2) out.verHi out.verLow out.maxDlc (H2.sort out.msgs) D2 on2 fl2 tick2 hash2 maxW2 initW2 who
      (H2.sort (selectRx (whoGroups out.msgs who) out.msgs)) (H2.sort (selectTx (whoGroups out.msgs who) out.msgs)))
    (hrx : H2.sort (selectRx (whoGroups out.msgs who) out.msgs) ≠ []) (max1 init1 max2 init2 : Nat) :
    ∃ files1 files2, runApp H1 args1 = .done files1 ∧ runApp H2 args2 = .done files2 ∧
      ∀ dir1 dir2, ProjectDir dir1 files1 (getOptions args1) (driverDesc (getOptions args1).drvname.1 (runSource H1 args1) out.verHi out.verLow) on1 fl1 →
        ProjectDir dir2 files2 (getOptions args2) (driverDesc (getOptions args2).drvname.1 (runSource H2 args2) out.verHi out.verLow) on2 fl2 →
        LostFrames φ H1.plat text xs out (getOptions args1).drvname.1 (runSource H1 args1) (H1.sort out.msgs) D1 on1 tick1 hash1 maxW1 initW1 max1 init1 dir1
          (getOptions args2).drvname.1 (runSource H2 args2) (H2.sort out.msgs) D2 on2 tick2 hash2 maxW2 initW2 who max2 init2 dir2 := by
  obtain ⟨files1, a1, -, a2⟩ := C65_driver_partial (φ := φ) H1 args1 text out R1 hs hc hoob hD1 max1 init1
  obtain ⟨files2, b1, -, b2⟩ := C66_run_partial (φ := φ) H2 args2 text out R2 (hP ▸ hs) (hP ▸ hc) (hP ▸ hoob) hids hf hw hD2 max2 init2
  rw [hP] at b2
  exact ⟨files1, files2, a1, b1, fun dir1 dir2 p1 p2 => C72_lost_partial hs R1.scan hids (R1.sort _) (R2.sort _) hrx hl hb hk (a2 dir1 p1) (b2 dir2 p2)⟩

end

/-! ### Example: three times `Motor`, with `Gear` between; the second `Motor` arrives or is lost -/

namespace Fix

def lostHead : List Str :=
  ["VERSION \"2.7\"".toList, ['\n'], "BU_: ECU Dash".toList, ['\n'], "BO_ 2147484672 Motor: 8 ECU".toList, " SG_ Cnt : 0|4@1+ (1,0) [0|15] \"\" Dash".toList,
   " SG_ Torque : 19|12@0- (1,0) [-2048|2047] \"Nm\" Dash".toList, " SG_ Crc : 56|8@1+ (1,0) [0|255] \"\" Dash".toList, ['\n'], "BO_ 100 Gear: 2 ECU".toList,
   " SG_ Ratio : 0|10@1+ (2,-40) [0|1] \"\" Dash".toList, ['\n']]

def lostBs : List Block :=
  lostHead.map .other ++
  [.stmt .comment "CM_ SG_ 2147484672 Torque \"negative : braking\";".toList [], .stmt .comment "CM_ SG_ 2147484672 Crc \"<Checksum:XOR8:1>\";".toList [],
   .stmt .comment "CM_ SG_ 2147484672 Cnt \"<RollingCounter>\";".toList [], .stmt .value "VAL_ 100 Ratio 1023 \"error\" ;".toList []]

def lostXs : List FileStmt :=
  List.replicate 12 .silent ++
  [.sigComment 1024 true "Torque".toList "negative : braking".toList, .sigComment 1024 true "Crc".toList ([] ++ (Spec.csmText "XOR8".toList 1 ++ [])),
   .sigComment 1024 true "Cnt".toList "<RollingCounter>".toList, .values 100 false "Ratio".toList [(1023, "error".toList)]]

theorem lostLines : EndsIn (fileLines platIns pipeText) lostBs := ends_all (by decide +kernel)

theorem lost1 : Spells (.stmt .comment "CM_ SG_ 2147484672 Torque \"negative : braking\";".toList []) (.sigComment 1024 true "Torque".toList "negative : braking".toList) :=
  spells_one (by decide) (by decide +kernel) ⟨rfl, by decide, by decide +kernel, by decide +kernel, by decide +kernel, by decide +kernel⟩
theorem lost2 : Spells (.stmt .comment "CM_ SG_ 2147484672 Crc \"<Checksum:XOR8:1>\";".toList []) (.sigComment 1024 true "Crc".toList ([] ++ (Spec.csmText "XOR8".toList 1 ++ []))) :=
  spells_one (by decide) (by decide +kernel) ⟨rfl, by decide, by decide +kernel, by decide +kernel, by decide +kernel, by decide +kernel⟩
theorem lost4 : Spells (.stmt .value "VAL_ 100 Ratio 1023 \"error\" ;".toList []) (.values 100 false "Ratio".toList [(1023, "error".toList)]) :=
  spells_one (by decide) (by decide +kernel) ⟨rfl, by decide, by decide +kernel, by decide +kernel, by decide +kernel⟩

theorem lostSpells : List.Forall₂ Spells lostBs lostXs :=
  forall2_append talkPlain (.cons lost1 (.cons lost2 (.cons talk9 (.cons lost4 .nil))))

theorem lostKnown : ∀ x ∈ lostXs, ∀ id, x.about = some id → Known pipeOut.msgs id := by
  intro x hx id e
  have h : ∀ x ∈ lostXs, x.about = none ∨ x.about = some 1024 ∨ x.about = some 100 := by decide +kernel
  have hm : id ∈ pipeOut.msgs.map (·.msgId) := by
    rw [show pipeOut.msgs.map (·.msgId) = [1024, 100] by decide +kernel]
    rcases h x hx with q | q | q <;> rw [q] at e
    · cases e
    · cases e; decide
    · cases e; decide
  obtain ⟨m, h1, h2⟩ := List.mem_map.1 hm
  exact ⟨m, h1, h2⟩

theorem lostCounter : CounterTag lostXs motor cntSig :=
  ⟨true, "Cnt".toList, "<RollingCounter>".toList, ⟨lostXs.take 14, lostXs.drop 15, rfl, fun y hy => by
    have : y = .values 100 false "Ratio".toList [(1023, "error".toList)] := List.mem_singleton.1 hy
    rw [this]; exact id⟩, ⟨[], [], by decide⟩, by decide⟩

theorem lostChecksum : ChecksumTag lostXs motor crcSig "XOR8".toList 1 :=
  ⟨true, "Crc".toList, [], [], ⟨lostXs.take 13, lostXs.drop 14, rfl, fun y hy => by
    have hy : y ∈ [FileStmt.sigComment 1024 true "Cnt".toList "<RollingCounter>".toList, .values 100 false "Ratio".toList [(1023, "error".toList)]] := hy
    rcases List.mem_cons.1 hy with rfl | hy
    · rintro ⟨-, ⟨a, b, c, e⟩, -⟩
      have : ':' ∈ "<RollingCounter>".toList := by rw [e]; simp
      revert this
      decide
    · rw [List.mem_singleton.1 hy]; exact id⟩, by decide, by decide, by decide, by decide, by decide, by decide, ⟨by decide, rfl, by decide⟩⟩

theorem lostMotor (is : List Spec.Item) (c : Int) (hc : c = 3 ∨ c = 4 ∨ c = 5) : SendOk platIns pipeText pipeMsgs dashCfg.flag is 8 0 (countOf motor c) := by
  have h1 : motor.sigs ≠ [] ∧ (∀ s ∈ motor.sigs, s.signed = true → s.len ≤ 32) ∧ motor.dlc ≤ 8 ∧ (motor.sigs.map (·.member)).Nodup := by decide
  refine ⟨motorStated, motorOk, h1.1, h1.2.1, .inl h1.2.2.1, ?_, h1.2.2.1, sendClear motor, motorApart, h1.2.2.2, ?_, ⟨dashFrame, fun q => (nomatch q)⟩, .inl dashFlag.1⟩
  · refine ⟨fun _ _ n t w _ => ?_, fun _ _ => Int.le_refl _, ?_, h1.2.2.1, rfl, rfl⟩
    · show t.conv (if n = "Cnt".toList then c else 3) = if n = "Cnt".toList then c else 3
      rcases hc with rfl | rfl | rfl <;> split <;> cases t <;> rfl
    · have : ∀ b ∈ cst0.dat, b < 256 := by decide
      exact this
  · rcases hc with rfl | rfl | rfl <;> unfold InSigRange <;> decide +kernel

/-- `b`: the second `Motor` arrives. -/
def lostAll (b : Bool) : List (Send Unit × Bool) := [(countOf motor 3, true), (countOf motor 4, b), (countOf gear 3, true), (countOf motor 5, true)]

end Fix

example : ∃ dir is js us, (∃ F, ∀ f, F ≤ f → compileTree f dir Fix.userHooks "drv.c".toList = some is) ∧
    ∀ b, ∃ fs mem' as, sendAll 256 is "drv".toList (delivered (Fix.lostAll b)) = some fs ∧
      receiveAll 256 [is, js, us] "dash_drv_Receive".toList fs (fun _ => Fix.cst0) = some (mem', as) ∧
      ((mem' "Motor".toList).mon "roll_error".toList = 0 ↔ b = true) ∧ (mem' "Motor".toList).mon "csm_error".toList = 0 := by
  obtain ⟨hops, sops, uops, h1, h2, h3, h4⟩ := C66_trace_partial (φ := Unit) platIns platIns_sorts rfl (fun v e => by cases e) Fix.pipeText Fix.pipeOut Fix.pipeOk Fix.pipeMsgs Fix.pipeSorted Fix.dashIds
    Fix.dashDriver Fix.dashRxOk Fix.dashTxOk 8 0
  obtain ⟨hops', sops', uops', dir, k1, k2, k3, hdir⟩ := C63_dir_partial Fix.dashDriver (sorted_rx Fix.pipeSorted Fix.dashRxOk) (sorted_tx Fix.pipeSorted Fix.dashTxOk)
  obtain ⟨hops2, sops2, l1, l2, l3⟩ := C64_driver_partial (φ := Unit) platIns platIns_sorts rfl (fun v e => by cases e) Fix.pipeText Fix.pipeOut Fix.pipeOk
    Fix.pipeMsgs Fix.pipeSorted Fix.dashDriver.toDirDriver 8 0
  cases h1.symm.trans k1
  cases h2.symm.trans k2
  cases h3.symm.trans k3
  cases h1.symm.trans l1
  cases h2.symm.trans l2
  have hA := l3 dir hdir.toDirOk hdir.source
  obtain ⟨is1, is, js, us, ⟨F, hF⟩, -, hrun⟩ := C72_lost_partial platIns_sorts Fix.pipeOk Fix.dashIds Fix.pipeSorted Fix.pipeSorted (by decide +kernel) Fix.lostLines Fix.lostSpells Fix.lostKnown
    hA (h4 dir hdir)
  have e : is1 = is := Option.some.inj ((hF F (Nat.le_refl _)).1.symm.trans (hF F (Nat.le_refl _)).2.1)
  subst e
  obtain ⟨is2, ⟨F', hF'⟩, hsend⟩ := driver_sends Fix.dashIds hA
  have e : is2 = is1 := Option.some.inj ((hF' (max F F') (Nat.le_max_right _ _)).symm.trans (hF (max F F') (Nat.le_max_left _ _)).1)
  subst e
  refine ⟨dir, is2, js, us, ⟨F, fun f hf => (hF f hf).1⟩, fun b => ?_⟩
  have hT : ∃ hashF now, TargetOk Fix.pipeG Fix.pipeMsgs ((userTable Fix.pipeG Fix.userHooks Fix.dashOn).lookup (monoName Fix.pipeG)).isSome Fix.dashCfg Fix.dashLook Fix.dashTarget hashF now :=
    ⟨Fix.pipeHash, 77, Fix.dashTargetOk⟩
  obtain ⟨fs, mem', as, r1, r2, r3⟩ := hrun 256 (Fix.lostAll b) (fun _ => Fix.cst0) (Nat.le_refl _)
    (fun x hx => by
      simp only [Fix.lostAll, List.mem_cons, List.not_mem_nil, or_false] at hx
      rcases hx with rfl | rfl | rfl | rfl
      · exact ⟨Fix.lostMotor _ _ (.inl rfl), hT, fun _ => ⟨hT, Fix.dashUser, .inl Fix.dashMotor⟩⟩
      · exact ⟨Fix.lostMotor _ _ (.inr (.inl rfl)), hT, fun _ => ⟨hT, Fix.dashUser, .inl Fix.dashMotor⟩⟩
      · exact ⟨Fix.countGear _, hT, fun _ => ⟨hT, Fix.dashUser, .inl Fix.dashGear⟩⟩
      · exact ⟨Fix.lostMotor _ _ (.inr (.inr rfl)), hT, fun _ => ⟨hT, Fix.dashUser, .inl Fix.dashMotor⟩⟩)
    (fun d _ => ⟨fun _ _ k t w _ => by cases t <;> rfl, fun _ _ => Int.le_refl _, rfl, rfl⟩)
  refine ⟨fs, mem', as, r1, r2, ?_⟩
  obtain ⟨m1, m2, -⟩ := r3 Fix.motor Fix.dashMotor (fun p hp he => by
      simp only [Fix.lostAll, List.mem_cons, List.not_mem_nil, or_false] at hp
      rcases hp with rfl | rfl | rfl | rfl
      · rfl
      · rfl
      · exact absurd he (by decide)
      · rfl) Fix.dashFlag.2 [(Fix.countOf Fix.motor 3, true), (Fix.countOf Fix.motor 4, b), (Fix.countOf Fix.gear 3, true)] (Fix.countOf Fix.motor 5) [] rfl rfl (fun _ q => (nomatch q))
  refine ⟨?_, m2 Fix.dashAuto.2 Fix.dashAuto.2 Fix.crcSig _ _ Fix.lostChecksum _ _ _ _ Fix.dashTargetOk Fix.dashTargetOk Fix.pipeSame⟩
  have left : ∀ c, c = 3 ∨ c = 4 ∨ c = 5 → ∀ r, packCall 256 is2 "drv".toList (Fix.countOf Fix.motor c) = some r → r.1.fld "Cnt".toList = (c + 1) % 2 ^ 4 := fun c hc r hr => by
    obtain ⟨r', w1, -, -, w4⟩ := hsend (Fix.countOf Fix.motor c) hT (Fix.lostMotor _ c hc) 256 (Nat.le_refl _)
    cases w1.symm.trans hr
    exact (w4 _ _ Fix.dashTargetOk).roll Fix.dashAuto.1 Fix.cntSig List.mem_cons_self ((counter_perm Fix.pipeSorted).1 Fix.cntIs) rfl
      (fun _ me op q => Fix.cntNot me op ((checksum_perm Fix.pipeSorted).2 q)) ((Fix.lostMotor is2 c hc).range _ List.mem_cons_self)
  have key := m1 Fix.dashAuto.1 Fix.dashAuto.1 Fix.cntSig Fix.lostCounter rfl (fun _ => .inr ⟨_, _, _, Fix.lostChecksum, by decide⟩)
    ⟨fun r hr => (left 3 (.inl rfl) r hr).symm, fun r hr => (left 4 (.inr (.inl rfl)) r hr).symm, trivial⟩
  cases b with
  | true =>
    exact (key [(Fix.countOf Fix.motor 3, true)] (Fix.countOf Fix.motor 4) [(Fix.countOf Fix.gear 3, true)] rfl rfl (by decide)).trans ⟨fun _ => rfl, fun _ => by decide⟩
  | false =>
    exact (key [] (Fix.countOf Fix.motor 3) [(Fix.countOf Fix.motor 4, false), (Fix.countOf Fix.gear 3, true)] rfl rfl (by decide)).trans ⟨fun q => absurd q (by decide), fun q => (nomatch q)⟩

end Verif
