import Verif.Proofs.Tree
import Verif.Proofs.MonRun
import Verif.Props.Fixtures
/-
C22, C23, C43, C44, C45: the binutil layer.
-/
namespace Verif

/-- The generated `Unpack_NAME` of each message, as called by `Receive`. -/
def unpackOf (cfg : Cfg) (msgs : List Msg) (fl : FloatOps φ)
    (hash : List Nat → Nat → Nat → Str → Nat → Nat) (tick dlcArg : Nat) (m : Msg) (st : St φ) : CallRes φ :=
  runUnpack (mkCtx cfg msgs m fl hash tick dlcArg) m st

/-- A message is mapped to the rx side of a util driver: it has signals and its id is listed. -/
def MappedRx (g : Groups) (msgs : List Msg) (m : Msg) : Prop :=
  m ∈ msgs ∧ m.frameNotEmpty = true ∧ (m.msgId ∈ g.both ∨ m.msgId ∈ g.rx)

/-- A message is mapped to the tx side of a util driver. -/
def MappedTx (g : Groups) (msgs : List Msg) (m : Msg) : Prop :=
  m ∈ msgs ∧ m.frameNotEmpty = true ∧ (m.msgId ∈ g.both ∨ m.msgId ∈ g.tx)

theorem mem_selectRx (g : Groups) (msgs : List Msg) (m : Msg) : m ∈ selectRx g msgs ↔ MappedRx g msgs m := by
  simp [selectRx, MappedRx, List.mem_filter]

theorem mem_selectTx (g : Groups) (msgs : List Msg) (m : Msg) : m ∈ selectTx g msgs ↔ MappedTx g msgs m := by
  simp [selectTx, MappedTx, List.mem_filter]

/-- C22: for every message list, every grouping, every result of the sort and every id, the
generated body makes exactly one `Unpack` call, of a mapped message with this id, if there is
one, and no call otherwise. -/
theorem C22_dispatch (g : Groups) (msgs rx : List Msg) (hs : SortedBy rx (selectRx g msgs)) (hne : rx ≠ []) :
    ∃ lines, receiveLines rx = some lines ∧ ∀ id : Nat,
      (∃ m, MappedRx g msgs m ∧ m.msgId = id ∧ runLines id [] lines = [m]) ∨
      ((∀ m, MappedRx g msgs m → m.msgId ≠ id) ∧ runLines id [] lines = []) := by
  obtain ⟨ls, h1, h2⟩ := receiveLines_ok rx hs.2 hne
  refine ⟨ls, h1, fun id => ?_⟩
  rcases h2 id with ⟨k, m, _, _, g3, g4, g5⟩ | ⟨g1, g2⟩
  · exact Or.inl ⟨m, (mem_selectRx g msgs m).1 (hs.1.mem_iff.1 (List.mem_of_getElem? g3)), g4, g5⟩
  · refine Or.inr ⟨fun m hm => ?_, g2⟩
    have hm' : m ∈ rx := hs.1.mem_iff.2 ((mem_selectRx g msgs m).2 hm)
    obtain ⟨k, hk⟩ := List.mem_iff_getElem?.1 hm'
    obtain ⟨hk', _⟩ := List.getElem?_eq_some_iff.1 hk
    exact g1 k m (Nat.zero_le _) hk' hk

/-- The value a successful `Unpack` returns. -/
theorem unpackOf_retv {cfg : Cfg} {msgs : List Msg} {fl : FloatOps φ}
    {hash : List Nat → Nat → Nat → Str → Nat → Nat} {tick dlcArg : Nat} {m : Msg} {st st' : St φ}
    (h : unpackOf cfg msgs fl hash tick dlcArg m st = .ok st') : st'.retv = some m.msgId := by
  obtain ⟨_, _, st1, st2, _, _, rfl⟩ := runUnpack_any h
  rfl

/-- C22: the whole `Receive` call.  If a mapped message has the id, then exactly the structure of
one such message is replaced by what its `Unpack` makes of it and the id is returned; otherwise
the rx structure is unchanged and 0 is returned. -/
theorem C22_receive (g : Groups) (msgs rx : List Msg) (hs : SortedBy rx (selectRx g msgs)) (hne : rx ≠ [])
    (cfg : Cfg) (fl : FloatOps φ) (hash : List Nat → Nat → Nat → Str → Nat → Nat) (tick dlcArg : Nat)
    (d : List Nat) (id : Nat) (rxs : Str → St φ) :
    let run := unpackOf cfg msgs fl hash tick dlcArg
    (∃ m, MappedRx g msgs m ∧ m.msgId = id ∧
      ((∃ st', run m { rxs m.name with dat := d } = .ok st' ∧
          ∃ rxs', receive run rx d id rxs = .ok rxs' id ∧ rxs' m.name = st' ∧
            ∀ n, n ≠ m.name → rxs' n = rxs n) ∨
       ((∀ st', run m { rxs m.name with dat := d } ≠ .ok st') ∧
          receive run rx d id rxs = .fail))) ∨
    ((∀ m, MappedRx g msgs m → m.msgId ≠ id) ∧ receive run rx d id rxs = .ok rxs 0) := by
  intro run
  obtain ⟨ls, h1, h2⟩ := C22_dispatch g msgs rx hs hne
  unfold receive
  rw [h1]
  dsimp only
  rcases h2 id with ⟨m, g1, g2, g3⟩ | ⟨g1, g2⟩
  · refine Or.inl ⟨m, g1, g2, ?_⟩
    rw [g3]
    simp only [execCalls]
    cases hr : run m { rxs m.name with dat := d } with
    | ok st' =>
      left
      have hv := unpackOf_retv hr
      refine ⟨st', rfl, fun n => if n = m.name then st' else rxs n, ?_, ?_, ?_⟩
      · dsimp only
        rw [hv, g2]
      · dsimp only
        rw [if_pos rfl]
      · intro n hn
        dsimp only
        rw [if_neg hn]
    | bad => exact Or.inr ⟨nofun, rfl⟩
    | genUB => exact Or.inr ⟨nofun, rfl⟩
  · right
    rw [g2]
    exact ⟨g1, rfl⟩

/-- Node grouping: the node collection contains each node with a role exactly once. -/
theorem addNode_mem (l : List Str) (n x : Str) : x ∈ addNode l n ↔ x ∈ l ∨ x = n := by
  unfold addNode
  split
  next h =>
    have : n ∈ l := by simpa using h
    constructor
    · exact Or.inl
    · rintro (h | rfl) <;> assumption
  · simp

theorem addNode_nodup {l : List Str} (n : Str) (h : l.Nodup) : (addNode l n).Nodup := by
  unfold addNode
  split
  · exact h
  next hn =>
    have : n ∉ l := by simpa using hn
    rw [List.nodup_append]
    refine ⟨h, by simp, ?_⟩
    intro a ha b hb
    rw [List.mem_singleton] at hb
    subst hb
    intro e; subst e; exact this ha

theorem foldAdd (ns : List Str) : ∀ l : List Str,
    (∀ x, x ∈ ns.foldl addNode l ↔ x ∈ l ∨ x ∈ ns) ∧ (l.Nodup → (ns.foldl addNode l).Nodup) := by
  induction ns with
  | nil => intro l; simp
  | cons n ns ih =>
    intro l
    refine ⟨fun x => ?_, fun h => (ih _).2 (addNode_nodup n h)⟩
    rw [List.foldl_cons, (ih _).1, addNode_mem, List.mem_cons, or_assoc]

theorem foldNodes (msgs : List Msg) : ∀ acc : List Str,
    let r := msgs.foldl (fun acc m => m.recS.foldl addNode (m.tranS.foldl addNode acc)) acc
    (∀ x, x ∈ r ↔ x ∈ acc ∨ ∃ m ∈ msgs, x ∈ m.tranS ∨ x ∈ m.recS) ∧ (acc.Nodup → r.Nodup) := by
  induction msgs with
  | nil => intro acc; simp
  | cons m ms ih =>
    intro acc
    refine ⟨fun x => ?_, fun h => (ih _).2 ((foldAdd _ _).2 ((foldAdd _ _).2 h))⟩
    rw [List.foldl_cons, (ih _).1, (foldAdd _ _).1, (foldAdd _ _).1]
    simp only [List.mem_cons, exists_eq_or_imp, or_assoc]

/-- C23: with `-nodeutils` a util driver is generated once for each node that transmits or
receives some message, and for no other name. -/
theorem C23_nodes (msgs : List Msg) :
    (collectNodes msgs).Nodup ∧
    ∀ n, n ∈ collectNodes msgs ↔ ∃ m ∈ msgs, n ∈ m.tranS ∨ n ∈ m.recS := by
  obtain ⟨h1, h2⟩ := foldNodes msgs []
  refine ⟨h2 List.nodup_nil, fun n => ?_⟩
  rw [collectNodes, h1]
  simp

/-- Distinct message ids. -/
def IdsDistinct (msgs : List Msg) : Prop := msgs.Pairwise fun a b => a.msgId ≠ b.msgId

theorem ids_inj {msgs : List Msg} (h : IdsDistinct msgs) {a b : Msg} (ha : a ∈ msgs) (hb : b ∈ msgs)
    (e : a.msgId = b.msgId) : a = b := by
  unfold IdsDistinct at h
  induction msgs with
  | nil => cases ha
  | cons x xs ih =>
    rw [List.pairwise_cons] at h
    rcases List.mem_cons.1 ha with rfl | ha' <;> rcases List.mem_cons.1 hb with rfl | hb'
    · rfl
    · exact absurd e (h.1 b hb')
    · exact absurd e.symm (h.1 a ha')
    · exact ih h.2 ha' hb'

/-- C23: for distinct ids the rx messages of a node are the non-empty messages whose receiver
list names the node, and the tx messages those whose transmitter list does. -/
theorem C23_node_messages (msgs : List Msg) (node : Str) (hd : IdsDistinct msgs) (m : Msg) :
    (MappedRx (nodeGroups msgs node) msgs m ↔ m ∈ msgs ∧ m.frameNotEmpty = true ∧ node ∈ m.recS) ∧
    (MappedTx (nodeGroups msgs node) msgs m ↔ m ∈ msgs ∧ m.frameNotEmpty = true ∧ node ∈ m.tranS) := by
  constructor
  · unfold MappedRx nodeGroups
    constructor
    · rintro ⟨h1, h2, h3⟩
      refine ⟨h1, h2, ?_⟩
      simp only [List.not_mem_nil, false_or, List.mem_map, List.mem_filter] at h3
      obtain ⟨m', ⟨q1, q2⟩, q3⟩ := h3
      have := ids_inj hd q1 h1 q3
      subst this
      simpa using q2
    · rintro ⟨h1, h2, h3⟩
      refine ⟨h1, h2, Or.inr ?_⟩
      exact List.mem_map.2 ⟨m, List.mem_filter.2 ⟨h1, by simpa using h3⟩, rfl⟩
  · unfold MappedTx nodeGroups
    constructor
    · rintro ⟨h1, h2, h3⟩
      refine ⟨h1, h2, ?_⟩
      simp only [List.not_mem_nil, false_or, List.mem_map, List.mem_filter] at h3
      obtain ⟨m', ⟨q1, q2⟩, q3⟩ := h3
      have := ids_inj hd q1 h1 q3
      subst this
      simpa using q2
    · rintro ⟨h1, h2, h3⟩
      refine ⟨h1, h2, Or.inr ?_⟩
      exact List.mem_map.2 ⟨m, List.mem_filter.2 ⟨h1, by simpa using h3⟩, rfl⟩

/-- C23: for distinct ids the node's `Receive` makes a call for an id iff the node receives a
non-empty message with this id, and it is the call for that message; the tx structure members
are exactly the non-empty messages the node transmits. -/
theorem C23_node_receive (msgs rx tx : List Msg) (node : Str) (hd : IdsDistinct msgs)
    (hrx : SortedBy rx (selectRx (nodeGroups msgs node) msgs))
    (htx : SortedBy tx (selectTx (nodeGroups msgs node) msgs)) :
    (∀ lines, receiveLines rx = some lines → ∀ id m,
      runLines id [] lines = [m] ↔ (m ∈ msgs ∧ m.frameNotEmpty = true ∧ node ∈ m.recS ∧ m.msgId = id)) ∧
    (∀ lines, receiveLines rx = some lines → ∀ id,
      runLines id [] lines = [] ↔ ¬ ∃ m, m ∈ msgs ∧ m.frameNotEmpty = true ∧ node ∈ m.recS ∧ m.msgId = id) ∧
    (receiveLines rx = none ↔ ¬ ∃ m, m ∈ msgs ∧ m.frameNotEmpty = true ∧ node ∈ m.recS) ∧
    (∀ m, m ∈ tx ↔ (m ∈ msgs ∧ m.frameNotEmpty = true ∧ node ∈ m.tranS)) := by
  have key : ∀ m, MappedRx (nodeGroups msgs node) msgs m ↔ m ∈ msgs ∧ m.frameNotEmpty = true ∧ node ∈ m.recS :=
    fun m => (C23_node_messages msgs node hd m).1
  have hrun : ∀ lines, receiveLines rx = some lines → ∀ id,
      (∃ m, MappedRx (nodeGroups msgs node) msgs m ∧ m.msgId = id ∧ runLines id [] lines = [m]) ∨
      ((∀ m, MappedRx (nodeGroups msgs node) msgs m → m.msgId ≠ id) ∧ runLines id [] lines = []) := by
    intro lines hl
    have hne : rx ≠ [] := by
      intro e; subst e; simp [receiveLines] at hl
    obtain ⟨ls, e1, e2⟩ := C22_dispatch (nodeGroups msgs node) msgs rx hrx hne
    rw [e1] at hl; cases hl
    exact e2
  refine ⟨?_, ?_, ?_, ?_⟩
  · intro lines hl id m
    rcases hrun lines hl id with ⟨m', g1, g2, g3⟩ | ⟨g1, g2⟩
    · rw [g3]
      constructor
      · intro e
        cases e
        obtain ⟨q1, q2, q3⟩ := (key _).1 g1
        exact ⟨q1, q2, q3, g2⟩
      · rintro ⟨q1, q2, q3, q4⟩
        rw [ids_inj hd ((key _).1 g1).1 q1 (g2.trans q4.symm)]
    · rw [g2]
      constructor
      · intro e; cases e
      · rintro ⟨q1, q2, q3, q4⟩
        exact absurd q4 (g1 m ((key m).2 ⟨q1, q2, q3⟩))
  · intro lines hl id
    rcases hrun lines hl id with ⟨m', g1, g2, g3⟩ | ⟨g1, g2⟩
    · rw [g3]
      obtain ⟨q1, q2, q3⟩ := (key _).1 g1
      constructor
      · intro e; cases e
      · intro h; exact absurd ⟨m', q1, q2, q3, g2⟩ h
    · refine ⟨fun _ => ?_, fun _ => g2⟩
      rintro ⟨m, q1, q2, q3, q4⟩
      exact g1 m ((key m).2 ⟨q1, q2, q3⟩) q4
  · by_cases hne : rx = []
    · have : selectRx (nodeGroups msgs node) msgs = [] := by
        have := hrx.1; rw [hne] at this; exact List.nil_perm.1 this
      refine ⟨fun _ => ?_, fun _ => by rw [hne]; rfl⟩
      rintro ⟨m, hm⟩
      have := (mem_selectRx (nodeGroups msgs node) msgs m).2 ((key m).2 hm)
      simp_all
    · obtain ⟨ls, e1, _⟩ := C22_dispatch (nodeGroups msgs node) msgs rx hrx hne
      rw [e1]
      refine ⟨fun h => absurd h (by simp), fun h => ?_⟩
      obtain ⟨m, hm⟩ := List.exists_mem_of_ne_nil rx hne
      exact absurd ⟨m, (key m).1 ((mem_selectRx _ _ m).1 (hrx.1.mem_iff.1 hm))⟩ h
  · intro m
    rw [htx.1.mem_iff, mem_selectTx]
    exact (C23_node_messages msgs node hd m).2

namespace Fix

/-- Five messages, two nodes. -/
def utilMsgs : List Msg :=
  [ { msg0 with name := "A".toList, msgId := 0x300, tranS := ["N1".toList], recS := ["N2".toList] },
    { msg0 with name := "B".toList, msgId := 0x100, tranS := ["N2".toList], recS := ["N1".toList] },
    { msg0 with name := "C".toList, msgId := 0x200, tranS := ["N1".toList], recS := ["N2".toList] },
    { msg0 with name := "D".toList, msgId := 0x050, tranS := ["N1".toList], recS := ["N2".toList], frameNotEmpty := false },
    { msg0 with name := "E".toList, msgId := 0x400, tranS := ["N2".toList], recS := ["N2".toList, "N1".toList] } ]

/-- The rx messages of node `N2`, sorted. -/
def utilRx : List Msg :=
  [ { msg0 with name := "C".toList, msgId := 0x200, tranS := ["N1".toList], recS := ["N2".toList] },
    { msg0 with name := "A".toList, msgId := 0x300, tranS := ["N1".toList], recS := ["N2".toList] },
    { msg0 with name := "E".toList, msgId := 0x400, tranS := ["N2".toList], recS := ["N2".toList, "N1".toList] } ]

/-- The tx messages of node `N2`, sorted. -/
def utilTx : List Msg :=
  [ { msg0 with name := "B".toList, msgId := 0x100, tranS := ["N2".toList], recS := ["N1".toList] },
    { msg0 with name := "E".toList, msgId := 0x400, tranS := ["N2".toList], recS := ["N2".toList, "N1".toList] } ]

theorem utilRx_sorted : SortedBy utilRx (selectRx (nodeGroups utilMsgs "N2".toList) utilMsgs) :=
  ⟨by decide, by decide⟩

theorem utilTx_sorted : SortedBy utilTx (selectTx (nodeGroups utilMsgs "N2".toList) utilMsgs) :=
  ⟨by decide, by decide⟩

theorem utilIds : IdsDistinct utilMsgs := by unfold IdsDistinct; decide

end Fix

/-- The hypotheses of C22 and C23 are satisfiable, and the dispatch is what one expects: the id
0x300 goes to `A`, an unknown id nowhere. -/
example : SortedBy Fix.utilRx (selectRx (nodeGroups Fix.utilMsgs "N2".toList) Fix.utilMsgs) ∧ Fix.utilRx ≠ [] ∧
    (receiveLines Fix.utilRx).map (fun ls => (runLines 0x300 [] ls).map (·.name)) = some ["A".toList] ∧
    (receiveLines Fix.utilRx).map (fun ls => (runLines 0x301 [] ls).map (·.name)) = some [] :=
  ⟨Fix.utilRx_sorted, by decide, by decide, by decide⟩

/-- Such a `Receive` call succeeds on concrete data and returns the id. -/
example : (match receive (unpackOf Fix.plain Fix.utilMsgs Fix.fl Fix.hash 0 8) Fix.utilRx [0x53, 2, 0, 0, 0, 0, 0, 0] 0x300
      (fun _ => Fix.st []) with
    | .ok rxs r => some (r, (rxs "A".toList).fld "Speed".toList, (rxs "C".toList).fld "Speed".toList)
    | .fail => none) = some (0x300, 0x25, 0) := by decide

example : IdsDistinct Fix.utilMsgs ∧
    SortedBy Fix.utilTx (selectTx (nodeGroups Fix.utilMsgs "N2".toList) Fix.utilMsgs) :=
  ⟨Fix.utilIds, Fix.utilTx_sorted⟩

/-- C23 needs distinct ids: with a standard and an extended message of the same number the node
gets a message in its tx structure that it does not transmit. -/
theorem C23_same_id : ∃ (msgs : List Msg) (node : Str) (m : Msg),
    MappedTx (nodeGroups msgs node) msgs m ∧ node ∉ m.tranS :=
  ⟨[ { Fix.msg0 with name := "S".toList, isExt := false, tranS := ["N1".toList] },
     { Fix.msg0 with name := "X".toList, isExt := true, tranS := ["N2".toList] } ], "N1".toList,
   { Fix.msg0 with name := "X".toList, isExt := true, tranS := ["N2".toList] },
   by unfold MappedTx nodeGroups; decide, by decide⟩

/-- C43 (partial): a mapped message whose id no other mapped message has is called for its id.
Missing: messages that share a number, where the code fails (`C43_refuted`). -/
theorem C43_partial (g : Groups) (msgs rx : List Msg) (hs : SortedBy rx (selectRx g msgs))
    (m : Msg) (hm : MappedRx g msgs m) (huniq : ∀ m', MappedRx g msgs m' → m'.msgId = m.msgId → m' = m) :
    ∃ lines, receiveLines rx = some lines ∧ runLines m.msgId [] lines = [m] := by
  have hne : rx ≠ [] := by
    intro e
    have := hs.1.mem_iff.2 ((mem_selectRx g msgs m).2 hm)
    rw [e] at this; cases this
  obtain ⟨ls, e1, e2⟩ := C22_dispatch g msgs rx hs hne
  refine ⟨ls, e1, ?_⟩
  rcases e2 m.msgId with ⟨m', g1, g2, g3⟩ | ⟨g1, _⟩
  · rw [g3, huniq m' g1 g2]
  · exact absurd rfl (g1 m hm)

example : MappedRx (nodeGroups Fix.utilMsgs "N2".toList) Fix.utilMsgs
    { Fix.msg0 with name := "A".toList, msgId := 0x300, tranS := ["N1".toList], recS := ["N2".toList] } :=
  ⟨by decide, by decide, by decide⟩

/-- C43 is violated: of two different mapped messages with the same 29-bit number (one standard,
one extended) at least one is called for no id at all, for every such pair and every result of
the sort. -/
theorem C43_unreachable (g : Groups) (msgs rx : List Msg) (hs : SortedBy rx (selectRx g msgs))
    (a b : Msg) (ha : MappedRx g msgs a) (hab : a ≠ b) (hid : a.msgId = b.msgId) :
    ∃ lines, receiveLines rx = some lines ∧
      ((∀ id, a ∉ runLines id [] lines) ∨ (∀ id, b ∉ runLines id [] lines)) := by
  have hne : rx ≠ [] := by
    intro e
    have := hs.1.mem_iff.2 ((mem_selectRx g msgs a).2 ha)
    rw [e] at this; cases this
  obtain ⟨ls, e1, e2⟩ := C22_dispatch g msgs rx hs hne
  refine ⟨ls, e1, ?_⟩
  have other : ∀ (x : Msg) (id : Nat), x ∈ runLines id [] ls → x.msgId = id ∧ runLines id [] ls = [x] := by
    intro x id hx
    rcases e2 id with ⟨m, g1, g2, g3⟩ | ⟨g1, g2⟩
    · rw [g3, List.mem_singleton] at hx
      subst hx
      exact ⟨g2, g3⟩
    · rw [g2] at hx; cases hx
  by_cases h : ∃ id, a ∈ runLines id [] ls
  · right
    intro id hb
    obtain ⟨id', h⟩ := h
    obtain ⟨p1, p2⟩ := other a id' h
    obtain ⟨q1, q2⟩ := other b id hb
    have : id' = id := by rw [← p1, ← q1, hid]
    subst this
    rw [p2] at q2
    cases q2
    exact hab rfl
  · left
    intro id ha
    exact h ⟨id, ha⟩

/-- C43 is violated, with a concrete DBC: standard 0x123 and extended 0x123. -/
theorem C43_refuted : ¬ ∀ (msgs rx : List Msg), SortedBy rx (selectRx (allGroups msgs) msgs) →
    ∀ m ∈ rx, ∃ lines id, receiveLines rx = some lines ∧ m ∈ runLines id [] lines := by
  intro h
  let a : Msg := { Fix.msg0 with name := "S".toList, isExt := false }
  let b : Msg := { Fix.msg0 with name := "X".toList, isExt := true }
  have hs : SortedBy [a, b] (selectRx (allGroups [a, b]) [a, b]) := ⟨by decide, by decide⟩
  obtain ⟨ls, e, hc⟩ := C43_unreachable (allGroups [a, b]) [a, b] [a, b] hs a b
    ⟨by decide, by decide, by decide⟩ (by decide) rfl
  rcases hc with hc | hc
  · obtain ⟨ls', id, e', hm⟩ := h [a, b] [a, b] hs a (by simp)
    rw [e] at e'; cases e'
    exact hc id hm
  · obtain ⟨ls', id, e', hm⟩ := h [a, b] [a, b] hs b (by simp)
    rw [e] at e'; cases e'
    exact hc id hm

/-- C44 (partial): if no mapped message has id 0, the return value of `Receive` is non-zero
exactly when the frame was handled by some message.  Missing: message id 0 (`C44_refuted`). -/
theorem C44_partial (g : Groups) (msgs rx : List Msg) (hs : SortedBy rx (selectRx g msgs)) (hne : rx ≠ [])
    (hz : ∀ m, MappedRx g msgs m → m.msgId ≠ 0)
    (cfg : Cfg) (fl : FloatOps φ) (hash : List Nat → Nat → Nat → Str → Nat → Nat) (tick dlcArg : Nat)
    (d : List Nat) (id : Nat) (rxs rxs' : Str → St φ) (recid : Nat)
    (h : receive (unpackOf cfg msgs fl hash tick dlcArg) rx d id rxs = .ok rxs' recid) :
    recid ≠ 0 ↔ ∃ m, MappedRx g msgs m ∧ m.msgId = id := by
  rcases C22_receive g msgs rx hs hne cfg fl hash tick dlcArg d id rxs with
    ⟨m, g1, g2, ⟨st', _, r2, e, _⟩ | ⟨_, e⟩⟩ | ⟨g1, g2⟩
  · rw [e] at h; cases h
    exact ⟨fun _ => ⟨m, g1, g2⟩, fun _ => g2 ▸ hz m g1⟩
  · rw [e] at h; cases h
  · rw [g2] at h; cases h
    refine ⟨fun h => absurd rfl h, ?_⟩
    rintro ⟨m, q1, q2⟩
    exact absurd q2 (g1 m q1)

example : ∀ m, MappedRx (nodeGroups Fix.utilMsgs "N2".toList) Fix.utilMsgs m → m.msgId ≠ 0 := by
  intro m hm
  have h := (mem_selectRx _ _ m).2 hm
  have : ∀ m ∈ selectRx (nodeGroups Fix.utilMsgs "N2".toList) Fix.utilMsgs, m.msgId ≠ 0 := by decide
  exact this m h

/-- C44 is violated: a message with id 0 is handled and `Receive` returns 0. -/
theorem C44_refuted : ∃ (msgs rx : List Msg) (d : List Nat) (rxs rxs' : Str → St Unit),
    SortedBy rx (selectRx (allGroups msgs) msgs) ∧
    (∃ m, MappedRx (allGroups msgs) msgs m ∧ m.msgId = 0) ∧
    receive (unpackOf Fix.plain msgs Fix.fl Fix.hash 0 8) rx d 0 rxs = .ok rxs' 0 ∧
    (rxs' "Z".toList).fld "Speed".toList ≠ (rxs "Z".toList).fld "Speed".toList := by
  let z : Msg := { Fix.msg0 with name := "Z".toList, msgId := 0 }
  have h : (match receive (unpackOf Fix.plain [z] Fix.fl Fix.hash 0 8) [z] [0x53, 2, 0, 0, 0, 0, 0, 0] 0
      (fun _ => Fix.st []) with
    | .ok rxs r => some (r, (rxs "Z".toList).fld "Speed".toList)
    | .fail => none) = some (0, 0x25) := by decide
  split at h
  next rxs' r e =>
    obtain ⟨hr, hv⟩ := Prod.mk.inj (Option.some.inj h)
    subst hr
    refine ⟨[z], [z], [0x53, 2, 0, 0, 0, 0, 0, 0], fun _ => Fix.st [], rxs', ⟨by decide, by decide⟩,
      ⟨z, ⟨by decide, by decide, by decide⟩, rfl⟩, e, ?_⟩
    show (rxs' "Z".toList).fld "Speed".toList ≠ 0
    rw [hv]; decide
  · cases h

theorem lowerChar_idem (c : Char) : lowerChar (lowerChar c) = lowerChar c := by
  unfold lowerChar
  split
  next h =>
    obtain ⟨h1, h2⟩ := h
    have h1' : 65 ≤ c.toNat := h1
    have h2' : c.toNat ≤ 90 := h2
    have hv : (c.toNat + 32).isValidChar := Or.inl (by omega)
    have ht : (Char.ofNat (c.toNat + 32)).toNat = c.toNat + 32 := by
      rw [Char.ofNat, dif_pos hv]
      rfl
    rw [if_neg]
    rintro ⟨_, q⟩
    have : (Char.ofNat (c.toNat + 32)).toNat ≤ 90 := q
    omega
  next h => rfl

theorem strLower_idem (s : Str) : strLower (strLower s) = strLower s := by
  unfold strLower
  rw [List.map_map]
  exact List.map_congr_left fun c _ => lowerChar_idem c

theorem strLower_append (a b : Str) : strLower (a ++ b) = strLower a ++ strLower b := by
  simp [strLower]

/-- C45 (partial): node util files are distinct exactly when the node names differ ignoring
case.  Missing: nodes that differ in case only (`C45_refuted`). -/
theorem C45_partial (utildir drv n1 n2 : Str) :
    (nodeUtilH utildir drv n1 = nodeUtilH utildir drv n2 ↔ strLower n1 = strLower n2) ∧
    (nodeUtilC utildir drv n1 = nodeUtilC utildir drv n2 ↔ strLower n1 = strLower n2) := by
  constructor
  · unfold nodeUtilH
    simp only [strLower_append, strLower_idem, List.append_assoc, List.append_cancel_left_eq,
      List.append_cancel_right_eq]
  · unfold nodeUtilC
    simp only [strLower_append, strLower_idem, List.append_assoc, List.append_cancel_left_eq,
      List.append_cancel_right_eq]

/-- C45 is violated: two nodes of one DBC, `ECU` and `Ecu`, get the same output files, and the
messages they receive differ, so the second driver replaces the first. -/
theorem C45_refuted : ∃ (msgs : List Msg) (utildir drv n1 n2 : Str),
    n1 ∈ collectNodes msgs ∧ n2 ∈ collectNodes msgs ∧ n1 ≠ n2 ∧
    nodeUtilH utildir drv n1 = nodeUtilH utildir drv n2 ∧
    nodeUtilC utildir drv n1 = nodeUtilC utildir drv n2 ∧
    selectRx (nodeGroups msgs n1) msgs ≠ selectRx (nodeGroups msgs n2) msgs :=
  ⟨[ { Fix.msg0 with name := "A".toList, msgId := 1, recS := ["ECU".toList] },
     { Fix.msg0 with name := "B".toList, msgId := 2, recS := ["Ecu".toList] } ],
   "out/butl".toList, "drv".toList, "ECU".toList, "Ecu".toList,
   by decide, by decide, by decide, by decide, by decide, by decide⟩

example : strLower "ECU1".toList ≠ strLower "Gateway".toList := by decide

end Verif
