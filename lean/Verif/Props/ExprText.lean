import Verif.Proofs.ExprText
import Verif.Props.Pack
import Verif.Props.Fixtures
/-
C53: the text of the conversion expressions, read by the C grammar.
-/
namespace Verif
open Verif.Spec

theorem parsesTo_render {e : CExpr} (h : Chain e) : ParsesTo (lex (render e)) (toP e) := by
  have h1 := lex_chain e h [] trivial
  rw [List.append_nil] at h1
  have h2 : lex [] = [] := rfl
  rw [h1, h2]
  exact parse_chain e h [] endTok_nil

/-- **C53**: every printed text is empty (bytes without signals), a C expression, or begins with the
error text, in which case it is no C expression.  For every message with identifiers as names. -/
theorem C53_always (m : Msg) (hn : ∀ s ∈ m.signals, IsIdent s.name ∧ s.name.length ≤ 2000 ∧ s.lengthBit < 256) (hd : m.dlc < 256)
    (ts tt : List Str) (h : buildText m = some (ts, tt)) :
    ts.length = m.signals.length ∧ tt.length = m.dlc ∧
    (∀ t ∈ ts, (∃ p, ParsesTo (lex t) p) ↔ t ≠ errText) ∧
    (∀ t ∈ tt, t ≠ [] → ((∃ p, ParsesTo (lex t) p) ↔ ¬ ∃ u, t = errText ++ u)) := by
  have hb := build_text m (fun s hs => (hn s hs).2.1)
  have hc := buildLoop_chain m.signals (fun s hs => ⟨(hn s hs).1, by have := (hn s hs).2.2; omega⟩) [] (List.replicate m.dlc .empty)
    (by simp; omega) (by simp) (by
      intro sl hsl
      rw [(List.mem_replicate.mp hsl).2]
      trivial)
  rw [h] at hb
  have hbb : buildLoop m.signals [] (List.replicate m.dlc .empty) = buildExprs m := rfl
  rw [hbb] at hc
  revert hb hc
  generalize buildExprs m = R
  intro hb hc
  cases R with
  | oob => exact hb.elim
  | ok xs tb =>
    obtain ⟨hl, hx, hs⟩ := hb
    obtain ⟨c1, c2, c3, c4⟩ := hc
    have hno : ∀ u, ¬ ∃ p, ParsesTo (lex (errText ++ u)) p := by
      rintro u ⟨p, hp⟩
      exact errText_noParse u p [] hp rfl
    refine ⟨by simpa [hl] using c4, by rw [hs.1, c3]; simp, ?_, ?_⟩
    · intro t ht
      obtain ⟨i, hi, rfl⟩ := List.mem_iff_getElem.mp ht
      obtain ⟨t, e, hst⟩ := hx i xs[i] (List.getElem?_eq_getElem (by omega))
      rw [List.getElem?_eq_getElem hi] at e
      cases e
      have hch := c1 xs[i] (List.getElem_mem _)
      revert hst hch
      generalize xs[i] = x
      generalize ts[i] = t
      intro hst hch
      cases x with
      | err =>
        cases hst
        have := hno []
        rw [List.append_nil] at this
        exact ⟨fun h => absurd h this, fun h => absurd rfl h⟩
      | expr e =>
        cases hst
        refine ⟨?_, fun _ => ⟨_, parsesTo_render hch⟩⟩
        rintro - e1
        have := hno []
        rw [List.append_nil, ← e1] at this
        exact this ⟨_, parsesTo_render hch⟩
    · intro t ht h0
      obtain ⟨i, hi, rfl⟩ := List.mem_iff_getElem.mp ht
      have hi' : i < tb.length := by
        rw [← hs.1]
        exact hi
      obtain ⟨t, e, hst⟩ := hs.2 i tb[i] (List.getElem?_eq_getElem hi')
      rw [List.getElem?_eq_getElem hi] at e
      cases e
      have hch := c2 tb[i] (List.getElem_mem _)
      revert hst hch h0
      generalize tb[i] = x
      generalize tt[i] = t
      intro h0 hst hch
      cases x with
      | empty => exact absurd hst h0
      | err =>
        obtain ⟨u, rfl⟩ := hst
        exact ⟨fun h => absurd h (hno u), fun h => absurd ⟨u, rfl⟩ h⟩
      | expr e =>
        cases hst
        refine ⟨?_, fun _ => ⟨_, parsesTo_render hch⟩⟩
        rintro - ⟨u, e1⟩
        exact hno u (e1 ▸ ⟨_, parsesTo_render hch⟩)

/-- Texts and trees of a message whose signals fit. -/
theorem texts_ok {m : Msg} (hm : MsgOk m) (hn : ∀ s ∈ m.signals, IsIdent s.name ∧ s.name.length ≤ 2000) :
    ∃ ts tt, buildText m = some (ts, tt) ∧ ts.length = m.signals.length ∧ tt.length = m.dlc ∧
      (∀ (i : Nat) s, m.signals[i]? = some s → ts[i]? = some (render (joinFrags (frags s))) ∧ Chain (joinFrags (frags s))) ∧
      (∀ (i : Nat), i < m.dlc → ∃ t, tt[i]? = some t ∧
        let sl := ((itemsOf m.signals).filter (fun it => it.2.byte == i)).foldl (fun sl it => sl.append (it.2.toByte it.1)) Slot.empty
        SlotText sl t ∧ SlotChain sl) := by
  have hb := build_text m (fun s hs => (hn s hs).2)
  have hc := buildLoop_chain m.signals (fun s hs => ⟨(hn s hs).1, by have := (hm.2 s hs).2.1; omega⟩) [] (List.replicate m.dlc .empty)
    (by have := hm.1; simp; omega) (by simp) (by
      intro sl hsl
      rw [(List.mem_replicate.mp hsl).2]
      trivial)
  have hbb : buildLoop m.signals [] (List.replicate m.dlc .empty) = buildExprs m := rfl
  rw [hbb] at hc
  rw [buildExprs_ok hm] at hb hc
  cases hx : buildText m with
  | none =>
    rw [hx] at hb
    exact hb.elim
  | some x =>
    obtain ⟨ts, tt⟩ := x
    rw [hx] at hb
    obtain ⟨hl, hxs, hs⟩ := hb
    obtain ⟨c1, c2, c3, -⟩ := hc
    refine ⟨ts, tt, rfl, by simpa using hl, by rw [hs.1, c3]; simp, ?_, ?_⟩
    · intro i s h
      have hi : (m.signals.map fun s => SigText.expr (joinFrags (frags s)))[i]? = some (.expr (joinFrags (frags s))) := by
        rw [List.getElem?_map, h]
        rfl
      obtain ⟨t, e, hst⟩ := hxs i _ hi
      refine ⟨by rw [e]; exact congrArg some hst, ?_⟩
      exact c1 _ (List.mem_of_getElem? hi)
    · intro i hi
      have hg := foldl_apply_get (itemsOf m.signals) (List.replicate m.dlc .empty) i (by simpa using hi)
      have h0 : (List.replicate m.dlc Slot.empty).getD i .empty = .empty := by simp [List.getD, hi]
      rw [h0] at hg
      have hlt : i < ((itemsOf m.signals).foldl Item.apply (List.replicate m.dlc .empty)).length := by
        rw [foldl_apply_length]
        simpa using hi
      obtain ⟨t, e, hst⟩ := hs.2 i _ (List.getElem?_eq_getElem hlt)
      have hch := c2 _ (List.getElem_mem hlt)
      have hget : ((itemsOf m.signals).foldl Item.apply (List.replicate m.dlc .empty)).getD i .empty =
          ((itemsOf m.signals).foldl Item.apply (List.replicate m.dlc .empty))[i] := by
        simp [List.getD, hlt]
      rw [← hget, hg] at hst hch
      exact ⟨t, e, hst, hch⟩

/-- **C53**, Unpack direction: the text printed for a signal is a C expression over `_d` that has the
raw value of the signal for every payload. -/
theorem C53_unpack_text (m : Msg) (hm : MsgOk m) (hn : ∀ s ∈ m.signals, IsIdent s.name ∧ s.name.length ≤ 2000) :
    ∃ ts tt, buildText m = some (ts, tt) ∧ ts.length = m.signals.length ∧
      ∀ (i : Nat) s t, m.signals[i]? = some s → ts[i]? = some t →
        (s.lengthBit ≤ 32 ∨ bitPos (s.order == .intel) s.startBit s.lengthBit 0 % 8 = 0) →
        ∃ p, ParsesTo (lex t) p ∧ ∀ (dat : List Nat) (fld : Str → Option CVal), IsPayload dat → m.dlc ≤ dat.length →
          ∃ ty, p.eval ⟨.id "_d".toList, dat, fld⟩ =
            some ⟨ty, (rawValue (s.order == .intel) s.startBit s.lengthBit dat : Nat)⟩ := by
  obtain ⟨ts, tt, hb, hl, -, h1, -⟩ := texts_ok hm hn
  refine ⟨ts, tt, hb, hl, ?_⟩
  intro i s t hs ht ha
  obtain ⟨e, hch⟩ := h1 i s hs
  rw [ht] at e
  cases e
  refine ⟨_, parsesTo_render hch, ?_⟩
  intro dat fld hd hlen
  have hmem := List.mem_of_getElem? hs
  obtain ⟨h0, h64, hfit⟩ := hm.2 s hmem
  have hlt := frags_lt_of_fits (s := s) h0 hfit
  obtain ⟨ty, -, -, h⟩ := eval_joinFrags (s := s) (env := ⟨dat, fld⟩) hd h0 h64 (fun f hf => Nat.lt_of_lt_of_le (hlt f hf) hlen)
  refine ⟨ty, ?_⟩
  have := eval_toP ⟨dat, fld⟩ _ hch
  unfold penv at this
  rw [this, h, orFrags_eq_raw dat h0 h64 ha]
  rfl

/-- **C53**, Pack direction: the text printed for byte `i` is empty if no signal has a bit there;
otherwise it is a C expression over the struct members whose value is the byte with exactly the
signal bits. -/
theorem C53_pack_text (m : Msg) (hm : MsgOk m) (hn : ∀ s ∈ m.signals, IsIdent s.name ∧ s.name.length ≤ 2000) :
    ∃ ts tt, buildText m = some (ts, tt) ∧ tt.length = m.dlc ∧
      ∀ (i : Nat) t, tt[i]? = some t →
        (t = [] ∧ ∀ s ∈ m.signals, ∀ k, k < s.lengthBit → bitPos (s.order == .intel) s.startBit s.lengthBit k / 8 ≠ i) ∨
        ∃ p, ParsesTo (lex t) p ∧ ∀ (dat : List Nat) (val : Str → CVal), (∀ s ∈ m.signals, s.lengthBit ≤ (val s.name).ty.bits) →
          ∃ ty w, p.eval ⟨.id "_d".toList, dat, fun n => some (val n)⟩ = some ⟨ty, ((w : Nat) : Int)⟩ ∧ w < 256 ∧
            ∀ j, j < 8 → (w.testBit j = true ↔ ∃ s ∈ m.signals, ∃ k, k < s.lengthBit ∧
              bitPos (s.order == .intel) s.startBit s.lengthBit k = 8 * i + j ∧ intBit (val s.name).val k = true) := by
  obtain ⟨ts, tt, hb, -, hl, -, h2⟩ := texts_ok hm hn
  refine ⟨ts, tt, hb, hl, ?_⟩
  intro i t ht
  have hi : i < m.dlc := by
    rw [← hl]
    exact (List.getElem?_eq_some_iff.mp ht).1
  obtain ⟨t', e, hst, hch⟩ := h2 i hi
  rw [ht] at e
  cases e
  generalize hits : (itemsOf m.signals).filter (fun it => it.2.byte == i) = items at hst hch
  by_cases h0 : items = []
  · left
    subst h0
    refine ⟨hst, ?_⟩
    intro s hs k hk hpos
    obtain ⟨h1, h2, -⟩ := frags_spec s (hm.2 s hs).1
    obtain ⟨f, hf, hk1, hk2⟩ := h2 k hk
    obtain ⟨hw, ho, hsh, -, hp⟩ := h1 f hf
    have := hp (k - f.shift) (by omega)
    rw [show f.shift + (k - f.shift) = k by omega] at this
    have hpos' : s.pos k / 8 = i := hpos
    rw [this] at hpos'
    have hmem : (s.name, f) ∈ (itemsOf m.signals).filter (fun it => it.2.byte == i) := by
      refine List.mem_filter.2 ⟨itemsOf_mem.2 ⟨s, hs, f, hf, rfl⟩, ?_⟩
      simp only [beq_iff_eq]
      omega
    rw [hits] at hmem
    cases hmem
  · right
    have hex : ∃ e, items.foldl (fun sl it => sl.append (it.2.toByte it.1)) Slot.empty = .expr e := by
      have : ∀ (l : List Item) (a : CExpr), ∃ e, l.foldl (fun sl it => sl.append (it.2.toByte it.1)) (Slot.expr a) = .expr e := by
        intro l
        induction l with
        | nil => exact fun a => ⟨a, rfl⟩
        | cons it l ih => exact fun a => ih _
      cases items with
      | nil => exact absurd rfl h0
      | cons it items => exact this items _
    obtain ⟨e, he⟩ := hex
    rw [he] at hst hch
    cases hst
    refine ⟨_, parsesTo_render hch, ?_⟩
    intro dat val hty
    have hok : ∀ it ∈ items, it.Ok ⟨dat, fun n => some (val n)⟩ := by
      intro it hit
      rw [← hits] at hit
      obtain ⟨s, hs, f, hf, rfl⟩ := itemsOf_mem.1 (List.mem_filter.1 hit).1
      obtain ⟨h1, -, -⟩ := frags_spec s (hm.2 s hs).1
      obtain ⟨hw, ho, hsh, hz, -⟩ := h1 f hf
      refine ⟨val s.name, rfl, hw, ho, hz, ?_⟩
      have := hty s hs
      have := (val s.name).ty.bits_le_promote
      show f.shift < _
      omega
    rcases eval_slot items hok with ⟨h1, -⟩ | ⟨e', ty, h1, -, h3⟩
    · exact absurd h1 h0
    rw [he] at h1
    cases h1
    refine ⟨ty, _, ?_, orItems_lt hok, ?_⟩
    · have := eval_toP ⟨dat, fun n => some (val n)⟩ _ hch
      unfold penv at this
      rw [this]
      exact h3
    · intro j hj
      rw [testBit_orItems, List.any_eq_true]
      constructor
      · rintro ⟨it, hit, hb⟩
        rw [← hits] at hit
        obtain ⟨hit, hbyte⟩ := List.mem_filter.1 hit
        obtain ⟨s, hs, f, hf, rfl⟩ := itemsOf_mem.1 hit
        exact ⟨s, hs, (frags_bit (hm.2 s hs).1 _ _ _ hj).1 ⟨f, hf, by simpa using hbyte, hb⟩⟩
      · rintro ⟨s, hs, hb⟩
        obtain ⟨f, hf, hbyte, ht⟩ := (frags_bit (hm.2 s hs).1 (val s.name).val i j hj).2 hb
        refine ⟨(s.name, f), ?_, ht⟩
        rw [← hits]
        exact List.mem_filter.2 ⟨itemsOf_mem.2 ⟨s, hs, f, hf, rfl⟩, by simpa using hbyte⟩

/-- The texts of a message with an Intel signal over two bytes and a Motorola one. -/
example : buildText { dlc := 3, signals := [{ name := "speed".toList, startBit := 4, lengthBit := 10 },
      { name := "gear".toList, startBit := 23, lengthBit := 8, order := .motorolla }] } =
    some (["((_d[1] & (0x3FU)) << 4U) | ((_d[0] >> 4U) & (0x0FU))".toList, "(_d[2] & (0xFFU))".toList],
      ["((_m->speed & (0x0FU)) << 4U)".toList, "((_m->speed >> 4U) & (0x3FU))".toList, "(_m->gear & (0xFFU))".toList]) := by
  decide +kernel

example : ∃ p, ParsesTo (lex "((_d[1] & (0x3FU)) << 4U) | ((_d[0] >> 4U) & (0x0FU))".toList) p ∧
    p.eval ⟨.id "_d".toList, [0xA5, 0x12], fun _ => none⟩ = some ⟨.u32, 0x12A⟩ := by
  refine ⟨_, ⟨60, rfl⟩, ?_⟩
  decide +kernel

/-- The conditions of the theorems hold for a message with both byte orders. -/
example : ∃ ts tt, buildText Fix.msg = some (ts, tt) ∧ ts.length = 4 := by
  have hid : ∀ s ∈ Fix.msg.signals, IsIdent s.name ∧ s.name.length ≤ 2000 := by
    intro s hs
    simp only [Fix.msg, List.mem_cons, List.not_mem_nil, or_false] at hs
    rcases hs with rfl | rfl | rfl | rfl <;> refine ⟨?_, ?_⟩ <;> decide +kernel
  obtain ⟨ts, tt, h, hl, -⟩ := C53_unpack_text Fix.msg Fix.msgOk hid
  exact ⟨ts, tt, h, hl⟩

end Verif
