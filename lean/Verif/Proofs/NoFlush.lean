import Verif.Model.Run
/-
What the generators put into the file writer contains no `Flush`.
-/
namespace Verif

def WOp.isText : WOp → Bool
  | .flush _ _ => false
  | _ => true

/-- Only text. -/
def OnlyText (ops : List WOp) : Prop := ∀ op ∈ ops, op.isText = true

theorem OnlyText.nil : OnlyText [] := fun _ h => nomatch h
theorem OnlyText.app {a b : List WOp} (ha : OnlyText a) (hb : OnlyText b) : OnlyText (a ++ b) := fun op h => (List.mem_append.1 h).elim (ha op) (hb op)
theorem OnlyText.cons {x : WOp} {a : List WOp} (hx : x.isText = true) (ha : OnlyText a) : OnlyText (x :: a) := fun op h => by
  rcases List.mem_cons.1 h with rfl | h
  · exact hx
  · exact ha op h
theorem OnlyText.map {α : Type} {l : List α} {f : α → WOp} (h : ∀ x, (f x).isText = true) : OnlyText (l.map f) := fun op ho => by
  obtain ⟨x, -, rfl⟩ := List.mem_map.1 ho
  exact h x
theorem OnlyText.flatMap {α : Type} {l : List α} {f : α → List WOp} (h : ∀ x, OnlyText (f x)) : OnlyText (l.flatMap f) := fun op ho => by
  obtain ⟨x, -, hx⟩ := List.mem_flatMap.1 ho
  exact h x op hx
theorem OnlyText.ite {p : Prop} [Decidable p] {a b : List WOp} (ha : OnlyText a) (hb : OnlyText b) : OnlyText (if p then a else b) := by
  split
  · exact ha
  · exact hb
theorem OnlyText.flatten {l : List (List WOp)} (h : ∀ a ∈ l, OnlyText a) : OnlyText l.flatten := fun op ho => by
  obtain ⟨a, ha, hx⟩ := List.mem_flatten.1 ho
  exact h a ha op hx

/-- Takes a list of calls apart. -/
macro "onlytext" : tactic => `(tactic| repeat' first
  | exact OnlyText.nil | assumption | rfl
  | apply OnlyText.app | apply OnlyText.cons | apply OnlyText.ite | (apply OnlyText.map; intro _; rfl) | (apply OnlyText.flatMap; intro _))

variable {g : GenDesc}

theorem text_all {α : Type} {l : List (Option α)} {r : List α} (h : allSome l = some r) : ∀ x ∈ r, some x ∈ l := by
  induction l generalizing r with
  | nil => cases h; intro x hx; nomatch hx
  | cons a l ih =>
    cases a with
    | none => cases h
    | some y =>
      rw [allSome] at h
      cases hl : allSome l with
      | none => rw [hl] at h; cases h
      | some r' =>
        rw [hl] at h
        cases h
        intro x hx
        rcases List.mem_cons.1 hx with rfl | hx
        · exact List.mem_cons_self
        · exact List.mem_cons_of_mem _ (ih hl x hx)

theorem text_field {s : Sig} {b : Bool} {n : Nat} {ops : List WOp} (h : writeSigStructField g s b n = some ops) : OnlyText ops := by
  unfold writeSigStructField at h
  cases hi : infoComment s with
  | none => rw [hi] at h; cases h
  | some i =>
    rw [hi, Option.bind_some] at h
    split at h
    · cases h
      unfold fieldCommentOps fieldLineOps physFieldOps
      onlytext
      split <;> onlytext
    · cases h

theorem text_valTable (m : Msg) (s : Sig) : OnlyText (valTableOps m s) := by
  unfold valTableOps
  onlytext

theorem text_sigMacro {m : Msg} : ∀ {l : List Sig} {seen : List Str} {r : List WOp × List Str}, sigMacroOps g m l seen = some r → OnlyText r.1
  | [], _, r, h => by cases h; exact OnlyText.nil
  | s :: l, seen, r, h => by
    rw [sigMacroOps] at h
    cases hc : convMacroOps g s seen with
    | none => rw [hc] at h; cases h
    | some c =>
      rw [hc, Option.bind_some] at h
      cases hr : sigMacroOps g m l c.2 with
      | none => rw [hr] at h; cases h
      | some q =>
        rw [hr] at h
        cases h
        refine OnlyText.app (OnlyText.app ?_ (text_valTable m s)) (text_sigMacro hr)
        unfold convMacroOps at hc
        split at hc
        · cases hp : printPhysicalToRaw s g.drvUp with
          | none => rw [hp] at hc; cases hc
          | some t => rw [hp] at hc; cases hc; onlytext
        · cases hc; exact OnlyText.nil

theorem text_part {m : Msg} {b : Bool} {ops : List WOp} (h : structPartOps g m b = some ops) : OnlyText ops := by
  unfold structPartOps at h
  cases ha : allSome (m.signals.map fun s => writeSigStructField g s b (maxSigNameLen m)) with
  | none => rw [ha] at h; cases h
  | some fs =>
    rw [ha, Option.bind_some] at h
    have hf : OnlyText fs.flatten := OnlyText.flatten fun a hm => by
      obtain ⟨s, -, e⟩ := List.mem_map.1 (text_all ha a hm)
      exact text_field e
    split at h
    · cases h; exact hf
    · rename_i r _
      cases hw : writeSigStructField g (rollCopy r) b (maxSigNameLen m) with
      | none => rw [hw] at h; cases h
      | some f =>
        rw [hw] at h
        cases h
        have := text_field hw
        unfold rollFieldOps
        onlytext

theorem text_struct {m : Msg} {ops : List WOp} (h : structOps g m = some ops) : OnlyText ops := by
  unfold structOps at h
  cases ha : structPartOps g m true with
  | none => rw [ha] at h; cases h
  | some a =>
    rw [ha, Option.bind_some] at h
    cases hb : structPartOps g m false with
    | none => rw [hb] at h; cases h
    | some b =>
      rw [hb] at h
      cases h
      have h1 := text_part ha
      have h2 := text_part hb
      unfold structText
      onlytext

theorem text_const (m : Msg) : OnlyText (msgConstOps m) := by
  unfold msgConstOps
  onlytext

theorem text_headerMsgs : ∀ {l : List Msg} {seen : List Str} {ops : List WOp}, headerMsgOps g l seen = some ops → OnlyText ops
  | [], _, ops, h => by cases h; exact OnlyText.nil
  | m :: l, seen, ops, h => by
    rw [headerMsgOps] at h
    have hc := text_const m
    split at h
    · cases hm : sigMacroOps g m m.signals seen with
      | none => rw [hm] at h; cases h
      | some mac =>
        rw [hm, Option.bind_some] at h
        cases hs : structOps g m with
        | none => rw [hs] at h; cases h
        | some st =>
          rw [hs, Option.bind_some] at h
          cases hr : headerMsgOps g l mac.2 with
          | none => rw [hr] at h; cases h
          | some r =>
            rw [hr] at h
            cases h
            have h1 := text_sigMacro hm
            have h2 := text_struct hs
            have h3 := text_headerMsgs hr
            onlytext
    · cases hr : headerMsgOps g l seen with
      | none => rw [hr] at h; cases h
      | some r =>
        rw [hr] at h
        cases h
        have h3 := text_headerMsgs hr
        onlytext

theorem text_header {maxDlc : Nat} {msgs : List Msg} {ops : List WOp} (h : mainHeaderOps g maxDlc msgs = some ops) : OnlyText ops := by
  unfold mainHeaderOps at h
  cases hm : headerMsgOps g msgs [] with
  | none => rw [hm] at h; cases h
  | some ms =>
    rw [hm] at h
    cases h
    have h1 := text_headerMsgs hm
    have h2 : OnlyText (headerStartOps g maxDlc) := by unfold headerStartOps; onlytext
    have h3 : OnlyText (headerEndOps g msgs) := by
      unfold headerEndOps
      refine OnlyText.app (OnlyText.app (by onlytext) (OnlyText.flatMap fun m => ?_)) (by onlytext)
      unfold prototypeOps
      onlytext
    onlytext

theorem text_unpackSigs : ∀ (ss : List Sig) (es : List Str), OnlyText (unpackSigsOps g ss es)
  | [], _ => by unfold unpackSigsOps; exact OnlyText.nil
  | _ :: _, [] => by unfold unpackSigsOps; exact OnlyText.nil
  | s :: ss, e :: es => by
    rw [unpackSigsOps]
    refine OnlyText.app ?_ (text_unpackSigs ss es)
    unfold unpackSigOps
    onlytext

theorem text_unpackBody {m : Msg} {es : List Str} {ops : List WOp} (h : unpackBodyOps g m es = some ops) : OnlyText ops := by
  unfold unpackBodyOps at h
  cases hr : unpackRollOps g m with
  | none => rw [hr] at h; cases h
  | some r =>
    rw [hr] at h
    cases h
    have h1 := text_unpackSigs (g := g) m.signals es
    have h2 : OnlyText (unpackCsmOps g m) := by unfold unpackCsmOps; split <;> onlytext
    have h3 : OnlyText r := by
      unfold unpackRollOps at hr
      split at hr
      · cases hr; exact OnlyText.nil
      · rename_i q _
        cases hk : rollMask q.lengthBit with
        | none => rw [hk] at hr; cases hr
        | some k => rw [hk] at hr; cases hr; onlytext
    onlytext

theorem text_packCommon {m : Msg} {arr : Str} {bs : List Str} {ops : List WOp} (h : packCommonOps g arr m bs = some ops) : OnlyText ops := by
  unfold packCommonOps at h
  cases hr : packRollOps g m with
  | none => rw [hr] at h; cases h
  | some r =>
    rw [hr, Option.bind_some] at h
    cases hc : packCsmOps g arr m with
    | none => rw [hc] at h; cases h
    | some c =>
      rw [hc] at h
      cases h
      have h1 : OnlyText r := by
        unfold packRollOps at hr
        split at hr
        · cases hr; exact OnlyText.nil
        · rename_i q _
          cases hk : rollMask q.lengthBit with
          | none => rw [hk] at hr; cases hr
          | some k => rw [hk] at hr; cases hr; onlytext
      have h2 : OnlyText c := by
        unfold packCsmOps at hc
        split at hc
        · cases hc; exact OnlyText.nil
        · rename_i q _
          cases hk : csmText q with
          | none => rw [hk] at hc; cases hc
          | some k => rw [hk] at hc; cases hc; onlytext
      have h3 : OnlyText (packClearOps g m) := by unfold packClearOps; split <;> onlytext
      have h4 : OnlyText (packPhysOps g m) := by unfold packPhysOps; onlytext
      have h5 : OnlyText (packByteOps arr bs) := by unfold packByteOps; onlytext
      onlytext

theorem text_sourceMsg {m : Msg} {ops : List WOp} (h : sourceMsgOps g m = some ops) : OnlyText ops := by
  unfold sourceMsgOps at h
  split at h
  · cases ht : buildText m with
    | none => rw [ht] at h; cases h
    | some t =>
      rw [ht, Option.bind_some] at h
      cases hu : unpackBodyOps g m t.1 with
      | none => rw [hu] at h; cases h
      | some u =>
        rw [hu, Option.bind_some] at h
        unfold packStructOps packArrayOps at h
        cases hp : packCommonOps g "cframe->Data".toList m t.2 with
        | none => rw [hp] at h; cases h
        | some p =>
          rw [hp] at h
          cases hq : packCommonOps g "_d".toList m t.2 with
          | none => rw [hq] at h; cases h
          | some q =>
            rw [hq] at h
            cases h
            have h1 := text_unpackBody hu
            have h2 := text_packCommon hp
            have h3 := text_packCommon hq
            unfold functionsText packStructEnd packArrayEnd
            onlytext
  · cases h; exact OnlyText.nil

theorem text_source {msgs : List Msg} {ops : List WOp} (h : mainSourceOps g msgs = some ops) : OnlyText ops := by
  unfold mainSourceOps at h
  cases hm : allSome (msgs.map (sourceMsgOps g)) with
  | none => rw [hm] at h; cases h
  | some ms =>
    rw [hm] at h
    cases h
    refine OnlyText.app (by unfold sourceStartOps; onlytext) (OnlyText.flatten fun a ha => ?_)
    obtain ⟨m, -, e⟩ := List.mem_map.1 (text_all hm a ha)
    exact text_sourceMsg e

theorem text_fmonHeader (msgs : List Msg) : OnlyText (fmonHeaderOps g msgs) := by unfold fmonHeaderOps; onlytext
theorem text_fmonSource (msgs : List Msg) : OnlyText (fmonSourceOps g msgs) := by unfold fmonSourceOps; onlytext
theorem text_config : OnlyText (configHeaderOps g) := by unfold configHeaderOps fillConfig fillConfigWith; onlytext
theorem text_codeConf : OnlyText (dbcCodeConfOps g) := by unfold dbcCodeConfOps dbcCodeConfWith; onlytext
theorem text_canMon : OnlyText (canMonUtilOps g) := by unfold canMonUtilOps; onlytext

theorem text_utilHeader (u : UtilDesc) (rx tx : List Msg) : OnlyText (utilHeaderOps u rx tx) := by
  unfold utilHeaderOps utilStructOps
  onlytext

theorem text_utilSource {u : UtilDesc} {hi lo : Nat} {rx tx : List Msg} {ops : List WOp} (h : utilSourceOps u hi lo rx tx = some ops) : OnlyText ops := by
  unfold utilSourceOps at h
  cases hr : receiveOps u rx with
  | none => rw [hr] at h; cases h
  | some b =>
    rw [hr] at h
    cases h
    have h1 : OnlyText b := by
      unfold receiveOps at hr
      split at hr
      · cases hk : fillTree rx (rx.length + 1) 0 rx.length false with
        | none => rw [hk] at hr; cases hr
        | some k => rw [hk] at hr; cases hr; onlytext
      · cases hr; exact OnlyText.nil
    onlytext

/-! ### What the writer does with it -/

theorem run_text {ops : List WOp} (h : OnlyText ops) : ∀ w : Writer, w.run ops = { w with buf := w.buf ++ opsText ops } := by
  have key : ∀ (ops : List WOp), OnlyText ops → ∀ w : Writer, ∃ t, ∀ v : Writer, Writer.run { v with buf := v.buf } ops = { v with buf := v.buf ++ t } := by
    intro ops
    induction ops with
    | nil => intro _ w; exact ⟨[], fun v => by rw [List.append_nil]; rfl⟩
    | cons op ops ih =>
      intro h w
      obtain ⟨t, ht⟩ := ih (fun o ho => h o (List.mem_cons_of_mem _ ho)) w
      have hop := h op List.mem_cons_self
      have hs : ∃ x, ∀ v : Writer, v.step op = { v with buf := v.buf ++ x } := by
        cases op with
        | flush p ok => cases hop
        | appendF t => exact ⟨_, fun v => rfl⟩
        | appendTextF t => exact ⟨_, fun v => rfl⟩
        | append t => exact ⟨_, fun v => rfl⟩
        | appendText t => exact ⟨_, fun v => rfl⟩
        | lines n => exact ⟨_, fun v => rfl⟩
      obtain ⟨x, hx⟩ := hs
      refine ⟨x ++ t, fun v => ?_⟩
      show Writer.run (v.step op) ops = _
      rw [hx v]
      have := ht { v with buf := v.buf ++ x }
      dsimp only at this ⊢
      rw [this, List.append_assoc]
  intro w
  obtain ⟨t, ht⟩ := key ops h w
  have e : opsText ops = t := by
    unfold opsText
    have := ht {}
    dsimp only at this
    rw [this]
    rfl
  rw [e]
  exact ht w

/-- One file: its text, then `Flush` with its path. -/
theorem run_file {ops : List WOp} (h : OnlyText ops) (p : Str) (F : List (Str × Str)) (rest : List WOp) :
    Writer.run { buf := [], files := F } (ops ++ [.flush p true] ++ rest) = Writer.run { buf := [], files := F ++ [(p, opsText ops)] } rest := by
  unfold Writer.run
  rw [List.append_assoc, List.foldl_append, List.foldl_append]
  have := run_text h { buf := [], files := F }
  unfold Writer.run at this
  rw [this]
  rfl

end Verif
