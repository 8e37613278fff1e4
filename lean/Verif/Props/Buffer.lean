import Verif.Proof.Buffer
/-!
# C13 – C17: the data buffer
-/
namespace Distclus
open Spec
variable {E : Type}

/-- **C13.** A buffer of size `≤ 0` contains, after any history, the initial data followed by every
stored element in storing order. -/
theorem C13_infinite_keeps_all (data : List E) (size : Int) (hs : size ≤ 0) (ops : List (BufOp E))
    (b : DataBuffer E) (h : (newDataBuffer data size).run ops = some b) :
    b.data = ((BufLog.init data).run ops).stored := by
  have := (BufRep.run ops (BufRep.init data size) h).data
  rw [if_neg (by omega)] at this
  exact this.2

/-- The stored log always starts with the initial data. -/
theorem C13_stored_prefix (data : List E) (ops : List (BufOp E)) :
    data <+: ((BufLog.init data).run ops).stored := by
  have : ∀ (ops : List (BufOp E)) (l : BufLog E), l.stored <+: (l.run ops).stored := by
    intro ops
    induction ops with
    | nil => intro l; exact List.prefix_refl _
    | cons o os ih =>
      intro l
      refine List.IsPrefix.trans ?_ (ih (l.step o))
      cases o with
      | push e r => cases r <;> simp [BufLog.step]
      | applyNext =>
        unfold BufLog.step
        cases l.staged <;> simp
  exact this ops (BufLog.init data)

example : ((newDataBuffer [1, 2] 0).run
    [.push 3 false, .push 4 true, .push 5 false, .applyNext]).map (·.data) =
    some [1, 2, 3, 5, 4] := by decide

/-- **C14.** A buffer of size `n > 0` contains, after any history, exactly the `n` most recently
stored elements (all of them if fewer were stored), up to a rotation.  Its length is
`min n (number of stored elements)`, hence never exceeds `n`. -/
theorem C14_frame_last_n (data : List E) (size : Int) (hs : 0 < size) (ops : List (BufOp E))
    (b : DataBuffer E) (h : (newDataBuffer data size).run ops = some b) :
    let stored := ((BufLog.init data).run ops).stored
    (∃ r, b.data.rotate r = lastN size.toNat stored) ∧
    b.data.length = min size.toNat stored.length := by
  have := (BufRep.run ops (BufRep.init data size) h).data
  rw [if_pos (by omega)] at this
  obtain ⟨p, _, hinv⟩ := this
  refine ⟨⟨p, ?_⟩, hinv.len⟩
  rw [List.rotate_eq_drop_append_take]
  · exact hinv.content
  · rw [hinv.len]
    by_cases hlt : ((BufLog.init data).run ops).stored.length < size.toNat
    · rw [hinv.pos_lt hlt]; omega
    · have := hinv.pos; omega

/-- **C14** (never shrinks). Whatever happens next, the length does not decrease. -/
theorem C14_frame_never_shrinks (data : List E) (size : Int) (hs : 0 < size)
    (ops more : List (BufOp E)) (b b' : DataBuffer E)
    (h : (newDataBuffer data size).run ops = some b) (h' : b.run more = some b') :
    b.data.length ≤ b'.data.length := by
  have hrep := BufRep.run ops (BufRep.init data size) h
  have h1 := hrep.data
  have h2 := (BufRep.run more hrep h').data
  rw [if_pos (by omega)] at h1 h2
  obtain ⟨_, _, i1⟩ := h1
  obtain ⟨_, _, i2⟩ := h2
  have hmono : ∀ (ops : List (BufOp E)) (l : BufLog E),
      l.stored.length ≤ (l.run ops).stored.length := by
    intro ops
    induction ops with
    | nil => intro l; exact Nat.le_refl _
    | cons o os ih =>
      intro l
      refine Nat.le_trans ?_ (ih (l.step o))
      cases o with
      | push e r => cases r <;> simp [BufLog.step]
      | applyNext =>
        unfold BufLog.step
        cases l.staged <;> simp
  have := hmono more ((BufLog.init data).run ops)
  rw [i1.len, i2.len]
  omega

example : ((newDataBuffer [1, 2] 3).run
    [.push 3 false, .push 4 true, .push 5 false, .applyNext]).map (·.data) =
    some [5, 4, 3] := by decide

/-- **C15** (not visible early). A push to a running algorithm leaves `Data()` unchanged. -/
theorem C15_staged_invisible (b b' : DataBuffer E) (e : E) (h : b.push e true = some b') :
    b'.data = b.data := by
  unfold DataBuffer.push at h
  simp only [if_true] at h
  split at h
  · cases h; rfl
  · cases h

/-- **C15** (nothing lost or duplicated). After any history the stored elements followed by the
staged ones contain every initial and pushed element exactly once; the pipe is the list of staged
elements. -/
theorem C15_no_loss (data : List E) (size : Int) (ops : List (BufOp E)) (b : DataBuffer E)
    (h : (newDataBuffer data size).run ops = some b) :
    let l := (BufLog.init data).run ops
    b.pipe = l.staged ∧ (l.stored ++ b.pipe).Perm l.pushed := by
  have hp := (BufRep.run ops (BufRep.init data size) h).pipe
  refine ⟨hp, ?_⟩
  rw [hp]
  have : ∀ (ops : List (BufOp E)) (l : BufLog E), (l.stored ++ l.staged).Perm l.pushed →
      ((l.run ops).stored ++ (l.run ops).staged).Perm (l.run ops).pushed := by
    intro ops
    induction ops with
    | nil => intro l h; exact h
    | cons o os ih =>
      intro l h
      refine ih (l.step o) ?_
      cases o with
      | push e r =>
        cases r with
        | true =>
          simp only [BufLog.step, ← List.append_assoc]
          exact h.append_right [e]
        | false =>
          simp only [BufLog.step, List.append_assoc]
          refine List.Perm.trans ?_ (h.append_right [e])
          rw [List.append_assoc]
          exact List.Perm.append_left _ List.perm_append_comm
      | applyNext =>
        unfold BufLog.step
        cases hs : l.staged with
        | nil => simpa [hs] using h
        | cons e r => simpa [hs] using h
  exact this ops (BufLog.init data) (by simp [BufLog.init])

/-- **C15** (Apply). From any reachable buffer `Apply` stores all the staged elements, each once and
in push order (the buffer is then the one that stored them directly), and leaves nothing staged. -/
theorem C15_apply (data : List E) (size : Int) (ops : List (BufOp E)) (b : DataBuffer E)
    (h : (newDataBuffer data size).run ops = some b) :
    b.apply.pipe = [] ∧ b.apply.data = (b.pipe.foldl DataBuffer.store b).data ∧
    (size ≤ 0 → b.apply.data = b.data ++ b.pipe) ∧
    (0 < size → ∃ r, b.apply.data.rotate r =
      lastN size.toNat (((BufLog.init data).run ops).stored ++ b.pipe)) := by
  have hrep := BufRep.run ops (BufRep.init data size) h
  have ha := applyLoop_rep b.pipe.length hrep rfl
  have hfold : ∀ (n : Nat) (b : DataBuffer E), b.pipe.length = n →
      (DataBuffer.applyLoop n b).data = (b.pipe.foldl DataBuffer.store b).data := by
    have hst : ∀ (b1 b2 : DataBuffer E), b1.data = b2.data → b1.strategy = b2.strategy →
        ∀ (l : List E), (l.foldl DataBuffer.store b1).data = (l.foldl DataBuffer.store b2).data := by
      intro b1 b2 h1 h2 l
      induction l generalizing b1 b2 with
      | nil => exact h1
      | cons e l ih =>
        simp only [List.foldl_cons]
        apply ih <;> simp only [DataBuffer.store, h1, h2]
    intro n
    induction n with
    | zero => intro b hb; rw [List.length_eq_zero_iff.1 hb]; rfl
    | succ n ih =>
      intro b hb
      cases hp : b.pipe with
      | nil => rw [hp] at hb; simp at hb
      | cons e r =>
        have hn : b.applyNext = ({ b with pipe := r }.store e, true) := by
          unfold DataBuffer.applyNext; rw [hp]
        unfold DataBuffer.applyLoop
        rw [hn]
        simp only
        rw [ih _ (by rw [hp] at hb; simpa [DataBuffer.store] using hb)]
        simp only [List.foldl_cons]
        have : ({ b with pipe := r }.store e).pipe = r := rfl
        rw [this]
        exact hst (DataBuffer.store { b with pipe := r } e) (b.store e) rfl rfl r
  refine ⟨ha.pipe, hfold _ b rfl, ?_, ?_⟩
  · intro hs
    have h1 := ha.data
    have h2 := hrep.data
    rw [if_neg (by omega)] at h1 h2
    rw [DataBuffer.apply, h1.2, h2.2, hrep.pipe]
  · intro hs
    have h1 := ha.data
    rw [if_pos (by omega)] at h1
    obtain ⟨p, _, hinv⟩ := h1
    refine ⟨p, ?_⟩
    rw [hrep.pipe, List.rotate_eq_drop_append_take]
    · exact hinv.content
    · have hl := hinv.len
      rw [DataBuffer.apply, hl]
      by_cases hlt : (((BufLog.init data).run ops).stored ++
          ((BufLog.init data).run ops).staged).length < size.toNat
      · rw [hinv.pos_lt hlt]; simp only; omega
      · have := hinv.pos; simp only; omega

example : (newDataBuffer [1, 2] 3).push 4 true =
    some { pipe := [4], data := [1, 2], strategy := .fixed 3 2 } := by decide

/-- **C16.** A push to a running algorithm blocks iff 2000 elements are staged, other pushes never
block. -/
theorem C16_push_blocks_iff (b : DataBuffer E) (e : E) (hcap : b.pipe.length ≤ pipeSize) :
    (b.push e true = none ↔ b.pipe.length = 2000) ∧ b.push e false ≠ none := by
  unfold DataBuffer.push pipeSize at *
  constructor
  · simp only [if_true]
    split
    · simp; omega
    · simp; omega
  · simp

/-- The pipe never holds more than 2000 elements. -/
theorem C16_pipe_bounded (data : List E) (size : Int) (ops : List (BufOp E)) (b : DataBuffer E)
    (h : (newDataBuffer data size).run ops = some b) : b.pipe.length ≤ pipeSize := by
  have : ∀ (ops : List (BufOp E)) (b0 b : DataBuffer E), b0.pipe.length ≤ pipeSize →
      b0.run ops = some b → b.pipe.length ≤ pipeSize := by
    intro ops
    induction ops with
    | nil => intro b0 b h0 h; cases h; exact h0
    | cons o os ih =>
      intro b0 b h0 h
      unfold DataBuffer.run at h
      split at h
      · cases h
      · rename_i b1 hb1
        refine ih b1 b ?_ h
        cases o with
        | push e r =>
          cases r with
          | true =>
            simp only [DataBuffer.step, DataBuffer.push, if_true] at hb1
            split at hb1
            · cases hb1; simp; omega
            · cases hb1
          | false =>
            simp only [DataBuffer.step, DataBuffer.push, Bool.false_eq_true, if_false,
              Option.some.injEq] at hb1
            subst hb1
            exact h0
        | applyNext =>
          simp only [DataBuffer.step, Option.some.injEq] at hb1
          subst hb1
          unfold DataBuffer.applyNext
          split
          · rename_i e r he
            simp only [DataBuffer.store]
            rw [he] at h0; simp at h0; omega
          · exact h0
  refine this ops _ b ?_ h
  unfold newDataBuffer
  split
  · simp
  · split <;> simp

/-- **C16** (consequence). Without any `Apply`, a sequence of pushes to a running algorithm goes
through iff no more than 2000 elements end up staged: starting with nothing staged the first 2000
are accepted and the 2001st caller blocks. -/
theorem C16_batch_accepted_iff (b : DataBuffer E) (es : List E)
    (hcap : b.pipe.length ≤ pipeSize) :
    (b.run (es.map fun e => .push e true)).isSome ↔ b.pipe.length + es.length ≤ 2000 := by
  induction es generalizing b with
  | nil => simp [DataBuffer.run]; exact hcap
  | cons e es ih =>
    simp only [List.map_cons, DataBuffer.run, DataBuffer.step, DataBuffer.push, if_true]
    by_cases hlt : b.pipe.length < pipeSize
    · simp only [hlt, if_true]
      rw [ih _ (by simp; omega)]
      simp; omega
    · simp only [hlt, if_false]
      unfold pipeSize at hlt
      simp; omega

/-- Every direct push of the history happens while nothing is staged. -/
def DirectWhenEmpty : BufLog E → List (BufOp E) → Prop
  | _, [] => True
  | l, o :: os => (match o with | .push _ false => l.staged = [] | _ => True) ∧
      DirectWhenEmpty (l.step o) os

/-- Full claim of **C17**: the frame holds the most recently *pushed* elements once everything is
applied. -/
def RecencyClaim (E : Type) : Prop :=
  ∀ (data : List E) (size : Int) (ops : List (BufOp E)) (b : DataBuffer E), 0 < size →
    (newDataBuffer data size).run ops = some b → b.pipe = [] →
    ∃ r, b.data.rotate r = lastN size.toNat ((BufLog.init data).run ops).pushed

/-- **C17** (the claim is false): an element staged before a stop is stored after an element pushed
later, so a frame of size 1 ends up with the older one. -/
theorem C17_recency_false : ¬ RecencyClaim Nat := by
  intro h
  obtain ⟨r, hr⟩ := h [0] 1 [.push 1 true, .push 2 false, .applyNext]
    { pipe := [], data := [1], strategy := .fixed 1 1 } (by decide) (by decide) rfl
  have h1 : lastN (Int.toNat 1)
    ((BufLog.init [0]).run [.push 1 true, .push 2 false, .applyNext]).pushed = [2] := by decide
  rw [h1] at hr
  have := List.mem_rotate (l := [1]) (a := 2) (n := r)
  rw [hr] at this
  simp at this

/-- **C17** (what holds). If direct pushes only happen while nothing is staged, the frame holds the
most recently pushed elements as soon as everything is applied. -/
theorem C17_recency_partial (data : List E) (size : Int) (hs : 0 < size) (ops : List (BufOp E))
    (b : DataBuffer E) (h : (newDataBuffer data size).run ops = some b) (hp : b.pipe = [])
    (hd : DirectWhenEmpty (BufLog.init data) ops) :
    ∃ r, b.data.rotate r = lastN size.toNat ((BufLog.init data).run ops).pushed := by
  have key : ∀ (ops : List (BufOp E)) (l : BufLog E), l.stored ++ l.staged = l.pushed →
      DirectWhenEmpty l ops → (l.run ops).stored ++ (l.run ops).staged = (l.run ops).pushed := by
    intro ops
    induction ops with
    | nil => intro l h _; exact h
    | cons o os ih =>
      intro l h hd
      refine ih (l.step o) ?_ hd.2
      cases o with
      | push e r =>
        cases r with
        | true => simp only [BufLog.step, ← List.append_assoc, h]
        | false =>
          have := hd.1
          simp only at this
          simp only [BufLog.step, this, List.append_nil] at h ⊢
          rw [h]
      | applyNext =>
        unfold BufLog.step
        cases hs : l.staged with
        | nil => simpa [hs] using h
        | cons e r => simpa [hs] using h
  have h2 := (BufRep.run ops (BufRep.init data size) h).pipe
  rw [hp] at h2
  have h3 := key ops (BufLog.init data) (by simp [BufLog.init]) hd
  rw [← h2, List.append_nil] at h3
  rw [← h3]
  exact (C14_frame_last_n data size hs ops b h).1

/-- Non-vacuity of the partial theorem. -/
example : DirectWhenEmpty (BufLog.init [0])
    [.push 1 false, .push 2 true, .push 3 true, .applyNext, .applyNext, .push 4 false] := by
  simp [DirectWhenEmpty, BufLog.step, BufLog.init]

end Distclus
