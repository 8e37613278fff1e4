import Verif.Spec.CtrlAgain
import Verif.Proof.CtrlPlan
import Verif.Proof.CtrlBuffered
/-!
# Lemmas about what the iterations see
-/
namespace Distclus
open Ctrl Algo Spec
variable {E C : Type}

/-- The elements pushed since the last `Init`, which there is, were pushed when the algorithm was alive. -/
def steadyT : List Tag → Prop
  | [] => False
  | .push a :: ts => a = true ∧ steadyT ts
  | .init :: _ => True
  | .iter :: ts => steadyT ts

/-- Every iteration comes after an `Init`, and the elements pushed in between were pushed when the algorithm was
alive. -/
def orderedT : List Tag → Prop
  | [] => True
  | .push _ :: ts => orderedT ts
  | .init :: ts => orderedT ts
  | .iter :: ts => steadyT ts ∧ orderedT ts

theorem runOn_snoc (step : List E → C → Option C) (d : List E) : ∀ (ds : List (List E)) (c : C),
    runOn step (ds ++ [d]) c = (runOn step ds c).bind (step d) := by
  intro ds
  induction ds with
  | nil => intro c; simp only [List.nil_append, runOn, Option.bind_some]; cases step d c <;> rfl
  | cons x ds ih =>
    intro c
    simp only [List.cons_append, runOn]
    cases step x c with
    | none => rfl
    | some c' => exact ih c'

theorem seen_le : ∀ ts, seen ts ≤ total ts := by
  intro ts
  induction ts with
  | nil => exact le_refl _
  | cons t ts ih => cases t <;> simp only [seen, total] <;> omega

theorem views_le : ∀ ts, ∀ m ∈ views ts, m ≤ seen ts := by
  intro ts
  induction ts with
  | nil => intro m h; cases h
  | cons t ts ih =>
    cases t with
    | push a => exact ih
    | init => intro m h; cases h
    | iter =>
      intro m h
      simp only [views, List.mem_append, List.mem_singleton] at h
      simp only [seen]
      have := seen_le ts
      rcases h with h | h
      · exact (ih m h).trans this
      · omega

theorem atInit_le : ∀ ts, atInit ts ≤ seen ts := by
  intro ts
  induction ts with
  | nil => exact le_refl _
  | cons t ts ih =>
    cases t with
    | push a => exact ih
    | init => exact le_refl _
    | iter => exact ih.trans (seen_le ts)

theorem steadyT.mem : ∀ {ts : List Tag}, steadyT ts → Tag.init ∈ ts := by
  intro ts
  induction ts with
  | nil => intro h; exact h.elim
  | cons t ts ih =>
    intro h
    cases t with
    | push a => exact List.mem_cons_of_mem _ (ih h.2)
    | init => exact List.mem_cons_self
    | iter => exact List.mem_cons_of_mem _ (ih h)

theorem steadyT.replicate {ts : List Tag} (h : steadyT ts) : ∀ n, steadyT (List.replicate n .iter ++ ts) := by
  intro n
  induction n with
  | zero => exact h
  | succ n ih => exact ih

theorem orderedT.replicate {ts : List Tag} (h : orderedT ts) (h' : steadyT ts) :
    ∀ n, orderedT (List.replicate n .iter ++ ts) := by
  intro n
  induction n with
  | zero => exact h
  | succ n ih => exact ⟨h'.replicate n, ih⟩

/-! ## Plans are ordered -/

theorem plan_ordered {conf : Conf} : ∀ {l : List (Op × Res C)} {v : ClustStatus}, followsL l = some v →
    orderedT (plan conf l).tags ∧
    ((v = .ready ∨ v = .running ∨ v = .idle) → steadyT (plan conf l).tags) ∧
    (v = .created ∨ v = .ready ∨ v = .running ∨ v = .idle ∨ v = .finished) := by
  intro l
  induction l with
  | nil => intro v h; cases h; exact ⟨trivial, fun h => by simp at h, .inl rfl⟩
  | cons x l ih =>
    obtain ⟨op, r⟩ := x
    intro v h
    cases hl : followsL l with
    | none => simp only [followsL, hl] at h; cases h
    | some w =>
      obtain ⟨i1, i2, i3⟩ := ih hl
      simp only [followsL, hl] at h
      split at h
      swap
      · cases h
      cases h
      have push : ∀ v', orderedT ((plan conf l).push v').tags := fun v' => i1
      cases op
      case push =>
        have e : afterL w .push = w := by
          rcases i3 with rfl | rfl | rfl | rfl | rfl <;> rfl
        rw [e]
        simp only [plan, hl]
        split
        · refine ⟨i1, fun hv => ⟨?_, i2 hv⟩, i3⟩
          rcases hv with rfl | rfl | rfl <;> rfl
        · exact ⟨i1, i2, i3⟩
      case init =>
        rcases i3 with rfl | rfl | rfl | rfl | rfl <;> simp only [plan, hl] <;>
          first
          | exact ⟨i1, fun _ => trivial, by simp [afterL, after, answer, refusal]⟩
          | exact ⟨i1, fun _ => i2 (by simp), by simp [afterL, after, answer, refusal]⟩
      case play =>
        rcases i3 with rfl | rfl | rfl | rfl | rfl <;> simp only [plan, hl]
        · exact ⟨orderedT.replicate (ts := .init :: (plan conf l).tags) i1 trivial _,
            fun _ => steadyT.replicate (ts := .init :: (plan conf l).tags) trivial _,
            by simp [afterL, after, answer, refusal]⟩
        · exact ⟨orderedT.replicate i1 (i2 (by simp)) _, fun _ => (i2 (by simp)).replicate _,
            by simp [afterL, after, answer, refusal]⟩
        · exact ⟨i1, fun _ => i2 (by simp), by simp [afterL, after, answer, refusal]⟩
        · exact ⟨i1, fun _ => i2 (by simp), by simp [afterL, after, answer, refusal]⟩
        · exact ⟨orderedT.replicate (ts := .init :: (plan conf l).tags) i1 trivial _,
            fun _ => steadyT.replicate (ts := .init :: (plan conf l).tags) trivial _,
            by simp [afterL, after, answer, refusal]⟩
      all_goals
        simp only [plan]
        refine ⟨i1, fun hv => i2 ?_, ?_⟩
        · rcases i3 with rfl | rfl | rfl | rfl | rfl <;>
            simp [afterL, after, answer, refusal] at hv ⊢
        · rcases i3 with rfl | rfl | rfl | rfl | rfl <;> simp [afterL, after, answer, refusal]

/-! ## The buffer -/

section
variable {ini : List E → C → Prop} {step : List E → C → Option C}

/-- What the buffer holds, and what the centroids are. -/
structure ViewInv (ini : List E → C → Prop) (step : List E → C → Option C) (size : Int) (data : List E)
    (l : List (Event C)) (st : Notes E) (cur : Option C) : Prop where
  len : st.pushed.length = total (tags l)
  pipe : steadyT (tags l) → st.buf.pipe.length + seen (tags l) = total (tags l)
  run : Tag.init ∈ tags l → ∃ D c0, WindowOf size data st.pushed D ∧ ini (D (atInit (tags l))) c0 ∧
    cur = runOn step ((views (tags l)).map D) c0 ∧ (steadyT (tags l) → D (seen (tags l)) = st.buf.data)

theorem Spec.WindowOf.push {size : Int} {data pushed : List E} {D : Nat → List E} (h : WindowOf size data pushed D) (e : E) :
    ∃ D', WindowOf size data (pushed ++ [e]) D' ∧ ∀ m, m ≤ pushed.length → D' m = D m := by
  refine ⟨fun m => if m ≤ pushed.length then D m else window size (data ++ (pushed ++ [e]).take m), ?_,
    fun m hm => if_pos hm⟩
  intro m hm
  by_cases h' : m ≤ pushed.length
  · obtain ⟨S, h1, h2⟩ := h m h'
    refine ⟨S, ?_, by simp only [if_pos h']; exact h2⟩
    rw [List.take_append_of_le_length h']; exact h1
  · exact ⟨_, List.Perm.refl _, by simp only [if_neg h']; exact List.Perm.refl _⟩

theorem Spec.WindowOf.at {size : Int} {data pushed : List E} {D : Nat → List E} (h : WindowOf size data pushed D) (d : List E)
    (hd : ∃ S : List E, S.Perm (data ++ pushed) ∧ d.Perm (window size S)) :
    WindowOf size data pushed fun m => if m = pushed.length then d else D m := by
  intro m hm
  by_cases h' : m = pushed.length
  · obtain ⟨S, h1, h2⟩ := hd
    exact ⟨S, by rw [h', List.take_length]; exact h1, by simp only [if_pos h']; exact h2⟩
  · simp only [if_neg h']; exact h m hm

theorem HoldInv.applied {size : Int} {data : List E} {st : Notes E} (h : HoldInv size data st) :
    ∃ S : List E, S.Perm (data ++ st.pushed) ∧ st.buf.apply.data.Perm (window size S) := by
  obtain ⟨S, p, h1, h2⟩ := h.buf
  exact ⟨_, h2, (applyLoop_rep st.buf.pipe.length h1 rfl).window⟩

theorem Buffered.views {size : Int} {data : List E} : ∀ {l : List (Event C)} {st : Notes E} {d : Desk C},
    Buffered ini step (newDataBuffer data size) l st → Serial l d → orderedT (tags l) →
    (∀ c e, .initRet c e ∈ l → e = none) →
    ViewInv ini step size data l st d.cur ∧ ∀ r, d.busy = some r → given r l = some d.cur := by
  intro l
  induction l with
  | nil =>
    intro st d h1 h2 _ _
    cases h1; cases h2
    exact ⟨⟨rfl, fun h => h.elim, fun h => by cases h⟩, fun r h => by cases h⟩
  | cons e l ih =>
    intro st' d' h1 h2 hO he
    have hH' : HoldInv size data st' := Buffered.hold h1
    obtain ⟨st, h1, hn⟩ := h1
    obtain ⟨d, h2, hd⟩ := h2
    have he' := fun c e hm => he c e (List.mem_cons_of_mem _ hm)
    have hO' : orderedT (tags l) := by cases e <;> first | exact hO | exact hO.2
    obtain ⟨hV, hG⟩ := ih h1 h2 hO' he'
    have hH : HoldInv size data st := Buffered.hold h1
    cases e
    case implPushed =>
      cases hd
      obtain ⟨x, b, hb, rfl⟩ := hn
      refine ⟨⟨by simp [tags, total, hV.len], ?_, ?_⟩, hG⟩
      · intro hs
        obtain ⟨ha, hs⟩ := hs
        rw [ha] at hb
        have h3 := hV.pipe hs
        unfold DataBuffer.push at hb
        rw [if_pos rfl] at hb
        split at hb
        · cases hb; simp [tags, seen, total]; omega
        · cases hb
      · intro hi
        simp only [tags, List.mem_cons, reduceCtorEq, false_or] at hi
        obtain ⟨D, c0, k1, k2, k3, k4⟩ := hV.run hi
        obtain ⟨D', q1, q2⟩ := k1.push x
        have hle := seen_le (tags l)
        rw [← hV.len] at hle
        refine ⟨D', c0, q1, ?_, ?_, ?_⟩
        · simp only [tags, atInit]
          rw [q2 _ ((atInit_le _).trans hle)]; exact k2
        · simp only [tags, Spec.views]
          rw [k3]
          congr 1
          refine List.map_congr_left fun m hm => (q2 m ((views_le _ m hm).trans hle)).symm
        · rintro ⟨ha, hs⟩
          simp only [tags, seen]
          rw [q2 _ hle, k4 hs]
          rw [ha] at hb
          unfold DataBuffer.push at hb
          rw [if_pos rfl] at hb
          split at hb
          · cases hb; rfl
          · cases hb
    case initRet c e =>
      obtain ⟨_, rfl⟩ := hd
      obtain ⟨hn, rfl⟩ := hn
      obtain ⟨c0, rfl, hi⟩ := hn (he _ _ List.mem_cons_self)
      refine ⟨⟨hV.len, fun _ => ?_, fun _ => ?_⟩, fun r h => by cases h⟩
      · simp only [tags, seen, total, DataBuffer.apply_pipe_nil, List.length_nil, Nat.zero_add]
      · have hk : WindowOf size data st.pushed fun m => window size (data ++ st.pushed.take m) :=
          fun m _ => ⟨_, List.Perm.refl _, List.Perm.refl _⟩
        refine ⟨_, c0, hk.at _ hH.applied, ?_, rfl, fun _ => ?_⟩
        · simp only [tags, atInit, hV.len, if_true]; exact hi
        · simp only [tags, seen, hV.len, if_true]
    case iterCall r s' c =>
      obtain ⟨_, rfl, rfl⟩ := hd
      cases hn
      exact ⟨⟨hV.len, hV.pipe, hV.run⟩, fun r h => by cases h; simp [given]⟩
    case iterOk r c =>
      obtain ⟨hb, rfl⟩ := hd
      obtain ⟨⟨c0, k0, k1⟩, rfl⟩ := hn
      have hs : steadyT (tags l) := hO.1
      have hcur := hG r hb
      rw [k0, Option.some.injEq] at hcur
      refine ⟨⟨hV.len, fun _ => ?_, fun _ => ?_⟩, fun r h => by cases h⟩
      · simp only [tags, seen, total, DataBuffer.apply_pipe_nil, List.length_nil, Nat.zero_add]
      · obtain ⟨D, c1, q1, q2, q3, q4⟩ := hV.run hs.mem
        have hlen := hV.len
        have hp := hV.pipe hs
        have hmap : ∀ D' : Nat → List E, (∀ m, m ≤ seen (tags l) → D' m = D m) →
            ini (D' (atInit (tags l))) c1 ∧ some c = runOn step ((Spec.views (Tag.iter :: tags l)).map D') c1 := by
          intro D' hD
          refine ⟨by rw [hD _ (atInit_le _)]; exact q2, ?_⟩
          simp only [Spec.views, List.map_append, List.map_singleton, runOn_snoc]
          rw [List.map_congr_left fun m hm => hD m (views_le _ m hm), ← q3, ← hcur, Option.bind_some,
            hD _ (le_refl _), q4 hs, k1]
        by_cases hst : seen (tags l) = total (tags l)
        · have hnil : st.buf.pipe = [] := List.length_eq_zero_iff.1 (by omega)
          obtain ⟨m1, m2⟩ := hmap D fun _ _ => rfl
          refine ⟨D, c1, q1, m1, m2, fun _ => ?_⟩
          simp only [tags, seen]
          rw [DataBuffer.apply_of_nil hnil, ← hst, q4 hs]
        · have hle := seen_le (tags l)
          obtain ⟨m1, m2⟩ := hmap (fun m => if m = st.pushed.length then st.buf.apply.data else D m)
            fun m hm => if_neg (by omega)
          refine ⟨_, c1, q1.at _ hH.applied, m1, m2, fun _ => ?_⟩
          simp only [tags, seen, hlen, if_true]
    case iterNil => obtain ⟨_, rfl⟩ := hd; cases hn; exact ⟨⟨hV.len, hV.pipe, hV.run⟩, fun r h => by cases h⟩
    case iterErr => obtain ⟨_, rfl⟩ := hd; cases hn; exact ⟨⟨hV.len, hV.pipe, hV.run⟩, fun r h => by cases h⟩
    case iterPanic => obtain ⟨_, rfl⟩ := hd; cases hn; exact ⟨⟨hV.len, hV.pipe, hV.run⟩, fun r h => by cases h⟩
    all_goals
      cases hd
      cases hn
      exact ⟨⟨hV.len, hV.pipe, hV.run⟩, hG⟩
end

end Distclus
