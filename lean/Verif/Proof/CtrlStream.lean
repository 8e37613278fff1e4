import Verif.Spec.CtrlStream
import Verif.Spec.CtrlRun
import Verif.Props.Streaming
/-!
# The record of a streaming algorithm is that of a sequence of calls
-/
set_option linter.unusedSectionVars false

namespace Distclus
open Ctrl Spec

section
variable {E F R : Type} [Zero F] [One F] [Neg F] [LT F] [DecidableLT F] [BEq F] [Div F]
  {space : Space E F} {i0 : StreamImpl E F R}

theorem srun_append : ∀ (a : List (StreamOp E F)) {b : List (StreamOp E F)} {i m j : StreamImpl E F R} {rs rs'},
    i.run space a = some (m, rs) → m.run space b = some (j, rs') →
    i.run space (a ++ b) = some (j, rs ++ rs') ∧ accepted (a ++ b) (rs ++ rs') = accepted a rs ++ accepted b rs' ∧
      clusterings (rs ++ rs') = clusterings rs ++ clusterings rs' ∧ rs.length = a.length := by
  intro a
  induction a with
  | nil => intro b i m j rs rs' h1 h2; cases h1; exact ⟨h2, rfl, rfl, rfl⟩
  | cons op a ih =>
    intro b i m j rs rs' h1 h2
    obtain ⟨i1, r, rs1, k1, k2, k3⟩ := run_cons h1
    subst k3
    obtain ⟨e1, e2, e3, e4⟩ := ih k2 h2
    refine ⟨?_, ?_, ?_, by simp [e4]⟩
    · rw [List.cons_append, StreamImpl.run, k1]
      dsimp only
      rw [e1]
      rfl
    · rw [List.cons_append, List.cons_append]
      cases op with
      | push e =>
        cases r with
        | push b => cases b <;> simp [accepted, e2]
        | init c => simp [accepted, e2]
        | iterate c m => simp [accepted, e2]
      | init => simp [accepted, e2]
      | iterate t => simp [accepted, e2]
    · rw [List.cons_append]
      cases r with
      | push b => exact e3
      | init c => cases c <;> simp [clusterings, e3]
      | iterate c m => cases c <;> simp [clusterings, e3]

/-- Pushes which succeed. -/
theorem srun_pushes : ∀ (es : List E) (i : StreamImpl E F R), ((i.c.length + es.length : Nat) : Int) ≤ i.conf.bufferSize →
    i.run space (es.map StreamOp.push) = some ({ i with c := i.c ++ es }, es.map fun _ => StreamRes.push false) ∧
      accepted (es.map StreamOp.push : List (StreamOp E F)) (es.map fun _ => (StreamRes.push false : StreamRes E F)) = es ∧
      clusterings (es.map fun _ => (StreamRes.push false : StreamRes E F)) = [] := by
  intro es
  induction es with
  | nil => intro i _; exact ⟨by simp [StreamImpl.run], rfl, rfl⟩
  | cons e es ih =>
    intro i h
    rw [List.length_cons] at h
    obtain ⟨h1, h2, h3⟩ := ih { i with c := i.c ++ [e] } (by
      show (((i.c ++ [e]).length + es.length : Nat) : Int) ≤ i.conf.bufferSize
      rw [List.length_append, List.length_singleton]; omega)
    refine ⟨?_, by simp only [List.map_cons, accepted, h2], by simp only [List.map_cons, clusterings, h3]⟩
    rw [List.map_cons, StreamImpl.run]
    have : i.step space (.push e) = some ({ i with c := i.c ++ [e] }, .push false) := by
      simp only [StreamImpl.step, StreamImpl.push]
      rw [if_pos (by omega)]
    rw [this]
    dsimp only
    rw [h1]
    simp

/-- `Process` ignores the channel. -/
theorem process_c (i : StreamImpl E F R) (q : List E) (t : F) (e : E) :
    StreamImpl.process { i with c := q } space t e = (i.process space t e).map fun j => { j with c := q } := by
  have hu : ∀ (i : StreamImpl E F R) d, StreamImpl.updateMaxDistance { i with c := q } d =
      { i.updateMaxDistance d with c := q } := by
    intro i d
    unfold StreamImpl.updateMaxDistance
    by_cases h : i.maxDistance < d
    · rw [if_pos h, if_pos (show ({ i with c := q } : StreamImpl E F R).maxDistance < d from h)]
    · rw [if_neg h, if_neg (show ¬ ({ i with c := q } : StreamImpl E F R).maxDistance < d from h)]
  unfold StreamImpl.process
  dsimp only
  cases ha : assign space i.clust e with
  | none => rfl
  | some r =>
    obtain ⟨o, label, d⟩ := r
    dsimp only
    have hg : StreamImpl.getRelativeDistance { i with c := q } d =
        ({ (i.getRelativeDistance d).1 with c := q }, (i.getRelativeDistance d).2) := by
      unfold StreamImpl.getRelativeDistance
      dsimp only
      cases (i.maxDistance == 0) <;> rfl
    rw [hg]
    generalize i.getRelativeDistance d = G
    obtain ⟨g, rel⟩ := G
    dsimp only
    by_cases c1 : g.conf.outAfter ≤ g.count ∧ g.conf.outRatio < rel
    · rw [if_pos c1, if_pos c1]; rfl
    · rw [if_neg c1, if_neg c1]
      by_cases c2 : t < rel
      · rw [if_pos c2, if_pos c2]
        unfold StreamImpl.addCenter
        have := hu { g with clust := g.clust ++ [e], cards := g.cards ++ [1] } d
        dsimp only at this ⊢
        rw [this]
        rfl
      · rw [if_neg c2, if_neg c2]
        unfold StreamImpl.updateCenter
        dsimp only
        cases idx? g.clust label with
        | none => rfl
        | some center =>
          cases idx? g.cards label with
          | none => rfl
          | some card =>
            have := hu { g with clust := g.clust.set label.toNat (space.combine center card e 1),
                                cards := g.cards.set label.toNat (card + 1) } d
            dsimp only at this ⊢
            rw [this]
            rfl

/-- The notes are those of a sequence of calls. -/
structure Linear (space : Space E F) (i0 : StreamImpl E F R) (out : List (List E)) (st : StreamNotes E F R) : Prop where
  cap : (st.impl.c.length : Int) ≤ st.impl.conf.bufferSize
  ex : ∃ os rs j es, i0.run space os = some (j, rs) ∧ st.pushed = accepted os rs ++ es ∧ clusterings rs = out ∧
    match st.hold with
    | .took (some e) => ∃ q, j.c = e :: q ∧ st.impl = { j with c := q ++ es }
    | _ => es = [] ∧ st.impl = j

theorem Linear.take {out : List (List E)} {st st' : StreamNotes E F R} (h : Linear space i0 out st)
    (ht : st.Take st') : Linear space i0 out st' := by
  obtain ⟨os, rs, j, es, h1, h2, h3, h4⟩ := h.ex
  obtain ⟨hc, ht⟩ := ht
  rw [hc] at h4
  obtain ⟨rfl, h5⟩ := h4
  have hb := h.cap
  rcases ht with ⟨_, rfl⟩ | ⟨e, q, he, rfl⟩
  · exact ⟨hb, os, rs, j, [], h1, h2, h3, rfl, h5⟩
  · refine ⟨?_, os, rs, j, [], h1, h2, h3, q, by rw [← h5, he], by rw [h5, List.append_nil]⟩
    rw [he, List.length_cons] at hb
    dsimp only
    omega

theorem Linear.snoc {os : List (StreamOp E F)} {rs : List (StreamRes E F)} {i j : StreamImpl E F R} {op r}
    (h : i0.run space os = some (i, rs)) (hs : i.step space op = some (j, r)) :
    i0.run space (os ++ [op]) = some (j, rs ++ [r]) ∧
      accepted (os ++ [op]) (rs ++ [r]) = accepted os rs ++ accepted [op] [r] ∧
      clusterings (rs ++ [r]) = clusterings rs ++ clusterings [r] := by
  have h2 : i.run space [op] = some (j, [r]) := by
    rw [StreamImpl.run, hs]; rfl
  obtain ⟨e1, e2, e3, _⟩ := srun_append os h h2
  exact ⟨e1, e2, e3⟩

/-- Whether an element is being processed. -/
def Hold.full : Hold E → Bool
  | .took (some _) => true
  | _ => false

theorem Linear.idle {out : List (List E)} {st : StreamNotes E F R} (h : Linear space i0 out st)
    (hh : Hold.full st.hold = false) :
    ∃ os rs, i0.run space os = some (st.impl, rs) ∧ st.pushed = accepted os rs ∧ clusterings rs = out := by
  obtain ⟨os, rs, j, es, h1, h2, h3, h4⟩ := h.ex
  cases hs : st.hold with
  | idle => rw [hs] at h4; obtain ⟨rfl, rfl⟩ := h4; exact ⟨os, rs, h1, by rw [h2, List.append_nil], h3⟩
  | called => rw [hs] at h4; obtain ⟨rfl, rfl⟩ := h4; exact ⟨os, rs, h1, by rw [h2, List.append_nil], h3⟩
  | took o =>
    cases o with
    | none => rw [hs] at h4; obtain ⟨rfl, rfl⟩ := h4; exact ⟨os, rs, h1, by rw [h2, List.append_nil], h3⟩
    | some e => rw [hs] at hh; cases hh

theorem Linear.of_idle {out : List (List E)} {st : StreamNotes E F R} (hh : Hold.full st.hold = false)
    (hcap : (st.impl.c.length : Int) ≤ st.impl.conf.bufferSize) {os rs}
    (h1 : i0.run space os = some (st.impl, rs)) (h2 : st.pushed = accepted os rs) (h3 : clusterings rs = out) :
    Linear space i0 out st := by
  refine ⟨hcap, os, rs, st.impl, [], h1, by rw [h2, List.append_nil], h3, ?_⟩
  cases hs : st.hold with
  | idle => exact ⟨rfl, rfl⟩
  | called => exact ⟨rfl, rfl⟩
  | took o =>
    cases o with
    | none => exact ⟨rfl, rfl⟩
    | some e => rw [hs] at hh; cases hh

theorem push_ok {i j : StreamImpl E F R} {e : E} (h : i.push e = (j, false)) :
    (i.c.length : Int) < i.conf.bufferSize ∧ j = { i with c := i.c ++ [e] } := by
  unfold StreamImpl.push at h
  split at h
  · rename_i hlt; cases h; exact ⟨hlt, rfl⟩
  · cases h

theorem Linear.event {l : List (Event (List E))} {st st' : StreamNotes E F R} {ev : Event (List E)}
    (h : Linear space i0 (produced l) st) (he : st.Event space ev st')
    (hn : ∀ r x, ev ≠ .iterPanic r x) : Linear space i0 (produced (ev :: l)) st' := by
  have hcap := h.cap
  cases ev
  case implPushed =>
    obtain ⟨e, i, hp, rfl⟩ := he
    obtain ⟨hlt, rfl⟩ := push_ok hp
    have hcap' : (({ st.impl with c := st.impl.c ++ [e] } : StreamImpl E F R).c.length : Int) ≤
        st.impl.conf.bufferSize := by
      dsimp only
      rw [List.length_append, List.length_singleton]; omega
    by_cases hh : Hold.full st.hold = false
    · obtain ⟨os, rs, h1, h2, h3⟩ := h.idle hh
      have hs : st.impl.step space (.push e) = some ({ st.impl with c := st.impl.c ++ [e] }, .push false) := by
        simp only [StreamImpl.step, hp]
      obtain ⟨e1, e2, e3⟩ := Linear.snoc h1 hs
      exact Linear.of_idle hh hcap' e1 (by rw [e2, h2]; rfl) (by rw [e3, h3]; simp [clusterings, produced])
    · obtain ⟨os, rs, j, es, h1, h2, h3, h4⟩ := h.ex
      refine ⟨hcap', os, rs, j, es ++ [e], h1, ?_, h3, ?_⟩
      · dsimp only; rw [h2, List.append_assoc]
      · dsimp only
        cases hs : st.hold with
        | idle => rw [hs] at hh; exact absurd rfl hh
        | called => rw [hs] at hh; exact absurd rfl hh
        | took o =>
          cases o with
          | none => rw [hs] at hh; exact absurd rfl hh
          | some x =>
            rw [hs] at h4
            obtain ⟨q, q1, q2⟩ := h4
            exact ⟨q, q1, by rw [q2, List.append_assoc]⟩
  case initRet c err =>
    obtain ⟨h0, rfl, _, _, rfl⟩ := he
    have hh : Hold.full st.hold = false := by rw [h0]; rfl
    obtain ⟨os, rs, h1, h2, h3⟩ := h.idle hh
    have hs : st.impl.step space .init = some (st.impl.init.1, .init st.impl.init.2) := rfl
    obtain ⟨e1, e2, e3⟩ := Linear.snoc h1 hs
    refine Linear.of_idle hh ?_ e1 (by rw [e2, h2]; simp [accepted]) ?_
    · dsimp only
      unfold StreamImpl.init
      cases hc : st.impl.c with
      | nil => rw [hc] at hcap; dsimp only; rw [hc]; exact hcap
      | cons e q =>
        rw [hc, List.length_cons] at hcap
        simp only [StreamImpl.addCenter, updateMaxDistance_c, updateMaxDistance_conf]
        omega
    · rw [e3, h3]
      cases st.impl.init.2 <;> simp [clusterings, produced]
  case iterCall r s c =>
    obtain ⟨h0, rfl⟩ := he
    obtain ⟨os, rs, h1, h2, h3⟩ := h.idle (by rw [h0]; rfl)
    exact Linear.of_idle rfl hcap h1 h2 h3
  case iterNil r =>
    obtain ⟨h0, rfl⟩ := he
    obtain ⟨os, rs, h1, h2, h3⟩ := h.idle (by rw [h0]; rfl)
    exact Linear.of_idle rfl hcap h1 h2 h3
  case iterErr => exact absurd he id
  case iterPanic r x => exact absurd rfl (hn r x)
  case iterOk r c =>
    obtain ⟨e, t, i, h0, hp, rfl, rfl⟩ := he
    obtain ⟨os, rs, j, es, h1, h2, h3, h4⟩ := h.ex
    rw [h0] at h4
    obtain ⟨q, q1, q2⟩ := h4
    rw [q2, process_c] at hp
    cases hj : j.process space t e with
    | none => rw [hj] at hp; cases hp
    | some k =>
      rw [hj] at hp
      cases hp
      obtain ⟨p1, p2, _⟩ := process_cases space _ _ _ _ hj
      have hs : j.step space (.iterate t) = some ({ k with c := q }, .iterate (some k.clust) k.maxDistance) := by
        simp only [StreamImpl.step, StreamImpl.iterate, q1, process_c, hj, Option.map]
      obtain ⟨e1, e2, e3⟩ := Linear.snoc h1 hs
      have hcj : ((q.length + es.length : Nat) : Int) ≤ j.conf.bufferSize := by
        rw [q2] at hcap
        dsimp only at hcap
        rwa [List.length_append] at hcap
      obtain ⟨f1, f2, f3⟩ := srun_pushes (space := space) es ({ k with c := q } : StreamImpl E F R) (by dsimp only; rw [p2]; exact hcj)
      obtain ⟨g1, g2, g3, _⟩ := srun_append _ e1 f1
      refine Linear.of_idle rfl ?_ g1 ?_ ?_
      · dsimp only
        rw [List.length_append, p2]
        exact hcj
      · dsimp only
        rw [g2, e2, f2, h2]
        simp [accepted]
      · rw [g3, e3, f3, h3]
        simp [clusterings, produced]
  all_goals (cases he; exact h)

/-- What holds besides: the numbers of centres and of cardinalities, and that there is a centre once `Init` has
succeeded. -/
structure StreamInv (l : List (Event (List E))) (st : StreamNotes E F R) : Prop where
  lens : st.impl.cards.length = st.impl.clust.length
  ready : l.any initOk = true → st.impl.clust ≠ []
  busy : (∃ x, st.hold = x ∧ x ≠ .idle) → l.any initOk = true

theorem StreamInv.take {l : List (Event (List E))} {st st' : StreamNotes E F R} (h : StreamInv l st)
    (ht : st.Take st') : StreamInv l st' := by
  obtain ⟨hc, ht⟩ := ht
  have hb := h.busy ⟨_, hc, fun h => nomatch h⟩
  rcases ht with ⟨_, rfl⟩ | ⟨e, q, he, rfl⟩
  · exact ⟨h.lens, h.ready, fun _ => hb⟩
  · exact ⟨h.lens, h.ready, fun _ => hb⟩

theorem StreamInv.event {l : List (Event (List E))} {st st' : StreamNotes E F R} {ev : Event (List E)}
    (h : StreamInv l st) (hi : IterAfterInit (ev :: l)) (he : st.Event space ev st') : StreamInv (ev :: l) st' := by
  cases ev
  case implPushed =>
    obtain ⟨e, i, hp, rfl⟩ := he
    obtain ⟨hlt, rfl⟩ := push_ok hp
    exact ⟨h.lens, h.ready, h.busy⟩
  case initRet c err =>
    obtain ⟨h0, rfl, h1, h2, rfl⟩ := he
    refine ⟨?_, ?_, fun hx => ?_⟩
    · dsimp only
      unfold StreamImpl.init
      cases hc : st.impl.c with
      | nil => exact h.lens
      | cons e q => simp [StreamImpl.addCenter, h.lens]
    · intro ha
      dsimp only
      unfold StreamImpl.init at h1 ⊢
      cases hc : st.impl.c with
      | nil =>
        rw [hc] at h1
        cases err with
        | none => exact absurd rfl (h1.1 rfl)
        | some x =>
          refine h.ready ?_
          cases x <;> first | exact ha | exact absurd rfl h2
      | cons e q => simp [StreamImpl.addCenter]
    · obtain ⟨x, hx1, hx2⟩ := hx
      dsimp only at hx1
      exact absurd (hx1.symm.trans h0) hx2
  case iterCall r s c =>
    obtain ⟨h0, rfl⟩ := he
    exact ⟨h.lens, h.ready, fun _ => hi.1⟩
  case iterNil r =>
    obtain ⟨h0, rfl⟩ := he
    exact ⟨h.lens, h.ready, fun ⟨x, h1, h2⟩ => absurd h1.symm h2⟩
  case iterErr => exact absurd he id
  case iterPanic r x =>
    obtain ⟨e, t, h0, hp, rfl⟩ := he
    exact ⟨h.lens, h.ready, fun ⟨x, h1, h2⟩ => absurd h1.symm h2⟩
  case iterOk r c =>
    obtain ⟨e, t, i, h0, hp, rfl, rfl⟩ := he
    have hb := h.ready (h.busy ⟨_, h0, fun h => nomatch h⟩)
    have hl := h.lens
    obtain ⟨_, _, _, hcs⟩ := process_cases space _ _ _ _ hp
    refine ⟨?_, fun _ => ?_, fun ⟨x, h1, h2⟩ => absurd h1.symm h2⟩
    · rcases hcs with ⟨q1, q2⟩ | ⟨j, center, card, _, _, _, q1, q2⟩
      · simp [q1, q2, hl]
      · simp [q1, q2, hl]
    · rcases hcs with ⟨q1, q2⟩ | ⟨j, center, card, _, _, _, q1, q2⟩
      · simp [q1]
      · dsimp only
        rw [q1]
        intro hnil
        apply hb
        have := congrArg List.length hnil
        rw [List.length_set] at this
        exact List.eq_nil_of_length_eq_zero this
  all_goals (cases he; exact ⟨h.lens, h.ready, h.busy⟩)

theorem iterAfterInit_tail {C : Type} {ev : Event C} {l : List (Event C)} (h : IterAfterInit (ev :: l)) :
    IterAfterInit l := by
  cases ev <;> first | exact h.2 | exact h

theorem Streamed.inv (hneg : (-1 : F) < 0) (hcap : (i0.c.length : Int) ≤ i0.conf.bufferSize)
    (hlen : i0.cards.length = i0.clust.length) :
    ∀ {l : List (Event (List E))} {st : StreamNotes E F R}, IterAfterInit l → Streamed space i0 l st →
      Linear space i0 (produced l) st ∧ StreamInv l st ∧ ∀ r x, .iterPanic r x ∉ l := by
  intro l
  induction l with
  | nil =>
    rintro st _ rfl
    exact ⟨Linear.of_idle rfl hcap (os := []) (rs := []) rfl rfl rfl,
      ⟨hlen, (fun h => nomatch h), fun ⟨x, h1, h2⟩ => absurd h1.symm h2⟩, fun _ _ h => nomatch h⟩
  | cons ev l ih =>
    rintro st' hi ⟨st, st1, h1, h2, h3⟩
    obtain ⟨g1, g2, g3⟩ := ih (iterAfterInit_tail hi) h1
    have k : Linear space i0 (produced l) st1 ∧ StreamInv l st1 := by
      rcases h2 with rfl | h2
      · exact ⟨g1, g2⟩
      · exact ⟨g1.take h2, g2.take h2⟩
    have hn : ∀ r x, ev ≠ .iterPanic r x := by
      rintro r x rfl
      obtain ⟨e, t, h0, hp, rfl⟩ := h3
      obtain ⟨i, hi⟩ := process_total hneg space st1.impl t e (k.2.ready (k.2.busy ⟨_, h0, fun h => nomatch h⟩)) k.2.lens
      rw [hi] at hp
      cases hp
    refine ⟨k.1.event h3 hn, k.2.event hi h3, fun r x hm => ?_⟩
    rcases List.mem_cons.1 hm with hm | hm
    · exact hn r x hm.symm
    · exact g3 r x hm

end
end Distclus
