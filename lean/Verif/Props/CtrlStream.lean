import Verif.Proof.CtrlStream
import Verif.Props.CtrlSerial
import Verif.Props.CtrlRun
import Verif.Props.CtrlCount
import Verif.Props.CtrlSource
import Verif.Props.CtrlKMeans
/-!
# C110, C111: what a client observes of the streaming algorithm

C110: every clustering shown accounts for the first elements given or pushed, one more for each result.
C111: an iteration without data is not counted: `Batch` returns only if the limit on the iterations is smaller
than the number of elements.
-/
set_option linter.unusedSectionVars false

namespace Distclus
open Ctrl Algo Spec

section
variable {E F R : Type} [Zero F] [One F] [Neg F] [LT F] [DecidableLT F] [BEq F] [Div F]
  {space : Space E F} {i0 : StreamImpl E F R} {conf : Conf} {s : Algo (List E)} {cf : StreamingConf F R}
  {data : List E}

theorem consumptions_eq : ∀ (rs : List (StreamRes E F)), consumptions rs = (clusterings rs).length := by
  intro rs
  induction rs with
  | nil => rfl
  | cons r rs ih =>
    cases r with
    | push b => exact ih
    | init c => cases c <;> simp [consumptions, clusterings, ih]
    | iterate c m => cases c <;> simp [consumptions, clusterings, ih]

theorem streamed_past : ∀ {l1 l2 : List (Event (List E))} {st : StreamNotes E F R}, Streamed space i0 (l1 ++ l2) st →
    ∃ st0, Streamed space i0 l2 st0 ∧ st0.pushed <+: st.pushed := by
  intro l1
  induction l1 with
  | nil => intro l2 st h; exact ⟨st, h, List.prefix_refl _⟩
  | cons ev l1 ih =>
    rintro l2 st' ⟨st, st1, h1, h2, h3⟩
    obtain ⟨st0, k1, k2⟩ := ih h1
    refine ⟨st0, k1, k2.trans ?_⟩
    have e1 : st1.pushed = st.pushed := by
      rcases h2 with rfl | ⟨_, ⟨_, rfl⟩ | ⟨_, _, _, rfl⟩⟩ <;> rfl
    rw [← e1]
    cases ev
    case implPushed => obtain ⟨e, i, _, rfl⟩ := h3; exact List.prefix_append _ _
    case initRet => obtain ⟨_, _, _, _, rfl⟩ := h3; exact List.prefix_refl _
    case iterCall => obtain ⟨_, rfl⟩ := h3; exact List.prefix_refl _
    case iterNil => obtain ⟨_, rfl⟩ := h3; exact List.prefix_refl _
    case iterOk => obtain ⟨_, _, _, _, _, _, rfl⟩ := h3; exact List.prefix_refl _
    case iterErr => exact absurd h3 id
    case iterPanic => obtain ⟨_, _, _, _, rfl⟩ := h3; exact List.prefix_refl _
    all_goals (cases h3; exact List.prefix_refl _)

theorem after_init_past {C : Type} : ∀ {l1 l2 : List (Event C)}, IterAfterInit (l1 ++ l2) → IterAfterInit l2 := by
  intro l1
  induction l1 with
  | nil => intro l2 h; exact h
  | cons e l1 ih => intro l2 h; exact ih (iterAfterInit_tail h)

theorem take_prefix {A : Type} {a b : List A} (h : a <+: b) {n : Nat} (hn : n ≤ a.length) : b.take n = a.take n := by
  obtain ⟨c, rfl⟩ := h
  exact List.take_append_of_le_length hn

theorem new_linear (h0 : StreamImpl.new cf data = some i0) :
    (i0.c.length : Int) ≤ i0.conf.bufferSize ∧ i0.cards.length = i0.clust.length := by
  unfold StreamImpl.new at h0
  split at h0
  · cases h0
  · cases h0; exact ⟨by dsimp only; omega, rfl⟩

/-- **C110 (no panic).** Whatever the clients do, as long as they use the implementation one at a time, no
iteration of the streaming algorithm panics. -/
theorem C110_no_panic (hneg : (-1 : F) < 0) (h0 : StreamImpl.new cf data = some i0) (h : Reachable conf s)
    {st : StreamNotes E F R} (hS : Streamed space i0 s.log st) (r : Nat) (x : Err) : .iterPanic r x ∉ s.log :=
  (Streamed.inv hneg (new_linear h0).1 (new_linear h0).2 (C57_after_init h) hS).2.2 r x

/-- **C110 (iterations).** The result of an `Iterate`, if `n` results came before, accounts for the first `n + 1`
elements given to `NewAlgo` or accepted by `Push`, in order: each is in one cluster, every cluster has some, and
its centre is the running combination of them. -/
theorem C110_iterate (hneg : (-1 : F) < 0) (hcopy : ∀ a, space.copy a = a)
    (h0 : StreamImpl.new cf data = some i0) (h : Reachable conf s) {st : StreamNotes E F R}
    (hS : Streamed space i0 s.log st) {r : Nat} {c : List E} {l1 l2 : List (Event (List E))}
    (hl : s.log = l1 ++ .iterOk r c :: l2) :
    (produced l2).length < (data ++ st.pushed).length ∧ ∃ labels cards,
      Accounts space ((data ++ st.pushed).take ((produced l2).length + 1)) labels c cards := by
  have hA := C57_after_init h
  rw [hl] at hS hA
  obtain ⟨st0, k1, k2⟩ := streamed_past hS
  have hA := after_init_past hA
  obtain ⟨g1, _, _⟩ := Streamed.inv hneg (new_linear h0).1 (new_linear h0).2 hA k1
  obtain ⟨stb, st1, _, _, hev⟩ := k1
  obtain ⟨e, t, i, _, _, rfl, rfl⟩ := hev
  obtain ⟨os, rs, m1, m2, m3⟩ := g1.idle rfl
  obtain ⟨n1, n2, labels, n3⟩ := C35_stream hcopy cf data i0 _ h0 os rs m1
  rw [consumptions_eq, m3] at n1 n3
  have hlen : (produced (.iterOk r i.clust :: l2)).length = (produced l2).length + 1 := by
    simp [produced]
  rw [hlen, ← m2] at n1 n3
  have hpre : data ++ st1.pushed <+: data ++ st.pushed := (List.prefix_append_right_inj data).2 k2
  refine ⟨by have := hpre.length_le; dsimp only at n1 this ⊢; omega, labels, i.cards, ?_⟩
  rw [take_prefix hpre n1]
  exact n3

/-- **C110 (initialisation).** The result of an `Init` is the next element alone. -/
theorem C110_init (hneg : (-1 : F) < 0) (hcopy : ∀ a, space.copy a = a)
    (h0 : StreamImpl.new cf data = some i0) (h : Reachable conf s) {st : StreamNotes E F R}
    (hS : Streamed space i0 s.log st) {e : Option Err} {c : List E} {l1 l2 : List (Event (List E))}
    (hl : s.log = l1 ++ .initRet (some c) e :: l2) :
    ∃ x, (data ++ st.pushed)[(produced l2).length]? = some x ∧ c = [x] := by
  have hA := C57_after_init h
  rw [hl] at hS hA
  obtain ⟨st0, k1, k2⟩ := streamed_past hS
  have hA := after_init_past hA
  obtain ⟨stb, st1, p1, p2, hev⟩ := k1
  obtain ⟨hid, hc, _, _, rfl⟩ := hev
  obtain ⟨g1, _, _⟩ := Streamed.inv hneg (new_linear h0).1 (new_linear h0).2 (iterAfterInit_tail hA) p1
  have g2 : Linear space i0 (produced l2) st1 := by
    rcases p2 with rfl | p2
    · exact g1
    · exact g1.take p2
  obtain ⟨os, rs, m1, m2, m3⟩ := g2.idle (by rw [hid]; rfl)
  obtain ⟨n1, n2, _⟩ := C35_stream hcopy cf data i0 _ h0 os rs m1
  rw [consumptions_eq, m3, ← m2] at n1 n2
  have hpre : data ++ st1.pushed <+: data ++ st.pushed := (List.prefix_append_right_inj data).2 k2
  unfold StreamImpl.init at hc
  cases hq : st1.impl.c with
  | nil => rw [hq] at hc; cases hc
  | cons x q =>
    rw [hq] at hc n2
    cases hc
    refine ⟨x, ?_, rfl⟩
    obtain ⟨z, hz⟩ := hpre
    have hlt : (produced l2).length < (data ++ st1.pushed).length := by
      by_contra hge
      rw [List.drop_eq_nil_of_le (by omega)] at n2
      cases n2
    rw [← hz, List.getElem?_append_left hlt]
    have := congrArg (fun l => l[0]?) n2
    simpa using this.symm

/-- **C110 (observed).** With any clients which use the implementation one at a time: every clustering returned by
`Centroids()` is the next element alone after `n` results, by `Init`, or accounts for the first `n + 1` elements,
by `Iterate`. -/
theorem C110_centroids (hneg : (-1 : F) < 0) (hcopy : ∀ a, space.copy a = a)
    (h0 : StreamImpl.new cf data = some i0) (h : Reachable conf s) {st : StreamNotes E F R}
    (hS : Streamed space i0 s.log st) {t : Nat} {c : List E} {l1 l2 : List (Event (List E))}
    (hl : s.log = l1 ++ .ret t (.centroids (some c)) :: l2) :
    ∃ n, n < (data ++ st.pushed).length ∧ n < (produced l2).length ∧
      ((∃ x, (data ++ st.pushed)[n]? = some x ∧ c = [x]) ∨
        ∃ labels cards, Accounts space ((data ++ st.pushed).take (n + 1)) labels c cards) := by
  have hlen : ∀ {C : Type} (a b : List (Event C)), (produced b).length ≤ (produced (a ++ b)).length := by
    intro C a b
    induction a with
    | nil => exact Nat.le_refl _
    | cons e a ih =>
      refine Nat.le_trans ih ?_
      cases e
      case initRet c _ => cases c <;> simp [produced]
      case iterOk => simp [produced]
      all_goals exact Nat.le_refl _
  rcases C93_source h hl with ⟨e, he⟩ | ⟨r, hr⟩
  · obtain ⟨a, b, hab⟩ := List.append_of_mem he
    have hl' : s.log = (l1 ++ .ret t (.centroids (some c)) :: a) ++ .initRet (some c) e :: b := by
      rw [hl, hab]; simp
    obtain ⟨x, h1, h2⟩ := C110_init hneg hcopy h0 h hS hl'
    refine ⟨(produced b).length, (List.getElem?_eq_some_iff.1 h1).1, ?_, .inl ⟨x, h1, h2⟩⟩
    rw [hab]
    have := hlen a (.initRet (some c) e :: b)
    simp only [produced, List.length_append, List.length_singleton] at this
    omega
  · obtain ⟨a, b, hab⟩ := List.append_of_mem hr
    have hl' : s.log = (l1 ++ .ret t (.centroids (some c)) :: a) ++ .iterOk r c :: b := by
      rw [hl, hab]; simp
    obtain ⟨h1, h2⟩ := C110_iterate hneg hcopy h0 h hS hl'
    refine ⟨(produced b).length, h1, ?_, .inr h2⟩
    rw [hab]
    have := hlen a (.iterOk r c :: b)
    simp only [produced, List.length_append, List.length_singleton] at this
    omega

theorem serial_last {C : Type} : ∀ {l : List (Event C)} {d : Desk C}, Serial l d → Filled l →
    d.cur = (produced l).getLast? ∧ (d.base.isSome → d.count + 1 ≤ (produced l).length) ∧
    (0 < d.count → ∃ r c l1 l2, l = l1 ++ .iterOk r c :: l2 ∧ d.cur = some c ∧ produced l = produced l2 ++ [c]) ∧
    d.base = initial l := by
  intro l
  induction l with
  | nil => rintro d rfl _; exact ⟨rfl, (fun h => nomatch h), (fun h => absurd h (Nat.lt_irrefl 0)), rfl⟩
  | cons e l ih =>
    rintro d' ⟨d, hs, hn⟩ hF
    obtain ⟨h1, h2, h3, h4⟩ := ih hs (fun x hx => hF x (List.mem_cons_of_mem _ hx))
    have lift : (0 < d.count → ∃ r c l1 l2, e :: l = l1 ++ .iterOk r c :: l2 ∧ d.cur = some c ∧
        produced l = produced l2 ++ [c]) := by
      intro hp
      obtain ⟨r, c, l1, l2, q1, q2, q3⟩ := h3 hp
      exact ⟨r, c, e :: l1, l2, by rw [q1]; rfl, q2, q3⟩
    cases e
    case initRet c err =>
      obtain ⟨_, rfl⟩ := hn
      cases c with
      | none => exact absurd List.mem_cons_self (hF err)
      | some c => exact ⟨by simp [produced], fun _ => by simp [produced], fun h => absurd h (Nat.lt_irrefl 0), rfl⟩
    case iterOk r c =>
      obtain ⟨_, rfl⟩ := hn
      refine ⟨by simp [produced], fun hb => ?_, fun _ => ⟨r, c, [], l, rfl, rfl, rfl⟩, h4⟩
      have := h2 hb
      simp only [produced, List.length_append, List.length_singleton]
      omega
    case iterCall => obtain ⟨_, _, rfl⟩ := hn; exact ⟨h1, h2, lift, h4⟩
    case iterNil => obtain ⟨_, rfl⟩ := hn; exact ⟨h1, h2, lift, h4⟩
    case iterErr => obtain ⟨_, rfl⟩ := hn; exact ⟨h1, h2, lift, h4⟩
    case iterPanic => obtain ⟨_, rfl⟩ := hn; exact ⟨h1, h2, lift, h4⟩
    all_goals (cases hn; exact ⟨h1, h2, lift, h4⟩)

theorem streamed_filled : ∀ {l : List (Event (List E))} {st : StreamNotes E F R}, Streamed space i0 l st →
    Rebatching l → Filled l := by
  intro l
  induction l with
  | nil => intro st _ _ e h; cases h
  | cons ev l ih =>
    rintro st' ⟨st, st1, h1, _, h3⟩ hP e hm
    rcases List.mem_cons.1 hm with hm | hm
    · subst hm
      obtain ⟨_, _, h4, _⟩ := h3
      exact absurd rfl (h4.1 hP.1)
    · exact ih h1 hP.2 e hm

theorem initial_some {C : Type} : ∀ {l : List (Event C)}, Filled l → l.any initOk = true → (initial l).isSome := by
  intro l
  induction l with
  | nil => intro _ h; cases h
  | cons e l ih =>
    intro hF ha
    have hF' : Filled l := fun x hx => hF x (List.mem_cons_of_mem _ hx)
    cases e
    case initRet c err =>
      cases c with
      | none => exact absurd List.mem_cons_self (hF err)
      | some c => rfl
    all_goals exact ih hF' ha

theorem iterOk_init {C : Type} : ∀ {l : List (Event C)} {d : Desk C}, IterAfterInit l → Serial l d →
    (d.busy.isSome → l.any initOk = true) ∧ (0 < d.count → l.any initOk = true) := by
  intro l
  induction l with
  | nil => rintro d _ rfl; exact ⟨(fun h => nomatch h), fun h => absurd h (Nat.lt_irrefl 0)⟩
  | cons e l ih =>
    rintro d' hA ⟨d, hs, hn⟩
    obtain ⟨h1, h2⟩ := ih (iterAfterInit_tail hA) hs
    have up : l.any initOk = true → (e :: l).any initOk = true := by
      intro h; rw [List.any_cons, h, Bool.or_true]
    cases e
    case initRet c err =>
      obtain ⟨_, rfl⟩ := hn
      exact ⟨(fun h => nomatch h), fun h => absurd h (Nat.lt_irrefl 0)⟩
    case iterOk r c =>
      obtain ⟨hb, rfl⟩ := hn
      exact ⟨(fun h => nomatch h), fun _ => up (h1 (by rw [hb]; rfl))⟩
    case iterCall => obtain ⟨_, _, rfl⟩ := hn; exact ⟨fun _ => up hA.1, fun h => up (h2 h)⟩
    case iterNil => obtain ⟨_, rfl⟩ := hn; exact ⟨(fun h => nomatch h), fun h => up (h2 h)⟩
    case iterErr => obtain ⟨_, rfl⟩ := hn; exact ⟨(fun h => nomatch h), fun h => up (h2 h)⟩
    case iterPanic => obtain ⟨_, rfl⟩ := hn; exact ⟨(fun h => nomatch h), fun h => up (h2 h)⟩
    all_goals (cases hn; exact ⟨fun h => up (h1 h), fun h => up (h2 h)⟩)

/-- **C111 (limit).** One client which plays until the limit `N`, positive: once it has waited for the run, the
centroids are the last result and account for the first `n` elements, `n` the number of results, which is at least
`N + 1` and at most the number of elements given or pushed. -/
theorem C111_batch (hneg : (-1 : F) < 0) (hcopy : ∀ a, space.copy a = a)
    (h0 : StreamImpl.new cf data = some i0) (hc : Limited conf) (h : OneClient conf s) (hP : Rebatching s.log)
    {st : StreamNotes E F R} (hS : Streamed space i0 s.log st) (hp : settled s.log = true)
    (hv : followsL (session s.log).2 ≠ some .running)
    (hN : 0 < conf.iter + pushedSince s.log * conf.iterPerData) :
    conf.iter + pushedSince s.log * conf.iterPerData + 1 ≤ (produced s.log).length ∧
    (produced s.log).length ≤ (data ++ st.pushed).length ∧
    ∃ c labels cards, s.centroids = some c ∧
      Accounts space ((data ++ st.pushed).take (produced s.log).length) labels c cards := by
  have hr : Reachable conf s := by obtain ⟨as, _, he⟩ := h; exact ⟨_, he⟩
  have hI := RunsInv.of_oneClient hc h hP
  obtain ⟨d, h1, h2⟩ := C85_serial_batch hc h hP
  obtain ⟨h3, h4⟩ := h2 (hI.ended hP hp hv).2
  have hlim : d.count = conf.iter + pushedSince s.log * conf.iterPerData := by
    rw [← h4, C82_limit hc h hP hp hv, limit, hr.count.pd]
  have hF := streamed_filled hS hP
  obtain ⟨q1, q2, q3, q4⟩ := serial_last h1 hF
  have hpos : 0 < d.count := by omega
  have hany := (iterOk_init (C57_after_init hr) h1).2 hpos
  have hb : d.base.isSome := by rw [q4]; exact initial_some hF hany
  obtain ⟨r, c, l1, l2, m1, m2, m3⟩ := q3 hpos
  obtain ⟨n1, labels, cards, n2⟩ := C110_iterate hneg hcopy h0 hr hS m1
  have hlen : (produced s.log).length = (produced l2).length + 1 := by
    rw [m3, List.length_append, List.length_singleton]
  refine ⟨by have := q2 hb; omega, by omega, c, labels, cards, by rw [h3, m2], ?_⟩
  rw [hlen]
  exact n2

theorem Algo.RunsInv.noPushing {C : Type} {s : Algo C} (hI : RunsInv conf s) (hP : Rebatching s.log)
    (hs : settled s.log = true) (hv : followsL (session s.log).2 ≠ some .running) :
    waiting (fun p => p matches .pu2 | .pu3) s = 0 := by
  simp only [settled, Bool.and_eq_true] at hs
  have key : ∀ t, ((s.thr t).pc matches .pu2 | .pu3) = false := by
    intro t
    cases ht : ((s.thr t).pc matches .pu2 | .pu3) with
    | false => rfl
    | true =>
      have hne : (s.thr t).pc ≠ .dead := by intro h'; rw [h'] at ht; cases ht
      rcases hI.phase with h | h
      · obtain ⟨hx, hr⟩ := h.waited hP hs.2 hv
        rcases h.use.who (hI.ack.lock.lt hne) rfl hne with ⟨rfl, _⟩ | ⟨rfl, _, _, hN⟩ | ⟨_, _, h3, _⟩
        · obtain ⟨op, d, ph, ⟨h1, h2⟩, hC, hO⟩ := h.use.row
          have hop : harmless op = true := h1 ▸ hs.2
          generalize (s.thr 0).pc = p at hC ht
          cases p <;> first
            | (cases ht; done)
            | (simp only [ClientOk] at hC; rw [hC.1] at hop; cases hop)
        · generalize (s.thr 1).pc = p at hN ht
          cases p <;> first | (cases ht; done) | exact hN.elim
        · exact absurd (h3.symm.trans hr) hne
      · obtain ⟨op, v, _, hC, hO⟩ := h.row
        rcases h.who (hI.ack.lock.lt hne) rfl hne with ⟨rfl, _⟩ | ⟨rfl, _, hN⟩ | ⟨rfl, _⟩
        · generalize (s.thr 0).pc = p at hC ht
          cases p <;> first | (cases ht; done) | exact hC.elim
        · generalize (s.thr 1).pc = p at hN ht
          cases p <;> first | (cases ht; done) | exact hN.elim
        · generalize (s.thr (s.n - 1)).pc = p at hO ht
          cases p <;> first | (cases ht; done) | exact hO.elim
  unfold waiting
  rw [List.countP_eq_zero]
  intro j _
  have h1 := key j
  dsimp only
  rw [h1]
  exact Bool.false_ne_true

theorem streamed_pushed {i0 : StreamImpl E F R} : ∀ {l : List (Event (List E))} {st : StreamNotes E F R},
    Streamed space i0 l st → st.pushed.length = events isImplPushed l
  | [], st, h => by cases h; rfl
  | e :: l, st', h => by
    obtain ⟨st, st1, hS, ht, hn⟩ := h
    have ih := streamed_pushed hS
    have h1 : st1.pushed = st.pushed := by
      rcases ht with rfl | ⟨_, ⟨_, rfl⟩ | ⟨_, _, _, rfl⟩⟩ <;> rfl
    rw [← h1] at ih
    unfold events at ih ⊢
    rw [List.countP_cons, ← ih]
    cases e <;> simp only [StreamNotes.Event] at hn
    case implPushed => obtain ⟨e, i, _, rfl⟩ := hn; simp [isImplPushed]
    case initRet => obtain ⟨_, _, _, _, rfl⟩ := hn; rfl
    case iterCall => obtain ⟨_, rfl⟩ := hn; rfl
    case iterNil => obtain ⟨_, rfl⟩ := hn; rfl
    case iterOk => obtain ⟨_, _, _, _, _, _, rfl⟩ := hn; rfl
    case iterPanic => obtain ⟨_, _, _, _, rfl⟩ := hn; rfl
    all_goals (cases hn; rfl)

/-- **C111 (no return; claim examined).** One client pushes and plays until the limit `N`, positive: if `N` is not
smaller than the number of elements given or pushed then the client never sees the end of the run (unless it
pushes more elements). -/
theorem C111_hang (hneg : (-1 : F) < 0) (hcopy : ∀ a, space.copy a = a)
    (h0 : StreamImpl.new cf data = some i0) (hc : Limited conf) (h : OneClient conf s)
    (hP : Rebatching s.log) {st : StreamNotes E F R} (hS : Streamed space i0 s.log st)
    (hN : 0 < conf.iter + pushedSince s.log * conf.iterPerData)
    (hM : data.length + events isPushed s.log ≤ conf.iter + pushedSince s.log * conf.iterPerData)
    (hp : settled s.log = true) : followsL (session s.log).2 = some .running := by
  by_contra hv
  have hr : Reachable conf s := by obtain ⟨as, _, he⟩ := h; exact ⟨_, he⟩
  obtain ⟨h1, h2, _⟩ := C111_batch hneg hcopy h0 hc h hP hS hp hv hN
  have h3 := streamed_pushed hS
  have h4 := C55_pushes hr
  have h5 : _ = 0 := (RunsInv.of_oneClient hc h hP).noPushing hP hp hv
  rw [← h3] at h4
  rw [List.length_append] at h2
  have h6 : st.pushed.length = events isPushed s.log := h4.trans (congrArg (_ + ·) h5)
  omega

theorem pushedSince_all {C : Type} : ∀ {l : List (Event C)}, .reset ∉ l → pushedSince l = events isPushed l := by
  intro l
  induction l with
  | nil => intro _; rfl
  | cons e l ih =>
    intro h
    have ih := ih (fun hm => h (List.mem_cons_of_mem _ hm))
    unfold events at ih ⊢
    rw [List.countP_cons, ← ih]
    cases e
    case reset => exact absurd List.mem_cons_self h
    all_goals rfl

/-- **C111 (limit per element; claim examined).** With a limit of one iteration or more for each element pushed
and no data given to `NewAlgo`, as long as the counters have not been reset by another initialisation, `Batch`
never returns: `Init` takes an element, and the elements left are not enough iterations. -/
theorem C111_perData (hneg : (-1 : F) < 0) (hcopy : ∀ a, space.copy a = a)
    (h0 : StreamImpl.new cf [] = some i0) (hc : Limited conf) (h : OneClient conf s)
    (hP : Rebatching s.log) {st : StreamNotes E F R} (hS : Streamed space i0 s.log st)
    (hI : 1 ≤ conf.iterPerData) (hR : .reset ∉ s.log) (hN : 0 < events isPushed s.log)
    (hp : settled s.log = true) : followsL (session s.log).2 = some .running := by
  have h1 := pushedSince_all hR
  have h2 : events isPushed s.log ≤ pushedSince s.log * conf.iterPerData := by
    rw [h1]; exact Nat.le_mul_of_pos_right _ hI
  refine C111_hang hneg hcopy h0 hc h hP hS (by omega) ?_ hp
  simp only [List.length_nil]
  omega

end

/-- **C110 (means).** In exact arithmetic the clustering of an `Iterate` is a partition of the first elements:
every centre is the mean of its members. -/
theorem C110_means {E F R V : Type} [Zero F] [One F] [Neg F] [LT F] [DecidableLT F] [BEq F] [Div F]
    [AddCommGroup V] [Module ℝ V] {space : Space E F} {φ : E → V} (hb : Barycentric space φ) (hneg : (-1 : F) < 0)
    {i0 : StreamImpl E F R} {conf : Conf} {s : Algo (List E)} {cf : StreamingConf F R} {data : List E}
    (h0 : StreamImpl.new cf data = some i0) (h : Reachable conf s) {st : StreamNotes E F R}
    (hS : Streamed space i0 s.log st) {r : Nat} {c : List E} {l1 l2 : List (Event (List E))}
    (hl : s.log = l1 ++ .iterOk r c :: l2) :
    ∃ labels : List Int, labels.length = (produced l2).length + 1 ∧ (∀ x ∈ labels, 0 ≤ x ∧ x < c.length) ∧
      ∀ (k : Nat) (m : E), c[k]? = some m →
        let ms := members (((data ++ st.pushed).take ((produced l2).length + 1)).zip labels) k
        ms ≠ [] ∧ φ m = mean (ms.map φ) := by
  obtain ⟨h1, labels, cards, h2⟩ := C110_iterate hneg hb.copy h0 h hS hl
  refine ⟨labels, ?_, h2.range, fun k m hm => ?_⟩
  · rw [h2.labelled, List.length_take]; omega
  · have hk : k < c.length := (List.getElem?_eq_some_iff.1 hm).1
    refine ⟨h2.nonempty k hk, running_mean hb _ m ?_⟩
    rw [← h2.center k hk]; exact hm

/-! ## Executions which meet the hypotheses -/

/-- A test of `Streamed`: `es` are the elements pushed, the last first, `t` is every result of `norm.Rand()`; an
`Iterate` receives just before it returns. -/
def streamedF (i0 : StreamImpl Int Int Unit) (t : Int) :
    List (Event (List Int)) → List Int → Option (StreamNotes Int Int Unit)
  | [], [] => some ⟨i0, [], .idle⟩
  | [], _ :: _ => none
  | e :: l, es =>
    match e with
    | .implPushed =>
      match es with
      | [] => none
      | x :: es =>
        match streamedF i0 t l es with
        | none => none
        | some st =>
          match st.impl.push x with
          | (i, false) => some { st with impl := i, pushed := st.pushed ++ [x] }
          | (_, true) => none
    | .initRet c none =>
      match streamedF i0 t l es, c with
      | some ⟨i, p, .idle⟩, some c =>
        if i.init.2 = some c then some ⟨i.init.1, p, .idle⟩ else none
      | _, _ => none
    | .iterCall _ _ _ =>
      match streamedF i0 t l es with
      | some ⟨i, p, .idle⟩ => some ⟨i, p, .called⟩
      | _ => none
    | .iterNil _ =>
      match streamedF i0 t l es with
      | some ⟨i, p, .called⟩ => if i.c = [] then some ⟨i, p, .idle⟩ else none
      | _ => none
    | .iterOk _ c =>
      match streamedF i0 t l es with
      | some ⟨i, p, .called⟩ =>
        match i.c with
        | [] => none
        | x :: q =>
          match StreamImpl.process { i with c := q } exSpace t x with
          | none => none
          | some i' => if c = i'.clust then some ⟨i', p, .idle⟩ else none
      | _ => none
    | .initRet _ (some _) => none
    | .iterErr _ _ => none
    | .iterPanic _ _ => none
    | _ => streamedF i0 t l es

theorem streamed_of_test {i0 : StreamImpl Int Int Unit} {t : Int} : ∀ {l : List (Event (List Int))} {es : List Int}
    {st : StreamNotes Int Int Unit}, streamedF i0 t l es = some st → Streamed exSpace i0 l st := by
  intro l
  induction l with
  | nil => intro es st h; cases es <;> cases h; rfl
  | cons e l ih =>
    intro es st h
    cases e
    case implPushed =>
      simp only [streamedF] at h
      cases es with
      | nil => cases h
      | cons x es =>
        simp only at h
        cases h1 : streamedF i0 t l es with
        | none => rw [h1] at h; cases h
        | some st0 =>
          rw [h1] at h
          simp only at h
          split at h
          · rename_i i h2; cases h; exact ⟨st0, st0, ih h1, .inl rfl, x, i, h2, rfl⟩
          · cases h
    case initRet c e =>
      cases e with
      | some e => simp only [streamedF] at h; cases h
      | none =>
        simp only [streamedF] at h
        split at h
        · rename_i i p c h1
          split at h
          · rename_i h2; cases h
            exact ⟨_, _, ih h1, .inl rfl, rfl, h2.symm, ⟨fun _ h => (nomatch h), fun _ => rfl⟩,
              (fun h => nomatch h), rfl⟩
          · cases h
        · cases h
    case iterCall =>
      simp only [streamedF] at h
      split at h
      · rename_i i p h1; cases h; exact ⟨_, _, ih h1, .inl rfl, rfl, rfl⟩
      · cases h
    case iterNil =>
      simp only [streamedF] at h
      split at h
      · rename_i i p h1
        split at h
        · rename_i h2; cases h; exact ⟨_, _, ih h1, .inr ⟨rfl, .inl ⟨h2, rfl⟩⟩, rfl, rfl⟩
        · cases h
      · cases h
    case iterOk r c =>
      simp only [streamedF] at h
      split at h
      · rename_i i p h1
        split at h
        · cases h
        · rename_i x q h2
          split at h
          · cases h
          · rename_i i' h3
            split at h
            · rename_i h4; cases h
              exact ⟨_, _, ih h1, .inr ⟨rfl, .inr ⟨x, q, h2, rfl⟩⟩, x, t, i', rfl, h3, h4, rfl⟩
            · cases h
      · cases h
    case iterErr => simp only [streamedF] at h; cases h
    case iterPanic => simp only [streamedF] at h; cases h
    all_goals exact ⟨st, st, ih h, .inl rfl, rfl⟩

open Trace in
/-- Two `Push`, `Batch` with two iterations, `Centroids()`. -/
def streamBatch : List (Act (List Int)) :=
  ([Act.client] ++ pushIdle ++ pushIdle ++ batchNew.tail ++ [call 0 .centroids, g 0]).map
    (Act.with fun | 5 => [10] | 6 => [7] | _ => [14])

theorem stream_example (conf : Conf) (as : List (Act (List Int))) (data es : List Int) (i0 : StreamImpl Int Int Unit)
    (P : Algo (List Int) → Bool) (hn : .client ∉ as) (h0 : StreamImpl.new exStreamConf data = some i0)
    (key : (exec conf (new : Algo (List Int)) (.client :: as)).any (fun s =>
      rebatchingB s.log && P s &&
      decide ((streamedF i0 5 s.log es).any (fun st => st.pushed = es.reverse) = true)) = true) :
    ∃ (s : Algo (List Int)) (st : StreamNotes Int Int Unit), OneClient conf s ∧ Rebatching s.log ∧
    P s = true ∧ StreamImpl.new exStreamConf data = some i0 ∧ Streamed exSpace i0 s.log st ∧
    st.pushed = es.reverse := by
  cases he : exec conf (new : Algo (List Int)) (.client :: as) with
  | none => rw [he] at key; cases key
  | some s =>
    rw [he, Option.any_some, Bool.and_eq_true, Bool.and_eq_true] at key
    obtain ⟨st, hst, h5⟩ := any_some_true (of_decide_eq_true key.2)
    exact ⟨s, st, ⟨as, hn, he⟩, rebatching_of_test key.1.1, key.1.2, h0, streamed_of_test hst, of_decide_eq_true h5⟩

/-- The hypotheses of C110 and `C111_batch` hold: 10 is given to `NewAlgo`, 4 and 30 are pushed and after `Batch`
with `Iter` 2 `Centroids()` is 14. -/
example : ∃ (s : Algo (List Int)) (st : StreamNotes Int Int Unit), OneClient ⟨2, 0, 0, false, false, false⟩ s ∧
    Rebatching s.log ∧
    decide (s.log.head? = some (.ret 0 (.centroids (some [14]))) ∧ settled s.log = true ∧
      followsL (session s.log).2 ≠ some .running ∧ (produced s.log) = [[10], [7], [14]]) = true ∧
    StreamImpl.new exStreamConf [(10 : Int)] = some ⟨0, [], [], [10], exStreamConf, 0⟩ ∧
    Streamed exSpace ⟨0, [], [], [10], exStreamConf, 0⟩ s.log st ∧ st.pushed = [4, 30] :=
  stream_example ⟨2, 0, 0, false, false, false⟩ streamBatch.tail [10] [30, 4] _
    (fun s => decide (s.log.head? = some (.ret 0 (.centroids (some [14]))) ∧ settled s.log = true ∧
      followsL (session s.log).2 ≠ some .running ∧ (produced s.log) = [[10], [7], [14]])) (by decide) rfl (by decide +kernel)

open Trace in
/-- Two `Push`, `Play`, `Wait`, two iterations with data and one without. -/
def streamStuck : List (Act (List Int)) :=
  (([Act.client] ++ pushIdle ++ pushIdle ++ batchNew.tail).take 58 ++
    [g 2, g 2, .act 2 .default, .act 2 .iterNil]).map
    (Act.with fun | 5 => [10] | 6 => [7] | _ => [14])

/-- The hypotheses of `C111_hang` hold: the same elements with `Iter` 3; the third iteration finds nothing. -/
example : ∃ (s : Algo (List Int)) (st : StreamNotes Int Int Unit), OneClient ⟨3, 0, 0, false, false, false⟩ s ∧
    Rebatching s.log ∧
    decide (s.log.head? = some (.iterNil 2) ∧ settled s.log = true ∧ (session s.log).1 = some (.wait false false) ∧
      1 + events isPushed s.log ≤ 3 ∧ s.iterations = 2 ∧ (produced s.log) = [[10], [7], [14]]) = true ∧
    StreamImpl.new exStreamConf [(10 : Int)] = some ⟨0, [], [], [10], exStreamConf, 0⟩ ∧
    Streamed exSpace ⟨0, [], [], [10], exStreamConf, 0⟩ s.log st ∧ st.pushed = [4, 30] :=
  stream_example ⟨3, 0, 0, false, false, false⟩ streamStuck.tail [10] [30, 4] _
    (fun s => decide (s.log.head? = some (.iterNil 2) ∧ settled s.log = true ∧
      (session s.log).1 = some (.wait false false) ∧
      1 + events isPushed s.log ≤ 3 ∧ s.iterations = 2 ∧ (produced s.log) = [[10], [7], [14]])) (by decide) rfl
    (by decide +kernel)

/-- The hypotheses of `C111_perData` hold: 10 and 4 are pushed, with one iteration for each; the second one finds
nothing. -/
example : ∃ (s : Algo (List Int)) (st : StreamNotes Int Int Unit), OneClient ⟨0, 1, 0, false, false, false⟩ s ∧
    Rebatching s.log ∧
    decide (s.log.head? = some (.iterNil 2) ∧ settled s.log = true ∧ (session s.log).1 = some (.wait false false) ∧
      .reset ∉ s.log ∧ events isPushed s.log = 2 ∧ s.iterations = 1 ∧ (produced s.log) = [[10], [7]]) = true ∧
    StreamImpl.new exStreamConf ([] : List Int) = some ⟨0, [], [], [], exStreamConf, 0⟩ ∧
    Streamed exSpace ⟨0, [], [], [], exStreamConf, 0⟩ s.log st ∧ st.pushed = [10, 4] :=
  stream_example ⟨0, 1, 0, false, false, false⟩ (streamStuck.take 52 ++ streamStuck.drop 58).tail [] [4, 10] _
    (fun s => decide (s.log.head? = some (.iterNil 2) ∧ settled s.log = true ∧
      (session s.log).1 = some (.wait false false) ∧
      .reset ∉ s.log ∧ events isPushed s.log = 2 ∧ s.iterations = 1 ∧ (produced s.log) = [[10], [7]])) (by decide) rfl
    (by decide +kernel)

end Distclus
