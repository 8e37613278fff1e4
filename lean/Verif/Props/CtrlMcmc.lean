import Verif.Spec.CtrlMcmc
import Verif.Props.Mcmc
import Verif.Props.CtrlStream
/-!
# C112: what a client observes of the MCMC algorithm
-/
set_option linter.unusedSectionVars false

namespace Distclus
open Ctrl Algo Spec

section
variable {D E F R : Type} [Zero F] [One F] [Neg F] [LT F] [DecidableLT F] [Add F] [Sub F] [Mul F] [BEq F]
  [GoMath F] [Div F] {p : McmcParams D E F R} {conf : Conf} {s : Algo (List E)} {data : List E}

theorem mcmc_run_snoc : ∀ {ops : List (McmcOp D E F)} {m m1 m2 : McmcSys E F} {o : McmcOp D E F},
    McmcSys.run p m ops = some m1 → m1.step p o = some m2 → McmcSys.run p m (ops ++ [o]) = some m2 := by
  intro ops
  induction ops with
  | nil => intro m m1 m2 o h1 h2; cases h1; simp [McmcSys.run, h2]
  | cons a ops ih =>
    intro m m1 m2 o h1 h2
    rw [List.cons_append]
    unfold McmcSys.run at h1 ⊢
    cases ha : m.step p a with
    | none => rw [ha] at h1; cases h1
    | some m' => rw [ha] at h1; exact ih h1 h2

theorem pushes_snoc (ops : List (McmcOp D E F)) (o : McmcOp D E F) :
    McmcOp.pushes (ops ++ [o]) = McmcOp.pushes ops ++ McmcOp.pushes [o] := by
  induction ops with
  | nil => rfl
  | cons a ops ih => cases a <;> simp [McmcOp.pushes, ih]

theorem iters_snoc (ops : List (McmcOp D E F)) (o : McmcOp D E F) :
    McmcOp.iters (ops ++ [o]) = McmcOp.iters ops + McmcOp.iters [o] := by
  induction ops with
  | nil => simp [McmcOp.iters]
  | cons a ops ih => cases a <;> simp [McmcOp.iters, ih]; omega

theorem itersSince_snoc (ops : List (McmcOp D E F)) (o : McmcOp D E F) :
    McmcOp.itersSince (ops ++ [o]) = match o with
      | .init _ => 0
      | .iterate _ => McmcOp.itersSince ops + 1
      | .push _ _ => McmcOp.itersSince ops := by
  unfold McmcOp.itersSince
  rw [List.foldl_append]
  cases o <;> rfl

/-- No call of the implementation has failed. -/
def Sound {C : Type} : List (Event C) → Prop
  | [] => True
  | e :: l => (match e with
    | .initRet _ e => e = none
    | .iterErr _ _ => False
    | .iterPanic _ _ => False
    | _ => True) ∧ Sound l

theorem Spec.Disciplined.facts {C : Type} {s : Algo C} (h : Disciplined conf s) :
    Reachable conf s ∧ Sound s.log ∧ ∃ d, Serial s.log d ∧
      ((∀ t, inside (s.thr t).pc = false) → s.centroids = d.cur ∧ s.iterations = d.count) := by
  obtain ⟨h1, h2⟩ := h
  refine ⟨by obtain ⟨as, _, he⟩ := h1; exact ⟨_, he⟩, ?_, ?_⟩
  · rcases h2 with ⟨_, h2⟩ | ⟨_, h2⟩
    all_goals
      generalize s.log = l at h2
      induction l with
      | nil => trivial
      | cons e l ih =>
        refine ⟨?_, ih h2.2⟩
        have := h2.1
        cases e <;> trivial
  · rcases h2 with ⟨hc, h2⟩ | ⟨hc, h2⟩
    · exact C85_serial hc h1 h2
    · exact C85_serial_batch hc h1 h2

theorem serial_given {C : Type} : ∀ {l : List (Event C)} {d : Desk C}, Serial l d →
    ∀ r, d.busy = some r → given r l = some d.cur := by
  intro l
  induction l with
  | nil => rintro d rfl r h; cases h
  | cons e l ih =>
    rintro d' ⟨d, hs, hn⟩ r hr
    cases e
    case iterCall r' st c =>
      obtain ⟨_, rfl, rfl⟩ := hn
      cases hr
      simp [given]
    case initRet => obtain ⟨_, rfl⟩ := hn; cases hr
    case iterOk => obtain ⟨_, rfl⟩ := hn; cases hr
    case iterNil => obtain ⟨_, rfl⟩ := hn; cases hr
    case iterErr => obtain ⟨_, rfl⟩ := hn; cases hr
    case iterPanic => obtain ⟨_, rfl⟩ := hn; cases hr
    all_goals (cases hn; exact ih hs r hr)

/-- The notes are those of a history of the implementation, called by one goroutine. -/
structure McmcLinear (p : McmcParams D E F R) (data : List E) (l : List (Event (List E))) (d : Desk (List E))
    (st : McmcNotes E F) (ops : List (McmcOp D E F)) (m : McmcSys E F) : Prop where
  run : McmcSys.run p (McmcSys.new p data) ops = some m
  impl : m.impl = st.impl
  pushes : McmcOp.pushes ops = st.pushed
  iters : McmcOp.iters ops = events isIterOk l
  since : McmcOp.itersSince ops = doneSince l
  ready : m.ready = l.any initOk
  cur : m.ready = true → d.cur = some m.centroids
  fig : ∀ f, st.fig = some f → f.acceptations = st.impl.acc

theorem init_acc (i j : McmcImpl E F) (d : D) (r : InitRes E) (h : i.init p d = (j, r)) : j.acc = i.acc := by
  unfold McmcImpl.init at h
  dsimp only at h
  split at h
  · cases h; rfl
  · cases h; rfl
  · split at h <;> (cases h; rfl)

theorem sampled_linear : ∀ {l : List (Event (List E))} {d : Desk (List E)} {st : McmcNotes E F},
    IterAfterInit l → Sound l → Serial l d → Sampled p (McmcImpl.new p data) l st →
    ∃ ops m, McmcLinear p data l d st ops m := by
  intro l
  induction l with
  | nil =>
    rintro d st _ _ rfl rfl
    exact ⟨[], McmcSys.new p data, rfl, rfl, rfl, rfl, rfl, rfl, (fun h => nomatch h), (fun _ h => nomatch h)⟩
  | cons e l ih =>
    rintro d' st' hA hS ⟨d, hd, hn⟩ ⟨st, hst, he⟩
    obtain ⟨ops, m, h⟩ := ih (iterAfterInit_tail hA) hS.2 hd hst
    cases e
    case implPushed =>
      cases hn
      obtain ⟨x, b, hb, rfl⟩ := he
      have hs : m.step p (.push x (current l).alive) = some { m with impl := { m.impl with buffer := b } } := by
        simp only [McmcSys.step, h.impl, hb]
      exact ⟨_, _, mcmc_run_snoc h.run hs, by simp [h.impl], by rw [pushes_snoc, h.pushes]; rfl,
        by rw [iters_snoc, h.iters]; rfl, by rw [itersSince_snoc]; exact h.since, h.ready, h.cur, h.fig⟩
    case initRet c err =>
      obtain ⟨_, rfl⟩ := hn
      obtain ⟨dr, i, r, hi, rfl, hr⟩ := he
      have herr : err = none := hS.1
      subst herr
      cases r with
      | panic => exact hr.elim
      | err => exact absurd rfl hr
      | ok x =>
        obtain ⟨rfl, _⟩ := hr
        have hs : m.step p (.init dr) = some ⟨i, x, true⟩ := by simp only [McmcSys.step, h.impl, hi]
        refine ⟨_, _, mcmc_run_snoc h.run hs, rfl, by rw [pushes_snoc, h.pushes]; simp [McmcOp.pushes],
          by rw [iters_snoc, h.iters]; rfl, by rw [itersSince_snoc]; rfl, rfl, fun _ => rfl, fun f hf => ?_⟩
        have := h.fig f hf
        rw [this]
        exact (init_acc _ _ _ _ hi).symm
    case iterOk r c =>
      obtain ⟨hb, rfl⟩ := hn
      obtain ⟨c0, dr, i, fig, hg, hit, rfl⟩ := he
      have hany := (iterOk_init (iterAfterInit_tail hA) hd).1 (by rw [hb]; rfl)
      have hrd : m.ready = true := by rw [h.ready, hany]
      have hcur := h.cur hrd
      rw [serial_given hd r hb, hcur, Option.some.injEq] at hg
      subst hg
      have hs : m.step p (.iterate dr) = some { m with impl := i, centroids := c } := by
        have hit : st.impl.iterate p m.centroids dr = some (i, c, fig) := hit
        simp only [McmcSys.step, hrd, if_true, h.impl, hit]
      refine ⟨_, _, mcmc_run_snoc h.run hs, rfl, by rw [pushes_snoc, h.pushes]; simp [McmcOp.pushes],
        by rw [iters_snoc, h.iters]; rw [events, events, List.countP_cons]; rfl, by rw [itersSince_snoc]; exact congrArg (· + 1) h.since, ?_, fun _ => rfl, fun f hf => ?_⟩
      · exact h.ready
      · cases hf
        exact (C32_iterate p _ _ _ _ _ _ hit).2.2.2.symm
    case iterPanic => exact hS.1.elim
    case iterErr => exact hS.1.elim
    case iterNil => exact he.elim
    case iterCall =>
      obtain ⟨_, _, rfl⟩ := hn
      cases he
      exact ⟨ops, m, h.run, h.impl, h.pushes, h.iters, h.since, h.ready, h.cur, h.fig⟩
    case reset =>
      cases hn
      cases he
      exact ⟨ops, m, h.run, h.impl, h.pushes, h.iters, h.since, h.ready, h.cur, fun _ hf => nomatch hf⟩
    all_goals
      cases hn
      cases he
      exact ⟨ops, m, h.run, h.impl, h.pushes, h.iters, h.since, h.ready, h.cur, h.fig⟩

theorem sampled_past : ∀ {l1 l2 : List (Event (List E))} {i0 : McmcImpl E F} {st : McmcNotes E F},
    Sampled p i0 (l1 ++ l2) st → ∃ st0, Sampled p i0 l2 st0 ∧ st0.pushed <+: st.pushed := by
  intro l1
  induction l1 with
  | nil => intro l2 i0 st h; exact ⟨st, h, List.prefix_refl _⟩
  | cons ev l1 ih =>
    rintro l2 i0 st' ⟨st, h1, h2⟩
    obtain ⟨st0, k1, k2⟩ := ih h1
    refine ⟨st0, k1, k2.trans ?_⟩
    cases ev
    case implPushed => obtain ⟨_, _, _, rfl⟩ := h2; exact List.prefix_append _ _
    case initRet => obtain ⟨_, _, _, _, rfl, _⟩ := h2; exact List.prefix_refl _
    case iterOk => obtain ⟨_, _, _, _, _, _, rfl⟩ := h2; exact List.prefix_refl _
    case iterPanic => obtain ⟨_, _, _, _, rfl⟩ := h2; exact List.prefix_refl _
    case iterErr => exact h2.elim
    case iterNil => exact h2.elim
    all_goals (cases h2; exact List.prefix_refl _)

theorem sound_past {C : Type} : ∀ {l1 l2 : List (Event C)}, Sound (l1 ++ l2) → Sound l2 := by
  intro l1
  induction l1 with
  | nil => intro l2 h; exact h
  | cons e l1 ih => intro l2 h; exact ih h.2

theorem serial_past {C : Type} : ∀ {l1 l2 : List (Event C)} {d : Desk C}, Serial (l1 ++ l2) d →
    ∃ d0, Serial l2 d0 := by
  intro l1
  induction l1 with
  | nil => intro l2 d h; exact ⟨d, h⟩
  | cons e l1 ih => rintro l2 d ⟨d0, h, _⟩; exact ih h

theorem store_length (b : DataBuffer E) (e : E) :
    (b.store e).data.length ≤ b.data.length + 1 ∧ (b.store e).pipe = b.pipe := by
  unfold DataBuffer.store Strategy.push
  cases b.strategy with
  | infinite => exact ⟨by simp, rfl⟩
  | fixed size pos =>
    dsimp only
    refine ⟨?_, rfl⟩
    split <;> split <;> simp

theorem apply_length : ∀ (n : Nat) (b : DataBuffer E),
    (DataBuffer.applyLoop n b).data.length + (DataBuffer.applyLoop n b).pipe.length ≤ b.data.length + b.pipe.length := by
  intro n
  induction n with
  | zero => intro b; exact Nat.le_refl _
  | succ n ih =>
    intro b
    unfold DataBuffer.applyLoop DataBuffer.applyNext
    cases hb : b.pipe with
    | nil => simp [hb]
    | cons e q =>
      dsimp only
      refine Nat.le_trans (ih _) ?_
      obtain ⟨h1, h2⟩ := store_length { b with pipe := q } e
      rw [h2]
      simp only [List.length_cons] at h1 ⊢
      omega

/-- There are not more data than given and pushed. -/
theorem mcmc_data_le : ∀ (ops : List (McmcOp D E F)) (m m' : McmcSys E F), McmcSys.run p m ops = some m' →
    m'.impl.buffer.data.length + m'.impl.buffer.pipe.length ≤
      m.impl.buffer.data.length + m.impl.buffer.pipe.length + (McmcOp.pushes ops).length := by
  intro ops
  induction ops with
  | nil => intro m m' h; cases h; exact Nat.le_refl _
  | cons o ops ih =>
    intro m m' h
    unfold McmcSys.run at h
    cases hs : m.step p o with
    | none => rw [hs] at h; cases h
    | some m1 =>
      rw [hs] at h
      have h1 := ih m1 m' h
      cases o with
      | push e r =>
        simp only [McmcSys.step] at hs
        split at hs
        · cases hs
        · rename_i b hb
          cases hs
          simp only [McmcOp.pushes, List.length_cons]
          dsimp only at h1
          unfold DataBuffer.push at hb
          split at hb
          · split at hb
            · cases hb
              simp only [List.length_append, List.length_singleton] at h1
              omega
            · cases hb
          · cases hb
            obtain ⟨q1, q2⟩ := store_length m.impl.buffer e
            rw [q2] at h1
            omega
      | init d =>
        have ha := apply_length m.impl.buffer.pipe.length m.impl.buffer
        simp only [McmcSys.step] at hs
        split at hs
        · rename_i impl c hin
          cases hs
          obtain ⟨b1, _⟩ := init_cases p m.impl impl d _ hin
          dsimp only at h1
          rw [b1] at h1
          exact h1.trans (Nat.add_le_add_right ha _)
        · rename_i impl r hne hin
          cases hs
          obtain ⟨b1, _⟩ := init_cases p m.impl impl d _ hin
          dsimp only at h1
          rw [b1] at h1
          exact h1.trans (Nat.add_le_add_right ha _)
      | iterate d =>
        have ha := apply_length m.impl.buffer.pipe.length m.impl.buffer
        simp only [McmcSys.step] at hs
        split at hs
        · split at hs
          · cases hs; exact h1
          · rename_i impl clust fig hit
            cases hs
            obtain ⟨prop, _, _, _, _, hb, _⟩ := iterate_cases p _ _ _ _ _ _ hit
            dsimp only at h1
            rw [hb] at h1
            exact h1.trans (Nat.add_le_add_right ha _)
        · cases hs

theorem mcmc_data_new (ops : List (McmcOp D E F)) (m : McmcSys E F)
    (h : McmcSys.run p (McmcSys.new p data) ops = some m) :
    m.impl.buffer.data.length ≤ data.length + (McmcOp.pushes ops).length := by
  have h1 := mcmc_data_le ops _ _ h
  have h2 : (newDataBuffer data p.conf.frameSize).data.length ≤ data.length ∧
      (newDataBuffer data p.conf.frameSize).pipe = [] := by
    unfold newDataBuffer
    split
    · exact ⟨Nat.le_refl _, rfl⟩
    · split
      · exact ⟨by simp, rfl⟩
      · exact ⟨Nat.le_refl _, rfl⟩
  have h3 : (McmcSys.new p data).impl.buffer = newDataBuffer data p.conf.frameSize := rfl
  rw [h3, h2.2] at h1
  simp only [List.length_nil] at h1
  omega

/-- **C112 (history).** One client of an MCMC algorithm: the calls of the implementation form a history (C30–C32)
in which the elements pushed by the client are pushed and `Iterate` is called as often as it has returned
centroids; once an `Init` has returned and while no call is in progress, the centroids of the controller are those
of the history, and its iterations those since the last `Init`. -/
theorem C112_history (h : Disciplined conf s) {st : McmcNotes E F} (hS : Sampled p (McmcImpl.new p data) s.log st) :
    ∃ ops m, McmcSys.run p (McmcSys.new p data) ops = some m ∧ m.impl = st.impl ∧
      McmcOp.pushes ops = st.pushed ∧ McmcOp.iters ops = events isIterOk s.log ∧
      (s.log.any initOk = true → m.ready = true ∧ ((∀ t, inside (s.thr t).pc = false) →
        s.centroids = some m.centroids ∧ s.iterations = McmcOp.itersSince ops)) := by
  obtain ⟨hr, hs, d, hd, hq⟩ := h.facts
  obtain ⟨ops, m, hL⟩ := sampled_linear (C57_after_init hr) hs hd hS
  refine ⟨ops, m, hL.run, hL.impl, hL.pushes, hL.iters, fun ha => ?_⟩
  have hm : m.ready = true := by rw [hL.ready, ha]
  refine ⟨hm, fun hi => ?_⟩
  obtain ⟨q1, q2⟩ := hq hi
  exact ⟨by rw [q1, hL.cur hm], by rw [q2, hL.since, (Serial.desk hd).2]⟩

/-- What a produced clustering is. -/
theorem sampled_produced (h : Disciplined conf s) {st : McmcNotes E F}
    (hS : Sampled p (McmcImpl.new p data) s.log st) {e : Event (List E)} {c : List E}
    (he : e = .initRet (some c) none ∨ ∃ r, e = .iterOk r c) {l1 l2 : List (Event (List E))}
    (hl : s.log = l1 ++ e :: l2) :
    ∃ ops m, McmcSys.run p (McmcSys.new p data) ops = some m ∧ m.ready = true ∧ m.centroids = c ∧
      McmcOp.pushes ops <+: st.pushed := by
  obtain ⟨hr, hs, d, hd, _⟩ := h.facts
  have hA := C57_after_init hr
  rw [hl] at hA hs hd hS
  obtain ⟨st0, k1, k2⟩ := sampled_past hS
  obtain ⟨d0, k3⟩ := serial_past hd
  have hA := after_init_past hA
  obtain ⟨ops, m, hL⟩ := sampled_linear hA (sound_past hs) k3 k1
  have hcur : d0.cur = some c ∧ (e :: l2).any initOk = true := by
    obtain ⟨d1, hd1, hn⟩ := k3
    rcases he with rfl | ⟨r, rfl⟩
    · obtain ⟨_, rfl⟩ := hn; exact ⟨rfl, rfl⟩
    · obtain ⟨hb, rfl⟩ := hn
      refine ⟨rfl, ?_⟩
      rw [List.any_cons, (iterOk_init (iterAfterInit_tail hA) hd1).1 (by rw [hb]; rfl), Bool.or_true]
  have hm : m.ready = true := by rw [hL.ready, hcur.2]
  refine ⟨ops, m, hL.run, hm, ?_, by rw [hL.pushes]; exact k2⟩
  have := hL.cur hm
  rw [hcur.1, Option.some.injEq] at this
  exact this.symm

theorem sound_init {C : Type} : ∀ {l : List (Event C)}, Sound l → ∀ {c e}, .initRet c e ∈ l → e = none := by
  intro l
  induction l with
  | nil => intro _ c e h; cases h
  | cons x l ih =>
    intro hS c e h
    rcases List.mem_cons.1 h with h | h
    · subst h; exact hS.1
    · exact ih hS.2 h

/-- **C112 (observed).** Every clustering returned by `Centroids()` to the client has at least one centroid, at
most `MaxK` and not more than the data given to `NewAlgo` or pushed. -/
theorem C112_centroids (hneg : (-1 : F) < 0) (hcpu : 1 ≤ p.sysCPU) (hk1 : 1 ≤ p.conf.initK)
    (hk2 : p.conf.initK ≤ p.conf.maxK) (hi : InitContract p.initializer) (h : Disciplined conf s)
    {st : McmcNotes E F} (hS : Sampled p (McmcImpl.new p data) s.log st) {t : Nat} {c : List E}
    {l1 l2 : List (Event (List E))} (hl : s.log = l1 ++ .ret t (.centroids (some c)) :: l2) :
    1 ≤ c.length ∧ (c.length : Int) ≤ p.conf.maxK ∧ c.length ≤ (data ++ st.pushed).length := by
  obtain ⟨hr, hs, _⟩ := h.facts
  have key : ∃ ops m, McmcSys.run p (McmcSys.new p data) ops = some m ∧ m.ready = true ∧ m.centroids = c ∧
      McmcOp.pushes ops <+: st.pushed := by
    rcases C93_source hr hl with ⟨e, he⟩ | ⟨r, he⟩
    · obtain ⟨a, b, hab⟩ := List.append_of_mem he
      have hl' : s.log = (l1 ++ .ret t (.centroids (some c)) :: a) ++ .initRet (some c) e :: b := by
        rw [hl, hab]; simp
      have : e = none := sound_init hs (c := some c) (by rw [hl']; simp)
      subst this
      exact sampled_produced h hS (.inl rfl) hl'
    · obtain ⟨a, b, hab⟩ := List.append_of_mem he
      exact sampled_produced h hS (.inr ⟨r, rfl⟩) (l1 := l1 ++ .ret t (.centroids (some c)) :: a) (l2 := b)
        (by rw [hl, hab]; simp)
  obtain ⟨ops, m, h1, h2, rfl, h4⟩ := key
  obtain ⟨q1, q2, q3, _⟩ := C30_range hneg p hcpu hk1 hk2 hi data ops m h1 h2
  have q4 := mcmc_data_new ops m h1
  have q5 := h4.length_le
  exact ⟨q1, q2, by rw [List.length_append]; omega⟩

/-- **C112 (moves).** An `Iterate` returns as many centroids as it was given, one more or one less. -/
theorem C112_moves (hneg : (-1 : F) < 0) (hcpu : 1 ≤ p.sysCPU) (hk1 : 1 ≤ p.conf.initK)
    (hk2 : p.conf.initK ≤ p.conf.maxK) (hi : InitContract p.initializer) (h : Disciplined conf s)
    {st : McmcNotes E F} (hS : Sampled p (McmcImpl.new p data) s.log st) {r : Nat} {c : List E}
    {l1 l2 : List (Event (List E))} (hl : s.log = l1 ++ .iterOk r c :: l2) :
    ∃ c0, given r l2 = some (some c0) ∧ c.length ≤ c0.length + 1 ∧ c0.length ≤ c.length + 1 := by
  obtain ⟨hr, hs, d, hd, _⟩ := h.facts
  have hA := C57_after_init hr
  rw [hl] at hA hs hd hS
  obtain ⟨st0, ⟨st1, k1, k2⟩, _⟩ := sampled_past hS
  obtain ⟨d0, ⟨d1, k3, k4, rfl⟩⟩ := serial_past hd
  have hA := iterAfterInit_tail (after_init_past hA)
  obtain ⟨ops, m, hL⟩ := sampled_linear hA (sound_past hs).2 k3 k1
  have hany := (iterOk_init hA k3).1 (by rw [k4]; rfl)
  have hrd : m.ready = true := by rw [hL.ready, hany]
  obtain ⟨c0, dr, i, fig, hg, hit, rfl⟩ := k2
  have hg' := hg
  rw [serial_given k3 r k4, hL.cur hrd, Option.some.injEq] at hg
  subst hg
  refine ⟨m.centroids, hg', ?_⟩
  have hit : st1.impl.iterate p m.centroids dr = some (i, c, fig) := hit
  have hstep : m.step p (.iterate dr) = some { m with impl := i, centroids := c } := by
    simp only [McmcSys.step, hrd, if_true, hL.impl, hit]
  exact C30_moves hneg p hcpu hk1 hk2 hi data ops m _ dr hL.run hstep

theorem mcmc_acc_le : ∀ (ops : List (McmcOp D E F)) (m m' : McmcSys E F), McmcSys.run p m ops = some m' →
    m'.impl.acc ≤ m.impl.acc + McmcOp.iters ops := by
  intro ops
  induction ops with
  | nil => intro m m' h; cases h; exact Nat.le_refl _
  | cons o ops ih =>
    intro m m' h
    unfold McmcSys.run at h
    cases hs : m.step p o with
    | none => rw [hs] at h; cases h
    | some m1 =>
      rw [hs] at h
      have h1 := ih m1 m' h
      cases o with
      | push e r =>
        simp only [McmcSys.step] at hs
        split at hs
        · cases hs
        · cases hs; exact h1
      | init d =>
        simp only [McmcSys.step] at hs
        split at hs
        · rename_i impl c hin
          cases hs
          rw [init_acc _ _ _ _ hin] at h1
          exact h1
        · rename_i impl r hne hin
          cases hs
          rw [init_acc _ _ _ _ hin] at h1
          exact h1
      | iterate d =>
        simp only [McmcSys.step] at hs
        simp only [McmcOp.iters]
        split at hs
        · split at hs
          · cases hs; dsimp only at h1; omega
          · rename_i impl clust fig hit
            cases hs
            obtain ⟨q1, _, _, q2⟩ := C32_iterate p _ _ _ _ _ _ hit
            dsimp only at h1
            rw [q2, q1] at h1
            split at h1 <;> omega
        · cases hs

theorem doneSince_single {C : Type} : ∀ {l : List (Event C)}, IterAfterInit l → ∀ {d : Desk C}, Serial l d →
    events isInitRet l ≤ 1 → events isIterOk l = doneSince l ∧
    (events isInitRet l = 0 → events isIterOk l = 0 ∧ l.any initOk = false) := by
  intro l
  induction l with
  | nil => intro _ d _ _; exact ⟨rfl, fun _ => ⟨rfl, rfl⟩⟩
  | cons e l ih =>
    rintro hA d' ⟨d, hs, hn⟩ h1
    have hA' := iterAfterInit_tail hA
    simp only [events, List.countP_cons] at h1
    have ih := ih hA' hs
    simp only [events] at ih
    cases e
    case initRet c err =>
      simp only [isInitRet, if_true] at h1
      obtain ⟨q1, q2⟩ := ih (by omega)
      obtain ⟨q3, q4⟩ := q2 (by omega)
      refine ⟨?_, fun h0 => ?_⟩
      · rw [events, List.countP_cons, q3]; rfl
      · simp [events, isInitRet] at h0
    case iterOk r c =>
      obtain ⟨hb, rfl⟩ := hn
      obtain ⟨q1, q2⟩ := ih (by simpa [isInitRet] using h1)
      refine ⟨?_, fun h0 => ?_⟩
      · rw [events, List.countP_cons, q1]; rfl
      · have h0' : List.countP isInitRet l = 0 := by
          simpa [events, isInitRet] using h0
        obtain ⟨_, q4⟩ := q2 h0'
        rw [(iterOk_init hA' hs).1 (by rw [hb]; rfl)] at q4
        cases q4
    all_goals
      obtain ⟨q1, q2⟩ := ih (by simpa [isInitRet] using h1)
      exact ⟨by rw [events, List.countP_cons, q1]; rfl, fun h0 =>
        q2 (by simpa [events, isInitRet] using h0)⟩

/-- **C112 (acceptations).** The figure `Acceptations` is at most the number of iterations of the implementation,
and at most that of the controller, when no call is in progress, if `Init` was called once. -/
theorem C112_acceptations (h : Disciplined conf s) {st : McmcNotes E F}
    (hS : Sampled p (McmcImpl.new p data) s.log st) {f : McmcFigures F} (hf : st.fig = some f) :
    f.acceptations ≤ events isIterOk s.log ∧
    (events isInitRet s.log ≤ 1 → (∀ t, inside (s.thr t).pc = false) →
      f.acceptations ≤ s.iterations) := by
  obtain ⟨hr, hs, d, hd, hq⟩ := h.facts
  have hA := C57_after_init hr
  obtain ⟨ops, m, hL⟩ := sampled_linear hA hs hd hS
  have h1 : f.acceptations ≤ events isIterOk s.log := by
    have := mcmc_acc_le ops _ _ hL.run
    rw [hL.fig f hf, ← hL.impl, ← hL.iters]
    simpa [McmcSys.new, McmcImpl.new] using this
  refine ⟨h1, fun h2 h3 => ?_⟩
  rw [(hq h3).2, (Serial.desk hd).2, ← (doneSince_single hA hd h2).1]
  exact h1

/-- **C112 (batch).** One client which plays until the limit `N`, positive: once it has waited for the run, the
centroids are those of a history with `N` iterations since the last `Init`, on the elements pushed. -/
theorem C112_batch (hc : Limited conf) (h : OneClient conf s) (hP : Rebatching s.log) {st : McmcNotes E F}
    (hS : Sampled p (McmcImpl.new p data) s.log st) (hp : settled s.log = true)
    (hv : followsL (session s.log).2 ≠ some .running)
    (hN : 0 < conf.iter + pushedSince s.log * conf.iterPerData) :
    ∃ ops m, McmcSys.run p (McmcSys.new p data) ops = some m ∧ m.ready = true ∧ McmcOp.pushes ops = st.pushed ∧
      McmcOp.itersSince ops = conf.iter + pushedSince s.log * conf.iterPerData ∧ s.centroids = some m.centroids := by
  have hD : Disciplined conf s := ⟨h, .inr ⟨hc, hP⟩⟩
  have hr := hD.facts.1
  obtain ⟨ops, m, h1, _, h3, _, h5⟩ := C112_history hD hS
  obtain ⟨d, q1, q2⟩ := C85_serial_batch hc h hP
  have hin := ((RunsInv.of_oneClient hc h hP).ended hP hp hv).2
  have hlim : s.iterations = conf.iter + pushedSince s.log * conf.iterPerData := by
    rw [C82_limit hc h hP hp hv, limit, hr.count.pd]
  have hany := (iterOk_init (C57_after_init hr) q1).2 (by have := (q2 hin).2; omega)
  obtain ⟨h6, h7⟩ := h5 hany
  obtain ⟨h8, h9⟩ := h7 hin
  exact ⟨ops, m, h1, h6, h3, by rw [← h9, hlim], h8⟩

end
/-! ## Executions which meet the hypotheses -/

section
attribute [local instance] exQMath

/-- A test of `Sampled`: `es` are the elements pushed, the last first; every iteration draws `dr`. -/
def sampledF (p : McmcParams Unit ℚ ℚ Unit) (i0 : McmcImpl ℚ ℚ) (dr : McmcDraws ℚ ℚ) :
    List (Event (List ℚ)) → List ℚ → Option (McmcNotes ℚ ℚ)
  | [], [] => some ⟨i0, [], none⟩
  | [], _ :: _ => none
  | e :: l, es =>
    match e with
    | .implPushed =>
      match es with
      | [] => none
      | x :: es =>
        match sampledF p i0 dr l es with
        | none => none
        | some st =>
          match st.impl.buffer.push x (current l).alive with
          | none => none
          | some b => some { st with impl := { st.impl with buffer := b }, pushed := st.pushed ++ [x] }
    | .initRet c none =>
      match sampledF p i0 dr l es, c with
      | some st, some c =>
        match st.impl.init p () with
        | (i, .ok x) => if x = c then some { st with impl := i } else none
        | _ => none
      | _, _ => none
    | .iterOk r c =>
      match sampledF p i0 dr l es, given r l with
      | some st, some c0 =>
        match st.impl.iterate p (c0.getD []) dr with
        | some (i, x, fig) => if x = c then some { st with impl := i, fig := some fig } else none
        | none => none
      | _, _ => none
    | .initRet _ (some _) => none
    | .iterPanic _ _ => none
    | .iterNil _ => none
    | .iterErr _ _ => none
    | .reset => (sampledF p i0 dr l es).map fun st => { st with fig := none }
    | _ => sampledF p i0 dr l es

theorem sampled_of_test {p : McmcParams Unit ℚ ℚ Unit} {i0 : McmcImpl ℚ ℚ} {dr : McmcDraws ℚ ℚ} :
    ∀ {l : List (Event (List ℚ))} {es : List ℚ} {st : McmcNotes ℚ ℚ}, sampledF p i0 dr l es = some st →
      Sampled p i0 l st := by
  intro l
  induction l with
  | nil => intro es st h; cases es <;> cases h; rfl
  | cons e l ih =>
    intro es st h
    cases e
    case implPushed =>
      simp only [sampledF] at h
      cases es with
      | nil => cases h
      | cons x es =>
        simp only at h
        cases h1 : sampledF p i0 dr l es with
        | none => rw [h1] at h; cases h
        | some st0 =>
          rw [h1] at h
          simp only at h
          cases h2 : st0.impl.buffer.push x (current l).alive with
          | none => rw [h2] at h; cases h
          | some b => rw [h2] at h; cases h; exact ⟨st0, ih h1, x, b, h2, rfl⟩
    case initRet c e =>
      cases e with
      | some e => cases h
      | none =>
        simp only [sampledF] at h
        cases h1 : sampledF p i0 dr l es with
        | none => rw [h1] at h; cases h
        | some st0 =>
          rw [h1] at h
          cases c with
          | none => cases h
          | some c =>
            simp only at h
            cases h2 : st0.impl.init p () with
            | mk i r =>
              rw [h2] at h
              cases r with
              | ok x =>
                simp only at h
                split at h
                · rename_i h3; cases h; subst h3; exact ⟨st0, ih h1, (), i, _, h2, rfl, rfl, rfl⟩
                · cases h
              | err => cases h
              | panic => cases h
    case iterOk r c =>
      simp only [sampledF] at h
      cases h1 : sampledF p i0 dr l es with
      | none => rw [h1] at h; cases h
      | some st0 =>
        rw [h1] at h
        cases h2 : given r l with
        | none => rw [h2] at h; cases h
        | some c0 =>
          rw [h2] at h
          simp only at h
          cases h3 : st0.impl.iterate p (c0.getD []) dr with
          | none => rw [h3] at h; cases h
          | some y =>
            obtain ⟨i, x, fig⟩ := y
            rw [h3] at h
            simp only at h
            split at h
            · rename_i h4; cases h; subst h4; exact ⟨st0, ih h1, c0, dr, i, fig, h2, h3, rfl⟩
            · cases h
    case iterPanic => cases h
    case iterNil => cases h
    case iterErr => cases h
    case reset =>
      simp only [sampledF] at h
      cases h1 : sampledF p i0 dr l es with
      | none => rw [h1] at h; cases h
      | some st0 => rw [h1] at h; cases h; exact ⟨st0, ih h1, rfl⟩
    all_goals exact ⟨st, ih h, rfl⟩

open Trace in
/-- `Push` three times, then `acts` and `Centroids()`; the values 5 and 8 are replaced by the centroids 3, the other ones by the
centroids 4 and 9. -/
def mcmcActs (acts : List (Act Nat)) : List (Act (List ℚ)) :=
  ([Act.client] ++ pushIdle ++ pushIdle ++ pushIdle ++ acts ++ [call 0 .centroids, g 0]).map
    (Act.with fun | 5 => [3] | 8 => [3] | _ => [4, 9])

theorem mcmc_example (acts : List (Act Nat)) (n : Nat) (acc : Nat) (hn : Act.client ∉ (mcmcActs acts).tail)
    (key : (exec ⟨2, 0, 0, false, false, false⟩ (new : Algo (List ℚ)) (.client :: (mcmcActs acts).tail)).any
      (fun s => rebatchingB s.log && (sampledF (exMcmc [1, 1, 2]) (McmcImpl.new (exMcmc [1, 1, 2]) [])
          (exDraws (3 / 4) 0) s.log [9, 5, 3]).any (fun st => decide (st.pushed = [3, 5, 9] ∧
            st.fig.map (·.acceptations) = some acc)) &&
        decide (s.iterations = 2 ∧ s.centroids = some [4, 9] ∧ s.log.head? = some (.ret 0 (.centroids (some [4, 9]))) ∧ s.log.any initOk = true ∧
          events isInitRet s.log = n ∧ settled s.log = true ∧ followsL (session s.log).2 ≠ some .running)) = true) :
    ∃ (s : Algo (List ℚ)) (st : McmcNotes ℚ ℚ) (f : McmcFigures ℚ), Limited ⟨2, 0, 0, false, false, false⟩ ∧
      OneClient ⟨2, 0, 0, false, false, false⟩ s ∧ Rebatching s.log ∧
      Sampled (exMcmc [1, 1, 2]) (McmcImpl.new (exMcmc [1, 1, 2]) []) s.log st ∧ st.pushed = [3, 5, 9] ∧
      st.fig = some f ∧ f.acceptations = acc ∧ s.iterations = 2 ∧ s.centroids = some [4, 9] ∧
      s.log.head? = some (.ret 0 (.centroids (some [4, 9]))) ∧ s.log.any initOk = true ∧
      events isInitRet s.log = n ∧ settled s.log = true ∧ followsL (session s.log).2 ≠ some .running := by
  cases he : exec ⟨2, 0, 0, false, false, false⟩ (new : Algo (List ℚ)) (.client :: (mcmcActs acts).tail) with
  | none => rw [he] at key; cases key
  | some s =>
    rw [he, Option.any_some, Bool.and_eq_true, Bool.and_eq_true] at key
    obtain ⟨st, h1, h2⟩ := any_some_true key.1.2
    obtain ⟨h3, h4⟩ := of_decide_eq_true h2
    obtain ⟨f, hf, h5⟩ := Option.map_eq_some_iff.1 h4
    exact ⟨s, st, f, ⟨⟨rfl, rfl, rfl⟩, .inl (by decide)⟩, ⟨_, hn, he⟩, rebatching_of_test key.1.1, sampled_of_test h1, h3, hf, h5,
      of_decide_eq_true key.2⟩

/-- The hypotheses hold: 3, 5 and 9 are pushed; after `Batch` with `Iter` 2 the centroids are 4 and 9, and both
iterations have been accepted. -/
example : ∃ (s : Algo (List ℚ)) (st : McmcNotes ℚ ℚ) (f : McmcFigures ℚ), Limited ⟨2, 0, 0, false, false, false⟩ ∧
    OneClient ⟨2, 0, 0, false, false, false⟩ s ∧ Rebatching s.log ∧
    Sampled (exMcmc [1, 1, 2]) (McmcImpl.new (exMcmc [1, 1, 2]) []) s.log st ∧ st.pushed = [3, 5, 9] ∧
    st.fig = some f ∧ f.acceptations = 2 ∧ s.iterations = 2 ∧ s.centroids = some [4, 9] ∧
    s.log.head? = some (.ret 0 (.centroids (some [4, 9]))) ∧ s.log.any initOk = true ∧
    events isInitRet s.log = 1 ∧ settled s.log = true ∧ followsL (session s.log).2 ≠ some .running :=
  mcmc_example batchNew.tail 1 2 (by decide) (by decide +kernel)

/-- **C112 (acceptations; claim examined).** After a second `Batch` of two iterations, the figure `Acceptations`
is 4, although `Iterations` is 2: the controller counts the iterations since the last initialisation, the
implementation all the acceptations. -/
theorem C112_second_batch : ∃ (conf : Conf) (s : Algo (List ℚ)) (st : McmcNotes ℚ ℚ) (f : McmcFigures ℚ),
    Disciplined conf s ∧ Sampled (exMcmc [1, 1, 2]) (McmcImpl.new (exMcmc [1, 1, 2]) []) s.log st ∧
    st.fig = some f ∧ s.iterations = 2 ∧ f.acceptations = 4 := by
  obtain ⟨s, st, f, h1, h2, h3, h4, _, h6, h7, h8, _⟩ := mcmc_example batchAgain.tail 2 4 (by decide) (by decide +kernel)
  exact ⟨_, s, st, f, ⟨h2, .inr ⟨h1, h3⟩⟩, h4, h6, h8, h7⟩

end

end Distclus
