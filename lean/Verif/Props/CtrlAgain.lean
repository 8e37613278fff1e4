import Verif.Proof.CtrlAgain
import Verif.Props.CtrlPlan
import Verif.Props.KMeansOpt
/-!
# C133: what a client which runs the algorithm again and again observes of k-means
-/
namespace Distclus
open Ctrl Algo Spec

section
variable {E C : Type} {conf : Conf} {s : Algo C}

theorem Algo.PreInv.reading (h : PreInv conf s) (hp : (s.thr 0).pc = .rdCentroids) :
    harmless (session s.log).1 = true := by
  obtain ⟨op, d, ph, hR, hC, _⟩ := h.use.row
  rw [hp] at hC
  rw [hR.1, hC.1]; rfl

/-- When the client reads the centroids, having waited for its last run, the implementation has answered the calls
which the completed calls of the client ask for, and nobody is in the implementation. -/
theorem calls_reading (hc : Limited conf) (h : OneClient conf s) (hP : Rebatching s.log)
    (hp : (s.thr 0).pc = .rdCentroids) (hv : followsL (session s.log).2 ≠ some .running) :
    tags s.log = (plan conf (session s.log).2).tags ∧ ∀ t, inside (s.thr t).pc = false := by
  obtain ⟨hI, hS, d, m, _, hK⟩ := PlanInv.of_oneClient hc h hP
  have h1 := hK.tags
  rw [hp] at h1
  rcases hI.phase with hp' | hp'
  · have hw := hp'.waited hP (hp'.reading hp) hv
    have hm : m = 0 := by by_contra hm; exact hK.live hm hw.2
    subst hm
    refine ⟨h1.symm, fun t => ?_⟩
    cases ht : inside (s.thr t).pc with
    | false => rfl
    | true =>
      have hne : (s.thr t).pc ≠ .dead := by intro h'; rw [h'] at ht; cases ht
      rcases hp'.use.who (hI.ack.lock.lt hne) rfl hne with ⟨rfl, _⟩ | ⟨rfl, _, _, hN⟩ | ⟨_, _, h3, _⟩
      · rw [hw.1] at ht; cases ht
      · generalize (s.thr 1).pc = p at hN ht
        cases p <;> first | (cases ht; done) | exact hN.elim
      · exact absurd (h3.symm.trans hw.2) hne
  · obtain ⟨D, hD⟩ := hS.serInv
    have hm : m = 0 := by
      have hlock := hI.ack.lock
      rw [hp] at hK
      exact hp'.missing hlock hD hK
    subst hm
    exact ⟨h1.symm, fun t => hp'.outside hI.ack.lock t⟩

theorem rebatching_inits : ∀ {l : List (Event C)}, Rebatching l → ∀ c e, .initRet c e ∈ l → e = none := by
  intro l
  induction l with
  | nil => intro _ c e h; cases h
  | cons e l ih =>
    intro h c e' hm
    cases hm with
    | head => exact h.1
    | tail _ hm => exact ih h.2 c e' hm

theorem plan_init {l : List (Op × Res C)} : ∀ {v : ClustStatus}, followsL l = some v →
    (∃ x ∈ l, starts x.1 = true) → Tag.init ∈ (plan conf l).tags := by
  induction l with
  | nil => rintro v _ ⟨x, h, _⟩; cases h
  | cons x l ih =>
    obtain ⟨op, r⟩ := x
    intro v h hx
    cases hl : followsL l with
    | none => simp only [followsL, hl] at h; cases h
    | some w =>
      have hw := (plan_ordered (conf := conf) hl).2
      have keep : Tag.init ∈ (plan conf l).tags → Tag.init ∈ (plan conf ((op, r) :: l)).tags := by
        intro hm
        simp only [plan, hl]
        split <;> (try split) <;> simp [Plan.push, Plan.init, Plan.run, hm]
      by_cases hs : starts op = true
      · rcases hw.2 with rfl | rfl | rfl | rfl | rfl
        · cases op <;> first | (cases hs; done) | simp [plan, hl, Plan.init, Plan.run]
        · exact keep (hw.1 (by simp)).mem
        · exact keep (hw.1 (by simp)).mem
        · exact keep (hw.1 (by simp)).mem
        · cases op <;> first | (cases hs; done) | simp [plan, hl, Plan.init, Plan.run]
      · refine keep (ih hl ?_)
        obtain ⟨x, h1, h2⟩ := hx
        cases h1 with
        | head => exact absurd h2 hs
        | tail _ h1 => exact ⟨x, h1, h2⟩

theorem total_plan : ∀ {l : List (Op × Res C)} {v : ClustStatus}, followsL l = some v →
    total (plan conf l).tags = pushes l := by
  have rep : ∀ n ts, total (List.replicate n .iter ++ ts) = total ts := by
    intro n ts
    induction n with
    | zero => rfl
    | succ n ih => exact ih
  intro l
  induction l with
  | nil => intro v _; rfl
  | cons x l ih =>
    obtain ⟨op, r⟩ := x
    intro v h
    cases hl : followsL l with
    | none => simp only [followsL, hl] at h; cases h
    | some w =>
      have := ih hl
      simp only [followsL, hl] at h
      split at h
      swap
      · cases h
      rename_i hr
      cases op
      case push =>
        have : ∃ e, r = .err e := by
          unfold rightL right at hr
          cases r <;> first | exact ⟨_, rfl⟩ | (split at hr <;> cases hr)
        obtain ⟨e, rfl⟩ := this
        cases e <;> simp_all [plan, pushes, Plan.push, total]
      all_goals
        simp only [plan, hl]
        (try split) <;> simp_all [pushes, Plan.init, Plan.run, total]

theorem pushes_append (a b : List (Op × Res C)) : pushes b ≤ pushes (a ++ b) := by
  induction a with
  | nil => exact le_refl _
  | cons x a ih =>
    refine ih.trans ?_
    obtain ⟨op, r⟩ := x
    rw [List.cons_append]
    generalize a ++ b = l
    cases op <;> try exact le_refl _
    cases r <;> try exact le_refl _
    rename_i e
    cases e
    · exact Nat.le_succ _
    · exact le_refl _

variable {ini : List E → C → Prop} {step : List E → C → Option C}

/-- **C133 (every run).** One client, which runs the algorithm as often as it likes and waits for every run, and an
implementation with a buffer: what `Centroids()` returns when the client has waited is the result of the iterations of
the plan since the last initialisation, each on the data which it sees, from centroids initialised on the data which
`Init` sees; an iteration sees all that was pushed before the iteration before it, or before `Init` if it is the first. -/
theorem C133_views (hc : Limited conf) (h : OneClient conf s) (hP : Rebatching s.log)
    {data : List E} {size : Int} {c : Option C} {l1 l2 : List (Event C)} {st : Notes E}
    (hl : s.log = l1 ++ .ret 0 (.centroids c) :: l2) (hv : followsL (session l2).2 ≠ some .running)
    (hs : ∃ x ∈ (session l2).2, starts x.1 = true)
    (hB : Buffered ini step (newDataBuffer data size) l2 st) :
    st.pushed.length = pushes (session l2).2 ∧
    ∃ D c0, WindowOf size data st.pushed D ∧ ini (D (atInit (plan conf (session l2).2).tags)) c0 ∧
      c = runOn step ((views (plan conf (session l2).2).tags).map D) c0 := by
  obtain ⟨s0, s1, h0, rfl, hst, h1⟩ := OneClient.past h hl
  have hb : Rebatching s0.log := by rw [hl] at hP; exact (rebatching_drop hP).2
  rcases hst.log with ⟨e, _⟩ | ⟨e, h2, _, h3⟩
  · rw [e] at h1
    exact absurd (congrArg List.length h1) (by simp)
  · rw [h1] at h2
    cases h2
    obtain ⟨v, hf⟩ := C82_results hc h0 hb
    obtain ⟨ht, hin⟩ := calls_reading hc h0 hb h3.1 hv
    obtain ⟨d, k1, k2⟩ := C85_serial_batch hc h0 hb
    have hO := (plan_ordered (conf := conf) hf).1
    rw [← ht] at hO
    obtain ⟨hV, _⟩ := Buffered.views hB k1 hO (rebatching_inits hb)
    have hi := plan_init (conf := conf) hf hs
    have hlen := hV.len
    rw [ht, total_plan hf] at hlen
    rw [← ht] at hi ⊢
    obtain ⟨D, c0, q1, q2, q3, _⟩ := hV.run hi
    exact ⟨hlen, D, c0, q1, q2, by rw [h3.2.1, (k2 hin).1, q3]⟩

/-! ## The plan of a client which plays a Created or a Finished algorithm -/

theorem pushed_created : ∀ {l : List (Op × Res C)}, followsL l = some .created →
    (plan conf l).pushed = pushes l := by
  intro l
  induction l with
  | nil => intro _; rfl
  | cons x l ih =>
    obtain ⟨op, r⟩ := x
    intro h
    cases hl : followsL l with
    | none => simp only [followsL, hl] at h; cases h
    | some w =>
      have hw := (plan_ordered (conf := conf) hl).2.2
      simp only [followsL, hl] at h
      split at h
      swap
      · cases h
      rename_i hr
      simp only [Option.some.injEq] at h
      have hcr : w = .created ∧ starts op = false := by
        rcases hw with rfl | rfl | rfl | rfl | rfl <;> cases op <;>
          simp [afterL, after, answer, refusal, starts] at h ⊢
      obtain ⟨rfl, hs⟩ := hcr
      have := ih hl
      cases op
      case push =>
        have : ∃ e, r = .err e := by
          unfold rightL right at hr
          cases r <;> first | exact ⟨_, rfl⟩ | (split at hr <;> cases hr)
        obtain ⟨e, rfl⟩ := this
        cases e <;> simp_all [plan, pushes, Plan.push]
      all_goals first | (cases hs; done) | skip
      all_goals simp_all [plan, pushes]

theorem plan_quiet {m : List (Op × Res C)} : ∀ {a : List (Op × Res C)} {v : ClustStatus}, followsL (a ++ m) = some v →
    (∀ x ∈ a, starts x.1 = false) → (∃ w, followsL m = some w) ∧
    atInit (plan conf (a ++ m)).tags = atInit (plan conf m).tags ∧
    views (plan conf (a ++ m)).tags = views (plan conf m).tags := by
  intro a
  induction a with
  | nil => intro v h _; exact ⟨⟨v, h⟩, rfl, rfl⟩
  | cons x a ih =>
    obtain ⟨op, r⟩ := x
    intro v h hx
    cases hl : followsL (a ++ m) with
    | none => rw [List.cons_append, followsL, hl] at h; cases h
    | some w =>
      obtain ⟨i1, i2, i3⟩ := ih hl fun x hm => hx x (List.mem_cons_of_mem _ hm)
      have hs := hx _ List.mem_cons_self
      refine ⟨i1, ?_⟩
      rw [List.cons_append]
      cases op
      case push =>
        simp only [plan, hl]
        split
        · simp only [Plan.push, atInit, views]; exact ⟨i2, i3⟩
        · exact ⟨i2, i3⟩
      all_goals first | (cases hs; done) | (simp only [plan]; exact ⟨i2, i3⟩)

theorem views_run (n : Nat) (ts : List Tag) :
    views (List.replicate n .iter ++ .init :: ts) = List.replicate n (total ts) ∧
    atInit (List.replicate n .iter ++ .init :: ts) = total ts := by
  have hseen : ∀ n, seen (List.replicate n .iter ++ .init :: ts) = total ts ∧
      total (List.replicate n .iter ++ .init :: ts) = total ts := by
    intro n
    induction n with
    | zero => exact ⟨rfl, rfl⟩
    | succ n ih => exact ⟨ih.2, ih.2⟩
  induction n with
  | zero => exact ⟨rfl, rfl⟩
  | succ n ih =>
    refine ⟨?_, ih.2⟩
    rw [List.replicate_succ, List.cons_append, views, ih.1, (hseen n).1, List.replicate_succ']

theorem views_more (n : Nat) (ts : List Tag) :
    views (List.replicate n .iter ++ ts) =
      views ts ++ (if n = 0 then [] else seen ts :: List.replicate (n - 1) (total ts)) ∧
    atInit (List.replicate n .iter ++ ts) = atInit ts := by
  have htot : ∀ n, total (List.replicate n .iter ++ ts) = total ts := by
    intro n
    induction n with
    | zero => rfl
    | succ n ih => exact ih
  induction n with
  | zero => exact ⟨by simp, rfl⟩
  | succ n ih =>
    refine ⟨?_, ih.2⟩
    rw [List.replicate_succ, List.cons_append, views, ih.1]
    cases n with
    | zero => simp
    | succ n =>
      have : seen (List.replicate (n + 1) .iter ++ ts) = total ts := htot n
      rw [this]
      simp [List.replicate_succ']

/-- The iterations of a run which is started when the algorithm has the status `v`: the elements count for the limit
until the first stop. -/
def batchIters (conf : Conf) (v : ClustStatus) (pushed : Nat) : Nat :=
  conf.iter + (if v = .created then pushed else 0) * conf.iterPerData

theorem plan_batch {a b : List (Op × Res C)} {r : Res C} {v w : ClustStatus}
    (hf : followsL (a ++ (.play, r) :: b) = some v) (ha : ∀ x ∈ a, starts x.1 = false)
    (hb : followsL b = some w) (hw : w = .created ∨ w = .finished) :
    views (plan conf (a ++ (.play, r) :: b)).tags = List.replicate (batchIters conf w (pushes b)) (pushes b) ∧
    atInit (plan conf (a ++ (.play, r) :: b)).tags = pushes b := by
  obtain ⟨_, h2, h3⟩ := plan_quiet (conf := conf) hf ha
  rw [h2, h3]
  have ht := total_plan (conf := conf) hb
  rcases hw with rfl | rfl
  · simp only [plan, hb, Plan.run, Plan.init, itersSince, reduceCtorEq, if_false]
    rw [(views_run _ _).1, (views_run _ _).2, ht, pushed_created hb]
    exact ⟨by simp [batchIters], rfl⟩
  · simp only [plan, hb, Plan.run, Plan.init, itersSince, if_true]
    rw [(views_run _ _).1, (views_run _ _).2, ht]
    exact ⟨by simp [batchIters], rfl⟩
end

section
variable {E F : Type} [Zero F] [One F] [Neg F] [LT F] [DecidableLT F]

theorem runOn_kmeans (alg : KStrategy) (space : Space E F) : ∀ (ds : List (List E)) (c : List E),
    runOn (kmeansStep alg space) ds c = kmeansRun alg space ds c := by
  intro ds
  induction ds with
  | nil => intro c; rfl
  | cons d ds ih =>
    intro c
    simp only [runOn, kmeansRun]
    cases kmeansStep alg space d c with
    | none => rfl
    | some c' => exact ih c'

theorem kmeansRun_append (alg : KStrategy) (space : Space E F) (es : List (List E)) : ∀ (ds : List (List E)) (c : List E),
    kmeansRun alg space (ds ++ es) c = (kmeansRun alg space ds c).bind (kmeansRun alg space es) := by
  intro ds
  induction ds with
  | nil => intro c; rfl
  | cons x ds ih =>
    intro c
    simp only [List.cons_append, kmeansRun]
    cases kmeansStep alg space x c with
    | none => rfl
    | some c' => exact ih c'

variable {conf : Conf} {s : Algo (List E)} {ini : List E → List E → Prop}

/-- **C133 (batches).** The calls of the client until then are `a` after `Play` after `b`, where `Play` is called on an
algorithm which is Created or Finished, as by `Batch`, and `a` neither initialises nor plays: `Centroids()` is the
result of k-means on the data of `NewAlgo` and all that was pushed in `b`, however many runs there have been in `b`;
the iterations are those of the limit, for which the elements do not count once the algorithm has been stopped. -/
theorem C133_batches (alg : KStrategy) (space : Space E F) (hc : Limited conf) (h : OneClient conf s)
    (hP : Rebatching s.log) {data : List E} {size : Int} {c : Option (List E)}
    {l1 l2 : List (Event (List E))} {st : Notes E} (hl : s.log = l1 ++ .ret 0 (.centroids c) :: l2)
    {a b : List (Op × Res (List E))} {r : Res (List E)} {v : ClustStatus}
    (hab : (session l2).2 = a ++ (.play, r) :: b) (ha : ∀ x ∈ a, starts x.1 = false)
    (hb : followsL b = some v) (hcf : v = .created ∨ v = .finished)
    (hv : followsL (session l2).2 ≠ some .running)
    (hB : Buffered ini (kmeansStep alg space) (newDataBuffer data size) l2 st) :
    ∃ D S c0, S.Perm (data ++ st.pushed.take (pushes b)) ∧ D.Perm (window size S) ∧ ini D c0 ∧
      c = kmeansRun alg space (List.replicate (batchIters conf v (pushes b)) D) c0 := by
  obtain ⟨hlen, D, c0, h1, h2, h3⟩ := C133_views hc h hP hl hv ⟨(.play, r), by rw [hab]; simp, rfl⟩ hB
  obtain ⟨s0, s1, h0, rfl, hst, _⟩ := OneClient.past h hl
  have hb' : Rebatching s0.log := by rw [hl] at hP; exact (rebatching_drop hP).2
  obtain ⟨w, hf⟩ := C82_results hc h0 hb'
  rw [hab] at hf h2 h3
  obtain ⟨k1, k2⟩ := plan_batch (conf := conf) hf ha hb hcf
  rw [k2] at h2
  rw [k1, List.map_replicate, runOn_kmeans] at h3
  have hle : pushes b ≤ st.pushed.length := by
    rw [hlen, hab]
    have := pushes_append (a ++ [(.play, r)]) b
    simpa using this
  obtain ⟨S, q1, q2⟩ := h1 _ hle
  exact ⟨_, S, c0, q1, q2, h2, h3⟩

/-- **C133 (number of centroids).** With an initializer which yields `k` centroids, `Centroids()` is `k` centroids,
whatever the runs. -/
theorem C133_count (hneg : (-1 : F) < 0) (alg : KStrategy) (ha : alg.Valid) (space : Space E F)
    (hc : Limited conf) (h : OneClient conf s) (hP : Rebatching s.log) {k : Nat} (hk : 0 < k)
    (hini : ∀ D c, ini D c → c.length = k) {data : List E} {size : Int} {c : Option (List E)}
    {l1 l2 : List (Event (List E))} {st : Notes E} (hl : s.log = l1 ++ .ret 0 (.centroids c) :: l2)
    (hv : followsL (session l2).2 ≠ some .running) (hs : ∃ x ∈ (session l2).2, starts x.1 = true)
    (hB : Buffered ini (kmeansStep alg space) (newDataBuffer data size) l2 st) :
    ∃ out, c = some out ∧ out.length = k := by
  obtain ⟨_, D, c0, _, h1, h2⟩ := C133_views hc h hP hl hv hs hB
  have hne : c0 ≠ [] := by
    rintro rfl
    have := hini _ _ h1
    simp at this
    omega
  rw [runOn_kmeans] at h2
  obtain ⟨out, h3, h4⟩ := C23_run hneg alg ha space _ c0 hne
  exact ⟨out, h2.trans h3, h4.trans (hini _ _ h1)⟩

/-- **C133 (played again).** The calls are `a` after `Play` after `b`, and `Play` is called on an algorithm which is
Ready: the run makes what is missing to the limit after the iterations of `b`, and the first of its iterations does
not see what was pushed since `Init` or since the run before. -/
theorem C133_again (alg : KStrategy) (space : Space E F) (hc : Limited conf) (h : OneClient conf s)
    (hP : Rebatching s.log) {data : List E} {size : Int} {c : Option (List E)}
    {l1 l2 : List (Event (List E))} {st : Notes E} (hl : s.log = l1 ++ .ret 0 (.centroids c) :: l2)
    {a b : List (Op × Res (List E))} {r : Res (List E)}
    (hab : (session l2).2 = a ++ (.play, r) :: b) (ha : ∀ x ∈ a, starts x.1 = false)
    (hb : followsL b = some .ready) (hv : followsL (session l2).2 ≠ some .running)
    (hB : Buffered ini (kmeansStep alg space) (newDataBuffer data size) l2 st) :
    let p := plan conf b
    let n := conf.iter + p.pushed * conf.iterPerData - itersSince p.tags
    ∃ D c0 before, WindowOf size data st.pushed D ∧ ini (D (atInit p.tags)) c0 ∧
      before = kmeansRun alg space ((views p.tags).map D) c0 ∧
      c = before.bind (kmeansRun alg space
        (if n = 0 then [] else D (seen p.tags) :: List.replicate (n - 1) (D (pushes b)))) := by
  intro p n
  obtain ⟨hlen, D, c0, h1, h2, h3⟩ := C133_views hc h hP hl hv ⟨(.play, r), by rw [hab]; simp, rfl⟩ hB
  obtain ⟨s0, s1, h0, rfl, hst, _⟩ := OneClient.past h hl
  have hb' : Rebatching s0.log := by rw [hl] at hP; exact (rebatching_drop hP).2
  obtain ⟨w, hf⟩ := C82_results hc h0 hb'
  rw [hab] at hf h2 h3
  obtain ⟨_, k2, k3⟩ := plan_quiet (conf := conf) hf ha
  have hp : (plan conf ((.play, r) :: b)).tags = List.replicate n .iter ++ p.tags := by
    simp only [plan, hb, Plan.run]; rfl
  obtain ⟨v1, v2⟩ := views_more n p.tags
  rw [k2, hp, v2] at h2
  rw [k3, hp, v1, total_plan hb, runOn_kmeans, List.map_append, kmeansRun_append] at h3
  refine ⟨D, c0, _, h1, h2, rfl, h3.trans ?_⟩
  congr 2
  split <;> simp
end

/-- **C133 (stationary).** In exact Euclidean arithmetic, with a buffer without window and `Iter` at least `k ^ n` for
`k` centroids and `n` elements: after every `Batch` the centroids are stationary for all that was pushed before it. -/
theorem C133_stationary {n : Nat} {conf : Conf} {s : Algo (List (Vec ℝ n))} (alg : KStrategy) (ha : alg.Valid)
    {ini : List (Vec ℝ n) → List (Vec ℝ n) → Prop} {k : Nat} (hk : 0 < k) (hini : ∀ D c, ini D c → c.length = k)
    (hc : Limited conf) (h : OneClient conf s)
    (hP : Rebatching s.log) {data : List (Vec ℝ n)} {c : Option (List (Vec ℝ n))}
    {l1 l2 : List (Event (List (Vec ℝ n)))} {st : Notes (Vec ℝ n)}
    (hl : s.log = l1 ++ .ret 0 (.centroids c) :: l2)
    {a b : List (Op × Res (List (Vec ℝ n)))} {r : Res (List (Vec ℝ n))} {v : ClustStatus}
    (hab : (session l2).2 = a ++ (.play, r) :: b) (hs : ∀ x ∈ a, starts x.1 = false)
    (hb : followsL b = some v) (hcf : v = .created ∨ v = .finished)
    (hv : followsL (session l2).2 ≠ some .running)
    (hB : Buffered ini (kmeansStep alg (euclidSpace ℝ n)) (newDataBuffer data 0) l2 st)
    (hN : k ^ (data.length + pushes b) ≤ conf.iter) :
    ∃ (D out : List (Vec ℝ n)), D.Perm (data ++ st.pushed.take (pushes b)) ∧ c = some out ∧ out.length = k ∧
      ∀ (l : Nat) (x : Vec ℝ n), out[l]? = some x →
        let ms := D.filter fun e => (nearest (euclidSpace ℝ n) out e).1 == (l : Int)
        ms ≠ [] → x.coords = mean (ms.map Vec.coords) := by
  obtain ⟨D, S, c0, h1, h2, h3, h4⟩ := C133_batches alg (euclidSpace ℝ n) hc h hP hl hab hs hb hcf hv hB
  have hk0 := hini _ _ h3
  have hne : c0 ≠ [] := by
    rintro rfl
    simp at hk0
    omega
  obtain ⟨N, out, q1, q2, q3, q4⟩ := C89_converges alg ha c0 D hne
  have hD : D.Perm (data ++ st.pushed.take (pushes b)) := h2.trans h1
  have hout : out ≠ [] := by
    intro h; subst h; exact hne (List.length_eq_zero_iff.1 (by simpa using q2.symm))
  have hlen : D.length ≤ data.length + pushes b := by
    rw [hD.length_eq, List.length_append, List.length_take]; omega
  rw [hk0] at q1
  have hle : N ≤ conf.iter := (q1.trans (Nat.pow_le_pow_right hk hlen)).trans hN
  exact ⟨D, out, hD, h4.trans (q4 _ (hle.trans (Nat.le_add_right _ _))), q2.trans hk0,
    (C89_stationary alg ha out D hout).1 q3⟩

/-- **C133 (one centroid).** With one centroid and `Iter` positive, the centroid after every `Batch` is the mean of all
that was pushed before it. -/
theorem C133_mean {n : Nat} {conf : Conf} {s : Algo (List (Vec ℝ n))} (alg : KStrategy) (ha : alg.Valid)
    {ini : List (Vec ℝ n) → List (Vec ℝ n) → Prop} (hini : ∀ D c, ini D c → c.length = 1)
    (hc : Limited conf) (h : OneClient conf s)
    (hP : Rebatching s.log) {data : List (Vec ℝ n)} {c : Option (List (Vec ℝ n))}
    {l1 l2 : List (Event (List (Vec ℝ n)))} {st : Notes (Vec ℝ n)}
    (hl : s.log = l1 ++ .ret 0 (.centroids c) :: l2)
    {a b : List (Op × Res (List (Vec ℝ n)))} {r : Res (List (Vec ℝ n))} {v : ClustStatus}
    (hab : (session l2).2 = a ++ (.play, r) :: b) (hs : ∀ x ∈ a, starts x.1 = false)
    (hb : followsL b = some v) (hcf : v = .created ∨ v = .finished)
    (hv : followsL (session l2).2 ≠ some .running)
    (hB : Buffered ini (kmeansStep alg (euclidSpace ℝ n)) (newDataBuffer data 0) l2 st)
    (hN : 1 ≤ conf.iter) (hd : data ++ st.pushed.take (pushes b) ≠ []) :
    ∃ m : Vec ℝ n, c = some [m] ∧ m.coords = mean ((data ++ st.pushed.take (pushes b)).map Vec.coords) := by
  obtain ⟨D, out, h1, h2, h3, h4⟩ :=
    C133_stationary alg ha (by omega) hini hc h hP hl hab hs hb hcf hv hB (by simpa using hN)
  obtain ⟨m, rfl⟩ := List.length_eq_one_iff.1 h3
  refine ⟨m, h2, ?_⟩
  have hf : (D.filter fun e => (nearest (euclidSpace ℝ n) [m] e).1 == ((0 : Nat) : Int)) = D := by
    rw [List.filter_eq_self]; intro a _; simp [nearest_one]
  have h5 := h4 0 m rfl
  rw [hf] at h5
  rw [h5 fun e => hd (by rw [e] at h1; exact h1.symm.eq_nil), mean, mean, (h1.map Vec.coords).sum_eq,
    (h1.map Vec.coords).length_eq]

/-! ## Executions which meet the hypotheses -/

open Trace in
/-- Three `Push`, `Batch`, a fourth `Push`, `Batch`, `Centroids()`. -/
def kmeansTwice : List (Act (List Int)) :=
  ([Act.client] ++ pushIdle ++ pushIdle ++ pushIdle ++ batchNew.tail ++ pushIdle ++ batchAgain.drop batchNew.length ++
    [call 0 .centroids, g 0]).map (Act.with fun | 5 | 8 => [1, 9] | 9 | 10 => [2, 10] | _ => [2, 9])

theorem again_example (conf : Conf) (as : List (Act (List Int))) (data es : List Int)
    (c : List Int) (a b : List (Op × Res (List Int))) (r : Res (List Int)) (v : ClustStatus) (hn : .client ∉ as)
    (key : (exec conf (new : Algo (List Int)) (.client :: as)).any (fun s =>
      rebatchingB s.log &&
      decide (s.log.head? = some (.ret 0 (.centroids (some c))) ∧
        (session s.log.tail).2 = a ++ (.play, r) :: b ∧ followsL b = some v ∧
        followsL (session s.log.tail).2 ≠ some .running ∧
        (bufferedF firstTwo (kmeansStep .seq exSpace) (newDataBuffer data 0) s.log.tail es).any
          (fun st => st.pushed = es.reverse) = true)) = true) :
    ∃ (s : Algo (List Int)) (l2 : List (Event (List Int))) (st : Notes Int), OneClient conf s ∧ Rebatching s.log ∧
    s.log = [] ++ .ret 0 (.centroids (some c)) :: l2 ∧ (session l2).2 = a ++ (.play, r) :: b ∧ followsL b = some v ∧
    followsL (session l2).2 ≠ some .running ∧
    Buffered (fun d c => firstTwo d c = true) (kmeansStep .seq exSpace) (newDataBuffer data 0) l2 st ∧
    st.pushed = es.reverse := by
  cases he : exec conf (new : Algo (List Int)) (.client :: as) with
  | none => rw [he] at key; cases key
  | some s =>
    rw [he, Option.any_some, Bool.and_eq_true] at key
    obtain ⟨h1, h2, h3, h4, h5⟩ := of_decide_eq_true key.2
    obtain ⟨st, hst, h6⟩ := any_some_true h5
    refine ⟨s, s.log.tail, st, ⟨as, hn, he⟩, rebatching_of_test key.1, ?_, h2, h3, h4, buffered_of_test hst,
      of_decide_eq_true h6⟩
    cases hl : s.log with
    | nil => rw [hl] at h1; cases h1
    | cons e l => rw [hl] at h1; cases h1; rfl

/-- What the client has called before the second `Play` of `kmeansTwice`. -/
def twiceBefore : List (Op × Res (List Int)) :=
  [(.stop, .err (some .notAlive)), (.push, .err none), (.stop, .err none), (.wait false false, .err none),
    (.play, .err none), (.stop, .err (some .notAlive)), (.push, .err none), (.push, .err none), (.push, .err none)]

/-- The hypotheses of C133 hold: 1, 9 and 3 are pushed, then `Batch`, then 11 is pushed, then `Batch`: the second one
starts again from 1 and 9, and `Centroids()` is 2 and 10, on four elements. -/
example : (∃ (s : Algo (List Int)) (l2 : List (Event (List Int))) (st : Notes Int),
    OneClient ⟨2, 0, 0, false, false, false⟩ s ∧ Rebatching s.log ∧
    s.log = [] ++ .ret 0 (.centroids (some [2, 10])) :: l2 ∧
    (session l2).2 = [(.stop, .err none), (.wait false false, .err none)] ++ (.play, .err none) :: twiceBefore ∧
    followsL twiceBefore = some .finished ∧ followsL (session l2).2 ≠ some .running ∧
    Buffered (fun d c => firstTwo d c = true) (kmeansStep .seq exSpace) (newDataBuffer [] 0) l2 st ∧
    st.pushed = [1, 9, 3, 11]) ∧ pushes twiceBefore = 4 ∧
    batchIters ⟨2, 0, 0, false, false, false⟩ .finished 4 = 2 :=
  ⟨again_example _ kmeansTwice.tail [] [11, 3, 9, 1] [2, 10] _ _ _ _ (by decide) (by decide +kernel), by decide,
    by decide⟩

open Trace in
/-- `Push` twice, `Init`, `Play`, `Wait`, `Push`, `Play`, `Wait`, `Centroids()`. -/
def kmeansMore : List (Act (List Int)) :=
  ([Act.client] ++ pushIdle ++ pushIdle ++ init.tail ++ play ++ [call 0 (.wait false false), g 0, g 0] ++ iterate 5 ++
    iterate 5 ++ runOut ++ pushIdle ++ [call 0 .play, g 0, g 0, g 3, g 0, recv 3 0, g 3, recv 1 3, g 1, g 0, g 3,
      recv 0 3, g 0, g 0, call 0 (.wait false false), g 0, g 0, g 3, g 3, Act.act 3 .default, Act.act 3 (.iterOk 5), g 3, g 3,
      g 3, g 3, g 3, g 3, recv 1 3, g 1, g 3, g 3, g 3, Act.act 3 .default, Act.act 3 .default, g 3, g 3, g 0, g 0] ++
    [call 0 .centroids, g 0]).map (Act.with fun _ => [1, 9])

/-- What the client has called before the second `Play` of `kmeansMore`. -/
def moreBefore : List (Op × Res (List Int)) :=
  [(.push, .err none), (.wait false false, .err none), (.play, .err none), (.init, .err none), (.push, .err none),
    (.push, .err none)]

/-- **C133 (observed).** `IterPerData` is 1: 1 and 9 are pushed, the algorithm is initialised and played; then 3 is
pushed and it is played again, which makes the one iteration that the new element asks for: this iteration does not
see the element, and `Centroids()` is still 1 and 9, although an iteration on all the data yields 2 and 9. -/
theorem C133_not_seen : (∃ (s : Algo (List Int)) (l2 : List (Event (List Int))) (st : Notes Int),
    OneClient ⟨0, 1, 0, false, false, false⟩ s ∧ Rebatching s.log ∧
    s.log = [] ++ .ret 0 (.centroids (some [1, 9])) :: l2 ∧
    (session l2).2 = [(.wait false false, .err none)] ++ (.play, .err none) :: moreBefore ∧
    followsL moreBefore = some .ready ∧ followsL (session l2).2 ≠ some .running ∧
    Buffered (fun d c => firstTwo d c = true) (kmeansStep .seq exSpace) (newDataBuffer [] 0) l2 st ∧
    st.pushed = [1, 9, 3]) ∧
    kmeansStep .seq exSpace [1, 9, 3] [1, 9] = some [2, 9] :=
  ⟨again_example _ kmeansMore.tail [] [3, 9, 1] [1, 9] _ _ _ _ (by decide) (by decide +kernel), by decide⟩

end Distclus
