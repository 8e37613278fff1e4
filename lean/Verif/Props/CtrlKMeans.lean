import Verif.Proof.CtrlBuffered
import Verif.Props.CtrlSerial
import Verif.Props.KMeans
import Verif.Props.KMeansInit
/-!
# C87, C88: what a client observes of k-means

C87: after `Batch`, `Centroids()` is the result of k-means on all the data pushed.  C88: the data pushed
between `Init` and `Play` are staged: the first iteration does not see them, and there is a limit on their
number.
-/
namespace Distclus
open Ctrl Algo Spec

section
variable {E C : Type} {conf : Conf} {s : Algo C} {ini : List E → C → Prop} {step : List E → C → Option C}

/-- What `Centroids()` is once the client has waited for the run, for an implementation with a buffer. -/
theorem buffered_centroids (hc : Limited conf) (h : OneClient conf s) (hP : Batching s.log)
    {data : List E} {size : Int} {t : Nat} {c : Option C} {l1 l2 : List (Event C)} {st : Notes E}
    (hl : s.log = l1 ++ .ret t (.centroids c) :: l2)
    (hp : played (session l2).2 = true) (hv : followsL (session l2).2 ≠ some .running)
    (hB : Buffered ini step (newDataBuffer data size) l2 st) :
    (∃ c0, ini st.base.data c0 ∧
      c = times (fun n => step (st.seen n)) (conf.iter + pushedSince l2 * conf.iterPerData) c0) ∧
    (Cold l2 → st.since = []) := by
  obtain ⟨s0, s1, h0, rfl, _, _⟩ := OneClient.past h hl
  have hb : Batching s0.log := by
    rw [hl] at hP; exact (batching_drop hP).2
  have hT := OneClient.tidy hc h0 hb
  have hE := (BatchInv.of_oneClient hc h0 hb).ended hb hp hv
  have hpipe : (newDataBuffer data size).pipe = [] := (BufRep.init data size).pipe
  obtain ⟨c0, h3, h4⟩ := Buffered.initial hB (batching_inits hb) (hT.ini hE.n3)
  refine ⟨⟨c0, h4, ?_⟩, fun hC => Buffered.fresh hB (hT.cold hC (.inl hE.n3))⟩
  rw [C86_centroids hc h (BatchInv.of_oneClient hc h hP).reb hl (Buffered.computes hpipe hB hT.orderly)
    (batching_settled hb hp) hv, h3]
  rfl
end

section
variable {E F : Type} [Zero F] [One F] [Neg F] [LT F] [DecidableLT F]

theorem kmeansRun_snoc (alg : KStrategy) (space : Space E F) (d : List E) : ∀ (ds : List (List E)) (c : List E),
    kmeansRun alg space (ds ++ [d]) c = (kmeansRun alg space ds c).bind (kmeansStep alg space d) := by
  intro ds
  induction ds with
  | nil => intro c; simp only [List.nil_append, kmeansRun, Option.bind_some]; cases kmeansStep alg space d c <;> rfl
  | cons x ds ih =>
    intro c
    simp only [List.cons_append, kmeansRun]
    cases kmeansStep alg space x c with
    | none => rfl
    | some c' => exact ih c'

theorem times_kmeans (alg : KStrategy) (space : Space E F) (g : Nat → List E) (c : List E) : ∀ n,
    times (fun n => kmeansStep alg space (g n)) n c = kmeansRun alg space ((List.range n).map g) c := by
  intro n
  induction n with
  | zero => rfl
  | succ n ih => rw [List.range_succ, List.map_append, List.map_singleton, kmeansRun_snoc, ← ih]; rfl

variable {conf : Conf} {s : Algo (List E)} {ini : List E → List E → Prop}

/-- **C88 (iterations).** Once the client has waited for the run, `Centroids()` is the result of the
iterations of k-means, as many as the limit says, on the initial centroids: the first iteration on the data
`D` stored by the last `Init`, on which the initial centroids have been computed, the next ones on all the
data pushed.  The buffer keeps a window of the data if it has a size. -/
theorem C88_first_iteration (alg : KStrategy) (space : Space E F) (hc : Limited conf) (h : OneClient conf s)
    (hP : Batching s.log) {data : List E} {size : Int} {t : Nat} {c : Option (List E)}
    {l1 l2 : List (Event (List E))} {st : Notes E} (hl : s.log = l1 ++ .ret t (.centroids c) :: l2)
    (hp : played (session l2).2 = true) (hv : followsL (session l2).2 ≠ some .running)
    (hB : Buffered ini (kmeansStep alg space) (newDataBuffer data size) l2 st) :
    ∃ D D' S S' c0, (S ++ st.since).Perm (data ++ st.pushed) ∧ S'.Perm (data ++ st.pushed) ∧
      D.Perm (window size S) ∧ D'.Perm (window size S') ∧ ini D c0 ∧
      c = kmeansRun alg space ((List.range (conf.iter + pushedSince l2 * conf.iterPerData)).map
        fun n => if n = 0 then D else D') c0 := by
  obtain ⟨⟨c0, h1, h2⟩, _⟩ := buffered_centroids hc h hP hl hp hv hB
  have hH := Buffered.hold hB
  obtain ⟨S, h3, h4⟩ := hH.start
  obtain ⟨S', h5, h6⟩ := hH.full
  refine ⟨st.base.data, st.full.data, S, S', c0, h3, h5, h4, h6, h1, ?_⟩
  rw [h2, times_kmeans]
  rfl

/-- **C87.** When `Play` was not called on an algorithm which was Ready, as in `Batch` on an algorithm which
is Created or Finished: once the client has waited for the run, `Centroids()` is the result of as many
iterations of k-means as the limit says, on all the data pushed, from the initial centroids computed on all
the data pushed. -/
theorem C87_kmeans (alg : KStrategy) (space : Space E F) (hc : Limited conf) (h : OneClient conf s)
    (hP : Batching s.log) {data : List E} {size : Int} {t : Nat} {c : Option (List E)}
    {l1 l2 : List (Event (List E))} {st : Notes E} (hl : s.log = l1 ++ .ret t (.centroids c) :: l2)
    (hp : played (session l2).2 = true) (hv : followsL (session l2).2 ≠ some .running) (hC : Cold l2)
    (hB : Buffered ini (kmeansStep alg space) (newDataBuffer data size) l2 st) :
    ∃ D S c0, S.Perm (data ++ st.pushed) ∧ D.Perm (window size S) ∧ ini D c0 ∧
      c = kmeansRun alg space (List.replicate (conf.iter + pushedSince l2 * conf.iterPerData) D) c0 := by
  obtain ⟨⟨c0, h1, h2⟩, hF⟩ := buffered_centroids hc h hP hl hp hv hB
  have hsince := hF hC
  obtain ⟨S, h3, h4⟩ := (Buffered.hold hB).start
  rw [hsince, List.append_nil] at h3
  refine ⟨st.base.data, S, c0, h3, h4, h1, ?_⟩
  have : st.seen = fun _ => st.base.data := by
    funext n
    simp only [Notes.seen, Notes.full_fresh hsince, ite_self]
  rw [h2, times_kmeans, this, List.map_const', List.length_range]

/-- **C87 (number of centroids).** Hence with an initializer which yields `k` centroids `Centroids()` is `k`
centroids. -/
theorem C87_count (hneg : (-1 : F) < 0) (alg : KStrategy) (ha : alg.Valid) (space : Space E F)
    (hc : Limited conf) (h : OneClient conf s) (hP : Batching s.log) {k : Nat} (hk : 0 < k)
    (hini : ∀ D c, ini D c → c.length = k) {data : List E} {size : Int} {t : Nat} {c : Option (List E)}
    {l1 l2 : List (Event (List E))} {st : Notes E} (hl : s.log = l1 ++ .ret t (.centroids c) :: l2)
    (hp : played (session l2).2 = true) (hv : followsL (session l2).2 ≠ some .running)
    (hB : Buffered ini (kmeansStep alg space) (newDataBuffer data size) l2 st) :
    ∃ out, c = some out ∧ out.length = k := by
  obtain ⟨D, D', _, _, c0, _, _, _, _, h1, h2⟩ := C88_first_iteration alg space hc h hP hl hp hv hB
  have hne : c0 ≠ [] := by
    rintro rfl
    have := hini _ _ h1
    simp at this
    omega
  obtain ⟨out, h3, h4⟩ := C23_run hneg alg ha space _ c0 hne
  exact ⟨out, h2.trans h3, h4.trans (hini _ _ h1)⟩
end

/-- **C87 (loss).** In exact Euclidean arithmetic the centroids observed after `Batch` are not worse than the
initial ones, on all the data pushed. -/
theorem C87_loss {n : Nat} {conf : Conf} {s : Algo (List (Vec ℝ n))} (alg : KStrategy) (ha : alg.Valid)
    {ini : List (Vec ℝ n) → List (Vec ℝ n) → Prop} (hini : ∀ D c, ini D c → c ≠ [])
    (hc : Limited conf) (h : OneClient conf s)
    (hP : Batching s.log) {data : List (Vec ℝ n)} {t : Nat} {c : Option (List (Vec ℝ n))}
    {l1 l2 : List (Event (List (Vec ℝ n)))} {st : Notes (Vec ℝ n)}
    (hl : s.log = l1 ++ .ret t (.centroids c) :: l2)
    (hp : played (session l2).2 = true) (hv : followsL (session l2).2 ≠ some .running) (hC : Cold l2)
    (hB : Buffered ini (kmeansStep alg (euclidSpace ℝ n)) (newDataBuffer data 0) l2 st) :
    ∃ D c0 out before after, D.Perm (data ++ st.pushed) ∧ ini D c0 ∧ c = some out ∧
      totalLoss (euclidSpace ℝ n) c0 D 2 = some before ∧
      totalLoss (euclidSpace ℝ n) out D 2 = some after ∧ after ≤ before := by
  obtain ⟨D, S, c0, h1, h2, h3, h4⟩ := C87_kmeans alg (euclidSpace ℝ n) hc h hP hl hp hv hC hB
  obtain ⟨ci, cj, li, lj, q1, q2, q3, q4, q5⟩ := C25_loss_run alg ha D 0
    (conf.iter + pushedSince l2 * conf.iterPerData) (Nat.zero_le _) c0 (hini _ _ h3)
  cases q1
  exact ⟨D, c0, cj, li, lj, h2.trans h1, h3, h4.trans q2, q3, q4, q5⟩

/-- **C88 (limit).** Before the first iteration, when the algorithm is Ready, at most 2000 elements have been
pushed since the last `Init`: one more `Push` does not end. -/
theorem C88_capacity {E C : Type} {conf : Conf} {s : Algo C} {ini : List E → C → Prop}
    {step : List E → C → Option C} (hc : Limited conf) (h : OneClient conf s) (hP : Batching s.log)
    (hr : s.status.value = .ready) (hn : NoIter s.log) {data : List E} {size : Int}
    {st : Notes E} (hB : Buffered ini step (newDataBuffer data size) s.log st) : st.since.length ≤ 2000 := by
  have hT := OneClient.tidy hc h hP
  have hI := Buffered.inv (BufRep.init data size).pipe hB hT.orderly
  have h1 : st.buf = staged st := hI.before hn (hT.steady (.inr (.inl hr)))
  have h2 := hI.cap
  rw [h1] at h2
  exact h2

/-! ## Executions which meet the hypotheses -/

/-- The same action with other centroids. -/
def Act.with {C : Type} (f : Nat → C) : Act Nat → Act C
  | .client => .client
  | .act t a => .act t (match a with
    | .go => .go | .default => .default | .recv j => .recv j | .call op => .call op
    | .initRet c e => .initRet (c.map f) e | .iterOk c => .iterOk (f c) | .iterNil => .iterNil
    | .iterErr e => .iterErr e | .iterPanic e => .iterPanic e | .pushRet e => .pushRet e
    | .answer b => .answer b)

/-- A test of `Buffered`: `es` are the elements pushed, the last first. -/
def bufferedF {E C : Type} [DecidableEq C] (ini : List E → C → Bool) (step : List E → C → Option C)
    (b0 : DataBuffer E) : List (Event C) → List E → Option (Notes E)
  | [], [] => some ⟨b0, [], b0, []⟩
  | [], _ :: _ => none
  | e :: l, es =>
    match e with
    | .implPushed =>
      match es with
      | [] => none
      | x :: es =>
        match bufferedF ini step b0 l es with
        | none => none
        | some st =>
          match st.buf.push x (current l).alive with
          | none => none
          | some b => some { st with buf := b, pushed := st.pushed ++ [x], since := st.since ++ [x] }
    | .initRet c _ =>
      match bufferedF ini step b0 l es, c with
      | some st, some c0 =>
        if ini st.buf.apply.data c0 then
          some { st with buf := st.buf.apply, base := st.buf.apply, since := [] }
        else none
      | _, _ => none
    | .iterOk r c =>
      match bufferedF ini step b0 l es, given r l with
      | some st, some (some c0) =>
        if step st.buf.data c0 = some c then some { st with buf := st.buf.apply } else none
      | _, _ => none
    | _ => bufferedF ini step b0 l es

theorem buffered_of_test {E C : Type} [DecidableEq C] {ini : List E → C → Bool} {step : List E → C → Option C}
    {b0 : DataBuffer E} : ∀ {l : List (Event C)} {es : List E} {st : Notes E},
    bufferedF ini step b0 l es = some st → Buffered (fun d c => ini d c = true) step b0 l st := by
  intro l
  induction l with
  | nil => intro es st h; cases es <;> cases h; rfl
  | cons e l ih =>
    intro es st h
    cases e
    case implPushed =>
      simp only [bufferedF] at h
      cases es with
      | nil => cases h
      | cons x es =>
        simp only at h
        cases h1 : bufferedF ini step b0 l es with
        | none => rw [h1] at h; cases h
        | some st0 =>
          rw [h1] at h
          simp only at h
          cases h2 : st0.buf.push x (current l).alive with
          | none => rw [h2] at h; cases h
          | some b => rw [h2] at h; cases h; exact ⟨st0, ih h1, x, b, h2, rfl⟩
    case initRet c e =>
      simp only [bufferedF] at h
      cases h1 : bufferedF ini step b0 l es with
      | none => rw [h1] at h; cases h
      | some st0 =>
        rw [h1] at h
        cases c with
        | none => cases h
        | some c0 =>
          simp only at h
          split at h
          · rename_i h2; cases h; exact ⟨st0, ih h1, fun _ => ⟨c0, rfl, h2⟩, rfl⟩
          · cases h
    case iterOk r c =>
      simp only [bufferedF] at h
      cases h1 : bufferedF ini step b0 l es with
      | none => rw [h1] at h; cases h
      | some st0 =>
        rw [h1] at h
        cases h2 : given r l with
        | none => rw [h2] at h; cases h
        | some c0 =>
          rw [h2] at h
          cases c0 with
          | none => cases h
          | some c0 =>
            simp only at h
            split at h
            · rename_i h3; cases h; exact ⟨st0, ih h1, ⟨c0, h2, h3⟩, rfl⟩
            · cases h
    all_goals exact ⟨st, ih h, rfl⟩

theorem any_some_true {α : Type} {o : Option α} {P : α → Bool} (h : o.any P = true) :
    ∃ a, o = some a ∧ P a = true := by
  cases o with
  | none => cases h
  | some a => exact ⟨a, rfl, h⟩

/-- A test of `Cold`. -/
def coldB {C : Type} [DecidableEq C] : List (Event C) → Bool
  | [] => true
  | .call 0 .play :: l => decide (followsL (session l).2 ≠ some .ready) && coldB l
  | _ :: l => coldB l

theorem cold_of_test {C : Type} [DecidableEq C] : ∀ {l : List (Event C)}, coldB l = true → Cold l := by
  intro l
  induction l with
  | nil => intro _; trivial
  | cons e l ih =>
    intro h
    cases e
    case call t op =>
      cases t with
      | succ t => exact ih h
      | zero =>
        cases op
        case play =>
          simp only [coldB, Bool.and_eq_true] at h
          exact ⟨of_decide_eq_true h.1, ih h.2⟩
        all_goals exact ih h
    all_goals exact ih h

/-- The first two elements. -/
def firstTwo (d c : List Int) : Bool := decide (givenInitializer 2 d exSpace = .ok c)

open Trace in
/-- `Push` when there is no run. -/
def pushIdle : List (Act Nat) := [call 0 .push, g 0, .act 0 (.pushRet none), g 0, g 0, g 0, g 0, g 0]

open Trace in
/-- Three `Push`, `Batch`, `Centroids()`. -/
def kmeansBatch : List (Act (List Int)) :=
  ([Act.client] ++ pushIdle ++ pushIdle ++ pushIdle ++ batchNew.tail ++ [call 0 .centroids, g 0]).map
    (Act.with fun | 5 => [1, 9] | _ => [2, 9])

open Trace in
/-- `Init`, `Push`, `Play`, `Wait`, `Centroids()`. -/
def kmeansStaged : List (Act (List Int)) :=
  (init ++ pushIdle ++ play ++ [call 0 (.wait false false), g 0, g 0] ++ iterate 5 ++ runOut ++
    [call 0 .centroids, g 0]).map (Act.with fun | 5 => [1, 9] | _ => [2, 9])

theorem kmeans_example (conf : Conf) (as : List (Act (List Int))) (data es : List Int) (cold : Bool)
    (c : List Int) (hn : .client ∉ as)
    (key : (exec conf (new : Algo (List Int)) (.client :: as)).any (fun s =>
      batchingB s.log && (!cold || coldB s.log.tail) &&
      decide (s.log.head? = some (.ret 0 (.centroids (some c))) ∧ played (session s.log.tail).2 = true ∧
        followsL (session s.log.tail).2 ≠ some .running ∧
        (bufferedF firstTwo (kmeansStep .seq exSpace) (newDataBuffer data 0) s.log.tail es).any
          (fun st => st.pushed = es.reverse) = true)) = true) :
    ∃ (s : Algo (List Int)) (l2 : List (Event (List Int))) (st : Notes Int), OneClient conf s ∧ Batching s.log ∧
    s.log = [] ++ .ret 0 (.centroids (some c)) :: l2 ∧ played (session l2).2 = true ∧
    followsL (session l2).2 ≠ some .running ∧ (cold = true → Cold l2) ∧
    Buffered (fun d c => firstTwo d c = true) (kmeansStep .seq exSpace) (newDataBuffer data 0) l2 st ∧
    st.pushed = es.reverse := by
  cases he : exec conf (new : Algo (List Int)) (.client :: as) with
  | none => rw [he] at key; cases key
  | some s =>
    rw [he, Option.any_some, Bool.and_eq_true, Bool.and_eq_true] at key
    obtain ⟨h1, h2, h3, h4⟩ := of_decide_eq_true key.2
    obtain ⟨st, hst, h5⟩ := any_some_true h4
    refine ⟨s, s.log.tail, st, ⟨as, hn, he⟩, batching_of_test key.1.1, ?_, h2, h3,
      fun h => cold_of_test ?_, buffered_of_test hst, of_decide_eq_true h5⟩
    · cases hl : s.log with
      | nil => rw [hl] at h1; cases h1
      | cons e l => rw [hl] at h1; cases h1; rfl
    · have := key.1.2
      rw [h] at this
      simpa using this

/-- The hypotheses of C87 hold: 1, 9 and 3 are pushed, the initial centroids are 1 and 9, and after `Batch`
with `Iter` 2 `Centroids()` is 2 and 9. -/
example : ∃ (s : Algo (List Int)) (l2 : List (Event (List Int))) (st : Notes Int),
    OneClient ⟨2, 0, 0, false, false, false⟩ s ∧ Batching s.log ∧
    s.log = [] ++ .ret 0 (.centroids (some [2, 9])) :: l2 ∧ played (session l2).2 = true ∧
    followsL (session l2).2 ≠ some .running ∧ (true = true → Cold l2) ∧
    Buffered (fun d c => firstTwo d c = true) (kmeansStep .seq exSpace) (newDataBuffer [] 0) l2 st ∧
    st.pushed = [1, 9, 3] :=
  kmeans_example _ kmeansBatch.tail [] [3, 9, 1] true [2, 9] (by decide) (by decide +kernel)

/-- **C88 (observed).** The data 1 and 9 are given to `NewAlgo`, 3 is pushed between `Init` and `Play`, and
after one iteration `Centroids()` is 1 and 9, although one iteration of k-means on all the data pushed yields
2 and 9. -/
theorem C88_not_seen : (∃ (s : Algo (List Int)) (l2 : List (Event (List Int))) (st : Notes Int),
    OneClient ⟨1, 0, 0, false, false, false⟩ s ∧ Batching s.log ∧
    s.log = [] ++ .ret 0 (.centroids (some [1, 9])) :: l2 ∧ played (session l2).2 = true ∧
    followsL (session l2).2 ≠ some .running ∧ (false = true → Cold l2) ∧
    Buffered (fun d c => firstTwo d c = true) (kmeansStep .seq exSpace) (newDataBuffer [1, 9] 0) l2 st ∧
    st.pushed = [3]) ∧
    kmeansStep .seq exSpace [1, 9, 3] [1, 9] = some [2, 9] :=
  ⟨kmeans_example _ kmeansStaged.tail [1, 9] [3] false [1, 9] (by decide) (by decide +kernel), by decide⟩

/-- A test of `NoIter`. -/
def noIterB {C : Type} : List (Event C) → Bool
  | [] => true
  | .iterCall _ _ _ :: _ => false
  | .iterOk _ _ :: _ => false
  | _ :: l => noIterB l

theorem noIter_of_test {C : Type} : ∀ {l : List (Event C)}, noIterB l = true → NoIter l := by
  intro l
  induction l with
  | nil => intro _; trivial
  | cons e l ih => intro h; cases e <;> first | exact ih h | cases h

/-- The hypotheses of `C88_capacity` hold after `Init` and a `Push`, which has staged one element. -/
example : ∃ (s : Algo (List Int)) (st : Notes Int), OneClient ⟨1, 0, 0, false, false, false⟩ s ∧
    Batching s.log ∧ s.status.value = .ready ∧ NoIter s.log ∧
    Buffered (fun d c => firstTwo d c = true) (kmeansStep .seq exSpace) (newDataBuffer [1, 9] 0) s.log st ∧
    st.since = [3] := by
  have key : (exec ⟨1, 0, 0, false, false, false⟩ (new : Algo (List Int)) (kmeansStaged.take 21)).any (fun s =>
      batchingB s.log && noIterB s.log && decide (s.status.value = .ready ∧
        (bufferedF firstTwo (kmeansStep .seq exSpace) (newDataBuffer [1, 9] 0) s.log [3]).any
          (fun st => st.since = [3]) = true)) = true := by
    decide +kernel
  cases he : exec ⟨1, 0, 0, false, false, false⟩ (new : Algo (List Int)) (kmeansStaged.take 21) with
  | none => rw [he] at key; cases key
  | some s =>
    rw [he, Option.any_some, Bool.and_eq_true, Bool.and_eq_true] at key
    obtain ⟨h1, h2⟩ := of_decide_eq_true key.2
    obtain ⟨st, hst, h5⟩ := any_some_true h2
    exact ⟨s, st, ⟨(kmeansStaged.take 21).tail, by decide, he⟩, batching_of_test key.1.1, h1,
      noIter_of_test key.1.2, buffered_of_test hst, of_decide_eq_true h5⟩

end Distclus
