import Verif.Proof.Mcmc
import Verif.Props.KMeansInit
import Verif.Props.Loss
import Verif.Props.Conf
import Verif.Model.RealMath
/-!
# C30, C31, C32, C72: the MCMC algorithm
-/

set_option linter.unusedSectionVars false

namespace Distclus
open Spec

/-! ### C31: the centre store -/

/-- The last clustering of size `k` in a list of clusterings. -/
def Spec.lastOfSize {E : Type} (sets : List (List E)) (k : Int) : Option (List E) :=
  (sets.filter fun c => (c.length : Int) == k).getLast?

section
variable {E F : Type}

/-- **C31** (contents). After any sequence of `SetCenters`, the store holds for each size the last
clustering of that size, and nothing for the other sizes. -/
theorem C31_store_contents (sets : List (List E)) (k : Int) :
    (sets.foldl CenterStore.setCenters CenterStore.empty) k = lastOfSize sets k := by
  induction sets using List.reverseRecOn with
  | nil => rfl
  | append_singleton l c ih =>
    rw [List.foldl_append]
    simp only [List.foldl_cons, List.foldl_nil, CenterStore.setCenters, lastOfSize,
      List.filter_append]
    by_cases h : k = (c.length : Int)
    · simp [h]
    · have : ((c.length : Int) == k) = false := by
        simp only [beq_eq_false_iff_ne]; exact fun h' => h h'.symm
      simp only [h, if_false, List.filter_cons, this, Bool.false_eq_true, List.filter_nil,
        List.append_nil]
      exact ih

variable [Zero F] [One F] [Neg F] [LT F] [DecidableLT F] [Add F] [Sub F] [Mul F] [BEq F]

/-- **C31** (known size). `GetCenters` returns the last accepted centres of size `k`, without an
error, whatever the other arguments. -/
theorem C31_get_stored (sets : List (List E)) (space : Space E F) (data : List E) (k : Int)
    (clust : List E) (u : F) (del : Nat) (c : List E) (h : lastOfSize sets k = some c) :
    (sets.foldl CenterStore.setCenters CenterStore.empty).getCenters space data k clust u del =
      some (c, false) ∧ (c.length : Int) = k := by
  constructor
  · unfold CenterStore.getCenters
    rw [C31_store_contents, h]
  · have := List.mem_of_getLast? h
    simpa using (List.mem_filter.1 this).2

/-- **C31** (unknown size). Otherwise, when the call returns: copies of the given centres and of one
more element of the data if it has fewer than `k` centres, copies of all its centres but one if it
has more, itself if it has `k`. So the size is `k` if the given size is `k-1`, `k` or `k+1`. -/
theorem C31_get_new (s : CenterStore E) (space : Space E F) (data : List E) (k : Int)
    (clust : List E) (u : F) (del : Nat) (hdel : del < clust.length) (c : List E) (err : Bool)
    (hk : s k = none) (h : s.getCenters space data k clust u del = some (c, err)) :
    ((clust.length : Int) < k → ∃ e ∈ data, c = clust.map space.copy ++ [space.copy e]) ∧
    ((clust.length : Int) > k →
      c = (clust.eraseIdx del).map space.copy ∧ err = false) ∧
    ((clust.length : Int) = k → c = clust ∧ err = false) ∧
    ((clust.length : Int) - k ∈ [-1, 0, 1] → (c.length : Int) = k) := by
  unfold CenterStore.getCenters at h
  rw [hk] at h
  simp only [genCenters] at h
  have hadd : ∀ e, ppIter space clust data u = .ok e → ∃ x ∈ data, e = space.copy x := by
    intro e he
    unfold ppIter at he
    split at he
    · cases he
    · split at he <;> cases he
    · split at he
      · cases he
      · rename_i x hx
        cases he
        refine ⟨x, ?_, rfl⟩
        unfold idx? at hx
        split at hx
        · cases hx
        · exact List.mem_of_getElem? hx
  split at h
  · rename_i hlt
    have hc : ∃ e ∈ data, c = clust.map space.copy ++ [space.copy e] := by
      unfold addCenter at h
      split at h
      · cases h
      · split at h
        · cases h
        · rename_i e he
          cases h
          exact ⟨e, List.mem_of_getElem? he, rfl⟩
      · rename_i e he
        cases h
        obtain ⟨x, hx, rfl⟩ := hadd e he
        exact ⟨x, hx, rfl⟩
    refine ⟨fun _ => hc, fun h' => by omega, fun h' => by omega, fun hm => ?_⟩
    obtain ⟨e, _, rfl⟩ := hc
    simp at hm ⊢
    omega
  · split at h
    · rename_i h1 h2
      rw [delCenter_eq space clust del hdel] at h
      cases h
      refine ⟨fun h' => by omega, fun _ => ⟨rfl, rfl⟩, fun h' => by omega, fun hm => ?_⟩
      simp [List.length_eraseIdx_of_lt hdel] at hm ⊢
      omega
    · cases h
      exact ⟨fun h' => by omega, fun h' => by omega, fun _ => ⟨rfl, rfl⟩, fun _ => by omega⟩

end

section
variable {E F : Type} [Field F] [LinearOrder F] [IsStrictOrderedRing F]

/-- **C31** (unknown size, adding). With non-negative distances and a draw in (0,1) the call always
returns; it reports an error exactly when every element is at distance 0 of some given centre, and
otherwise the new centre is a copy of an element at a positive distance of all of them. -/
theorem C31_get_add (s : CenterStore E) (space : Space E F) (h0 : ∀ a b, 0 ≤ space.dist a b)
    (data : List E) (k : Int) (clust : List E) (hc : clust ≠ []) (he : data ≠ []) (u : F)
    (hu0 : 0 < u) (hu1 : u < 1) (del : Nat) (hk : s k = none) (hlt : (clust.length : Int) < k) :
    ∃ c err, s.getCenters space data k clust u del = some (c, err) ∧
      (err = true ↔ ∀ e ∈ data, ∃ x ∈ clust, space.dist e x = 0) ∧
      (err = false → ∃ e ∈ data, c = clust.map space.copy ++ [space.copy e] ∧
        ∀ x ∈ clust, 0 < space.dist e x) := by
  unfold CenterStore.getCenters
  rw [hk]
  simp only [genCenters, if_pos hlt, addCenter]
  rcases C28_ppIter space h0 clust data hc he u hu0 hu1 with ⟨h1, h2⟩ | ⟨e, hee, h1, h2⟩
  · rw [h1]
    obtain ⟨e, es, rfl⟩ := List.exists_cons_of_ne_nil he
    exact ⟨_, true, rfl, by simp only [true_iff]; exact h2, by simp⟩
  · rw [h1]
    refine ⟨_, false, rfl, ?_, fun _ => ⟨e, hee, rfl, h2⟩⟩
    simp only [Bool.false_eq_true, false_iff, not_forall]
    refine ⟨e, hee, ?_⟩
    rintro ⟨x, hx, hz⟩
    have := h2 x hx
    rw [hz] at this
    exact lt_irrefl _ this

end

/-- The call adds, removes or returns; stored centres win. -/
example : (CenterStore.empty : CenterStore Int).getCenters exSpace [1, 7, 9] 3 [0, 9] 1 5 =
    some ([0, 9, 7], false) := by decide
example : (CenterStore.empty : CenterStore Int).getCenters exSpace [1, 7, 9] 2 [0, 9, 4] 1 1 =
    some ([0, 4], false) := by decide
example : ([[3], [1, 2], [5]].foldl CenterStore.setCenters CenterStore.empty).getCenters exSpace
    [1, 7, 9] 1 [0, 9, 4] 1 1 = some ([5], false) := by decide
/-- Adding when every element is a centre: an error. -/
example : (CenterStore.empty : CenterStore Int).getCenters exSpace [9, 0] 3 [0, 9] 1 5 =
    some ([0, 9, 9], true) := by decide
/-- The result has not the requested size when that size differs by two. -/
theorem C31_size_gap : (CenterStore.empty : CenterStore Int).getCenters exSpace [1, 7, 9] 5 [0, 9]
    1 5 = some ([0, 9, 7], false) := by decide

/-! ### C30: number of clusters -/

section
variable {D E F R : Type}

/-- What is expected of an initializer: on success it returns `k` centroids, and there are at least
`k` data. -/
def Spec.InitContract (initializer : D → Int → List E → InitRes E) : Prop :=
  ∀ d k data c, initializer d k data = .ok c → (c.length : Int) = k ∧ k ≤ data.length

variable [Zero F] [One F] [Neg F] [LT F] [DecidableLT F] [Add F] [Sub F] [Mul F] [BEq F]

theorem initContract_given (space : Space E F) :
    InitContract (D := Unit) fun _ k data => givenInitializer k data space := by
  intro _ k data c h
  refine ⟨C26_given_length k data space c h, ?_⟩
  by_contra hk
  simp only [(C26_given k data space).2 (show ¬ (1 ≤ k ∧ k ≤ (data.length : Int)) by omega)] at h
  cases h

theorem randLoop_length (space : Space E F) (elemts : List E) (k : Nat) :
    ∀ (draws chosen : List Nat) (acc out : List E), acc.length ≤ k →
      randLoop space elemts k draws chosen acc = some (some out) → out.length = k := by
  intro draws
  induction draws with
  | nil =>
    intro chosen acc out hk h
    unfold randLoop at h
    split at h
    · cases h
    · cases h; omega
  | cons d ds ih =>
    intro chosen acc out hk h
    unfold randLoop at h
    split at h
    · simp only at h
      split at h
      · exact ih _ _ _ hk h
      · split at h
        · cases h
        · exact ih _ _ _ (by simp; omega) h
    · cases h; omega

/-- `RandInitializer`; draws that do not suffice are no execution, counted as an error here. -/
theorem initContract_rand (space : Space E F) :
    InitContract (D := List Nat) fun d k data =>
      (randInitializer k data space d).getD .err := by
  intro d k data c h
  simp only [randInitializer] at h
  split at h
  · cases h
  · split at h
    · rename_i h1 h2
      have := (initCheck_iff k data).1 h2
      split at h
      · cases h
      · cases h
      · rename_i c' hc
        simp only [Option.getD_some, InitRes.ok.injEq] at h
        subst h
        have := randLoop_length space data k.toNat d [] [] c' (by simp) hc
        omega
    · cases h

theorem ppLoop_length (space : Space E F) (elemts : List E) :
    ∀ (n : Nat) (us : List F) (acc out : List E),
      ppLoop space elemts n us acc = some (.ok out) → out.length = acc.length + n := by
  intro n
  induction n with
  | zero => intro us acc out h; simp [ppLoop] at h; subst h; rfl
  | succ n ih =>
    intro us acc out h
    cases us with
    | nil => simp [ppLoop] at h
    | cons u us =>
      unfold ppLoop at h
      split at h
      · cases h
      · cases h
      · have := ih _ _ _ h
        simp at this
        omega

/-- `PPInitializer`; draws that do not suffice are no execution, counted as an error here. -/
theorem initContract_pp (space : Space E F) :
    InitContract (D := Nat × List F) fun d k data =>
      (ppInitializer k data space d.1 d.2).getD .err := by
  intro d k data c h
  simp only [ppInitializer] at h
  split at h
  · cases h
  · split at h
    · rename_i h1 h2
      have := (initCheck_iff k data).1 h2
      split at h
      · cases h
      · rename_i e he
        cases hl : ppLoop space data (k.toNat - 1) d.2 [e] with
        | none => rw [hl] at h; cases h
        | some r =>
          rw [hl] at h
          simp only [Option.getD_some] at h
          subst h
          have := ppLoop_length space data _ _ _ _ hl
          simp at this
          omega
    · cases h

variable [GoMath F] [Div F]

/-- The invariant of the histories. -/
structure McmcInv (p : McmcParams D E F R) (s : McmcSys E F) : Prop where
  sized : s.impl.store.Sized
  ready : s.ready = true →
    1 ≤ s.impl.current.k ∧ s.impl.current.k ≤ p.conf.maxK ∧
    s.impl.current.k ≤ s.impl.buffer.data.length ∧
    (s.centroids.length : Int) = s.impl.current.k ∧ s.impl.current.centers = s.centroids ∧
    ∃ t, proba p.pdf t s.centroids s.centroids = some s.impl.current.pdf

theorem mcmc_step_inv (hneg : (-1 : F) < 0) (p : McmcParams D E F R) (hcpu : 1 ≤ p.sysCPU)
    (hk1 : 1 ≤ p.conf.initK) (hk2 : p.conf.initK ≤ p.conf.maxK) (hi : InitContract p.initializer)
    (s s' : McmcSys E F) (op : McmcOp D E F) (hinv : McmcInv p s) (h : s.step p op = some s') :
    McmcInv p s' := by
  cases op with
  | push e r =>
    simp only [McmcSys.step] at h
    split at h
    · cases h
    · rename_i b hb
      cases h
      refine ⟨hinv.sized, fun hr => ?_⟩
      obtain ⟨a1, a2, a3, a4⟩ := hinv.ready hr
      have := DataBuffer.push_length_le _ _ _ _ hb
      exact ⟨a1, a2, by simp only; omega, a4⟩
  | init d =>
    simp only [McmcSys.step] at h
    split at h
    · rename_i impl c hin
      cases h
      obtain ⟨b1, b2, b3, b4⟩ := init_cases p s.impl impl d _ hin
      obtain ⟨c1, c2, c3, _, _, _, c4⟩ := b4 c rfl
      have := hi _ _ _ _ c1
      refine ⟨by rw [b2]; exact hinv.sized, fun _ => ?_⟩
      refine ⟨by rw [c2]; exact hk1, by rw [c2]; exact hk2, by rw [c2, b1]; exact this.2,
        by rw [c2]; exact this.1, c3, _, c4⟩
    · rename_i impl r hne hin
      cases h
      obtain ⟨b1, b2, b3, b4⟩ := init_cases p s.impl impl d _ hin
      exact ⟨by rw [b2]; exact hinv.sized, by simp⟩
  | iterate d =>
    simp only [McmcSys.step] at h
    split at h
    · rename_i hr
      split at h
      · cases h
        exact ⟨hinv.sized, by simp⟩
      · rename_i impl clust fig hit
        cases h
        obtain ⟨a1, a2, a3, a4, a5, a6⟩ := hinv.ready hr
        obtain ⟨prop, hp, _, _, _, hb, _, hcase⟩ := iterate_cases p _ _ _ _ _ _ hit
        obtain ⟨q1, q2, q3, q4, _, _, _, q5⟩ := propose_spec hneg p hcpu s.impl hinv.sized _ _ _ _ d
          a1 a2 a3 a4 prop hp
        have hle := s.impl.buffer.apply_length_le
        rcases hcase with ⟨_, _, h3, rfl, h5⟩ | ⟨_, _, h3, rfl, h5⟩
        · refine ⟨by rw [h5]; exact hinv.sized.set _, fun _ => ?_⟩
          simp only [h3, hb]
          exact ⟨q2, q3, by omega, q1, trivial, _, q5⟩
        · refine ⟨by rw [h5]; exact hinv.sized, fun _ => ?_⟩
          simp only [h3, hb]
          exact ⟨a1, a2, by omega, a4, a5, a6⟩
    · cases h

theorem mcmc_run_inv (hneg : (-1 : F) < 0) (p : McmcParams D E F R) (hcpu : 1 ≤ p.sysCPU)
    (hk1 : 1 ≤ p.conf.initK) (hk2 : p.conf.initK ≤ p.conf.maxK) (hi : InitContract p.initializer)
    (ops : List (McmcOp D E F)) : ∀ (s s' : McmcSys E F), McmcInv p s →
      McmcSys.run p s ops = some s' → McmcInv p s' := by
  induction ops with
  | nil => intro s s' hinv h; cases h; exact hinv
  | cons o os ih =>
    intro s s' hinv h
    unfold McmcSys.run at h
    split at h
    · cases h
    · rename_i s1 h1
      exact ih s1 s' (mcmc_step_inv hneg p hcpu hk1 hk2 hi s s1 o hinv h1) h

theorem mcmc_new_inv (p : McmcParams D E F R) (data : List E) : McmcInv p (McmcSys.new p data) :=
  ⟨fun _ _ h => (by cases h), fun h => (by cases h)⟩

/-- **C30** (range). After any history, if the algorithm is initialised, the number of centroids is
the current `k`, at least 1, and at most `MaxK` and the number of stored data. -/
theorem C30_range (hneg : (-1 : F) < 0) (p : McmcParams D E F R) (hcpu : 1 ≤ p.sysCPU)
    (hk1 : 1 ≤ p.conf.initK) (hk2 : p.conf.initK ≤ p.conf.maxK) (hi : InitContract p.initializer)
    (data : List E) (ops : List (McmcOp D E F)) (s : McmcSys E F)
    (h : McmcSys.run p (McmcSys.new p data) ops = some s) (hr : s.ready = true) :
    1 ≤ s.centroids.length ∧ (s.centroids.length : Int) ≤ p.conf.maxK ∧
    s.centroids.length ≤ s.impl.buffer.data.length ∧
    (s.centroids.length : Int) = s.impl.current.k ∧ s.impl.current.centers = s.centroids := by
  obtain ⟨a1, a2, a3, a4, a5, _⟩ :=
    (mcmc_run_inv hneg p hcpu hk1 hk2 hi ops _ _ (mcmc_new_inv p data) h).ready hr
  exact ⟨by omega, by omega, by omega, a4, a5⟩

/-- **C30** (moves). An iteration after any history changes the number of centroids by at most
one. -/
theorem C30_moves (hneg : (-1 : F) < 0) (p : McmcParams D E F R) (hcpu : 1 ≤ p.sysCPU)
    (hk1 : 1 ≤ p.conf.initK) (hk2 : p.conf.initK ≤ p.conf.maxK) (hi : InitContract p.initializer)
    (data : List E) (ops : List (McmcOp D E F)) (s s' : McmcSys E F) (d : McmcDraws E F)
    (h : McmcSys.run p (McmcSys.new p data) ops = some s)
    (h' : s.step p (.iterate d) = some s') :
    s'.centroids.length ≤ s.centroids.length + 1 ∧ s.centroids.length ≤ s'.centroids.length + 1 := by
  have hinv := mcmc_run_inv hneg p hcpu hk1 hk2 hi ops _ _ (mcmc_new_inv p data) h
  simp only [McmcSys.step] at h'
  split at h'
  · rename_i hr
    obtain ⟨a1, a2, a3, a4, a5, _⟩ := hinv.ready hr
    split at h'
    · cases h'; exact ⟨by simp, by simp⟩
    · rename_i impl clust fig hit
      cases h'
      obtain ⟨prop, hp, _, _, _, hb, _, hcase⟩ := iterate_cases p _ _ _ _ _ _ hit
      obtain ⟨q1, q2, q3, q4, q5, q6, _⟩ := propose_spec hneg p hcpu s.impl hinv.sized _ _ _ _ d
        a1 a2 a3 a4 prop hp
      rcases hcase with ⟨_, _, _, rfl, _⟩ | ⟨_, _, _, rfl, _⟩
      · simp only; omega
      · simp only; omega
  · cases h'

/-- **C30** for the configurations accepted by `NewAlgo`. -/
theorem C30_accepted (hneg : (-1 : F) < 0) (env : ConfEnv R) (hF : NonzeroConsts F)
    (p : McmcParams D E F R) (raw : McmcConf F R) (hraw : raw.newAlgo env = some p.conf)
    (hsys : p.sysCPU = env.numCPU) (hcpu : 1 ≤ env.numCPU) (hi : InitContract p.initializer)
    (data : List E) (ops : List (McmcOp D E F)) (s : McmcSys E F)
    (h : McmcSys.run p (McmcSys.new p data) ops = some s) (hr : s.ready = true) :
    1 ≤ s.centroids.length ∧
    (s.centroids.length : Int) ≤ (if raw.maxK = 0 then 16 else raw.maxK) ∧
    s.centroids.length ≤ s.impl.buffer.data.length := by
  obtain ⟨h1, h2, _⟩ := C21_mcmc_accepts env (by omega) hF raw
  have hok : 1 ≤ raw.initK ∧ raw.initK ≤ (if raw.maxK = 0 then 16 else raw.maxK) ∧
      CtrlOk raw.ctrl := by
    by_contra hc
    rw [h2.2 hc] at hraw
    cases hraw
  have hconf : p.conf = raw.setDefaults env := by
    rw [h1.2 hok] at hraw
    exact (Option.some.inj hraw).symm
  have hm : p.conf.maxK = if raw.maxK = 0 then 16 else raw.maxK := by
    rw [hconf, mcmc_fields]
  have hk : p.conf.initK = raw.initK := by
    rw [hconf, mcmc_fields]
  have := C30_range hneg p (by omega) (by omega) (by omega) hi data ops s h hr
  rw [hm] at this
  exact ⟨this.1, this.2.1, this.2.2.1⟩

/-! ### C32: acceptance -/

/-- **C32** (one iteration). Whether the proposal is accepted can be told from the returned ratio
`rho` and the draw: if so the acceptation figure grows by one and the centroids are those of the
proposal, otherwise centroids and figure are unchanged. The ratio is the one of the proposal. -/
theorem C32_iterate (p : McmcParams D E F R) (impl : McmcImpl E F) (centroids : List E)
    (d : McmcDraws E F) (impl' : McmcImpl E F) (clust : List E) (fig : McmcFigures F)
    (h : impl.iterate p centroids d = some (impl', clust, fig)) :
    (fig.acceptations = impl.acc + if d.accept < fig.rho then 1 else 0) ∧
    (¬ d.accept < fig.rho → clust = centroids ∧ impl'.current = impl.current) ∧
    (d.accept < fig.rho → ∃ prop, impl.propose p impl.current centroids impl.buffer.data
        impl.buffer.data.length d = some prop ∧ clust = prop.centers ∧ impl'.current = prop ∧
        fig.rho = (ratio p.conf impl.dim impl.current prop impl.buffer.data.length).2.1) ∧
    impl'.acc = fig.acceptations := by
  obtain ⟨prop, hp, rfl, _, _, _, hrat, hcase⟩ := iterate_cases p _ _ _ _ _ _ h
  have hrho : impl'.figures.rho =
      (ratio p.conf impl.dim impl.current prop impl.buffer.data.length).2.1 := by
    rw [← hrat]; rfl
  rcases hcase with ⟨h1, h2, h3, h4, _⟩ | ⟨h1, h2, h3, h4, _⟩
  · have h1' : d.accept < impl'.figures.rho := h1
    refine ⟨?_, fun hn => absurd h1' hn, fun _ => ⟨prop, hp, h4, h3, hrho⟩, rfl⟩
    rw [if_pos h1']; exact h2
  · have h1' : ¬ d.accept < impl'.figures.rho := h1
    refine ⟨?_, fun _ => ⟨h4, h3⟩, fun hn => absurd hn h1', rfl⟩
    rw [if_neg h1']; exact h2

/-- The draws and figures of the successful iterations of a history. -/
def Spec.iterations (p : McmcParams D E F R) : McmcSys E F → List (McmcOp D E F) →
    List (F × McmcFigures F)
  | _, [] => []
  | s, op :: ops =>
    (match op with
      | .iterate d =>
        if s.ready then
          match s.impl.iterate p s.centroids d with
          | some (_, _, fig) => [(d.accept, fig)]
          | none => []
        else []
      | _ => []) ++
    match s.step p op with
    | some s' => Spec.iterations p s' ops
    | none => []

/-- **C32** (count). After any history the acceptation counter is the number of iterations whose
draw was below the ratio; it is at most the number of iterations. -/
theorem C32_count (p : McmcParams D E F R) (ops : List (McmcOp D E F)) : ∀ (s s' : McmcSys E F),
    McmcSys.run p s ops = some s' →
    s'.impl.acc = s.impl.acc +
      (iterations p s ops).countP (fun it => decide (it.1 < it.2.rho)) := by
  induction ops with
  | nil => intro s s' h; cases h; simp [iterations]
  | cons o os ih =>
    intro s s' h
    unfold McmcSys.run at h
    cases h1 : s.step p o with
    | none => simp [h1] at h
    | some s1 =>
      rw [h1] at h
      have hrec := ih s1 s' h
      unfold iterations
      rw [h1, List.countP_append, hrec]
      cases o with
      | push e r =>
        simp only [McmcSys.step] at h1
        split at h1
        · cases h1
        · cases h1; simp
      | init d =>
        simp only [McmcSys.step] at h1
        split at h1
        · rename_i impl c hin
          cases h1
          simp [(init_cases p s.impl impl d _ hin).2.2.1]
        · rename_i impl c _ hin
          cases h1
          simp [(init_cases p s.impl impl d _ hin).2.2.1]
      | iterate d =>
        simp only [McmcSys.step] at h1
        split at h1
        · rename_i hr
          simp only [hr, if_true]
          split at h1
          · rename_i hit
            cases h1; simp [hit]
          · rename_i impl clust fig hit
            cases h1
            obtain ⟨c1, _, _, c2⟩ := C32_iterate p _ _ _ _ _ _ hit
            simp only [hit, List.countP_singleton, c2, c1, decide_eq_true_eq]
            omega
        · cases h1

theorem C32_at_most (p : McmcParams D E F R) (data : List E) (ops : List (McmcOp D E F))
    (s : McmcSys E F) (h : McmcSys.run p (McmcSys.new p data) ops = some s) :
    s.impl.acc ≤ (iterations p (McmcSys.new p data) ops).length := by
  rw [C32_count p ops _ _ h]
  simp only [McmcSys.new, McmcImpl.new, Nat.zero_add]
  exact List.countP_le_length

/-- **C32** (ratio at least 1). A ratio which is a number not below 1 leads to acceptance, whatever
the draw of `uniform.Rand()`, which is below 1; a NaN ratio leads to rejection. Only the order laws of
floating-point numbers are used. -/
theorem C32_ratio_ge_one [FloatOrder F] (p : McmcParams D E F R) (impl : McmcImpl E F)
    (centroids : List E) (d : McmcDraws E F) (hu : d.accept < 1) (impl' : McmcImpl E F)
    (clust : List E) (fig : McmcFigures F)
    (h : impl.iterate p centroids d = some (impl', clust, fig)) :
    (¬ isNaN fig.rho → ¬ fig.rho < 1 → fig.acceptations = impl.acc + 1) ∧
    (isNaN fig.rho → fig.acceptations = impl.acc ∧ clust = centroids) := by
  obtain ⟨h1, h2, _, _⟩ := C32_iterate p _ _ _ _ _ _ h
  constructor
  · intro hn hge
    rw [h1, if_pos]
    rcases FloatOrder.cotrans _ hn hu with h | h
    · exact h
    · exact absurd h hge
  · intro hn
    have hlt : ¬ d.accept < fig.rho := FloatOrder.not_lt_nan hn
    rw [if_neg hlt] at h1
    exact ⟨h1, (h2 hlt).1⟩

end

/-! ### No panic, in exact arithmetic -/

section
variable {D E F R : Type} [Field F] [LinearOrder F] [IsStrictOrderedRing F] [GoMath F]

/-- The draws are those the generators may return; `n` is the number of centroids. -/
structure Spec.GoodDraws (n : Nat) (d : McmcDraws E F) : Prop where
  move : 0 < d.move ∧ d.move < 1
  add : 0 < d.add ∧ d.add < 1
  del : d.del < n

theorem nextK_isSome (conf : McmcConf F R) (hlen : conf.probaK.length = 3)
    (hnn : ∀ w ∈ conf.probaK, 0 ≤ w) (k : Int) (data : List E) (u : F) (hu : 0 < u ∧ u < 1) :
    ∃ k', nextK conf k data u = some k' := by
  have key : ∀ i : Nat, i < 3 → ∃ d, idx? [(-1 : Int), 0, 1] (i : Int) = some d := by
    intro i hi
    have : i = 0 ∨ i = 1 ∨ i = 2 := by omega
    rcases this with rfl | rfl | rfl
    · exact ⟨-1, by decide⟩
    · exact ⟨0, by decide⟩
    · exact ⟨1, by decide⟩
  have fin : ∀ d : Int, ∃ k' : Int, (if k + d < 1 then some 1
        else if k + d > conf.maxK then some conf.maxK
        else if k + d > data.length then some (data.length : Int)
        else some (k + d)) = some k' := by
    intro d
    split
    · exact ⟨_, rfl⟩
    · split
      · exact ⟨_, rfl⟩
      · split
        · exact ⟨_, rfl⟩
        · exact ⟨_, rfl⟩
  unfold nextK
  rcases (List.sum_nonneg hnn).eq_or_lt with hs | hs
  · rw [(C29_null_iff conf.probaK u).2 hs.symm]
    obtain ⟨d, hd⟩ := key 0 (by omega)
    simp only [Nat.cast_zero] at hd
    simp only [hd]
    exact fin d
  · obtain ⟨⟨i, hi⟩, hiff⟩ := C29_weightedChoice conf.probaK u hnn hs hu.1 hu.2
    obtain ⟨w, hw, _⟩ := (hiff i).1 hi
    have := (List.getElem?_eq_some_iff.1 hw).1
    obtain ⟨d, hd⟩ := key i (by omega)
    rw [hi]
    simp only [hd]
    exact fin d

theorem getCenters_isSome (s : CenterStore E) (space : Space E F)
    (h0 : ∀ a b, 0 ≤ space.dist a b) (data : List E) (k : Int) (clust : List E) (hc : clust ≠ [])
    (he : data ≠ []) (u : F) (hu : 0 < u ∧ u < 1) (del : Nat) (hd : del < clust.length) :
    ∃ c err, s.getCenters space data k clust u del = some (c, err) := by
  by_cases hk : s k = none
  · by_cases hlt : (clust.length : Int) < k
    · obtain ⟨c, err, h, _⟩ := C31_get_add s space h0 data k clust hc he u hu.1 hu.2 del hk hlt
      exact ⟨c, err, h⟩
    · unfold CenterStore.getCenters genCenters
      rw [hk]
      simp only [if_neg hlt]
      split
      · rw [delCenter_eq space clust del hd]; exact ⟨_, _, rfl⟩
      · exact ⟨_, _, rfl⟩
  · obtain ⟨c, hc'⟩ := Option.ne_none_iff_exists'.1 hk
    exact ⟨c, false, by simp [CenterStore.getCenters, hc']⟩

theorem mcmcLoss_isSome (p : McmcParams D E F R) (hpar : p.conf.par = true → 1 ≤ p.conf.numCPU)
    (c data : List E) (hc : c ≠ []) : ∃ l, mcmcLoss p c data = some l := by
  have hneg : (-1 : F) < 0 := neg_lt_zero.2 one_pos
  unfold mcmcLoss
  split
  · rename_i h
    rw [(C10_parLoss hneg p.space c data hc p.conf.norm _ (hpar h)).2.2,
      C10_totalLoss hneg p.space c data hc]
    exact ⟨_, rfl⟩
  · rw [C10_totalLoss hneg p.space c data hc]
    exact ⟨_, rfl⟩

/-- **C30** (no panic). Three non-negative weights, non-negative distances, draws in (0,1) and in
range: after any history an iteration returns. -/
theorem C30_no_panic (p : McmcParams D E F R) (hcpu : 1 ≤ p.sysCPU)
    (hpar : p.conf.par = true → 1 ≤ p.conf.numCPU)
    (hk1 : 1 ≤ p.conf.initK) (hk2 : p.conf.initK ≤ p.conf.maxK) (hi : InitContract p.initializer)
    (hlen : p.conf.probaK.length = 3) (hnn : ∀ w ∈ p.conf.probaK, 0 ≤ w)
    (h0 : ∀ a b, 0 ≤ p.space.dist a b)
    (data : List E) (ops : List (McmcOp D E F)) (s : McmcSys E F)
    (h : McmcSys.run p (McmcSys.new p data) ops = some s) (hr : s.ready = true)
    (d : McmcDraws E F) (hd : GoodDraws s.centroids.length d) :
    ∃ impl' clust fig, s.impl.iterate p s.centroids d = some (impl', clust, fig) := by
  have hneg : (-1 : F) < 0 := neg_lt_zero.2 one_pos
  have hinv := mcmc_run_inv hneg p hcpu hk1 hk2 hi ops _ _ (mcmc_new_inv p data) h
  obtain ⟨a1, a2, a3, a4, a5, _⟩ := hinv.ready hr
  have hc : s.centroids ≠ [] := by
    intro hc; rw [hc] at a4; simp at a4; omega
  have he : s.impl.buffer.data ≠ [] := by
    intro he; rw [he] at a3; simp at a3; omega
  have hprop : ∃ prop, s.impl.propose p s.impl.current s.centroids s.impl.buffer.data
      s.impl.buffer.data.length d = some prop := by
    have hkc : ∃ k c, s.impl.getKCenters p s.impl.current s.centroids s.impl.buffer.data d =
        some (k, c) := by
      unfold McmcImpl.getKCenters
      obtain ⟨k, hk⟩ := nextK_isSome p.conf hlen hnn s.impl.current.k s.impl.buffer.data d.move
        hd.move
      obtain ⟨c, err, hce⟩ := getCenters_isSome s.impl.store p.space h0 s.impl.buffer.data k
        s.centroids hc he d.add hd.add d.del hd.del
      rw [hk]
      simp only [hce]
      cases err with
      | false => exact ⟨_, _, rfl⟩
      | true =>
        have : ∃ c' e', s.impl.store.getCenters p.space s.impl.buffer.data s.impl.current.k
            s.centroids d.add' d.del' = some (c', e') := by
          unfold CenterStore.getCenters genCenters
          cases hst : s.impl.store s.impl.current.k with
          | some c' => exact ⟨_, _, rfl⟩
          | none =>
            simp only [a4, lt_irrefl, if_false]
            exact ⟨_, _, rfl⟩
        obtain ⟨c', e', he'⟩ := this
        simp only [he']
        exact ⟨_, _, rfl⟩
    obtain ⟨k, c, hkc⟩ := hkc
    obtain ⟨b1, b2, _⟩ := getKCenters_spec p s.impl hinv.sized _ _ _ d a1 a2 a3 a4 k c hkc
    unfold McmcImpl.propose
    rw [hkc]
    have hne : alter c d ≠ [] := by
      intro h0
      have := congrArg List.length h0
      simp [alter] at this
      subst this
      simp at b1
      omega
    obtain ⟨out, ho, hol⟩ := kmeansStep_length hneg (.par p.sysCPU) hcpu p.space
      s.impl.buffer.data _ hne
    simp only [mcmcStrategyIterate, ho]
    have hone : out ≠ [] := by
      intro h0; subst h0
      exact hne (List.length_eq_zero_iff.1 hol.symm)
    obtain ⟨l, hl⟩ := mcmcLoss_isSome p hpar out s.impl.buffer.data hone
    obtain ⟨q, hq⟩ := probaLoop_isSome p.pdf s.impl.buffer.data.length out out 0 (Nat.le_refl _)
    rw [hl, proba, hq]
    exact ⟨_, rfl⟩
  obtain ⟨prop, hprop⟩ := hprop
  exact iterate_of_propose p _ _ d prop hprop

end

/-! ### C32 in exact arithmetic -/

section
variable {D E R : Type}

theorem probaLoop_dirac (t : Nat) : ∀ (x : List E) (a : ℝ),
    probaLoop diracPdf t x x a = some (a + x.length) := by
  intro x
  induction x with
  | nil => intro a; simp [probaLoop]
  | cons v x ih =>
    intro a
    simp only [probaLoop, ih, diracPdf, List.length_cons, Nat.cast_add, Nat.cast_one,
      Option.some.injEq]
    ring

/-- **C32** (improvement). With the Dirac distribution and a non-negative `Amp`, after any history,
a proposal with as many centroids and a loss not larger is accepted, whatever the draw of
`uniform.Rand()`. -/
theorem C32_improvement_accepted (p : McmcParams D E ℝ R) (hcpu : 1 ≤ p.sysCPU)
    (hk1 : 1 ≤ p.conf.initK) (hk2 : p.conf.initK ≤ p.conf.maxK) (hi : InitContract p.initializer)
    (hpdf : p.pdf = diracPdf) (hamp : 0 ≤ p.conf.amp)
    (data : List E) (ops : List (McmcOp D E ℝ)) (s : McmcSys E ℝ)
    (h : McmcSys.run p (McmcSys.new p data) ops = some s) (hr : s.ready = true)
    (d : McmcDraws E ℝ) (hu : d.accept < 1) (prop : Proposal E ℝ)
    (hp : s.impl.propose p s.impl.current s.centroids s.impl.buffer.data
      s.impl.buffer.data.length d = some prop)
    (hk : prop.k = s.impl.current.k) (hl : prop.loss ≤ s.impl.current.loss) :
    ∃ impl' fig, s.impl.iterate p s.centroids d = some (impl', prop.centers, fig) ∧
      fig.acceptations = s.impl.acc + 1 := by
  have hneg : (-1 : ℝ) < 0 := by norm_num
  have hinv := mcmc_run_inv hneg p hcpu hk1 hk2 hi ops _ _ (mcmc_new_inv p data) h
  obtain ⟨a1, a2, a3, a4, a5, t, a6⟩ := hinv.ready hr
  obtain ⟨q1, _, _, _, _, _, _, q2⟩ := propose_spec hneg p hcpu s.impl hinv.sized _ _ _ _ d
    a1 a2 a3 a4 prop hp
  rw [hpdf, proba, probaLoop_dirac] at a6 q2
  have e1 : s.impl.current.pdf = prop.pdf := by
    rw [← Option.some.inj a6, ← Option.some.inj q2]
    have : s.centroids.length = prop.centers.length := by omega
    rw [this]
  have hrho : 1 ≤ (ratio p.conf s.impl.dim s.impl.current prop
      s.impl.buffer.data.length).2.1 := by
    simp only [ratio, e1, hk, sub_self, mul_zero]
    change 1 ≤ Real.exp (p.conf.amp * Real.sqrt _ * _ + _ * (((0 : ℤ) : ℝ)) + 0)
    rw [Real.one_le_exp_iff]
    have := Real.sqrt_nonneg ((((s.impl.dim : ℤ) + 3 : ℤ) : ℝ) /
      (((s.impl.buffer.data.length : ℤ)) : ℝ))
    have h2 := mul_nonneg (mul_nonneg hamp this) (sub_nonneg.2 hl)
    simp only [Int.cast_zero, mul_zero, add_zero]
    exact h2
  obtain ⟨impl', clust, fig, hit⟩ := iterate_of_propose p s.impl s.centroids d prop hp
  obtain ⟨c1, c2, c3, _⟩ := C32_iterate p _ _ _ _ _ _ hit
  obtain ⟨prop', hp', _, _, _, _, hrat, _⟩ := iterate_cases p _ _ _ _ _ _ hit
  rw [hp] at hp'
  cases hp'
  by_cases hacc : d.accept < fig.rho
  · obtain ⟨prop', hp', hc, _⟩ := c3 hacc
    rw [hp] at hp'
    cases hp'
    subst hc
    refine ⟨impl', fig, hit, ?_⟩
    rw [c1, if_pos hacc]
  · exfalso
    apply hacc
    obtain ⟨_, _, rfl, _⟩ := iterate_cases p _ _ _ _ _ _ hit
    have : impl'.figures.rho = impl'.rho := rfl
    rw [this]
    have e : impl'.rho = (ratio p.conf s.impl.dim s.impl.current prop
      s.impl.buffer.data.length).2.1 := by rw [← hrat]
    rw [e]
    linarith

end

/-! ### Examples, and what fails -/

/-- A configuration: one centroid at first, moves up with weight 1/2. -/
def exMcmcConf (probaK : List ℚ) : McmcConf ℚ Unit :=
  { ctrl := { iter := 0, iterFreq := 0, timeout := 0, dataPerIter := 0, iterPerData := 0 },
    par := false, initK := 1, rgen := none, b := 1, amp := 1, r := 0, norm := 2, maxK := 2,
    probaK, frameSize := 0, numCPU := 1 }

/-- Its parameters: the rational line, the Dirac distribution, the first data as centroids. -/
def exMcmc (probaK : List ℚ) : McmcParams Unit ℚ ℚ Unit :=
  { conf := exMcmcConf probaK, space := exQSpace, sysCPU := 2, pdf := diracPdf,
    initializer := fun _ k data => givenInitializer k data exQSpace }

/-- The draws of an iteration. -/
def exDraws (move accept : ℚ) : McmcDraws ℚ ℚ :=
  { move, add := 1 / 2, add' := 1 / 2, del := 0, del' := 0, sample := diracSample, accept }

section
attribute [local instance] exQMath

/-- A history meeting the hypotheses of C30: up to `MaxK`, a third move up is refused, then down. -/
example : (McmcSys.run (exMcmc [1, 1, 2]) (McmcSys.new (exMcmc [1, 1, 2]) [3, 5, 9])
      [.init (), .iterate (exDraws (3 / 4) 0), .iterate (exDraws (3 / 4) (1 / 4)),
        .push 7 true, .iterate (exDraws (1 / 8) 0)]).map
      (fun s => (s.centroids, s.impl.acc, s.impl.buffer.data, s.ready)) =
    some ([17 / 3], 3, [3, 5, 9, 7], true) := by decide +kernel

example : 1 ≤ (exMcmc [1, 1, 2]).sysCPU ∧ InitContract (exMcmc [1, 1, 2]).initializer ∧
    (exMcmc [1, 1, 2]).conf.probaK.length = 3 ∧ GoodDraws 1 (exDraws (3 / 4) (1 / 4)) :=
  ⟨by decide, initContract_given _, rfl, ⟨by norm_num [exDraws], by norm_num [exDraws], by decide⟩⟩

/-- **C30, wrong number of weights.** `ProbaK` of a length other than 3 is accepted by `NewAlgo`
and makes an iteration panic. -/
theorem C30_four_weights_panic :
    (exMcmcConf [1, 1, 1, 1]).newAlgo { numCPU := 2, rgen := () } =
      some { exMcmcConf [1, 1, 1, 1] with rgen := some () } ∧
    nextK (exMcmcConf [1, 1, 1, 1]) 1 [(3 : ℚ), 5] (9 / 10) = none := by decide +kernel

/-- **C30, zero weights.** Weights summing to 0 are accepted too: the error of the draw is dropped and
every move is downwards. -/
theorem C30_zero_weights (u : ℚ) : nextK (exMcmcConf [0, 0, 0]) 2 [(3 : ℚ), 5] u = some 1 := by
  have : weightedChoice (exMcmcConf [0, 0, 0]).probaK u = .nullSet :=
    (C29_null_iff _ u).2 (by simp [exMcmcConf])
  simp only [nextK, this]
  decide

/-- The claim of C32 with the iterations counted since the last initialisation, as the controller
does (core/ctrl.go:73). -/
def Spec.AcceptationsLeIterations : Prop :=
  ∀ (p : McmcParams Unit ℚ ℚ Unit) (data : List ℚ) (ops : List (McmcOp Unit ℚ ℚ)) (d : Unit)
    (more : List (McmcDraws ℚ ℚ)) (s : McmcSys ℚ ℚ),
    McmcSys.run p (McmcSys.new p data) (ops ++ .init d :: more.map .iterate) = some s →
    s.ready = true → s.impl.acc ≤ more.length

/-- **C32, restart.** The acceptations are not reset by `Init`: after a restart they may exceed the
iterations. -/
theorem C32_restart_false : ¬ AcceptationsLeIterations := by
  intro h
  have key : (McmcSys.run (exMcmc [0, 1, 0]) (McmcSys.new (exMcmc [0, 1, 0]) [3, 5])
      ([.init (), .iterate (exDraws (1 / 2) (1 / 4)), .iterate (exDraws (1 / 2) (1 / 4))] ++
        .init () :: [exDraws (1 / 2) (1 / 4)].map .iterate)).map (fun s => (s.impl.acc, s.ready)) =
      some (3, true) := by decide +kernel
  rw [Option.map_eq_some_iff] at key
  obtain ⟨s, hs, he⟩ := key
  simp only [Prod.mk.injEq] at he
  have := h _ _ _ _ _ _ hs he.2
  rw [he.1] at this
  simp at this

end

/-! ### C72: the losses compared -/

section
variable {D E F R : Type} [Zero F] [One F] [Neg F] [LT F] [DecidableLT F] [Add F] [Sub F] [Mul F]
  [BEq F] [GoMath F] [Div F]

/-- The claim: when an iteration starts, the loss recorded for the current centroids, to which the
loss of the proposal is compared, is their loss on the current data. -/
def Spec.LossIsCurrent (p : McmcParams D E F R) (s : McmcSys E F) : Prop :=
  s.ready = true → mcmcLoss p s.centroids s.impl.buffer.data = some s.impl.current.loss

/-- **C72** (partial: the data do not change). After an initialisation and iterations without any
push, nothing being staged, the recorded loss is the loss on the data. -/
theorem C72_loss_partial (p : McmcParams D E F R) (s : McmcSys E F) (d : D)
    (its : List (McmcDraws E F)) (s' : McmcSys E F)
    (h : McmcSys.run p s (.init d :: its.map .iterate) = some s') : LossIsCurrent p s' := by
  have hrun : ∀ (its : List (McmcDraws E F)) (s s' : McmcSys E F),
      s.impl.buffer.pipe = [] → LossIsCurrent p s →
      McmcSys.run p s (its.map .iterate) = some s' → LossIsCurrent p s' := by
    intro its
    induction its with
    | nil => intro s s' _ hl h; cases h; exact hl
    | cons d its ih =>
      intro s s' hpipe hl h
      simp only [List.map_cons, McmcSys.run] at h
      split at h
      · cases h
      · rename_i s1 h1
        refine ih s1 s' ?_ ?_ h
        · simp only [McmcSys.step] at h1
          split at h1
          · split at h1
            · cases h1; exact hpipe
            · rename_i impl clust fig hit
              cases h1
              obtain ⟨_, _, _, _, _, hb, _⟩ := iterate_cases p _ _ _ _ _ _ hit
              simp only [hb]
              simp [DataBuffer.apply, hpipe, DataBuffer.applyLoop]
          · cases h1
        · simp only [McmcSys.step] at h1
          split at h1
          · rename_i hr
            split at h1
            · cases h1; intro hr'; cases hr'
            · rename_i impl clust fig hit
              cases h1
              intro _
              obtain ⟨prop, hp, _, _, _, hb, _, hcase⟩ := iterate_cases p _ _ _ _ _ _ hit
              have hap : s.impl.buffer.apply = s.impl.buffer := by
                simp [DataBuffer.apply, hpipe, DataBuffer.applyLoop]
              simp only [hb, hap]
              rcases hcase with ⟨_, _, h3, rfl, _⟩ | ⟨_, _, h3, rfl, _⟩
              · rw [h3]
                unfold McmcImpl.propose at hp
                split at hp
                · cases hp
                · split at hp
                  · cases hp
                  · split at hp
                    · cases hp; assumption
                    · cases hp
              · rw [h3]; exact hl hr
          · cases h1
  simp only [McmcSys.run] at h
  split at h
  · cases h
  · rename_i s1 h1
    simp only [McmcSys.step] at h1
    have hpipe : ∀ b : DataBuffer E, b.apply.pipe = [] := fun b => DataBuffer.apply_pipe b
    split at h1
    · rename_i impl c hin
      cases h1
      obtain ⟨b1, _, _, b4⟩ := init_cases p s.impl impl d _ hin
      obtain ⟨_, _, _, _, _, hl, _⟩ := b4 c rfl
      exact hrun its _ s' (by simp only [b1, hpipe]) (fun _ => by simp only [b1]; exact hl) h
    · rename_i impl r _ hin
      cases h1
      obtain ⟨b1, _⟩ := init_cases p s.impl impl d _ hin
      exact hrun its _ s' (by simp only [b1, hpipe]) (fun hr => by cases hr) h

end

section
attribute [local instance] exQMath

/-- **C72, negation.** Elements pushed between two iterations: the recorded loss is still the one on
the former data (2, for a centroid 4 and data 3 and 5), not the loss on the current data (11). -/
theorem C72_loss_false : ¬ ∀ (p : McmcParams Unit ℚ ℚ Unit) (data : List ℚ)
    (ops : List (McmcOp Unit ℚ ℚ)) (s : McmcSys ℚ ℚ),
    McmcSys.run p (McmcSys.new p data) ops = some s → LossIsCurrent p s := by
  intro h
  have key : (McmcSys.run (exMcmc [0, 1, 0]) (McmcSys.new (exMcmc [0, 1, 0]) [3, 5])
      [.init (), .push 7 true, .iterate (exDraws (1 / 2) (1 / 4))]).map
        (fun s => (s.ready, s.impl.current.loss,
          mcmcLoss (exMcmc [0, 1, 0]) s.centroids s.impl.buffer.data)) =
      some (true, 2, some 11) := by decide +kernel
  rw [Option.map_eq_some_iff] at key
  obtain ⟨s, hs, he⟩ := key
  simp only [Prod.mk.injEq] at he
  have := h _ _ _ _ hs he.1
  rw [he.2.2, he.2.1] at this
  norm_num at this

end
end Distclus
