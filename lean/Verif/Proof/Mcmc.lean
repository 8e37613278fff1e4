import Verif.Model.Mcmc
import Verif.Proof.KMeans
/-! # Lemmas on the MCMC algorithm -/

set_option linter.unusedSectionVars false

namespace Distclus

section
variable {D E F R : Type}

/-! ### The buffer never shrinks -/

theorem DataBuffer.store_length_le (b : DataBuffer E) (e : E) :
    b.data.length ≤ (b.store e).data.length := by
  unfold DataBuffer.store
  cases hs : b.strategy with
  | fixed size position =>
    simp only [Strategy.push]
    split <;> split <;> simp
  | infinite => simp [Strategy.push]

theorem DataBuffer.applyLoop_length_le : ∀ (n : Nat) (b : DataBuffer E),
    b.data.length ≤ (DataBuffer.applyLoop n b).data.length := by
  intro n
  induction n with
  | zero => intro b; exact Nat.le_refl _
  | succ n ih =>
    intro b
    unfold DataBuffer.applyLoop DataBuffer.applyNext
    cases hp : b.pipe with
    | nil => exact Nat.le_refl _
    | cons e rest =>
      exact Nat.le_trans (DataBuffer.store_length_le { b with pipe := rest } e) (ih _)

theorem DataBuffer.apply_length_le (b : DataBuffer E) : b.data.length ≤ b.apply.data.length :=
  DataBuffer.applyLoop_length_le _ _

theorem DataBuffer.applyLoop_pipe : ∀ (n : Nat) (b : DataBuffer E), b.pipe.length ≤ n →
    (DataBuffer.applyLoop n b).pipe = [] := by
  intro n
  induction n with
  | zero => intro b h; simpa [DataBuffer.applyLoop] using h
  | succ n ih =>
    intro b h
    unfold DataBuffer.applyLoop DataBuffer.applyNext
    cases hp : b.pipe with
    | nil => exact hp
    | cons e rest =>
      apply ih
      rw [hp] at h
      simpa [DataBuffer.store] using h

theorem DataBuffer.apply_pipe (b : DataBuffer E) : b.apply.pipe = [] :=
  DataBuffer.applyLoop_pipe _ _ (Nat.le_refl _)

theorem DataBuffer.push_length_le (b b' : DataBuffer E) (e : E) (r : Bool)
    (h : b.push e r = some b') : b.data.length ≤ b'.data.length := by
  unfold DataBuffer.push at h
  split at h
  · split at h
    · cases h; exact Nat.le_refl _
    · cases h
  · cases h; exact b.store_length_le e

/-! ### The centre store -/

theorem delLoop_eq (space : Space E F) (prev : List E) (del : Nat) : ∀ (n i : Nat),
    i + n + 1 = prev.length → del ≤ i + n →
    delLoop space prev del i n = some (((prev.eraseIdx del).drop i).map space.copy) := by
  intro n
  induction n with
  | zero =>
    intro i h1 h2
    have : (prev.eraseIdx del).length ≤ i := by
      rw [List.length_eraseIdx_of_lt (by omega)]; omega
    simp [delLoop, List.drop_of_length_le this]
  | succ n ih =>
    intro i h1 h2
    have hlen : (prev.eraseIdx del).length = prev.length - 1 :=
      List.length_eraseIdx_of_lt (by omega)
    have hi : i < (prev.eraseIdx del).length := by omega
    have hget : (if i < del then prev[i]? else prev[i + 1]?) = (prev.eraseIdx del)[i]? := by
      rw [List.getElem?_eraseIdx]
    unfold delLoop
    rw [hget, List.getElem?_eq_getElem hi, ih (i + 1) (by omega) (by omega)]
    rw [List.drop_eq_getElem_cons hi]
    rfl

theorem delCenter_eq (space : Space E F) (prev : List E) (del : Nat) (hd : del < prev.length) :
    delCenter space prev del = some ((prev.eraseIdx del).map space.copy) := by
  unfold delCenter
  rw [if_neg (by omega), delLoop_eq space prev del _ 0 (by omega) (by omega)]
  simp

theorem delLoop_length (space : Space E F) (prev : List E) (del : Nat) : ∀ (n i : Nat)
    (c : List E), delLoop space prev del i n = some c → c.length = n := by
  intro n
  induction n with
  | zero => intro i c h; simp [delLoop] at h; subst h; rfl
  | succ n ih =>
    intro i c h
    unfold delLoop at h
    split at h
    · cases h
    · split at h
      · cases h
      · rename_i r hr
        cases h
        simp [ih _ _ hr]

variable [Zero F] [One F] [Neg F] [LT F] [DecidableLT F] [Add F] [Sub F] [Mul F] [BEq F]

/-- Every stored clustering has the size under which it is stored. -/
def CenterStore.Sized (s : CenterStore E) : Prop :=
  ∀ (k : Int) (c : List E), s k = some c → (c.length : Int) = k

theorem CenterStore.Sized.set {s : CenterStore E} (h : s.Sized) (c : List E) :
    (s.setCenters c).Sized := by
  intro k c' hc
  unfold CenterStore.setCenters at hc
  split at hc
  · cases hc; omega
  · exact h k c' hc

theorem getCenters_length {s : CenterStore E} (hs : s.Sized) (space : Space E F) (data : List E)
    (k : Int) (clust : List E) (hk1 : k ≤ clust.length + 1) (hk2 : (clust.length : Int) ≤ k + 1)
    (u : F) (del : Nat) (c : List E) (err : Bool)
    (h : s.getCenters space data k clust u del = some (c, err)) : (c.length : Int) = k := by
  unfold CenterStore.getCenters at h
  split at h
  · rename_i c' hc
    cases h
    exact hs k _ hc
  · unfold genCenters at h
    split at h
    · unfold addCenter at h
      split at h
      · cases h
      · split at h
        · cases h
        · cases h; simp; omega
      · cases h; simp; omega
    · split at h
      · rename_i h1 h2
        rw [Option.map_eq_some_iff] at h
        obtain ⟨c', h, he⟩ := h
        cases he
        unfold delCenter at h
        split at h
        · cases h
        · have := delLoop_length _ _ _ _ _ _ h
          omega
      · cases h; omega

/-! ### Number of clusters -/

theorem nextK_range (conf : McmcConf F R) (k : Int) (data : List E) (u : F) (k' : Int)
    (h1 : 1 ≤ k) (h2 : k ≤ conf.maxK) (h3 : k ≤ data.length)
    (h : nextK conf k data u = some k') :
    1 ≤ k' ∧ k' ≤ conf.maxK ∧ k' ≤ data.length ∧ k' ≤ k + 1 ∧ k ≤ k' + 1 := by
  unfold nextK at h
  have key : ∀ d : Int, -1 ≤ d ∧ d ≤ 1 → (if k + d < 1 then some 1
        else if k + d > conf.maxK then some conf.maxK
        else if k + d > data.length then some (data.length : Int)
        else some (k + d)) = some k' →
      1 ≤ k' ∧ k' ≤ conf.maxK ∧ k' ≤ data.length ∧ k' ≤ k + 1 ∧ k ≤ k' + 1 := by
    intro d hdr hi
    split at hi
    · cases hi; omega
    · split at hi
      · cases hi; omega
      · split at hi
        · cases hi; omega
        · cases hi; omega
  have hdr : ∀ i d : Int, idx? [(-1 : Int), 0, 1] i = some d → -1 ≤ d ∧ d ≤ 1 := by
    intro i d hd
    unfold idx? at hd
    split at hd
    · cases hd
    · have := List.mem_of_getElem? hd
      simp at this
      omega
  cases hw : weightedChoice conf.probaK u with
  | panic => simp [hw] at h
  | nullSet =>
    simp only [hw] at h
    split at h
    · cases h
    · rename_i d hd; exact key d (hdr _ d hd) h
  | ok i =>
    simp only [hw] at h
    split at h
    · cases h
    · rename_i d hd; exact key d (hdr _ d hd) h

theorem getKCenters_spec (p : McmcParams D E F R) (impl : McmcImpl E F) (hs : impl.store.Sized)
    (current : Proposal E F) (centroids data : List E) (d : McmcDraws E F)
    (h1 : 1 ≤ current.k) (h2 : current.k ≤ p.conf.maxK) (h3 : current.k ≤ data.length)
    (hl : (centroids.length : Int) = current.k) (k : Int) (c : List E)
    (h : impl.getKCenters p current centroids data d = some (k, c)) :
    (c.length : Int) = k ∧ 1 ≤ k ∧ k ≤ p.conf.maxK ∧ k ≤ data.length ∧ k ≤ current.k + 1 ∧
      current.k ≤ k + 1 := by
  unfold McmcImpl.getKCenters at h
  split at h
  · cases h
  · rename_i k' hk'
    have hr := nextK_range p.conf current.k data d.move k' h1 h2 h3 hk'
    split at h
    · cases h
    · rename_i c' hc'
      cases h
      exact ⟨getCenters_length hs _ _ _ _ (by omega) (by omega) _ _ _ _ hc', hr⟩
    · split at h
      · cases h
      · rename_i c' e hc'
        cases h
        exact ⟨getCenters_length hs _ _ _ _ (by omega) (by omega) _ _ _ _ hc',
          by omega, by omega, by omega, by omega, by omega⟩

theorem kmeansStep_length (hneg : (-1 : F) < 0) (s : KStrategy) (hs : s.Valid) (space : Space E F)
    (data c : List E) (hc : c ≠ []) :
    ∃ out, kmeansStep s space data c = some out ∧ out.length = c.length := by
  obtain ⟨out, h1, h2, _⟩ := iterate_spec hneg (space := space) (P := fun _ _ => True)
    (fun _ _ _ _ _ _ _ _ => trivial) (fun _ _ _ => trivial) s hs c data hc
  exact ⟨out, by simp [kmeansStep, h1, allSome_map_some], h2⟩

theorem probaLoop_isSome (pdf : E → E → Nat → F) (time : Nat) : ∀ (x mu : List E) (a : F),
    x.length ≤ mu.length → ∃ r, probaLoop pdf time x mu a = some r := by
  intro x
  induction x with
  | nil => intro mu a _; exact ⟨a, rfl⟩
  | cons v x ih =>
    intro mu a h
    cases mu with
    | nil => simp at h
    | cons m mu => exact ih mu _ (by simpa using h)

variable [GoMath F] [Div F]

theorem propose_spec (hneg : (-1 : F) < 0) (p : McmcParams D E F R) (hcpu : 1 ≤ p.sysCPU)
    (impl : McmcImpl E F) (hs : impl.store.Sized) (current : Proposal E F)
    (centroids data : List E) (time : Nat) (d : McmcDraws E F)
    (h1 : 1 ≤ current.k) (h2 : current.k ≤ p.conf.maxK) (h3 : current.k ≤ data.length)
    (hl : (centroids.length : Int) = current.k) (prop : Proposal E F)
    (h : impl.propose p current centroids data time d = some prop) :
    (prop.centers.length : Int) = prop.k ∧ 1 ≤ prop.k ∧ prop.k ≤ p.conf.maxK ∧
      prop.k ≤ data.length ∧ prop.k ≤ current.k + 1 ∧ current.k ≤ prop.k + 1 ∧
      mcmcLoss p prop.centers data = some prop.loss ∧
      proba p.pdf time prop.centers prop.centers = some prop.pdf := by
  unfold McmcImpl.propose at h
  split at h
  · cases h
  · rename_i k c hkc
    have hr := getKCenters_spec p impl hs current centroids data d h1 h2 h3 hl k c hkc
    split at h
    · cases h
    · rename_i c' hc'
      have hne : alter c d ≠ [] := by
        intro h0
        have := congrArg List.length h0
        simp [alter] at this
        subst this
        simp at hr
        omega
      obtain ⟨out, ho, hol⟩ := kmeansStep_length hneg (.par p.sysCPU) hcpu p.space data _ hne
      unfold mcmcStrategyIterate at hc'
      rw [ho] at hc'
      cases hc'
      have hlen : c'.length = c.length := by rw [hol]; simp [alter]
      split at h
      · rename_i loss pdf hloss hpdf
        cases h
        exact ⟨by simp only; omega, hr.2.1, hr.2.2.1, hr.2.2.2.1, hr.2.2.2.2.1, hr.2.2.2.2.2,
          hloss, hpdf⟩
      · cases h

/-- Case analysis of an iteration. -/
theorem iterate_cases (p : McmcParams D E F R) (impl : McmcImpl E F) (centroids : List E)
    (d : McmcDraws E F) (impl' : McmcImpl E F) (clust : List E) (fig : McmcFigures F)
    (h : impl.iterate p centroids d = some (impl', clust, fig)) :
    ∃ prop, impl.propose p impl.current centroids impl.buffer.data impl.buffer.data.length d =
        some prop ∧
      fig = impl'.figures ∧ impl'.time = impl.buffer.data.length ∧ impl'.dim = impl.dim ∧
      impl'.buffer = impl.buffer.apply ∧
      (impl'.lambda, impl'.rho, impl'.rGibbs) =
        ratio p.conf impl.dim impl.current prop impl.buffer.data.length ∧
      ((d.accept < impl'.rho ∧ impl'.acc = impl.acc + 1 ∧ impl'.current = prop ∧
          clust = prop.centers ∧ impl'.store = impl.store.setCenters prop.centers) ∨
       (¬ d.accept < impl'.rho ∧ impl'.acc = impl.acc ∧ impl'.current = impl.current ∧
          clust = centroids ∧ impl'.store = impl.store)) := by
  unfold McmcImpl.iterate McmcImpl.doIter at h
  cases hp : impl.propose p impl.current centroids impl.buffer.data impl.buffer.data.length d with
  | none => simp [hp] at h
  | some prop =>
    refine ⟨prop, rfl, ?_⟩
    by_cases ha : d.accept <
        (ratio p.conf impl.dim impl.current prop impl.buffer.data.length).2.1
    · simp [hp, McmcImpl.accept, ha] at h
      obtain ⟨rfl, rfl, rfl⟩ := h
      exact ⟨rfl, rfl, rfl, rfl, rfl, .inl ⟨ha, rfl, rfl, rfl, rfl⟩⟩
    · simp [hp, McmcImpl.accept, ha] at h
      obtain ⟨rfl, rfl, rfl⟩ := h
      exact ⟨rfl, rfl, rfl, rfl, rfl, .inr ⟨ha, rfl, rfl, rfl, rfl⟩⟩

theorem iterate_of_propose (p : McmcParams D E F R) (impl : McmcImpl E F) (centroids : List E)
    (d : McmcDraws E F) (prop : Proposal E F)
    (h : impl.propose p impl.current centroids impl.buffer.data impl.buffer.data.length d =
      some prop) :
    ∃ impl' clust fig, impl.iterate p centroids d = some (impl', clust, fig) := by
  simp only [McmcImpl.iterate, McmcImpl.doIter, h]
  by_cases ha : (impl.accept p.conf impl.current prop impl.buffer.data.length d.accept).2 = true
  · simp [ha]
  · simp [ha]

/-- Case analysis of an initialisation. -/
theorem init_cases (p : McmcParams D E F R) (impl impl' : McmcImpl E F) (d : D) (r : InitRes E)
    (h : impl.init p d = (impl', r)) :
    impl'.buffer = impl.buffer.apply ∧ impl'.store = impl.store ∧ impl'.acc = impl.acc ∧
    ∀ c, r = .ok c →
      p.initializer d p.conf.initK impl.buffer.apply.data = .ok c ∧
      impl'.current.k = p.conf.initK ∧ impl'.current.centers = c ∧
      impl'.dim = p.space.dim c ∧ impl'.time = impl.buffer.apply.data.length ∧
      mcmcLoss p c impl.buffer.apply.data = some impl'.current.loss ∧
      proba p.pdf impl.buffer.apply.data.length c c = some impl'.current.pdf := by
  unfold McmcImpl.init at h
  cases hi : p.initializer d p.conf.initK impl.buffer.apply.data with
  | panic => simp [hi] at h; obtain ⟨rfl, rfl⟩ := h; simp
  | err => simp [hi] at h; obtain ⟨rfl, rfl⟩ := h; simp
  | ok c =>
    simp only [hi] at h
    split at h
    · rename_i loss pdf hl hp
      cases h
      simp [hl, hp]
    · cases h; simp

end
end Distclus
