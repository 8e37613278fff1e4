import Verif.Props.DrawsMcmc
import Verif.Props.KMeansInit
/-!
# C146: the weights of the moves of mcmc are not verified

`ProbaK` is meant to have three weights, for one cluster less, as many, one more (mcmc/impl.go:141-155).  `Verify`
(mcmc/conf.go:52-61) does not look at it, `SetDefaultValues` replaces it only when it is empty.
-/
namespace Distclus
open Spec

section
variable {F R : Type} [Zero F] [BEq F] [GoMath F]

/-- Weights given by the caller. -/
theorem setDefaults_probaK (env : ConfEnv R) (c : McmcConf F R) (w : List F) (hw : w ≠ [])
    (hc : c.probaK ≠ []) :
    McmcConf.setDefaults env { c with probaK := w } = { McmcConf.setDefaults env c with probaK := w } := by
  have h1 : ¬ w.length = 0 := fun h => hw (List.length_eq_zero_iff.1 h)
  have h2 : ¬ c.probaK.length = 0 := fun h => hc (List.length_eq_zero_iff.1 h)
  rcases c with ⟨ctrl, par, initK, rgen, b, amp, r, norm, maxK, probaK, frameSize, numCPU⟩
  simp only at h2
  simp only [McmcConf.setDefaults]
  cases rgen <;> simp only [Option.isNone_none, Option.isNone_some, if_true, Bool.false_eq_true, if_false, h1, h2] <;>
    (split <;> split <;> split <;> split <;> rfl)

end

section
variable {D E F R : Type} [Zero F] [One F] [Neg F] [LT F] [DecidableLT F] [Add F] [Sub F] [Mul F] [BEq F]

omit [One F] [Neg F] [BEq F] [Mul F] in
theorem choiceLoop_index : ∀ (ws : List F) (cursor : F) (idx i : Int), choiceLoop ws cursor idx = some i →
    idx - 1 ≤ i ∧ i < idx + ws.length
  | [], cursor, idx, i, h => by
    simp only [choiceLoop] at h
    split at h
    · cases h
    · cases h; simp
  | w :: ws, cursor, idx, i, h => by
    simp only [choiceLoop] at h
    split at h
    · have := choiceLoop_index ws _ _ i h
      simp only [List.length_cons, Nat.cast_add, Nat.cast_one]
      omega
    · cases h
      simp only [List.length_cons, Nat.cast_add, Nat.cast_one]
      omega

omit [One F] [Neg F] in
/-- The difference applied to the number of clusters. -/
theorem nextK_cases (conf : McmcConf F R) (k : Int) (data : List E) (u : F) (k' : Int)
    (h : nextK conf k data u = some k') :
    ∃ d : Int, -1 ≤ d ∧ d ≤ 1 ∧ (d + 1 < conf.probaK.length ∨ d = -1) ∧
      ((k + d < 1 ∧ k' = 1) ∨ (1 ≤ k + d ∧ conf.maxK < k + d ∧ k' = conf.maxK) ∨
        (1 ≤ k + d ∧ k + d ≤ conf.maxK ∧ (data.length : Int) < k + d ∧ k' = data.length) ∨
        (1 ≤ k + d ∧ k + d ≤ conf.maxK ∧ k + d ≤ data.length ∧ k' = k + d)) := by
  have hidx : ∀ (i d : Int), idx? [(-1 : Int), 0, 1] i = some d → 0 ≤ i ∧ i ≤ 2 ∧ d = i - 1 := by
    intro i d hi
    unfold idx? at hi
    split at hi
    · cases hi
    · rename_i h0
      have hl := (List.getElem?_eq_some_iff.1 hi).1
      simp only [List.length_cons, List.length_nil] at hl
      have : i.toNat = 0 ∨ i.toNat = 1 ∨ i.toNat = 2 := by omega
      rcases this with h | h | h <;> rw [h] at hi <;> simp at hi <;> omega
  have key : ∀ d : Int, (if k + d < 1 then some 1 else if k + d > conf.maxK then some conf.maxK
      else if k + d > data.length then some (data.length : Int) else some (k + d)) = some k' →
      ((k + d < 1 ∧ k' = 1) ∨ (1 ≤ k + d ∧ conf.maxK < k + d ∧ k' = conf.maxK) ∨
        (1 ≤ k + d ∧ k + d ≤ conf.maxK ∧ (data.length : Int) < k + d ∧ k' = data.length) ∨
        (1 ≤ k + d ∧ k + d ≤ conf.maxK ∧ k + d ≤ data.length ∧ k' = k + d)) := by
    intro d hd
    by_cases c1 : k + d < 1
    · rw [if_pos c1] at hd; cases hd; exact .inl ⟨c1, rfl⟩
    · rw [if_neg c1] at hd
      by_cases c2 : k + d > conf.maxK
      · rw [if_pos c2] at hd; cases hd; exact .inr (.inl ⟨by omega, c2, rfl⟩)
      · rw [if_neg c2] at hd
        by_cases c3 : k + d > data.length
        · rw [if_pos c3] at hd; cases hd; exact .inr (.inr (.inl ⟨by omega, by omega, c3, rfl⟩))
        · rw [if_neg c3] at hd; cases hd; exact .inr (.inr (.inr ⟨by omega, by omega, by omega, rfl⟩))
  unfold nextK at h
  cases hw : weightedChoice conf.probaK u with
  | panic => simp [hw] at h
  | nullSet =>
    simp only [hw] at h
    exact ⟨-1, by omega, by omega, .inr rfl, key _ h⟩
  | ok i =>
    simp only [hw] at h
    cases hi : idx? [(-1 : Int), 0, 1] i with
    | none => rw [hi] at h; cases h
    | some d =>
      rw [hi] at h
      obtain ⟨i1, i2, i3⟩ := hidx i d hi
      have hlen : i < conf.probaK.length := by
        unfold weightedChoice at hw
        by_cases hs : (sumF conf.probaK == 0) = true
        · simp [hs] at hw
        · simp only [hs] at hw
          cases hc : choiceLoop conf.probaK (u * sumF conf.probaK) 0 with
          | none => rw [hc] at hw; simp at hw
          | some j =>
            rw [hc] at hw
            simp only [Bool.false_eq_true, if_false, ChoiceRes.ok.injEq] at hw
            have := choiceLoop_index _ _ _ _ hc
            omega
      exact ⟨d, by omega, by omega, .inl (by omega), key d h⟩

omit [One F] [Neg F] in
/-- **C146.** At most two weights: the number of clusters proposed is at most the current one, whatever the weights and
the draws. -/
theorem C146_two (conf : McmcConf F R) (hl : conf.probaK.length ≤ 2) (k : Int) (hk : 1 ≤ k) (data : List E) (u : F)
    (k' : Int) (h : nextK conf k data u = some k') : k' ≤ k := by
  obtain ⟨d, d1, d2, d3, hc⟩ := nextK_cases conf k data u k' h
  omega

omit [One F] [Neg F] in
/-- **C146.** One weight: every proposal has one cluster less, down to one. -/
theorem C146_one (conf : McmcConf F R) (hl : conf.probaK.length ≤ 1) (k : Int) (hk : 1 ≤ k) (hm : k ≤ conf.maxK)
    (data : List E) (hd : k ≤ data.length) (u : F) (k' : Int) (h : nextK conf k data u = some k') :
    k' = max 1 (k - 1) := by
  obtain ⟨d, d1, d2, d3, hc⟩ := nextK_cases conf k data u k' h
  omega

omit [One F] [Neg F] in
/-- **C146.** Weights whose sum is 0: likewise; the error of the draw is dropped. -/
theorem C146_null (conf : McmcConf F R) (hs : (sumF conf.probaK == 0) = true) (k : Int) (hk : 1 ≤ k)
    (hm : k ≤ conf.maxK) (data : List E) (hd : k ≤ data.length) (u : F) :
    nextK conf k data u = some (max 1 (k - 1)) := by
  have hw : weightedChoice conf.probaK u = .nullSet := by unfold weightedChoice; simp [hs]
  unfold nextK
  rw [hw]
  have : idx? [(-1 : Int), 0, 1] 0 = some (-1) := by decide
  simp only [this]
  by_cases h1 : k + -1 < 1
  · rw [if_pos h1]; congr 1; omega
  · rw [if_neg h1, if_neg (by omega), if_neg (by omega)]; congr 1; omega

omit [One F] [Neg F] in
/-- **C146.** A sum `S` which is not 0 with `u * S` not positive (a negative sum, a weight NaN, or the draw 0): the
iteration panics. -/
theorem C146_not_positive (conf : McmcConf F R) (u : F) (hs : (sumF conf.probaK == 0) = false)
    (hu : ¬ 0 < u * sumF conf.probaK) (k : Int) (data : List E) : nextK conf k data u = none := by
  unfold nextK
  rw [C29_not_positive conf.probaK u hs hu]
  rfl

/-- A proposal has the number of clusters drawn, or the current one. -/
theorem propose_k [GoMath F] [Div F] (p : McmcParams D E F R) (impl : McmcImpl E F) (current : Proposal E F)
    (centroids data : List E) (time : Nat) (d : McmcDraws E F) (prop : Proposal E F)
    (h : impl.propose p current centroids data time d = some prop) :
    ∃ k', nextK p.conf current.k data d.move = some k' ∧ (prop.k = k' ∨ prop.k = current.k) := by
  unfold McmcImpl.propose at h
  cases hk : impl.getKCenters p current centroids data d with
  | none => rw [hk] at h; cases h
  | some kc =>
    rcases kc with ⟨k, c⟩
    rw [hk] at h
    have hpk : prop.k = k := by
      simp only at h
      split at h
      · cases h
      · split at h
        · cases h; rfl
        · cases h
    unfold McmcImpl.getKCenters at hk
    cases hn : nextK p.conf current.k data d.move with
    | none => rw [hn] at hk; cases hk
    | some k' =>
      rw [hn] at hk
      refine ⟨k', rfl, ?_⟩
      simp only at hk
      split at hk
      · cases hk
      · cases hk; exact .inl hpk
      · split at hk
        · cases hk
        · cases hk; exact .inr hpk

variable [GoMath F] [Div F]

/-- **C146.** The iteration panics when the draw of the move does. -/
theorem C146_iterate (p : McmcParams D E F R) (impl : McmcImpl E F) (centroids : List E) (d : McmcDraws E F)
    (h : nextK p.conf impl.current.k impl.buffer.data d.move = none) : impl.iterate p centroids d = none := by
  simp only [McmcImpl.iterate, McmcImpl.doIter, McmcImpl.propose, McmcImpl.getKCenters, h]

/-- **C146.** At most two weights: after any history there are at most `InitK` centroids. -/
theorem C146_never_grows (hneg : (-1 : F) < 0) (p : McmcParams D E F R) (hcpu : 1 ≤ p.sysCPU)
    (hk1 : 1 ≤ p.conf.initK) (hk2 : p.conf.initK ≤ p.conf.maxK) (hi : InitContract p.initializer)
    (hl : p.conf.probaK.length ≤ 2) (data : List E) (ops : List (McmcOp D E F)) (s : McmcSys E F)
    (h : McmcSys.run p (McmcSys.new p data) ops = some s) (hr : s.ready = true) :
    (s.centroids.length : Int) ≤ p.conf.initK := by
  have key : ∀ (ops : List (McmcOp D E F)) (s s' : McmcSys E F), McmcInv p s →
      (s.ready = true → s.impl.current.k ≤ p.conf.initK) → McmcSys.run p s ops = some s' →
      s'.ready = true → s'.impl.current.k ≤ p.conf.initK := by
    intro ops
    induction ops with
    | nil => intro s s' _ hb h; cases h; exact hb
    | cons o os ih =>
      intro s s' hinv hb h
      unfold McmcSys.run at h
      split at h
      · cases h
      · rename_i s1 h1
        refine ih s1 s' (mcmc_step_inv hneg p hcpu hk1 hk2 hi s s1 o hinv h1) ?_ h
        cases o with
        | push e r =>
          simp only [McmcSys.step] at h1
          split at h1
          · cases h1
          · cases h1; exact hb
        | init d =>
          simp only [McmcSys.step] at h1
          split at h1
          · rename_i impl c hin
            cases h1
            obtain ⟨_, _, _, b4⟩ := init_cases p s.impl impl d _ hin
            obtain ⟨_, c2, _⟩ := b4 c rfl
            intro _
            simp only
            omega
          · cases h1; simp
        | iterate d =>
          simp only [McmcSys.step] at h1
          split at h1
          · rename_i hrd
            split at h1
            · cases h1; simp
            · rename_i impl clust fig hit
              cases h1
              obtain ⟨a1, _⟩ := hinv.ready hrd
              have hb' := hb hrd
              obtain ⟨prop, hp, _, _, _, _, _, hcase⟩ := iterate_cases p _ _ _ _ _ _ hit
              obtain ⟨k', hk', hpk⟩ := propose_k p _ _ _ _ _ _ _ hp
              have := C146_two p.conf hl _ a1 _ _ k' hk'
              intro _
              simp only
              rcases hcase with ⟨_, _, h3, _⟩ | ⟨_, _, h3, _⟩ <;> rw [h3] <;> omega
          · cases h1
  have hinv := mcmc_run_inv hneg p hcpu hk1 hk2 hi ops _ _ (mcmc_new_inv p data) h
  obtain ⟨_, _, _, a4, _⟩ := hinv.ready hr
  have := key ops _ _ (mcmc_new_inv p data) (fun h => by cases h) h hr
  omega

/-- **C146.** `NewAlgo` accepts any weights where it accepts some, and keeps them. -/
theorem C146_accepted (env : ConfEnv R) (c c' : McmcConf F R) (hc : c.probaK ≠ []) (w : List F) (hw : w ≠ [])
    (h : c.newAlgo env = some c') : McmcConf.newAlgo env { c with probaK := w } = some { c' with probaK := w } := by
  have hkeep : ∀ c : McmcConf F R, c.probaK ≠ [] → (c.setDefaults env).probaK = c.probaK := fun c hc => by
    have := congrArg McmcConf.probaK (setDefaults_probaK env c c.probaK hc hc)
    exact this
  have hver : ∀ c : McmcConf F R, c.probaK ≠ [] → McmcConf.verify env { c with probaK := w } =
      ({ (c.verify env).1 with probaK := w }, (c.verify env).2) := fun c hc => by
    simp only [McmcConf.verify, setDefaults_probaK env c w hw hc]
  have hfst : ∀ c : McmcConf F R, (c.verify env).1 = c.setDefaults env := fun _ => rfl
  have h1 : (c.verify env).1.probaK ≠ [] := by rw [hfst, hkeep c hc]; exact hc
  have h2 : ((c.verify env).1.setDefaults env).probaK ≠ [] := by rw [hkeep _ h1]; exact h1
  have hprep : prepareConf (McmcConf.ops env) { (c.verify env).1 with probaK := w } =
      ({ (prepareConf (McmcConf.ops env) (c.verify env).1).1 with probaK := w },
        (prepareConf (McmcConf.ops env) (c.verify env).1).2) := by
    have e : (McmcConf.ops env).verify ((McmcConf.ops env).setDefaults { (c.verify env).1 with probaK := w }) =
        ({ (((c.verify env).1.setDefaults env).verify env).1 with probaK := w },
          (((c.verify env).1.setDefaults env).verify env).2) := by
      change McmcConf.verify env (McmcConf.setDefaults env _) = _
      rw [setDefaults_probaK env _ w hw h1, hver _ h2]
    have e' : (McmcConf.ops env).verify ((McmcConf.ops env).setDefaults (c.verify env).1) =
        (((c.verify env).1.setDefaults env).verify env) := rfl
    unfold prepareConf
    simp only [e, e']
    split <;> rfl
  unfold McmcConf.newAlgo coreNewAlgo at h ⊢
  rw [hver c hc]
  simp only [hprep]
  generalize prepareConf (McmcConf.ops env) (c.verify env).1 = r at h
  rcases r with ⟨r1, r2⟩
  cases r2 with
  | some e => cases h
  | none => cases h; rfl

end

section
variable {E F R : Type} [Field F] [LinearOrder F] [IsStrictOrderedRing F]

/-- **C146.** Non-negative weights, not all 0, and a draw in (0,1): the iteration panics exactly when the draw falls
beyond the third weight. -/
theorem C146_panics (conf : McmcConf F R) (hnn : ∀ w ∈ conf.probaK, 0 ≤ w) (hs : 0 < conf.probaK.sum) (u : F)
    (hu : 0 < u) (hu1 : u < 1) (k : Int) (data : List E) :
    nextK conf k data u = none ↔ (conf.probaK.take 3).sum < u * conf.probaK.sum := by
  have hmono : ∀ (l : List F), (∀ w ∈ l, 0 ≤ w) → ∀ a b : Nat, a ≤ b → (l.take a).sum ≤ (l.take b).sum := by
    intro l hl a b hab
    obtain ⟨c, rfl⟩ := Nat.exists_eq_add_of_le hab
    rw [List.take_add, List.sum_append]
    have : 0 ≤ ((l.drop a).take c).sum :=
      List.sum_nonneg fun x hx => hl x (List.mem_of_mem_drop (List.mem_of_mem_take hx))
    linarith
  obtain ⟨⟨i, hi⟩, hiff⟩ := C29_weightedChoice conf.probaK u hnn hs hu hu1
  obtain ⟨w, hw, _, h2, h3⟩ := (hiff i).1 hi
  have htake : (conf.probaK.take (i + 1)).sum = (conf.probaK.take i).sum + w := by
    rw [List.take_add_one, hw]; simp
  unfold nextK
  rw [hi]
  simp only
  by_cases hlt : i < 3
  · have hle := hmono conf.probaK hnn (i + 1) 3 (by omega)
    rw [htake] at hle
    have : ¬ (conf.probaK.take 3).sum < u * conf.probaK.sum := by linarith
    have hd : ∃ d, idx? [(-1 : Int), 0, 1] (i : Int) = some d := by
      have : i = 0 ∨ i = 1 ∨ i = 2 := by omega
      rcases this with rfl | rfl | rfl
      · exact ⟨-1, by decide⟩
      · exact ⟨0, by decide⟩
      · exact ⟨1, by decide⟩
    obtain ⟨d, hd⟩ := hd
    simp only [hd, this, iff_false]
    split
    · simp
    · split
      · simp
      · split <;> simp
  · have hle := hmono conf.probaK hnn 3 i (by omega)
    have : (conf.probaK.take 3).sum < u * conf.probaK.sum := by linarith
    have hd : idx? [(-1 : Int), 0, 1] (i : Int) = none := by
      unfold idx?
      rw [if_neg (by omega)]
      simp
      omega
    simp only [hd, this]

end

section
variable {E R : Type}

/-- **C146.** Non-negative weights, not all 0: the part of the weights after the third is the probability that an
iteration panics. -/
theorem C146_prob (conf : McmcConf ℝ R) (hnn : ∀ w ∈ conf.probaK, 0 ≤ w) (hs : 0 < conf.probaK.sum) (k : Int)
    (data : List E) :
    HasProb (fun u => u ≠ 0 ∧ nextK conf k data u = none) ((conf.probaK.drop 3).sum / conf.probaK.sum) := by
  have hsplit : (conf.probaK.take 3).sum + (conf.probaK.drop 3).sum = conf.probaK.sum := by
    rw [← List.sum_append, List.take_append_drop]
  have ht : 0 ≤ (conf.probaK.take 3).sum := List.sum_nonneg fun x hx => hnn x (List.mem_of_mem_take hx)
  have hd : 0 ≤ (conf.probaK.drop 3).sum := List.sum_nonneg fun x hx => hnn x (List.mem_of_mem_drop hx)
  have he : (conf.probaK.drop 3).sum / conf.probaK.sum = 1 - (conf.probaK.take 3).sum / conf.probaK.sum := by
    rw [eq_sub_iff_add_eq, ← add_div, add_comm, hsplit, div_self hs.ne']
  rw [he]
  refine hasProb_of_between (div_nonneg ht hs.le) ?_ le_rfl ?_ (by simp)
  · rw [div_le_one hs]; linarith
  · intro u hu hu1
    rw [C146_panics conf hnn hs u hu hu1 k data, div_lt_iff₀ hs]
    exact ⟨fun h => ⟨h.2, hu1.le⟩, fun h => ⟨hu.ne', h.1⟩⟩

/-- **C146.** Weights of negative sum: every iteration panics, whatever the draw. -/
theorem C146_negative (conf : McmcConf ℝ R) (hs : conf.probaK.sum < 0) (u : ℝ) (hu : 0 ≤ u) (k : Int)
    (data : List E) : nextK conf k data u = none := by
  apply C146_not_positive
  · rw [sumF_sum]; simpa using hs.ne
  · rw [sumF_sum, not_lt]; exact mul_nonpos_of_nonneg_of_nonpos hu hs.le

/-- **C146.** A weight NaN: likewise. -/
theorem C146_nan (conf : McmcConf XReal R) (h : XReal.nan ∈ conf.probaK) (u : XReal) (k : Int) (data : List E) :
    nextK conf k data u = none := by
  unfold nextK
  rw [C29_nan conf.probaK h u]
  rfl

end

/-- A configuration with four weights, the last with half of the sum. -/
def exFour : McmcConf ℝ Unit :=
  { ctrl := { iter := 0, iterFreq := 0, timeout := 0, dataPerIter := 0, iterPerData := 0 },
    par := false, initK := 1, rgen := none, b := 1, amp := 1, r := 0, norm := 2, maxK := 2,
    probaK := [1, 1, 1, 3], frameSize := 0, numCPU := 1 }

example : HasProb (fun u => u ≠ 0 ∧ nextK exFour 1 [(0 : ℝ)] u = none) (1 / 2) := by
  have h := C146_prob exFour (by norm_num [exFour]) (by norm_num [exFour]) 1 [(0 : ℝ)]
  have e : (exFour.probaK.drop 3).sum / exFour.probaK.sum = 1 / 2 := by norm_num [exFour]
  rwa [e] at h

attribute [local instance] exQMath in
/-- Two weights: the draws with which three weights give a second centroid (see C30) leave one. -/
example : (McmcSys.run (exMcmc [1, 1]) (McmcSys.new (exMcmc [1, 1]) [3, 5, 9])
    [.init (), .iterate (exDraws (3 / 4) 0), .iterate (exDraws (3 / 4) (1 / 4))]).map (·.centroids.length) = some 1 :=
  by decide +kernel

end Distclus
