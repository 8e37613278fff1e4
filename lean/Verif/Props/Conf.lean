import Verif.Model.Conf
import Mathlib.Tactic.Common
/-!
# C21, C22: configuration checks
-/
set_option linter.unusedSectionVars false
namespace Distclus
variable {F R : Type} [Zero F] [LT F] [DecidableLT F] [BEq F]

/-- The documented constraints of the controller configuration. -/
def CtrlOk (c : CtrlConf F) : Prop :=
  0 ≤ c.iterPerData ∧ 0 ≤ c.dataPerIter ∧ ¬ c.iterFreq < 0 ∧ 0 ≤ c.timeout ∧ 0 ≤ c.iter

omit [BEq F] in
theorem ctrl_verify_iff (c : CtrlConf F) : c.verify = none ↔ CtrlOk c := by
  unfold CtrlConf.verify CtrlOk CtrlConf.setDefaults
  by_cases h1 : c.iterPerData < 0
  · simp [h1]; omega
  · by_cases h2 : c.dataPerIter < 0
    · simp [h1, h2]; omega
    · by_cases h3 : c.iterFreq < 0
      · simp [h1, h2, h3]
      · by_cases h4 : c.timeout < 0
        · simp [h1, h2, h3, h4]; omega
        · by_cases h5 : c.iter < 0
          · simp [h1, h2, h3, h4, h5]
          · simp [h1, h2, h3, h4, h5]; omega

/-- **C21** (k-means, defaults). Filling the defaults is idempotent (whatever the environment of the
second time), never overrides a value set by the user, and sets the documented values. -/
theorem C21_kmeans_defaults (env env' : ConfEnv R) (hcpu : env.numCPU ≠ 0) (c : KMeansConf F R) :
    let d := c.setDefaults env
    d.setDefaults env' = d ∧ d.ctrl = c.ctrl ∧ d.par = c.par ∧ d.k = c.k ∧
    d.frameSize = c.frameSize ∧
    (d.rgen = match c.rgen with | some r => some r | none => some env.rgen) ∧
    d.numCPU = if c.numCPU = 0 then env.numCPU else c.numCPU := by
  obtain ⟨ctrl, par, k, fs, rgen, cpu⟩ := c
  simp only [KMeansConf.setDefaults]
  cases rgen <;> by_cases h2 : cpu = 0 <;> simp [h2, hcpu]

/-- **C21** (k-means, acceptance). `NewAlgo` builds an algorithm iff the controller limits are
non-negative and `K ≥ 1`; it panics on every other configuration.  The configuration used is the
given one with the defaults filled in. -/
theorem C21_kmeans_accepts (env : ConfEnv R) (hcpu : env.numCPU ≠ 0) (c : KMeansConf F R) :
    (c.newAlgo env = some (c.setDefaults env) ↔ 1 ≤ c.k ∧ CtrlOk c.ctrl) ∧
    (c.newAlgo env = none ↔ ¬ (1 ≤ c.k ∧ CtrlOk c.ctrl)) ∧
    ((prepareConf (KMeansConf.ops env) c).2 = none ↔ 1 ≤ c.k ∧ CtrlOk c.ctrl) := by
  have hd := fun c : KMeansConf F R => C21_kmeans_defaults env env hcpu c
  have hidem := fun c => (hd c).1
  have hctrl := fun c => (hd c).2.1
  have hk := fun c => (hd c).2.2.2.1
  have hprep : ∀ c : KMeansConf F R, prepareConf (KMeansConf.ops env) c =
      (c.setDefaults env, if c.k < 1 then some .k else c.ctrl.verify) := by
    intro c
    simp only [prepareConf, KMeansConf.ops, KMeansConf.verify, hidem, hk]
    by_cases h : c.k < 1
    · simp [h]
    · simp [h, hctrl]
  have hnew : c.newAlgo env =
      if 1 ≤ c.k ∧ c.ctrl.verify = none then some (c.setDefaults env) else none := by
    simp only [KMeansConf.newAlgo, KMeansConf.verify, coreNewAlgo, hprep, hidem, hk, hctrl]
    by_cases h : c.k < 1
    · simp [h]; omega
    · have h' : 1 ≤ c.k := by omega
      simp only [h, if_false, h', true_and]
      cases c.ctrl.verify <;> simp
  rw [hnew, ← ctrl_verify_iff, hprep]
  refine ⟨by simp, by simp, ?_⟩
  by_cases h : c.k < 1
  · simp [h]; omega
  · simp [h]; omega

/-- **C22.** A negative number of CPU passes every check and reaches the algorithm unchanged
(although every parallel operation then panics, see `C22_par_panics_iff`). -/
theorem C22_negative_cpu_accepted (env : ConfEnv R) (hcpu : env.numCPU ≠ 0) (c : KMeansConf F R)
    (hneg : c.numCPU < 0) (hk : 1 ≤ c.k) (hctrl : CtrlOk c.ctrl) :
    ∃ d, c.newAlgo env = some d ∧ d.numCPU = c.numCPU := by
  refine ⟨_, (C21_kmeans_accepts env hcpu c).1.2 ⟨hk, hctrl⟩, ?_⟩
  have := (C21_kmeans_defaults env env hcpu c).2.2.2.2.2.2
  rw [this, if_neg (by omega)]

variable [GoMath F]

/-- The only facts on floating-point comparison used for the defaults: the default values are not
equal to zero. -/
structure NonzeroConsts (F : Type) [Zero F] [BEq F] [GoMath F] : Prop where
  one : ((GoMath.ofInt 1 : F) == 0) = false
  two : ((GoMath.ofInt 2 : F) == 0) = false

theorem mcmc_fields (env : ConfEnv R) (c : McmcConf F R) :
    c.setDefaults env =
    { c with
      rgen := if c.rgen.isNone then some env.rgen else c.rgen
      probaK := if c.probaK.length = 0 then
        [GoMath.ofInt 1, GoMath.ofInt 8, GoMath.ofInt 1] else c.probaK
      norm := if c.norm == 0 then GoMath.ofInt 2 else c.norm
      maxK := if c.maxK = 0 then 16 else c.maxK
      b := if c.b == 0 then GoMath.ofInt 1 else c.b
      numCPU := if c.numCPU = 0 then env.numCPU else c.numCPU } := by
  have e : ∀ d d' : McmcConf F R, d.ctrl = d'.ctrl → d.par = d'.par → d.initK = d'.initK →
      d.rgen = d'.rgen → d.b = d'.b → d.amp = d'.amp → d.r = d'.r → d.norm = d'.norm →
      d.maxK = d'.maxK → d.probaK = d'.probaK → d.frameSize = d'.frameSize →
      d.numCPU = d'.numCPU → d = d' := by
    rintro ⟨⟩ ⟨⟩; intros; simp_all
  apply e <;> simp only [McmcConf.setDefaults, apply_ite McmcConf.ctrl, apply_ite McmcConf.par,
    apply_ite McmcConf.initK, apply_ite McmcConf.rgen, apply_ite McmcConf.b,
    apply_ite McmcConf.amp, apply_ite McmcConf.r, apply_ite McmcConf.norm,
    apply_ite McmcConf.maxK, apply_ite McmcConf.probaK, apply_ite McmcConf.frameSize,
    apply_ite McmcConf.numCPU, ite_self]

/-- **C21** (mcmc, defaults). -/
theorem C21_mcmc_defaults (env env' : ConfEnv R) (hcpu : env.numCPU ≠ 0)
    (hF : NonzeroConsts F) (c : McmcConf F R) :
    let d := c.setDefaults env
    d.setDefaults env' = d ∧ d.ctrl = c.ctrl ∧ d.par = c.par ∧ d.initK = c.initK ∧
    d.amp = c.amp ∧ d.r = c.r ∧ d.frameSize = c.frameSize ∧
    (d.rgen = match c.rgen with | some r => some r | none => some env.rgen) ∧
    (d.probaK = if c.probaK = [] then [GoMath.ofInt 1, GoMath.ofInt 8, GoMath.ofInt 1]
      else c.probaK) ∧
    (d.norm = if c.norm == 0 then GoMath.ofInt 2 else c.norm) ∧
    (d.maxK = if c.maxK = 0 then 16 else c.maxK) ∧
    (d.b = if c.b == 0 then GoMath.ofInt 1 else c.b) ∧
    d.numCPU = if c.numCPU = 0 then env.numCPU else c.numCPU := by
  have e1 := hF.one
  have e2 := hF.two
  simp only [mcmc_fields, McmcConf.mk.injEq, true_and, and_true]
  refine ⟨⟨?_, ?_, ?_, ?_, ?_, ?_⟩, ?_, ?_⟩
  · cases c.rgen <;> simp
  · cases h : (c.b == 0) <;> simp [h, e1]
  · cases h : (c.norm == 0) <;> simp [h, e2]
  · by_cases h : c.maxK = 0 <;> simp [h]
  · cases h : c.probaK <;> simp
  · by_cases h : c.numCPU = 0 <;> simp [h, hcpu]
  · cases c.rgen <;> simp
  · cases c.probaK <;> simp

/-- **C21** (mcmc, acceptance). `NewAlgo` builds an algorithm iff the controller limits are
non-negative and `1 ≤ InitK ≤ MaxK` (16 if `MaxK` is not set); it panics otherwise. -/
theorem C21_mcmc_accepts (env : ConfEnv R) (hcpu : env.numCPU ≠ 0) (hF : NonzeroConsts F)
    (c : McmcConf F R) :
    let ok := 1 ≤ c.initK ∧ c.initK ≤ (if c.maxK = 0 then 16 else c.maxK) ∧ CtrlOk c.ctrl
    (c.newAlgo env = some (c.setDefaults env) ↔ ok) ∧ (c.newAlgo env = none ↔ ¬ ok) ∧
    ((prepareConf (McmcConf.ops env) c).2 = none ↔ ok) := by
  have hd := fun c : McmcConf F R => C21_mcmc_defaults env env hcpu hF c
  have hidem := fun c => (hd c).1
  have hctrl := fun c => (hd c).2.1
  have hk := fun c => (hd c).2.2.2.1
  have hmax := fun c => (hd c).2.2.2.2.2.2.2.2.2.2.1
  have hmax0 : ∀ c : McmcConf F R, (c.setDefaults env).maxK ≠ 0 := by
    intro c; rw [hmax]; split
    · decide
    · assumption
  have hprep : ∀ c : McmcConf F R, prepareConf (McmcConf.ops env) c =
      (c.setDefaults env,
        if c.initK < 1 then some .k
        else if c.initK > (c.setDefaults env).maxK then some .maxK else c.ctrl.verify) := by
    intro c
    simp only [prepareConf, McmcConf.ops, McmcConf.verify, hidem, hk]
    by_cases h : c.initK < 1
    · simp [h]
    · by_cases h2 : c.initK > (c.setDefaults env).maxK
      · simp [h, h2, hmax0]
      · simp [h, h2, hctrl]
  have hnew : c.newAlgo env =
      if 1 ≤ c.initK ∧ c.initK ≤ (c.setDefaults env).maxK ∧ c.ctrl.verify = none
      then some (c.setDefaults env) else none := by
    simp only [McmcConf.newAlgo, McmcConf.verify, coreNewAlgo, hprep, hidem, hk, hctrl]
    by_cases h : c.initK < 1
    · simp [h]; omega
    · have h' : 1 ≤ c.initK := by omega
      by_cases h2 : c.initK > (c.setDefaults env).maxK
      · simp [h, h2]; omega
      · have h2' : c.initK ≤ (c.setDefaults env).maxK := by omega
        simp only [h, h2, if_false, h', h2', true_and]
        cases c.ctrl.verify <;> simp
  simp only
  rw [← hmax c, hnew, ← ctrl_verify_iff, hprep]
  refine ⟨by simp, by simp, ?_⟩
  by_cases h : c.initK < 1
  · simp [h]; omega
  · by_cases h2 : c.initK > (c.setDefaults env).maxK
    · simp [h, h2]; omega
    · have h' : 1 ≤ c.initK := by omega
      have h2' : c.initK ≤ (c.setDefaults env).maxK := by omega
      simp [h, h2, h', h2']

variable [Div F]

/-- The default values of the streaming configuration are not equal to zero. -/
structure NonzeroStreaming (F : Type) [Zero F] [BEq F] [GoMath F] [Div F] : Prop where
  two : ((GoMath.ofInt 2 : F) == 0) = false
  half : ((GoMath.ofInt 1 / GoMath.ofInt 2 : F) == 0) = false
  tenth : ((GoMath.ofInt 1 / GoMath.ofInt 10 : F) == 0) = false

theorem streaming_fields (env : ConfEnv R) (c : StreamingConf F R) :
    c.setDefaults env =
    { c with
      bufferSize := if c.bufferSize = 0 then 100 else c.bufferSize
      mu := if c.mu == 0 then GoMath.ofInt 1 / GoMath.ofInt 2 else c.mu
      sigma := if c.sigma == 0 then GoMath.ofInt 1 / GoMath.ofInt 10 else c.sigma
      outRatio := if c.outRatio == 0 then GoMath.ofInt 2 else c.outRatio
      outAfter := if c.outAfter = 0 then 5 else c.outAfter
      rgen := if c.rgen.isNone then some env.rgen else c.rgen } := by
  have e : ∀ d d' : StreamingConf F R, d.ctrl = d'.ctrl → d.bufferSize = d'.bufferSize →
      d.mu = d'.mu → d.sigma = d'.sigma → d.outRatio = d'.outRatio → d.outAfter = d'.outAfter →
      d.rgen = d'.rgen → d = d' := by
    rintro ⟨⟩ ⟨⟩; intros; simp_all
  apply e <;> simp only [StreamingConf.setDefaults, apply_ite StreamingConf.ctrl,
    apply_ite StreamingConf.bufferSize, apply_ite StreamingConf.mu, apply_ite StreamingConf.sigma,
    apply_ite StreamingConf.outRatio, apply_ite StreamingConf.outAfter,
    apply_ite StreamingConf.rgen, ite_self]

/-- **C21** (streaming, defaults). -/
theorem C21_streaming_defaults (env env' : ConfEnv R) (hF : NonzeroStreaming F)
    (c : StreamingConf F R) :
    let d := c.setDefaults env
    d.setDefaults env' = d ∧ d.ctrl = c.ctrl ∧
    (d.bufferSize = if c.bufferSize = 0 then 100 else c.bufferSize) ∧
    (d.mu = if c.mu == 0 then GoMath.ofInt 1 / GoMath.ofInt 2 else c.mu) ∧
    (d.sigma = if c.sigma == 0 then GoMath.ofInt 1 / GoMath.ofInt 10 else c.sigma) ∧
    (d.outRatio = if c.outRatio == 0 then GoMath.ofInt 2 else c.outRatio) ∧
    (d.outAfter = if c.outAfter = 0 then 5 else c.outAfter) ∧
    (d.rgen = match c.rgen with | some r => some r | none => some env.rgen) := by
  have e1 := hF.two
  have e2 := hF.half
  have e3 := hF.tenth
  simp only [streaming_fields, StreamingConf.mk.injEq, true_and]
  refine ⟨⟨?_, ?_, ?_, ?_, ?_, ?_⟩, ?_⟩
  · by_cases h : c.bufferSize = 0 <;> simp [h]
  · cases h : (c.mu == 0) <;> simp [h, e2]
  · cases h : (c.sigma == 0) <;> simp [h, e3]
  · cases h : (c.outRatio == 0) <;> simp [h, e1]
  · by_cases h : c.outAfter = 0 <;> simp [h]
  · cases c.rgen <;> simp
  · cases c.rgen <;> simp

/-- **C21** (streaming, acceptance). `NewAlgo` on `n` initial elements builds an algorithm iff the
controller limits are non-negative, `OutAfter ≥ 2` (or not set) and the buffer (100 if not set) can
hold the `n` elements; it panics otherwise.  `PrepareConf` does not look at the buffer size. -/
theorem C21_streaming_accepts (env : ConfEnv R) (hF : NonzeroStreaming F)
    (c : StreamingConf F R) (n : Nat) :
    let ok := (c.outAfter = 0 ∨ 2 ≤ c.outAfter) ∧ CtrlOk c.ctrl
    let fits := (n : Int) ≤ (if c.bufferSize = 0 then 100 else c.bufferSize)
    (c.newAlgo env n = some (c.setDefaults env) ↔ ok ∧ fits) ∧
    (c.newAlgo env n = none ↔ ¬ (ok ∧ fits)) ∧
    ((prepareConf (StreamingConf.ops env) c).2 = none ↔ ok) := by
  have hd := fun c : StreamingConf F R => C21_streaming_defaults env env hF c
  have hidem := fun c => (hd c).1
  have hctrl := fun c => (hd c).2.1
  have hbs := fun c => (hd c).2.2.1
  have hout := fun c => (hd c).2.2.2.2.2.2.1
  have hout' : (c.setDefaults env).outAfter < 2 ↔ ¬ (c.outAfter = 0 ∨ 2 ≤ c.outAfter) := by
    rw [hout]; split <;> omega
  have hprep : ∀ c : StreamingConf F R, prepareConf (StreamingConf.ops env) c =
      (c.setDefaults env,
        if (c.setDefaults env).outAfter < 2 then some .outAfter else c.ctrl.verify) := by
    intro c
    simp only [prepareConf, StreamingConf.ops, StreamingConf.verify, hidem]
    by_cases h : (c.setDefaults env).outAfter < 2
    · simp [h]
    · simp [h, hctrl]
  have hnew : c.newAlgo env n =
      if ((c.outAfter = 0 ∨ 2 ≤ c.outAfter) ∧ c.ctrl.verify = none) ∧
        (n : Int) ≤ (c.setDefaults env).bufferSize
      then some (c.setDefaults env) else none := by
    simp only [StreamingConf.newAlgo, StreamingConf.verify, coreNewAlgo, hprep, hidem, hctrl, hout']
    by_cases hb : (c.setDefaults env).bufferSize < n
    · have : ¬ (n : Int) ≤ (c.setDefaults env).bufferSize := by omega
      simp [hb]
    · have hb' : (n : Int) ≤ (c.setDefaults env).bufferSize := by omega
      by_cases h : (c.outAfter = 0 ∨ 2 ≤ c.outAfter)
      · simp only [h, hb, hb', not_true, if_false, and_true, true_and]
        cases c.ctrl.verify <;> simp
      · simp [h, hb]
  simp only
  rw [← hbs c, hnew, ← ctrl_verify_iff, hprep]
  refine ⟨by simp [and_assoc], by simp [and_assoc], ?_⟩
  simp only [hout']
  by_cases h : (c.outAfter = 0 ∨ 2 ≤ c.outAfter)
  · simp [h]
  · simp [h]

/-- Non-vacuity, on integers as numbers: accepted and refused configurations. -/
example :
    let env : ConfEnv Nat := ⟨4, 7⟩
    let ctrl : CtrlConf Int := ⟨10, 0, 0, 0, 0⟩
    let c : KMeansConf Int Nat := ⟨ctrl, true, 3, 0, none, 0⟩
    c.newAlgo env = some ⟨ctrl, true, 3, 0, some 7, 4⟩ ∧
    ({ c with k := 0 }).newAlgo env = none ∧
    ({ c with ctrl := { ctrl with timeout := -1 } }).newAlgo env = none ∧
    ({ c with numCPU := -2 }).newAlgo env = some ⟨ctrl, true, 3, 0, some 7, -2⟩ := by decide

/-- The hypotheses on constants hold in any sensible arithmetic, e.g. with integers and a division
rounding up. -/
example : @NonzeroConsts Int _ _ ⟨id, id, fun a _ => a, id, id, 0⟩ :=
  letI : GoMath Int := ⟨id, id, fun a _ => a, id, id, 0⟩
  ⟨rfl, rfl⟩

example : @NonzeroStreaming Int _ _ ⟨id, id, fun a _ => a, id, id, 0⟩ ⟨fun a b => (a + b - 1) / b⟩ :=
  letI : GoMath Int := ⟨id, id, fun a _ => a, id, id, 0⟩
  letI : Div Int := ⟨fun a b => (a + b - 1) / b⟩
  ⟨rfl, rfl, rfl⟩

end Distclus
