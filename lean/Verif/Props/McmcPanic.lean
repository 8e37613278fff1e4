import Verif.Proof.McmcPanic
import Verif.Props.Mcmc
import Verif.Props.ParPanic
/-!
# C145: the dimension given to the Student distribution, and the type of the elements

Model: `Verif/Model/McmcPanic.lean`.  `Dim` of the configuration of the distribution (mcmc/multivt.go:11-15) is compared
to nothing.  A `panic` is one that the run recovers (C57_panic); after a `crash` there is no process any more.  The states
are the images, among all the points, of the states which the histories of C30 reach on points of dimension `n`.
-/
namespace Distclus
open Spec PSpace

section
variable {E F : Type} [Zero F] [One F] [Neg F] [Add F] [Sub F] [Mul F] [Div F] [BEq F] [GoMath F]

omit [Zero F] [One F] [Neg F] [Div F] [BEq F] [GoMath F] in
theorem shiftLoop_some : ∀ (a b : List F) (s : F), a.length ≤ b.length → ∃ v, shiftLoop a b s = some v
  | [], _, s, _ => ⟨s, rfl⟩
  | _ :: _, [], _, h => by simp at h
  | _ :: a, _ :: b, _, h => shiftLoop_some a b _ (by simpa using h)

omit [Zero F] [One F] [Neg F] [Sub F] [Div F] [BEq F] [GoMath F] in
theorem sampleLoop_cases (x y : F) : ∀ (mu s : List F),
    (mu.length < s.length → sampleLoop x y mu s = none) ∧
    (s.length ≤ mu.length → ∃ r, sampleLoop x y mu s = some r ∧ r.length = s.length)
  | _, [] => ⟨fun h => by simp at h, fun _ => ⟨[], by unfold sampleLoop; rfl, rfl⟩⟩
  | [], _ :: _ => ⟨fun _ => rfl, fun h => by simp at h⟩
  | a :: mu, b :: s => by
    obtain ⟨h1, h2⟩ := sampleLoop_cases x y mu s
    constructor
    · intro h
      simp only [sampleLoop, h1 (by simpa using h)]
    · intro h
      obtain ⟨r, hr, hl⟩ := h2 (by simpa using h)
      exact ⟨_, by simp only [sampleLoop, hr]; rfl, by simp [hl]⟩

/-- The samples of the centres of an iteration are those of the distribution: a normal draw has `Dim` values. -/
def Spec.StudentDraws (asVec : E → Option (List F)) (ofVec : List F → E) (m : MultivT F) (time : Nat)
    (d : McmcPDraws E F) : Prop :=
  ∃ (normal : Nat → List F) (chi : Nat → F), (∀ i, (normal i).length = m.dim) ∧
    ∀ i mu, d.sample i mu = m.sampleE asVec ofVec mu time (normal i) (chi i)

/-- **C145.** The density of points of one dimension never panics, whatever `Dim`. -/
theorem C145_pdf (pi : F) (m : MultivT F) (a b : List F) (h : a.length ≤ b.length) (t : Nat) :
    ∃ v, m.pdfE some pi a b t = some v := by
  obtain ⟨v, hv⟩ := shiftLoop_some a b 0 h
  exact ⟨_, by simp only [MultivT.pdfE, MultivT.pdf, hv]; rfl⟩

/-- **C145.** A sample around a centre with fewer coordinates than `Dim` panics; otherwise it has `Dim` coordinates. -/
theorem C145_sample (m : MultivT F) (mu : List F) (time : Nat) (normal : List F) (chi : F)
    (hn : normal.length = m.dim) :
    (mu.length < m.dim → m.sampleE some id mu time normal chi = none) ∧
    (m.dim ≤ mu.length → ∃ r, m.sampleE some id mu time normal chi = some r ∧ r.length = m.dim) := by
  obtain ⟨h1, h2⟩ := sampleLoop_cases (GoMath.sqrt (m.nu / chi))
    (GoMath.ofInt 1 / GoMath.sqrt (GoMath.ofInt (time * 20))) mu normal
  rw [hn] at h1 h2
  constructor
  · intro h
    simp only [MultivT.sampleE, MultivT.sample, h1 h, Option.map_none]
  · intro h
    obtain ⟨r, hr, hl⟩ := h2 h
    exact ⟨r, by simp only [MultivT.sampleE, MultivT.sample, hr, Option.map_some, id], hl⟩

end

section
variable {D E E' F R : Type} [Zero F] [One F] [Neg F] [LT F] [DecidableLT F] [Add F] [Sub F] [Mul F] [BEq F]
  [GoMath F] [Div F] {φ : E' → E}

/-- **C145.** On points of one dimension `Init` is that of the other properties. -/
theorem C145_init {q : McmcPParams D E F R} {p : McmcParams D E' F R} (h : EmbedsParams q p φ)
    (impl impl' : McmcImpl E' F) (d : D) :
    (∀ c, impl.init p d = (impl', .ok c) →
      (imImpl φ impl).initP q d = .ok (imImpl φ impl', some (c.map φ))) ∧
    (impl.init p d = (impl', .err) → (imImpl φ impl).initP q d = .ok (imImpl φ impl', none)) := by
  have hd : ((imImpl φ impl).buffer.apply).data = impl.buffer.apply.data.map φ := by
    simp only [imImpl, ← imBuffer_apply]; rfl
  have hb : imBuffer φ impl.buffer.apply = (imBuffer φ impl.buffer).apply := imBuffer_apply φ _
  unfold McmcImpl.init McmcImpl.initP
  rw [h.conf]
  simp only [hd, h.initializer]
  cases hi : p.initializer d p.conf.initK impl.buffer.apply.data with
  | panic => exact ⟨fun c hc => by simp at hc, fun hc => by simp at hc⟩
  | err =>
    refine ⟨fun c hc => by simp at hc, fun hc => ?_⟩
    cases hc
    simp only [imInit, imImpl, hb]
  | ok c =>
    simp only [imInit]
    cases hl : mcmcLoss p c impl.buffer.apply.data with
    | none => exact ⟨fun c hc => by simp at hc, fun hc => by simp at hc⟩
    | some l =>
      cases hq : proba p.pdf impl.buffer.apply.data.length c c with
      | none => exact ⟨fun c hc => by simp at hc, fun hc => by simp at hc⟩
      | some pf =>
        refine ⟨fun c' hc => ?_, fun hc => by simp at hc⟩
        cases hc
        have : probaP q.pdf impl.buffer.apply.data.length (c.map φ) (c.map φ) = some pf := by
          unfold probaP; rw [im_proba h.pdf]; exact hq
        simp only [im_loss h _ _ l hl, Outcome.bind, List.length_map, this, Outcome.ofOption, imImpl, hb, imProp, h.dim]

/-- **C145.** When the samples of centres of the common dimension are of this dimension, an iteration is that of the other
properties. -/
theorem C145_same {q : McmcPParams D E F R} {p : McmcParams D E' F R} (h : EmbedsParams q p φ)
    (hcpu : 1 ≤ p.sysCPU) (impl : McmcImpl E' F) (centroids : List E')
    {d : McmcPDraws E F} {d' : McmcDraws E' F} (hd : SameDraws d d')
    (hs : ∀ i e, d.sample i (φ e) = some (φ (d'.sample i e))) (impl' : McmcImpl E' F) (c : List E')
    (fig : McmcFigures F) (hit : impl.iterate p centroids d' = some (impl', c, fig)) :
    (imImpl φ impl).iterateP q (centroids.map φ) d = .ok (imImpl φ impl', c.map φ, fig) := by
  unfold McmcImpl.iterate McmcImpl.doIter at hit
  unfold McmcImpl.iterateP McmcImpl.doIterP
  cases hp : impl.propose p impl.current centroids impl.buffer.data impl.buffer.data.length d' with
  | none => simp only [hp] at hit; cases hit
  | some prop =>
    simp only [hp] at hit
    have e := im_propose h hcpu impl impl.current centroids impl.buffer.data impl.buffer.data.length hd hs prop hp
    have hd' : (imImpl φ impl).buffer.data = impl.buffer.data.map φ := rfl
    have hc' : (imImpl φ impl).current = imProp φ impl.current := rfl
    simp only [hd', hc', List.length_map, e, Outcome.bind, h.conf, hd.accept]
    have hr : (imImpl φ impl).accept p.conf (imProp φ impl.current) (imProp φ prop) impl.buffer.data.length d'.accept =
      (imImpl φ (impl.accept p.conf impl.current prop impl.buffer.data.length d'.accept).1,
        (impl.accept p.conf impl.current prop impl.buffer.data.length d'.accept).2) := rfl
    simp only [hr]
    generalize impl.accept p.conf impl.current prop impl.buffer.data.length d'.accept = r at hit
    rcases r with ⟨impl1, ok⟩
    cases ok with
    | true =>
      simp only [if_true, Option.some.injEq, Prod.mk.injEq] at hit
      obtain ⟨rfl, rfl, rfl⟩ := hit
      simp only [if_true, imImpl, imBuffer_apply, imStore_set, McmcImpl.figures]
      rfl
    | false =>
      simp only [Bool.false_eq_true, if_false, Option.some.injEq, Prod.mk.injEq] at hit
      obtain ⟨rfl, rfl, rfl⟩ := hit
      simp only [Bool.false_eq_true, if_false, imImpl, imBuffer_apply, McmcImpl.figures]

/-- **C145.** When `Init` returns centroids with the Student distribution, all of them are vectors: on elements of another
type it does not return. -/
theorem C145_type (asVec : E → Option (List F)) (pi : F) (m : MultivT F) (q : McmcPParams D E F R)
    (hq : q.pdf = m.pdfE asVec pi) (impl impl' : McmcImpl E F) (d : D) (c : List E)
    (h : impl.initP q d = .ok (impl', some c)) : ∀ x ∈ c, (asVec x).isSome := by
  unfold McmcImpl.initP at h
  cases hi : q.initializer d q.conf.initK impl.buffer.apply.data with
  | panic => simp only [hi] at h; cases h
  | err => simp only [hi] at h; cases h
  | ok c' =>
    simp only [hi] at h
    cases hl : mcmcLossP q c' impl.buffer.apply.data with
    | panic => rw [hl] at h; cases h
    | crash => rw [hl] at h; cases h
    | ok l =>
      rw [hl] at h
      simp only [Outcome.bind] at h
      cases hp : probaP q.pdf impl.buffer.apply.data.length c' c' with
      | none => rw [hp] at h; cases h
      | some pf =>
        rw [hp] at h
        simp only [Outcome.ofOption, Outcome.ok.injEq, Prod.mk.injEq, Option.some.injEq] at h
        rw [← h.2]
        rw [hq] at hp
        have key : ∀ (t : Nat) (x mu : List E) (a r : F), probaLoopP (m.pdfE asVec pi) t x mu a = some r →
            ∀ y ∈ x, (asVec y).isSome := by
          intro t x
          induction x with
          | nil => intro _ _ _ _ y hy; cases hy
          | cons v x ih =>
            intro mu a r hr y hy
            cases mu with
            | nil => cases hr
            | cons u mu =>
              simp only [probaLoopP] at hr
              cases he : m.pdfE asVec pi u v t with
              | none => rw [he] at hr; cases hr
              | some w =>
                rw [he] at hr
                rcases List.mem_cons.1 hy with rfl | hy
                · unfold MultivT.pdfE at he
                  cases h1 : asVec u with
                  | none => rw [h1] at he; cases he
                  | some fu =>
                    cases h2 : asVec y with
                    | none => rw [h1, h2] at he; cases he
                    | some fy => rfl
                · exact ih _ _ _ hr y hy
        exact key _ _ _ _ _ hp

/-- An iteration whose proposal does not return. -/
theorem iterateP_bind (q : McmcPParams D E F R) (impl : McmcImpl E F) (c : List E) (d : McmcPDraws E F) :
    (impl.proposeP q impl.current c impl.buffer.data impl.buffer.data.length d = .panic → impl.iterateP q c d = .panic) ∧
    (impl.proposeP q impl.current c impl.buffer.data impl.buffer.data.length d = .crash → impl.iterateP q c d = .crash) := by
  constructor <;> intro h <;> simp only [McmcImpl.iterateP, McmcImpl.doIterP, h, Outcome.bind]

end

section
variable {D F R : Type} [Zero F] [One F] [Neg F] [LT F] [DecidableLT F] [Add F] [Sub F] [Mul F] [BEq F]
  [GoMath F] [Div F] {n : Nat}

/-- **C145.** With `Dim` equal to the dimension of the data the samples are as in C145_same. -/
theorem C145_right (m : MultivT F) (hm : m.dim = n) (time : Nat) (d : McmcPDraws (List F) F)
    (hd : StudentDraws some id m time d) :
    ∃ d' : McmcDraws (Vec F n) F, SameDraws d d' ∧ ∀ i (e : Vec F n), d.sample i e.1 = some (d'.sample i e).1 := by
  obtain ⟨normal, chi, hn, hs⟩ := hd
  have key : ∀ i (e : Vec F n), ∃ r : Vec F n, d.sample i e.1 = some r.1 := by
    intro i e
    obtain ⟨r, hr, hl⟩ := (C145_sample m e.1 time (normal i) (chi i) (hn i)).2 (by rw [hm, e.2])
    exact ⟨⟨r, hl.trans hm⟩, by rw [hs, hr]⟩
  choose f hf using key
  exact ⟨⟨d.move, d.add, d.add', d.del, d.del', f, d.accept⟩, ⟨rfl, rfl, rfl, rfl, rfl, rfl⟩, hf⟩

/-- The outcome of a proposal depends on that of the samples. -/
theorem student_propose (hneg : (-1 : F) < 0) {q : McmcPParams D (List F) F R} {p : McmcParams D (Vec F n) F R}
    (h : EmbedsParams q p (·.1)) (hz : Sized q.space List.length) (hcpu : 1 ≤ p.sysCPU) (hk1 : 1 ≤ p.conf.initK)
    (hk2 : p.conf.initK ≤ p.conf.maxK)
    (hi : InitContract p.initializer) (data : List (Vec F n)) (ops : List (McmcOp D (Vec F n) F))
    (s : McmcSys (Vec F n) F) (hr : McmcSys.run p (McmcSys.new p data) ops = some s) (hrd : s.ready = true)
    (m : MultivT F) (time : Nat) (d : McmcPDraws (List F) F) (hd : StudentDraws some id m time d)
    (d' : McmcDraws (Vec F n) F) (hdd : SameDraws d d') :
    (s.impl.getKCenters p s.impl.current s.centroids s.impl.buffer.data d' = none →
      (imImpl (·.1) s.impl).iterateP q (s.centroids.map (·.1)) d = .panic) ∧
    (∀ kc, s.impl.getKCenters p s.impl.current s.centroids s.impl.buffer.data d' = some kc →
      (n < m.dim → (imImpl (·.1) s.impl).iterateP q (s.centroids.map (·.1)) d = .panic) ∧
      (m.dim < n → (imImpl (·.1) s.impl).iterateP q (s.centroids.map (·.1)) d = .crash)) := by
  have hinv := mcmc_run_inv hneg p hcpu hk1 hk2 hi ops _ _ (mcmc_new_inv p data) hr
  obtain ⟨a1, a2, a3, a4, a5, _⟩ := hinv.ready hrd
  obtain ⟨normal, chi, hn, hs⟩ := hd
  have hb : (imImpl (·.1) s.impl : McmcImpl (List F) F).buffer.data = s.impl.buffer.data.map (·.1) := rfl
  have hc : (imImpl (·.1) s.impl : McmcImpl (List F) F).current = imProp (·.1) s.impl.current := rfl
  have hk := im_getKCenters h hcpu s.impl s.impl.current s.centroids s.impl.buffer.data hdd
  constructor
  · intro h0
    refine (iterateP_bind _ _ _ _).1 ?_
    rw [hb, hc]
    simp only [McmcImpl.proposeP, hk, h0, Option.map_none, Outcome.ofOption, Outcome.bind]
  · rintro ⟨k, c⟩ h0
    obtain ⟨b1, b2, _⟩ := getKCenters_spec p s.impl hinv.sized _ _ _ d' a1 a2 a3 a4 k c h0
    have hc0 : c ≠ [] := by
      intro h0; subst h0; simp at b1; omega
    obtain ⟨x, hx⟩ := List.exists_mem_of_ne_nil c hc0
    obtain ⟨i, hi', hxi⟩ := List.mem_iff_getElem.1 hx
    constructor
    · intro hlt
      refine (iterateP_bind _ _ _ _).1 ?_
      have ha : alterP (c.map (·.1)) d = none := by
        unfold alterP
        rw [allSome_panics, List.mem_mapIdx]
        refine ⟨i, by simpa using hi', ?_⟩
        rw [hs, List.getElem_map]
        exact (C145_sample m _ time (normal i) (chi i) (hn i)).1 (by rw [(c[i]).2]; exact hlt)
      rw [hb, hc]
      simp only [McmcImpl.proposeP, hk, h0, Option.map_some, Outcome.ofOption, Outcome.bind, ha]
    · intro hlt
      refine (iterateP_bind _ _ _ _).2 ?_
      obtain ⟨cs, hcs, hl, hsz⟩ : ∃ cs, alterP (c.map (·.1)) d = some cs ∧ cs.length = c.length ∧
          ∀ y ∈ cs, y.length = m.dim := by
        have key : ∀ (c : List (Vec F n)) (f : Nat → List F → Option (List F)),
            (∀ i (e : Vec F n), ∃ r, f i e.1 = some r ∧ r.length = m.dim) →
            ∃ cs, allSome ((c.map (·.1)).mapIdx f) = some cs ∧ cs.length = c.length ∧ ∀ y ∈ cs, y.length = m.dim := by
          intro c
          induction c with
          | nil => intro f _; exact ⟨[], rfl, rfl, by simp⟩
          | cons x c ih =>
            intro f hf
            obtain ⟨r, hr, hrl⟩ := hf 0 x
            obtain ⟨cs, e1, e2, e3⟩ := ih (fun i => f (i + 1)) fun i e => hf (i + 1) e
            refine ⟨r :: cs, ?_, by simp [e2], ?_⟩
            · simp only [List.map_cons, List.mapIdx_cons, hr, allSome, e1]
            · intro y hy
              rcases List.mem_cons.1 hy with rfl | hy
              · exact hrl
              · exact e3 y hy
        refine key c d.sample fun i e => ?_
        rw [hs]
        exact (C145_sample m e.1 time (normal i) (chi i) (hn i)).2 (by rw [e.2]; omega)
      have hne : cs ≠ [] := by
        intro h0; subst h0; exact hc0 (List.length_eq_zero_iff.1 hl.symm)
      obtain ⟨y, hy⟩ := List.exists_mem_of_ne_nil cs hne
      have hdne : s.impl.buffer.data ≠ [] := by
        intro he; rw [he] at a3; simp at a3; omega
      obtain ⟨e, he⟩ := List.exists_mem_of_ne_nil _ hdne
      have hcr := (C124_larger hneg hz cs (s.impl.buffer.data.map (·.1)) (e := e.1) (x := y)
        (List.mem_map.2 ⟨e, he, rfl⟩) hy (by rw [hsz y hy, e.2]; exact hlt)).2 p.sysCPU hcpu
      rw [hb, hc]
      simp only [McmcImpl.proposeP, hk, h0, Option.map_some, Outcome.ofOption, Outcome.bind, hcs, h.sysCPU, hcr]

/-- **C145.** `Dim` larger than the dimension of the data: every iteration panics, whatever the draws; the run recovers. -/
theorem C145_larger (hneg : (-1 : F) < 0) {q : McmcPParams D (List F) F R} {p : McmcParams D (Vec F n) F R}
    (h : EmbedsParams q p (·.1)) (hz : Sized q.space List.length) (hcpu : 1 ≤ p.sysCPU) (hk1 : 1 ≤ p.conf.initK)
    (hk2 : p.conf.initK ≤ p.conf.maxK)
    (hi : InitContract p.initializer) (data : List (Vec F n)) (ops : List (McmcOp D (Vec F n) F))
    (s : McmcSys (Vec F n) F) (hr : McmcSys.run p (McmcSys.new p data) ops = some s) (hrd : s.ready = true)
    (m : MultivT F) (time : Nat) (d : McmcPDraws (List F) F) (hd : StudentDraws some id m time d) (hm : n < m.dim) :
    (imImpl (·.1) s.impl).iterateP q (s.centroids.map (·.1)) d = .panic := by
  have hdd : SameDraws d (⟨d.move, d.add, d.add', d.del, d.del', fun _ e => e, d.accept⟩ : McmcDraws (Vec F n) F) :=
    ⟨rfl, rfl, rfl, rfl, rfl, rfl⟩
  obtain ⟨h1, h2⟩ := student_propose hneg h hz hcpu hk1 hk2 hi data ops s hr hrd m time d hd _ hdd
  cases hk : s.impl.getKCenters p s.impl.current s.centroids s.impl.buffer.data
      (⟨d.move, d.add, d.add', d.del, d.del', fun _ e => e, d.accept⟩ : McmcDraws (Vec F n) F) with
  | none => exact h1 hk
  | some kc => exact (h2 kc hk).1 hm

/-- **C145.** `Dim` smaller than the dimension of the data: no iteration returns, and one which would return with samples
of the dimension of the data ends the process, with the sequential strategy as with the parallel one. -/
theorem C145_smaller (hneg : (-1 : F) < 0) {q : McmcPParams D (List F) F R} {p : McmcParams D (Vec F n) F R}
    (h : EmbedsParams q p (·.1)) (hz : Sized q.space List.length) (hcpu : 1 ≤ p.sysCPU) (hk1 : 1 ≤ p.conf.initK)
    (hk2 : p.conf.initK ≤ p.conf.maxK)
    (hi : InitContract p.initializer) (data : List (Vec F n)) (ops : List (McmcOp D (Vec F n) F))
    (s : McmcSys (Vec F n) F) (hr : McmcSys.run p (McmcSys.new p data) ops = some s) (hrd : s.ready = true)
    (m : MultivT F) (time : Nat) (d : McmcPDraws (List F) F) (hd : StudentDraws some id m time d) (hm : m.dim < n) :
    (∀ r, (imImpl (·.1) s.impl).iterateP q (s.centroids.map (·.1)) d ≠ .ok r) ∧
    ∀ d' : McmcDraws (Vec F n) F, SameDraws d d' → s.impl.iterate p s.centroids d' ≠ none →
      (imImpl (·.1) s.impl).iterateP q (s.centroids.map (·.1)) d = .crash := by
  constructor
  · intro r
    have hdd : SameDraws d (⟨d.move, d.add, d.add', d.del, d.del', fun _ e => e, d.accept⟩ : McmcDraws (Vec F n) F) :=
      ⟨rfl, rfl, rfl, rfl, rfl, rfl⟩
    obtain ⟨h1, h2⟩ := student_propose hneg h hz hcpu hk1 hk2 hi data ops s hr hrd m time d hd _ hdd
    cases hk : s.impl.getKCenters p s.impl.current s.centroids s.impl.buffer.data
        (⟨d.move, d.add, d.add', d.del, d.del', fun _ e => e, d.accept⟩ : McmcDraws (Vec F n) F) with
    | none => rw [h1 hk]; simp
    | some kc => rw [(h2 kc hk).2 hm]; simp
  · intro d' hdd hit
    obtain ⟨-, h2⟩ := student_propose hneg h hz hcpu hk1 hk2 hi data ops s hr hrd m time d hd _ hdd
    cases hk : s.impl.getKCenters p s.impl.current s.centroids s.impl.buffer.data d' with
    | some kc => exact (h2 kc hk).2 hm
    | none =>
      refine (hit ?_).elim
      simp only [McmcImpl.iterate, McmcImpl.doIter, McmcImpl.propose, hk]

/-- **C145.** The hypotheses on the parameters hold in the Euclidean space with the Student distribution, whatever
`Dim`. -/
theorem C145_params (conf : McmcConf F R) (sysCPU : Int) (pi : F) (m : MultivT F)
    (init : D → Int → List (List F) → InitRes (List F)) (init' : D → Int → List (Vec F n) → InitRes (Vec F n))
    (hi : ∀ d k data, init d k (data.map (·.1)) = imInit (·.1) (init' d k data)) :
    EmbedsParams
      { conf, space := euclidP, dim := euclidDim, sysCPU,
        pdf := m.pdfE some pi, initializer := init }
      { conf, space := euclidSpace F n, sysCPU, pdf := fun a b t => (m.pdfE some pi a.1 b.1 t).getD 0,
        initializer := init' } (fun e : Vec F n => e.1) ∧
    Sized (euclidP (F := F)) List.length := by
  refine ⟨⟨rfl, ⟨fun a b => (euclid_total a b 0 0).1, fun a w b v => (euclid_total a b w v).2, fun a => rfl⟩,
    fun c => rfl, rfl, fun a b t => ?_, hi⟩, C124_euclid⟩
  · obtain ⟨v, hv⟩ := C145_pdf pi m a.1 b.1 (by rw [a.2, b.2]) t
    simp [hv]

end

section
variable {D F R : Type} [Field F] [LinearOrder F] [IsStrictOrderedRing F] [GoMath F] {n : Nat}

/-- **C145.** Three non-negative weights, non-negative distances, draws in (0,1) and in range: with `Dim` smaller than the
dimension of the data the first iteration ends the process. -/
theorem C145_ends {q : McmcPParams D (List F) F R} {p : McmcParams D (Vec F n) F R}
    (h : EmbedsParams q p (·.1)) (hz : Sized q.space List.length) (hcpu : 1 ≤ p.sysCPU)
    (hpar : p.conf.par = true → 1 ≤ p.conf.numCPU) (hk1 : 1 ≤ p.conf.initK) (hk2 : p.conf.initK ≤ p.conf.maxK)
    (hi : InitContract p.initializer) (hlen : p.conf.probaK.length = 3) (hnn : ∀ w ∈ p.conf.probaK, 0 ≤ w)
    (h0 : ∀ a b, 0 ≤ p.space.dist a b) (data : List (Vec F n)) (ops : List (McmcOp D (Vec F n) F))
    (s : McmcSys (Vec F n) F) (hr : McmcSys.run p (McmcSys.new p data) ops = some s) (hrd : s.ready = true)
    (m : MultivT F) (time : Nat) (d : McmcPDraws (List F) F) (hd : StudentDraws some id m time d)
    (hmove : 0 < d.move ∧ d.move < 1) (hadd : 0 < d.add ∧ d.add < 1) (hdel : d.del < s.centroids.length)
    (hm : m.dim < n) :
    (imImpl (·.1) s.impl).iterateP q (s.centroids.map (·.1)) d = .crash := by
  obtain ⟨i, c, f, hit⟩ := C30_no_panic p hcpu hpar hk1 hk2 hi hlen hnn h0 data ops s hr hrd
    ⟨d.move, d.add, d.add', d.del, d.del', fun _ e => e, d.accept⟩ ⟨hmove, hadd, hdel⟩
  exact (C145_smaller (neg_lt_zero.2 one_pos) h hz hcpu hk1 hk2 hi data ops s hr hrd m time d hd hm).2 _
    ⟨rfl, rfl, rfl, rfl, rfl, rfl⟩ (by rw [hit]; simp)

end

/-! ### Examples -/

namespace Ex145
attribute [local instance] exQMath

/-- The first data as centroids. -/
def first {E : Type} (_ : Unit) (k : Int) (data : List E) : InitRes E :=
  if k.toNat ≤ data.length then .ok (data.take k.toNat) else .err

theorem first_im {n : Nat} (d : Unit) (k : Int) (data : List (Vec ℚ n)) :
    first d k (data.map (·.1)) = imInit (·.1) (first d k data) := by
  unfold first
  rw [List.length_map, List.map_take.symm]
  split <;> rfl

/-- Points of dimension 2, a distribution of dimension `dim`. -/
def params (dim : Nat) : McmcPParams Unit (List ℚ) ℚ Unit :=
  { conf := exMcmcConf [0, 1, 0], space := euclidP, dim := euclidDim,
    sysCPU := 2, pdf := (MultivT.new id dim 3).pdfE some 3, initializer := first }

def draws (dim : Nat) : McmcPDraws (List ℚ) ℚ :=
  { move := 1 / 2, add := 1 / 2, add' := 1 / 2, del := 0, del' := 0, accept := 0
    sample := fun _ mu => (MultivT.new id dim 3).sampleE some id mu 2 (List.replicate dim 0) 1 }

/-- The outcome of an iteration after `Init`. -/
def after (dim : Nat) : Option (Outcome (List (List ℚ))) :=
  match (McmcImpl.initP ⟨newDataBuffer [[0, 0], [2, 2]] 0, .empty, 0, 0, 0, 0, 0, 0, ⟨0, [], 0, 0⟩⟩ (params dim) ()) with
  | .ok (impl, some c) => some ((impl.iterateP (params dim) c (draws dim)).bind fun r => .ok r.2.1)
  | _ => none

/-- `Init` succeeds in the three cases. -/
example : after 1 = some .crash ∧ after 2 = some (.ok [[1, 1]]) ∧ after 3 = some .panic := by decide +kernel

example (dim : Nat) : StudentDraws some id (MultivT.new id dim 3) 2 (draws dim) :=
  ⟨fun _ => List.replicate dim 0, fun _ => 1, fun _ => by simp [MultivT.new], fun _ _ => rfl⟩

example (dim : Nat) := (C145_params (n := 2) (exMcmcConf [0, 1, 0]) 2 3 (MultivT.new id dim 3) first first first_im).1

/-- Series: `Init` does not return. -/
example (q : McmcPParams Unit (List (List ℚ)) ℚ Unit) (m : MultivT ℚ) (hq : q.pdf = m.pdfE (fun _ => none) 3)
    (impl impl' : McmcImpl (List (List ℚ)) ℚ) (x : List (List ℚ)) (c : List (List (List ℚ))) :
    impl.initP q () ≠ .ok (impl', some (x :: c)) := by
  intro h
  have := C145_type _ 3 m q hq impl impl' () _ h x (by simp)
  simp at this

end Ex145
end Distclus
