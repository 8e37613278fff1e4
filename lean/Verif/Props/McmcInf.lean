import Verif.Proof.McmcInf
import Verif.Props.McmcStuck
import Verif.Proof.Infinite
/-!
# C137: losses which are not finite in mcmc

A datum with an infinite coordinate (or a distance which overflows) makes the losses `+Inf` or NaN.
-/
set_option linter.unusedSectionVars false

namespace Distclus
open Spec

section
variable {f : Format} {D E R : Type}

/-- **C137 (distances).** A point with an infinite or NaN coordinate is at the distance `+Inf` or NaN of every point in
the Euclidean space, and at the distance NaN in the cosine space. -/
theorem C137_distance {n : Nat} (p q : Vec (Ieee f) n) (hp : WildPoint p) :
    Blown ((euclidSpace (Ieee f) n).dist p q) ∧ ((cosinusSpace (Ieee f) n).dist p q).1 = .nan := by
  obtain ⟨x, hx, hw⟩ := hp
  obtain ⟨y, hy⟩ := zip_left p.1 q.1 (by rw [p.2, q.2]) x hx
  obtain ⟨z, hz⟩ := zip_left p.1 p.1 rfl x hx
  constructor
  · exact (foldl_absorbs blown_absorbs (fun ab : Ieee f × Ieee f => (ab.1 - ab.2) * (ab.1 - ab.2)) _ 0
      (.inr ⟨(x, y), hy, (hw.sub y).square⟩)).sqrt
  · have h1 : Wild (scalarProduct p.1 q.1) :=
      foldl_absorbs ⟨fun b h => h.add b, fun a _ h => h.add_right a⟩ (fun ab : Ieee f × Ieee f => ab.1 * ab.2) _ 0
        (.inr ⟨(x, y), hy, hw.mul y⟩)
    have hzip : ∀ (l : List (Ieee f)), (x ∈ l) → (x, x) ∈ l.zip l := by
      intro l
      induction l with
      | nil => intro h; cases h
      | cons a l ih =>
        intro h
        rcases List.mem_cons.1 h with rfl | h
        · simp
        · simp [ih h]
    have h2 : Blown (scalarProduct p.1 p.1) :=
      foldl_absorbs blown_absorbs (fun ab : Ieee f × Ieee f => ab.1 * ab.2) _ 0 (.inr ⟨(x, x), hzip _ hx, hw.square⟩)
    exact Ieee.sub_nan _ (Ieee.nan_div (h1.div_blown h2.sqrt) _)

/-- **C137 (losses).** If the data have an element whose distances are `+Inf` or NaN and the norm is a positive number, every loss is `+Inf` or NaN. -/
theorem C137_loss (p : McmcParams D E (Ieee f) R) {b : ℝ} (hn : p.conf.norm.1 = .fin b) (hb : 0 < b) {e : E}
    (he : ∀ y, Blown (p.space.dist e y)) (data : List E) (hm : e ∈ data) (c : List E) (loss : Ieee f)
    (hl : mcmcLoss p c data = some loss) : Blown loss :=
  mcmcLoss_absorbs blown_absorbs Ieee.neg_one_lt p c data (fun hc => by
    obtain ⟨j, y, _, h⟩ := nearest_mem Ieee.neg_one_lt p.space c e hc
    rw [h]
    exact (he y).pow hn hb) hm loss hl

/-- **C137 (rejection).** While such an element is in the data every proposal is rejected, if `Amp` and the draws are not negative. -/
theorem C137_reject (p : McmcParams D E (Ieee f) R) (ha : ¬ p.conf.amp < 0) {b : ℝ} (hn : p.conf.norm.1 = .fin b) (hb : 0 < b)
    {e : E} (he : ∀ y, Blown (p.space.dist e y)) (impl : McmcImpl E (Ieee f)) (hm : e ∈ impl.buffer.data)
    (centroids : List E) (d : McmcDraws E (Ieee f)) (hd : ¬ d.accept < 0) (impl' : McmcImpl E (Ieee f)) (clust : List E)
    (fig : McmcFigures (Ieee f)) (hit : impl.iterate p centroids d = some (impl', clust, fig)) :
    clust = centroids ∧ impl'.current = impl.current ∧ impl'.acc = impl.acc ∧ impl'.store = impl.store := by
  obtain ⟨prop, hp, _, _, _, _, hrat, hc⟩ := iterate_cases p _ _ _ _ _ _ hit
  have hrho : impl'.rho = (ratio p.conf impl.dim impl.current prop impl.buffer.data.length).2.1 := by rw [← hrat]
  have hno : ¬ d.accept < impl'.rho := by
    rw [hrho]
    exact ratio_blown _ ha _ _ _ _ (C137_loss p hn hb he _ hm _ _ (propose_loss _ _ _ _ _ _ _ _ hp)) hd
  rcases hc with ⟨h, _⟩ | ⟨_, h2, h3, h4, h5⟩
  · exact absurd h hno
  · exact ⟨h4, h3, h2, h5⟩

/-- **C137 (histories).** With an unlimited buffer, once such an element is in the data nothing is accepted any more,
whatever is done: the number of acceptations and the stored centres do not change, neither do the centroids, but by
`Init`. -/
theorem C137_frozen (p : McmcParams D E (Ieee f) R) (ha : ¬ p.conf.amp < 0) {b : ℝ} (hn : p.conf.norm.1 = .fin b) (hb : 0 < b)
    {e : E} (he : ∀ y, Blown (p.space.dist e y)) (ops : List (McmcOp D E (Ieee f))) (s s' : McmcSys E (Ieee f))
    (hu : s.impl.buffer.strategy = .infinite) (hm : e ∈ s.impl.buffer.data)
    (hd : ∀ d : McmcDraws E (Ieee f), .iterate d ∈ ops → ¬ d.accept < 0) (hr : s.run p ops = some s') :
    s'.impl.acc = s.impl.acc ∧ s'.impl.store = s.impl.store ∧
      ((∀ op ∈ ops, ∀ d, op ≠ .init d) → s'.centroids = s.centroids ∧ s'.impl.current = s.impl.current) := by
  refine (mcmc_rejects p (fun s => s.impl.buffer.strategy = .infinite ∧ e ∈ s.impl.buffer.data)
    (fun d => ¬ d.accept < 0) ?_ ?_ ops s s' ⟨hu, hm⟩ hd hr).2
  · rintro s s' op ⟨h1, h2⟩ hs
    have happ : s.impl.buffer.apply.strategy = .infinite ∧ e ∈ s.impl.buffer.apply.data := by
      obtain ⟨g1, g2⟩ := DataBuffer.applyLoop_keeps s.impl.buffer.pipe.length s.impl.buffer h1
      exact ⟨g1, g2 e h2⟩
    cases op with
    | init d =>
      simp only [McmcSys.step] at hs
      split at hs
      · rename_i impl c hin
        cases hs
        rw [(init_cases p s.impl impl d _ hin).1]
        exact happ
      · rename_i impl r hne hin
        cases hs
        show impl.buffer.strategy = _ ∧ e ∈ impl.buffer.data
        rw [(init_cases p s.impl impl d _ hin).1]
        exact happ
    | push x r =>
      simp only [McmcSys.step] at hs
      split at hs
      · cases hs
      · rename_i b' hb'
        cases hs
        obtain ⟨g1, g2⟩ := DataBuffer.push_keeps h1 hb'
        exact ⟨g1, g2 e h2⟩
    | iterate d =>
      simp only [McmcSys.step] at hs
      split at hs
      · split at hs
        · cases hs; exact ⟨h1, h2⟩
        · rename_i impl' clust fig hit
          cases hs
          obtain ⟨_, _, _, _, _, hbuf, _⟩ := iterate_cases p _ _ _ _ _ _ hit
          show impl'.buffer.strategy = _ ∧ e ∈ impl'.buffer.data
          rw [hbuf]
          exact happ
      · cases hs
  · rintro s d impl' clust fig ⟨_, h2⟩ hdd hit
    obtain ⟨prop, hp, _, _, _, _, hrat, _⟩ := iterate_cases p _ _ _ _ _ _ hit
    have hrho : impl'.rho = (ratio p.conf s.impl.dim s.impl.current prop s.impl.buffer.data.length).2.1 := by rw [← hrat]
    rw [hrho]
    exact ratio_blown _ ha _ _ _ _ (C137_loss p hn hb he _ h2 _ _ (propose_loss _ _ _ _ _ _ _ _ hp)) hdd

/-- **C137 (Init).** If such an element is in the data known to `Init`, the current loss is `+Inf` or NaN. -/
theorem C137_init (p : McmcParams D E (Ieee f) R) {b : ℝ} (hn : p.conf.norm.1 = .fin b) (hb : 0 < b)
    {e : E} (he : ∀ y, Blown (p.space.dist e y)) (impl : McmcImpl E (Ieee f)) (hm : e ∈ impl.buffer.apply.data) (d : D)
    (impl' : McmcImpl E (Ieee f)) (c : List E) (hi : impl.init p d = (impl', .ok c)) : Blown impl'.current.loss := by
  obtain ⟨_, _, _, h⟩ := init_cases p _ _ _ _ hi
  obtain ⟨_, _, _, _, _, hl, _⟩ := h c rfl
  exact C137_loss p hn hb he _ hm c _ hl

/-- **C137 (Init on the datum itself).** If moreover the first initial centroid is at distance NaN of the element, the
loss is NaN: nothing is accepted until the next `Init` (C126), even if the element leaves the data. -/
theorem C137_own (p : McmcParams D E (Ieee f) R) {b : ℝ} (hn : p.conf.norm.1 = .fin b) (hb : 0 < b)
    {e : E} (impl : McmcImpl E (Ieee f)) (hm : e ∈ impl.buffer.apply.data) (d : D)
    (impl' : McmcImpl E (Ieee f)) (c0 : E) (cs : List E) (hi : impl.init p d = (impl', .ok (c0 :: cs)))
    (hw : (p.space.dist e c0).1 = .nan) (ops : List (McmcOp D E (Ieee f))) (s s' : McmcSys E (Ieee f)) (hs : s.impl = impl')
    (hop : ∀ op ∈ ops, ∀ d, op ≠ .init d) (hr : s.run p ops = some s') :
    isNaN impl'.current.loss ∧ s'.centroids = s.centroids ∧ s'.impl.acc = s.impl.acc := by
  have hnear : (nearest p.space (c0 :: cs) e).2 = p.space.dist e c0 := by
    have h0 : nearest p.space (c0 :: cs) e = nearestLoop p.space e cs 1 0 (p.space.dist e c0) := by
      simp only [nearest, nearestLoop, if_pos (Or.inl Ieee.neg_one_lt : (-1 : Ieee f) < 0 ∨ p.space.dist e c0 < -1)]
      rfl
    rw [h0, nearestLoop_stay p.space e cs 1 0 _ (FloatOrder.nan_not_lt hw) fun x _ => FloatOrder.not_lt_nan hw]
  have hnan : isNaN impl'.current.loss := by
    obtain ⟨_, _, _, h⟩ := init_cases p _ _ _ _ hi
    obtain ⟨_, _, _, _, _, hl, _⟩ := h _ rfl
    refine mcmcLoss_absorbs (B := fun x : Ieee f => isNaN x)
      ⟨fun b h => (C131_nan f).add_left b h, fun a _ h => (C131_nan f).add_right a h⟩ Ieee.neg_one_lt p _ _ (fun _ => ?_) hm _ hl
    rw [hnear]
    show (Ieee.of f (XReal.pow (p.space.dist e c0).1 p.conf.norm.1)).1 = .nan
    rw [hw, hn]
    show f.round (if b = 0 then _ else _) = _
    rw [if_neg hb.ne']
    rfl
  obtain ⟨h1, _, h3, _⟩ := C126_mcmc_frozen (C131_nan f) p ops s s' (by rw [hs]; exact hnan) hop hr
  exact ⟨hnan, h1, h3⟩

/-- **C137 (itself).** A point with an infinite or NaN coordinate is at the distance NaN of itself in the Euclidean space. -/
theorem C137_self {n : Nat} (p : Vec (Ieee f) n) (hp : WildPoint p) : ((euclidSpace (Ieee f) n).dist p p).1 = .nan := by
  obtain ⟨x, hx, hw⟩ := hp
  have hzip : ∀ (l : List (Ieee f)), (x ∈ l) → (x, x) ∈ l.zip l := by
    intro l
    induction l with
    | nil => intro h; cases h
    | cons a l ih =>
      intro h
      rcases List.mem_cons.1 h with rfl | h
      · simp
      · simp [ih h]
  have hxx : (x - x).1 = .nan := by
    show f.round (XReal.add x.1 (XReal.neg x.1)) = _
    cases hv : x.1 with
    | fin r => exact absurd hv (hw r)
    | _ => rfl
  have h : isNaN ((p.1.zip p.1).foldl (fun acc (ab : Ieee f × Ieee f) => acc + (ab.1 - ab.2) * (ab.1 - ab.2)) 0) :=
    foldl_absorbs (B := fun x : Ieee f => isNaN x)
      ⟨fun b h => (C131_nan f).add_left b h, fun a _ h => (C131_nan f).add_right a h⟩
      (fun ab : Ieee f × Ieee f => (ab.1 - ab.2) * (ab.1 - ab.2)) _ 0
      (.inr ⟨(x, x), hzip _ hx, (C131_nan f).mul_left _ hxx⟩)
  exact (C131_nan f).sqrt h

/-- An infinite gain is accepted by every finite draw, if the other terms of the ratio are finite. -/
theorem iterate_gain_inf (p : McmcParams D E (Ieee f) R) (impl : McmcImpl E (Ieee f)) (centroids : List E)
    (d : McmcDraws E (Ieee f)) (impl' : McmcImpl E (Ieee f)) (clust : List E) (fig : McmcFigures (Ieee f))
    (hit : impl.iterate p centroids d = some (impl', clust, fig))
    (prop : Proposal E (Ieee f))
    (hp : impl.propose p impl.current centroids impl.buffer.data impl.buffer.data.length d = some prop)
    (hg : (impl'.lambda * (impl.current.loss - prop.loss)).1 = .posInf) {x y u : ℝ}
    (hpdf : (impl.current.pdf - prop.pdf).1 = .fin x)
    (hini : (GoMath.log (GoMath.ofInt 2 * p.conf.b) * GoMath.ofInt (impl.dim * (impl.current.k - prop.k)) : Ieee f).1 = .fin y)
    (hu : d.accept.1 = .fin u) :
    clust = prop.centers ∧ impl'.current = prop ∧ impl'.acc = impl.acc + 1 := by
  obtain ⟨prop', hp', _, _, _, _, hrat, hc⟩ := iterate_cases p _ _ _ _ _ _ hit
  rw [hp] at hp'
  cases hp'
  have hlamv : impl'.lambda = (ratio p.conf impl.dim impl.current prop impl.buffer.data.length).1 := by rw [← hrat]
  have hrho : impl'.rho = (ratio p.conf impl.dim impl.current prop impl.buffer.data.length).2.1 := by rw [← hrat]
  have hadd : ∀ {a b : Ieee f} {r : ℝ}, a.1 = .posInf → b.1 = .fin r → (a + b).1 = .posInf := by
    intro a b r h1 h2
    show f.round (XReal.add a.1 b.1) = _
    rw [h1, h2]; rfl
  have hinf : impl'.rho.1 = .posInf := by
    rw [hrho]
    have hexp : ∀ a : Ieee f, a.1 = .posInf → (GoMath.exp a).1 = .posInf := by
      intro a h
      show f.round (GoMath.exp (a.1 : XReal)) = _
      rw [h]; rfl
    have := hadd (hadd hg hini) hpdf
    rw [hlamv] at this
    exact hexp _ this
  have hacc : d.accept < impl'.rho := by
    show XReal.lt d.accept.1 impl'.rho.1
    rw [hu, hinf]
    trivial
  rcases hc with ⟨_, h2, h3, h4, _⟩ | ⟨h, _⟩
  · exact ⟨h4, h3, h2⟩
  · exact absurd hacc h

/-- **C137 (recovery).** If the current loss is `+Inf` and not NaN, then, the element having left the data, the first
proposal of finite loss is accepted by every draw which is a number, as far as the other terms of the ratio are finite
and lambda is positive. -/
theorem C137_recovers (p : McmcParams D E (Ieee f) R) (impl : McmcImpl E (Ieee f)) (centroids : List E)
    (d : McmcDraws E (Ieee f)) (impl' : McmcImpl E (Ieee f)) (clust : List E) (fig : McmcFigures (Ieee f))
    (hit : impl.iterate p centroids d = some (impl', clust, fig)) (hcur : impl.current.loss.1 = .posInf)
    (prop : Proposal E (Ieee f))
    (hp : impl.propose p impl.current centroids impl.buffer.data impl.buffer.data.length d = some prop)
    {l x y u : ℝ} (hl : prop.loss.1 = .fin l) (hlam : 0 < impl'.lambda) (hpdf : (impl.current.pdf - prop.pdf).1 = .fin x)
    (hini : (GoMath.log (GoMath.ofInt 2 * p.conf.b) * GoMath.ofInt (impl.dim * (impl.current.k - prop.k)) : Ieee f).1 = .fin y)
    (hu : d.accept.1 = .fin u) :
    clust = prop.centers ∧ impl'.current = prop ∧ impl'.acc = impl.acc + 1 := by
  refine iterate_gain_inf p impl centroids d impl' clust fig hit prop hp ?_ hpdf hini hu
  have hsub : (impl.current.loss - prop.loss).1 = .posInf := by
    show f.round (XReal.add impl.current.loss.1 (XReal.neg prop.loss.1)) = _
    rw [hcur, hl]; rfl
  show f.round (XReal.mul impl'.lambda.1 (impl.current.loss - prop.loss).1) = _
  rw [hsub]
  have hlam' : XReal.lt (0 : Ieee f).1 impl'.lambda.1 := hlam
  rw [Ieee.zero_val] at hlam'
  cases hv : impl'.lambda.1 with
  | fin r =>
    rw [hv] at hlam'
    have hr : 0 < r := hlam'
    simp only [XReal.mul, XReal.infOf, if_pos hr]
    rfl
  | posInf => rfl
  | nan => rw [hv] at hlam'; exact hlam'.elim
  | negInf => rw [hv] at hlam'; exact hlam'.elim

/-- **C137 (infinite losses sought).** If lambda is negative (a negative `Amp`), a proposal whose loss is `+Inf` is
accepted by every draw which is a number, from a current state of finite loss. -/
theorem C137_seeks_infinity (p : McmcParams D E (Ieee f) R) (impl : McmcImpl E (Ieee f)) (centroids : List E)
    (d : McmcDraws E (Ieee f)) (impl' : McmcImpl E (Ieee f)) (clust : List E) (fig : McmcFigures (Ieee f))
    (hit : impl.iterate p centroids d = some (impl', clust, fig)) {l : ℝ} (hcur : impl.current.loss.1 = .fin l)
    (prop : Proposal E (Ieee f))
    (hp : impl.propose p impl.current centroids impl.buffer.data impl.buffer.data.length d = some prop)
    {x y u : ℝ} (hl : prop.loss.1 = .posInf) (hlam : impl'.lambda < 0) (hpdf : (impl.current.pdf - prop.pdf).1 = .fin x)
    (hini : (GoMath.log (GoMath.ofInt 2 * p.conf.b) * GoMath.ofInt (impl.dim * (impl.current.k - prop.k)) : Ieee f).1 = .fin y)
    (hu : d.accept.1 = .fin u) :
    clust = prop.centers ∧ impl'.current = prop ∧ impl'.acc = impl.acc + 1 := by
  refine iterate_gain_inf p impl centroids d impl' clust fig hit prop hp ?_ hpdf hini hu
  have hsub : (impl.current.loss - prop.loss).1 = .negInf := by
    show f.round (XReal.add impl.current.loss.1 (XReal.neg prop.loss.1)) = _
    rw [hcur, hl]; rfl
  show f.round (XReal.mul impl'.lambda.1 (impl.current.loss - prop.loss).1) = _
  rw [hsub]
  have hlam' : XReal.lt impl'.lambda.1 (0 : Ieee f).1 := hlam
  rw [Ieee.zero_val] at hlam'
  cases hv : impl'.lambda.1 with
  | fin r =>
    rw [hv] at hlam'
    have hr : r < 0 := hlam'
    simp only [XReal.mul, XReal.infOf]
    split_ifs <;> first | rfl | (exfalso; linarith)
  | negInf => rfl
  | nan => rw [hv] at hlam'; exact hlam'.elim
  | posInf => rw [hv] at hlam'; exact hlam'.elim

end

/-! ### A negative `Amp` -/

/-- **C137 (negative `Amp`).** `NewAlgo` accepts a negative `Amp` and keeps it. -/
theorem C137_negative_amp {R : Type} (env : ConfEnv R) (hcpu : env.numCPU ≠ 0) (raw : McmcConf (Ieee float64) R)
    (hk : 1 ≤ raw.initK) (hk2 : raw.initK ≤ if raw.maxK = 0 then 16 else raw.maxK) (hc : CtrlOk raw.ctrl) :
    ∃ conf, raw.newAlgo env = some conf ∧ conf.amp = raw.amp :=
  ⟨_, ((C21_mcmc_accepts env hcpu float64_consts raw).1).2 ⟨hk, hk2, hc⟩, by rw [mcmc_fields]⟩

/-- **C137 (larger losses preferred).** With a negative `Amp`, in exact arithmetic, the ratio grows with the loss of the
proposal: mcmc prefers the worse of two proposals which differ by their losses only. -/
theorem C137_prefers_loss {E R : Type} (conf : McmcConf ℝ R) (ha : conf.amp < 0) (dim time : Nat) (ht : 1 ≤ time)
    (cur prop prop' : Proposal E ℝ) (hk : prop.k = prop'.k) (hp : prop.pdf = prop'.pdf) (hl : prop.loss < prop'.loss) :
    (ratio conf dim cur prop time).2.1 < (ratio conf dim cur prop' time).2.1 := by
  show Real.exp _ < Real.exp _
  rw [Real.exp_lt_exp, hk, hp]
  have hs : 0 < Real.sqrt (((dim + 3 : Nat) : Int) / ((time : Int) : ℝ)) := by
    apply Real.sqrt_pos.2
    have : (0 : ℝ) < ((time : Int) : ℝ) := by exact_mod_cast ht
    have h3 : (0 : ℝ) < (((dim + 3 : Nat) : Int) : ℝ) := by exact_mod_cast Nat.succ_pos _
    positivity
  have hneg : conf.amp * Real.sqrt (((dim + 3 : Nat) : Int) / ((time : Int) : ℝ)) < 0 := mul_neg_of_neg_of_pos ha hs
  have := mul_lt_mul_of_neg_left (sub_lt_sub_left hl cur.loss) hneg
  have e : (GoMath.sqrt (GoMath.ofInt (dim + 3) / GoMath.ofInt time : ℝ) : ℝ) =
      Real.sqrt (((dim + 3 : Nat) : Int) / ((time : Int) : ℝ)) := by
    show Real.sqrt ((((dim : Int) + 3 : Int) : ℝ) / ((time : Int) : ℝ)) = _
    push_cast; rfl
  rw [e]
  linarith

namespace McmcInfExample
open McmcStuckExample

/-- `+Inf`. -/
def inf : Ieee float64 := ⟨.posInf, rfl⟩

/-- A point at infinity. -/
def far : Vec (Ieee float64) 1 := ⟨[inf], rfl⟩

theorem far_wild : WildPoint far := ⟨inf, by simp [far], fun r h => by cases h⟩

theorem far_init (pi : Ieee float64) (conf : McmcConf (Ieee float64) Nat) (e : Vec (Ieee float64) 1)
    (data : List (Vec (Ieee float64) 1)) :
    ∃ s, (McmcSys.new (params 1 pi conf) (e :: data)).run (params 1 pi conf) [.init ()] = some s ∧
      (McmcImpl.new (params 1 pi conf) (e :: data)).init (params 1 pi conf) () = (s.impl, .ok [e]) ∧ s.centroids = [e] := by
  obtain ⟨s, h1, h2, h3⟩ := params_init 1 pi conf e data
  refine ⟨s, h1, ?_, h3⟩
  simp only [McmcSys.run, McmcSys.step] at h1
  split at h1
  · cases h1
  · rename_i hs
    split at hs
    · rename_i impl c hin
      cases hs
      cases h1
      have : c = [e] := h3
      rw [← this]
      exact hin
    · rename_i impl r hne hin
      cases hs
      cases h1
      cases h2

theorem one_is : (1 : Ieee float64).1 = .fin 1 := by
  have h := float64_int 1 (by norm_num)
  have e : (GoMath.ofInt 1 : Ieee float64) = 1 := by
    show Ieee.of float64 (.fin ((1 : ℤ) : ℝ)) = Ieee.of float64 (.fin 1)
    rw [Int.cast_one]
  rw [e, Int.cast_one] at h
  exact h

/-- `far` is in the data: the centroid stays the first datum, whatever follows, until the next `Init`. -/
example (pi : Ieee float64) (conf : McmcConf (Ieee float64) Nat) (ha : conf.amp = 1) (hn : conf.norm = 1)
    (e : Vec (Ieee float64) 1) (data : List (Vec (Ieee float64) 1)) (ops : List (McmcOp Unit (Vec (Ieee float64) 1) (Ieee float64)))
    (hd : ∀ d : McmcDraws (Vec (Ieee float64) 1) (Ieee float64), .iterate d ∈ ops → ¬ d.accept < 0)
    (hop : ∀ op ∈ ops, ∀ d, op ≠ .init d) :
    ∃ s, (McmcSys.new (params 1 pi conf) (e :: far :: data)).run (params 1 pi conf) [.init ()] = some s ∧
      ∀ s', s.run (params 1 pi conf) ops = some s' → s'.centroids = [e] := by
  obtain ⟨s, h1, h2, h3⟩ := far_init pi conf e (far :: data)
  refine ⟨s, h1, fun s' hr => ?_⟩
  have hbuf := (init_cases _ _ _ _ _ h2).1
  have := (C137_frozen (params 1 pi conf) (by
      show ¬ conf.amp < 0
      rw [ha]
      show ¬ XReal.lt (1 : Ieee float64).1 (0 : Ieee float64).1
      rw [one_is, Ieee.zero_val]
      show ¬ ((1 : ℝ) < 0)
      norm_num) (b := 1) (by show conf.norm.1 = _; rw [hn]; exact one_is) one_pos
    (fun y => (C137_distance far y far_wild).1) ops s s' (by rw [hbuf]; rfl)
    (by
      rw [hbuf, show (McmcImpl.new (params 1 pi conf) (e :: far :: data)).buffer.apply.data = e :: far :: data from rfl]
      simp) hd hr).2.2 hop
  rw [this.1, h3]

/-- `far` is the first datum: the loss is NaN, and the centroid stays even if `far` leaves the data. -/
example (pi : Ieee float64) (conf : McmcConf (Ieee float64) Nat) (hn : conf.norm = 1)
    (data : List (Vec (Ieee float64) 1)) (ops : List (McmcOp Unit (Vec (Ieee float64) 1) (Ieee float64)))
    (hop : ∀ op ∈ ops, ∀ d, op ≠ .init d) :
    ∃ s, (McmcSys.new (params 1 pi conf) (far :: data)).run (params 1 pi conf) [.init ()] = some s ∧
      isNaN s.impl.current.loss ∧ ∀ s', s.run (params 1 pi conf) ops = some s' → s'.centroids = [far] := by
  obtain ⟨s, h1, h2, h3⟩ := far_init pi conf far data
  have hown := fun ops hop s' hr => C137_own (params 1 pi conf) (b := 1) (by show conf.norm.1 = _; rw [hn]; exact one_is) one_pos
    (e := far) _ (by
      rw [show (McmcImpl.new (params 1 pi conf) (far :: data)).buffer.apply.data = far :: data from rfl]
      simp) () s.impl far [] h2 (C137_self far far_wild) ops s s' rfl hop hr
  refine ⟨s, h1, (hown [] (by simp) s rfl).1, fun s' hr => ?_⟩
  rw [(hown ops hop s' hr).2.1, h3]

/-- With `Amp` -1 a proposal of loss 9 is preferred to a proposal of loss 1, all else being equal. -/
example (conf : McmcConf ℝ Nat) (ha : conf.amp = -1) (c c' : List Nat) :
    (ratio conf 2 ⟨1, c, 4, 0⟩ ⟨1, c', 1, 0⟩ 10).2.1 < (ratio conf 2 ⟨1, c, 4, 0⟩ ⟨1, c, 9, 0⟩ 10).2.1 :=
  C137_prefers_loss conf (by rw [ha]; norm_num) 2 10 (by norm_num) _ _ _ rfl rfl (by norm_num)

end McmcInfExample

end Distclus
