import Verif.Proof.InitPanic
import Verif.Props.DtwKMeans
/-!
# C150: k-means on elements of different sizes, from the initialisation on

Model: `Verif/Model/InitPanic.lean`, `Verif/Model/ParPanic.lean`.
-/
namespace Distclus
open Spec PSpace

section
variable {E F : Type} [Zero F] [One F] [Neg F] [LT F] [DecidableLT F] {sp : PSpace E F} {size : E → Nat}

/-! ### The iterations -/

/-- **C150.** When an iteration returns, sequential or parallel, no element is larger than a centroid, there are as many
centroids as before, a centroid without elements is kept, and the new centroid of the others has the size of the first of
its elements, which is the least. -/
theorem C150_result (hneg : (-1 : F) < 0) (hz : Sized sp size) (s : KStrategy) (c data : List E) (hc : c ≠ [])
    (q : List (Option E)) (h : s.iterateP sp c data = .ok q) :
    Fits size sp c data ∧ ∃ r : List E, q = r.map some ∧ r.length = c.length ∧
      ∀ (l : Nat) x, c[l]? = some x →
        match data.filter fun e => (nearest sp.total c e).1 == (l : Int) with
        | [] => r[l]? = some x
        | y :: _ => ∃ m, r[l]? = some m ∧ size m = size y := by
  have key : ∀ r : List E, (∀ (l : Nat) x, c[l]? = some x →
      (after size none (PSpace.members sp c l data) = none → r[l]? = some x) ∧
      ∀ g, after size none (PSpace.members sp c l data) = some g → ∃ m, r[l]? = some m ∧ size m = g) →
      ∀ (l : Nat) x, c[l]? = some x →
        match data.filter fun e => (nearest sp.total c e).1 == (l : Int) with
        | [] => r[l]? = some x
        | y :: _ => ∃ m, r[l]? = some m ∧ size m = size y := by
    intro r hr l x hx
    obtain ⟨h1, h2⟩ := hr l x hx
    unfold PSpace.members at h1 h2
    cases hm : data.filter fun e => (nearest sp.total c e).1 == (l : Int) with
    | nil => rw [hm] at h1; exact h1 rfl
    | cons y ys => rw [hm] at h2; exact h2 _ rfl
  cases s with
  | seq =>
    have hf : Fits size sp c data := by
      by_contra hn
      rw [(C124_seq hneg hz c data hc).2 hn] at h; cases h
    refine ⟨hf, ?_⟩
    obtain ⟨st, e1, e2⟩ := (reduceDBA_sized hneg hz hc data).1 hf
    obtain ⟨r, b1, b2, b3⟩ := seqBuild_sizes c st e2
    simp only [KStrategy.iterateP, e1, b1] at h
    cases h
    exact ⟨r, rfl, b2, key r b3⟩
  | par d =>
    refine ⟨(C124_par_ok hneg hz c data hc d q h).1, ?_⟩
    obtain ⟨aggr, e1, e2⟩ := par_holds hneg hz c data hc d q h
    obtain ⟨r, b1, b2, b3⟩ := parBuild_sizes c _ aggr e1
    rw [b1] at e2
    cases e2
    exact ⟨r, rfl, b2, key r b3⟩

/-- **C150.** If two iterations in a row return, sequential or parallel, all the data have the same size. -/
theorem C150_two (hneg : (-1 : F) < 0) (hz : Sized sp size) (s s' : KStrategy) (c data r : List E) (hc : c ≠ [])
    (q : List (Option E)) (h : s.iterateP sp c data = .ok (r.map some)) (h' : s'.iterateP sp r data = .ok q) :
    ∀ a ∈ data, ∀ b ∈ data, size a = size b := by
  obtain ⟨f1, r', e, hl, hr⟩ := C150_result hneg hz s c data hc _ h
  have : r' = r := by
    have := congrArg (List.filterMap id) e
    simpa using this.symm
  subst this
  have hrne : r' ≠ [] := fun h => hc (List.length_eq_zero_iff.1 (by rw [← hl, h]; rfl))
  obtain ⟨f2, -⟩ := C150_result hneg hz s' r' data hrne _ h'
  have key : ∀ a ∈ data, ∀ b ∈ data, size b ≤ size a := by
    intro a ha b hb
    obtain ⟨h1, h2⟩ := nearest_range hneg sp.total c hc a
    obtain ⟨l, hl'⟩ := Int.eq_ofNat_of_zero_le h1
    rw [hl'] at h2
    have hlt : l < c.length := by omega
    have hm : a ∈ data.filter fun e => (nearest sp.total c e).1 == (l : Int) := by
      rw [List.mem_filter]; exact ⟨ha, by simp [hl']⟩
    have hx := hr l c[l] (List.getElem?_eq_getElem hlt)
    have hfl := f1.2 l hlt
    cases hd : data.filter fun e => (nearest sp.total c e).1 == (l : Int) with
    | nil => rw [hd] at hm; cases hm
    | cons y ys =>
      rw [hd] at hx hm hfl
      obtain ⟨m, hm1, hm2⟩ := hx
      have hb' := f2.1 b hb m (List.mem_of_getElem? hm1)
      have : size y ≤ size a := by
        rcases List.mem_cons.1 hm with rfl | hm
        · exact Nat.le_refl _
        · exact hfl a hm
      omega
  exact fun a ha b hb => Nat.le_antisymm (key b hb a ha) (key a ha b hb)

/-- **C150.** So k-means never makes two iterations on data of different sizes, whatever the centroids it starts from and
the strategy: the first iteration or the second one panics, or ends the process. -/
theorem C150_dies (hneg : (-1 : F) < 0) (hz : Sized sp size) (s : KStrategy) (c data : List E) (hc : c ≠ []) {a b : E}
    (ha : a ∈ data) (hb : b ∈ data) (hab : size a ≠ size b) :
    s.iterateP sp c data = .panic ∨ s.iterateP sp c data = .crash ∨
      ∃ r : List E, s.iterateP sp c data = .ok (r.map some) ∧
        (s.iterateP sp r data = .panic ∨ s.iterateP sp r data = .crash) := by
  cases h : s.iterateP sp c data with
  | panic => exact .inl rfl
  | crash => exact .inr (.inl rfl)
  | ok q =>
    obtain ⟨-, r, rfl, -⟩ := C150_result hneg hz s c data hc q h
    refine .inr (.inr ⟨r, rfl, ?_⟩)
    cases h' : s.iterateP sp r data with
    | panic => exact .inl rfl
    | crash => exact .inr rfl
    | ok q' => exact (hab (C150_two hneg hz s s c data r hc q' h h' a ha b hb)).elim

/-! ### The initialisation -/

omit [Zero F] [One F] [Neg F] [LT F] [DecidableLT F] in
/-- **C150.** `GivenInitializer` does not look at the sizes: its centroids have the sizes of the first elements. -/
theorem C150_given (hz : Sized sp size) (k : Int) (elemts : List E) (hk : 1 ≤ k) (hlen : k ≤ elemts.length) :
    ∃ c, givenInitializerP k elemts sp = .ok (some c) ∧ c.map size = (elemts.take k.toNat).map size := by
  have loop : ∀ (n : Nat) (es : List E), n ≤ es.length →
      ∃ c, givenLoopP sp n es = some c ∧ c.map size = (es.take n).map size := by
    intro n
    induction n with
    | zero => intro es _; exact ⟨[], rfl, by simp⟩
    | succ n ih =>
      intro es hn
      cases es with
      | nil => simp at hn
      | cons e es =>
        obtain ⟨x, hx, hs⟩ := hz.copy e
        obtain ⟨c, hc, hcs⟩ := ih es (by simpa using hn)
        exact ⟨x :: c, by simp only [givenLoopP, hx, hc], by simp [hs, hcs]⟩
  obtain ⟨c, h1, h2⟩ := loop k.toNat elemts (by omega)
  refine ⟨c, ?_, h2⟩
  have : initCheck k elemts = true := by
    unfold initCheck; rw [if_neg (by omega), if_neg (by omega)]
  simp only [givenInitializerP, this, if_true, h1]

variable [Add F] [Sub F] [Mul F] [BEq F]

theorem ppLoop_sizes (hz : Sized sp size) (elemts : List E) {degree : Int} (hd : 1 ≤ degree) :
    ∀ (n : Nat) (us : List F) (acc : List E),
      (∀ c, ppLoopP sp degree elemts n us acc = some (.ok (some c)) → 1 ≤ n →
        ∀ x ∈ c.dropLast, ∀ e ∈ elemts, size e ≤ size x) ∧
      (∀ c, ppLoopP sp degree elemts n us acc = some (.ok (some c)) → ∃ t, c = acc ++ t ∧ t.length = n) ∧
      ((∀ x ∈ acc, ∀ e ∈ elemts, size e ≤ size x) → (∀ a ∈ elemts, ∀ b ∈ elemts, size a = size b) →
        ppLoopP sp degree elemts n us acc ≠ some .crash) ∧
      (n = 1 → (∀ x ∈ acc, ∀ e ∈ elemts, size e ≤ size x) → ppLoopP sp degree elemts n us acc ≠ some .crash)
  | 0, us, acc => by
    refine ⟨fun c _ h => (by omega), fun c h => ?_, fun _ _ h => ?_, fun h => (by omega)⟩
    · simp only [ppLoopP, Option.some.injEq, Outcome.ok.injEq] at h
      exact ⟨[], by simp [h], rfl⟩
    · simp [ppLoopP] at h
  | n + 1, [], acc => by
    refine ⟨fun c h => ?_, fun c h => ?_, fun _ _ h => ?_, fun _ _ h => ?_⟩ <;> simp [ppLoopP] at h
  | n + 1, u :: us, acc => by
    obtain ⟨i1, i2⟩ := ppIterP_cases (sp := sp) acc elemts u hd
    have hcr : (∀ x ∈ acc, ∀ e ∈ elemts, size e ≤ size x) → ppIterP sp degree acc elemts u ≠ .crash := by
      intro hacc h
      obtain ⟨e, he, x, hx, hn⟩ := i1.1 h
      have := (hz.dist e x).1 hn
      have := hacc x hx e he
      omega
    cases h : ppIterP sp degree acc elemts u with
    | panic => simp only [ppLoopP, h]; simp
    | crash =>
      simp only [ppLoopP, h]
      refine ⟨by simp, by simp, fun h1 _ => (hcr h1 h).elim, fun _ h1 => (hcr h1 h).elim⟩
    | ok yb =>
      obtain ⟨y, b⟩ := yb
      cases b with
      | true => simp only [ppLoopP, h]; simp
      | false =>
        obtain ⟨e, he, hcopy⟩ := i2 y false h
        have hys : size y = size e := by
          obtain ⟨z, hz1, hz2⟩ := hz.copy e
          rw [hcopy] at hz1; cases hz1; exact hz2
        have hnd : ∀ x ∈ acc, ∀ e ∈ elemts, size e ≤ size x := by
          intro x hx e' he'
          by_contra hlt
          have : ppIterP sp degree acc elemts u = .crash := i1.2 ⟨e', he', x, hx, (hz.dist e' x).2 (by omega)⟩
          rw [h] at this; cases this
        obtain ⟨j1, j2, j3, j4⟩ := ppLoop_sizes hz elemts hd n us (acc ++ [y])
        simp only [ppLoopP, h]
        refine ⟨fun c hc _ => ?_, fun c hc => ?_, fun hacc hall => j3 ?_ hall, fun hn _ => ?_⟩
        · cases n with
          | zero =>
            simp only [ppLoopP, Option.some.injEq, Outcome.ok.injEq] at hc
            rw [← hc, List.dropLast_concat]
            exact hnd
          | succ n => exact j1 c hc (by omega)
        · obtain ⟨t, h1, h2⟩ := j2 c hc
          exact ⟨y :: t, by rw [h1]; simp, by simp [h2]⟩
        · intro x hx e' he'
          rcases List.mem_append.1 hx with hx | hx
          · exact hacc x hx e' he'
          · rw [List.mem_singleton.1 hx, hys, hall e' he' e he]
        · have : n = 0 := by omega
          subst this
          simp [ppLoopP]

/-- **C150.** `PPInitializer` with two centroids or more: if the first element drawn is not one of the largest, the
process ends. -/
theorem C150_pp_first (hz : Sized sp size) (k : Int) (elemts : List E) (hk : 2 ≤ k) (hlen : k ≤ elemts.length)
    {sysCPU : Int} (hcpu : 1 ≤ sysCPU) (first : Nat) (u : F) (us : List F) {x e : E} (hx : elemts[first]? = some x)
    (he : e ∈ elemts) (hlt : size x < size e) :
    ppInitializerP k elemts sp sysCPU first (u :: us) = some .crash := by
  have hcheck : initCheck k elemts = true := by
    unfold initCheck; rw [if_neg (by omega), if_neg (by omega)]
  obtain ⟨n, hn⟩ : ∃ n, k.toNat - 1 = n + 1 := ⟨k.toNat - 2, by omega⟩
  have hcr : ppIterP sp sysCPU [x] elemts u = .crash :=
    (ppIterP_cases (sp := sp) [x] elemts u hcpu).1.2 ⟨e, he, x, by simp, (hz.dist e x).2 hlt⟩
  simp only [ppInitializerP, if_neg (show ¬ k < 0 by omega), hcheck, if_true, hx, hn, ppLoopP, hcr]

/-- **C150.** When it returns centroids, all of them but the last one are among the largest elements. -/
theorem C150_pp (hz : Sized sp size) (k : Int) (elemts : List E) {sysCPU : Int} (hcpu : 1 ≤ sysCPU) (first : Nat)
    (us : List F) (c : List E) (h : ppInitializerP k elemts sp sysCPU first us = some (.ok (some c))) :
    (c.length : Int) = k ∧ ∀ x ∈ c.dropLast, ∀ e ∈ elemts, size e ≤ size x := by
  unfold ppInitializerP at h
  by_cases h0 : k < 0
  · rw [if_pos h0] at h; cases h
  · rw [if_neg h0] at h
    by_cases h1 : initCheck k elemts = true
    · rw [if_pos h1] at h
      have hk : 1 ≤ k := by
        by_contra hk
        unfold initCheck at h1; rw [if_pos (by omega)] at h1; cases h1
      cases hx : elemts[first]? with
      | none => rw [hx] at h; cases h
      | some x =>
        rw [hx] at h
        simp only at h
        obtain ⟨a1, a2, -⟩ := ppLoop_sizes hz elemts hcpu (k.toNat - 1) us [x]
        obtain ⟨t, e1, e2⟩ := a2 c h
        refine ⟨by rw [e1]; simp; omega, fun y hy => ?_⟩
        by_cases hn : 1 ≤ k.toNat - 1
        · exact a1 c h hn y hy
        · have : t = [] := List.length_eq_zero_iff.1 (by omega)
          rw [e1, this] at hy
          simp at hy
    · rw [if_neg h1] at h; cases h

/-- **C150.** So when `PPInitializer` and the first iteration both return, all the centroids drawn are among the largest
elements. -/
theorem C150_pp_iterate (hneg : (-1 : F) < 0) (hz : Sized sp size) (s : KStrategy) (k : Int) (elemts : List E)
    {sysCPU : Int} (hcpu : 1 ≤ sysCPU) (first : Nat) (us : List F) (c : List E)
    (h : ppInitializerP k elemts sp sysCPU first us = some (.ok (some c))) (hk : 1 ≤ k) (q : List (Option E))
    (hq : s.iterateP sp c elemts = .ok q) : ∀ x ∈ c, ∀ e ∈ elemts, size e ≤ size x := by
  have hc : c ≠ [] := by
    have := (C150_pp hz k elemts hcpu first us c h).1
    rintro rfl
    simp at this; omega
  exact fun x hx e he => (C150_result hneg hz s c elemts hc q hq).1.1 e he x hx

/-- **C150.** On elements of one size `PPInitializer` does not end the process; nor on any elements when one centroid is
asked for, since it then computes no distance. -/
theorem C150_pp_same (hz : Sized sp size) (k : Int) (elemts : List E) {sysCPU : Int} (hcpu : 1 ≤ sysCPU) (first : Nat)
    (us : List F) (h : k ≤ 1 ∨ ∀ a ∈ elemts, ∀ b ∈ elemts, size a = size b) :
    ppInitializerP k elemts sp sysCPU first us ≠ some .crash := by
  unfold ppInitializerP
  by_cases h0 : k < 0
  · rw [if_pos h0]; simp
  · rw [if_neg h0]
    by_cases h1 : initCheck k elemts = true
    · rw [if_pos h1]
      cases hx : elemts[first]? with
      | none => simp
      | some x =>
        simp only
        rcases h with h | h
        · rw [show k.toNat - 1 = 0 by omega]; simp [ppLoopP]
        · refine (ppLoop_sizes hz elemts hcpu (k.toNat - 1) us [x]).2.2.1 (fun y hy e he => ?_) h
          rw [List.mem_singleton.1 hy, h e he x (List.mem_of_getElem? hx)]
    · rw [if_neg h1]; simp

end

/-! ### Series -/

section
variable {E F : Type} [Zero F] [One F] [Neg F] [LT F] [DecidableLT F] [Add F] [Sub F] [Mul F] [BEq F] {sp : PSpace E F}

/-- **C150.** On elements on which the operations do not panic, `PPInitializer` does not end the process, and its
centroids are such elements. -/
theorem C150_pp_safe {G : E → Prop} (hs : SafeOn sp G) (k : Int) (elemts : List E) (hg : ∀ e ∈ elemts, G e)
    {sysCPU : Int} (hcpu : 1 ≤ sysCPU) (first : Nat) (us : List F) :
    ppInitializerP k elemts sp sysCPU first us ≠ some .crash ∧
    ∀ c, ppInitializerP k elemts sp sysCPU first us = some (.ok (some c)) → ∀ x ∈ c, G x := by
  have loop : ∀ (n : Nat) (us : List F) (acc : List E), (∀ x ∈ acc, G x) →
      ppLoopP sp sysCPU elemts n us acc ≠ some .crash ∧
      ∀ c, ppLoopP sp sysCPU elemts n us acc = some (.ok (some c)) → ∀ x ∈ c, G x := by
    intro n
    induction n with
    | zero =>
      intro us acc ha
      refine ⟨by simp [ppLoopP], fun c hc => ?_⟩
      simp only [ppLoopP, Option.some.injEq, Outcome.ok.injEq] at hc
      rw [← hc]; exact ha
    | succ n ih =>
      intro us acc ha
      cases us with
      | nil => simp [ppLoopP]
      | cons u us =>
        obtain ⟨i1, i2⟩ := ppIterP_cases (sp := sp) acc elemts u hcpu
        cases h : ppIterP sp sysCPU acc elemts u with
        | panic => simp only [ppLoopP, h]; simp
        | crash =>
          obtain ⟨e, he, x, hx, hn⟩ := i1.1 h
          obtain ⟨d, hd⟩ := hs.dist (hg e he) (ha x hx)
          rw [hd] at hn; cases hn
        | ok yb =>
          obtain ⟨y, b⟩ := yb
          cases b with
          | true => simp only [ppLoopP, h]; simp
          | false =>
            obtain ⟨e, he, hcopy⟩ := i2 y false h
            have gy : G y := by
              obtain ⟨z, hz1, hz2⟩ := hs.copy (hg e he)
              rw [hcopy] at hz1; cases hz1; exact hz2
            simp only [ppLoopP, h]
            refine ih us (acc ++ [y]) fun x hx => ?_
            rcases List.mem_append.1 hx with hx | hx
            · exact ha x hx
            · rw [List.mem_singleton.1 hx]; exact gy
  unfold ppInitializerP
  by_cases h0 : k < 0
  · rw [if_pos h0]; simp
  · rw [if_neg h0]
    by_cases h1 : initCheck k elemts = true
    · rw [if_pos h1]
      cases hx : elemts[first]? with
      | none => simp
      | some x =>
        refine loop _ us [x] fun y hy => ?_
        rw [List.mem_singleton.1 hy]
        exact hg x (List.mem_of_getElem? hx)
    · rw [if_neg h1]; simp

end

/-! ### Examples and witnesses -/

/-- Points of the line and of the plane: k-means does not make two iterations. -/
example (s : KStrategy) :
    s.iterateP (euclidP (F := ℝ)) [[0, 0]] [[1], [3, 4]] = .panic ∨
    s.iterateP (euclidP (F := ℝ)) [[0, 0]] [[1], [3, 4]] = .crash ∨
    ∃ r : List (List ℝ), s.iterateP euclidP [[0, 0]] [[1], [3, 4]] = .ok (r.map some) ∧
      (s.iterateP euclidP r [[1], [3, 4]] = .panic ∨ s.iterateP euclidP r [[1], [3, 4]] = .crash) :=
  C150_dies (by norm_num) C124_euclid s _ _ (by simp) (a := [1]) (b := [3, 4]) (by simp) (by simp) (by simp)

/-- **C150, witness.** The first iteration may well return: on a point of the line and one of the plane, from a centroid
in the plane, it does, sequential; the new centroid is on the line, and the second iteration panics. -/
theorem C150_first_returns :
    ∃ r : List (List ℝ), KStrategy.seq.iterateP (euclidP (F := ℝ)) [[0, 0]] [[1], [3, 4]] = .ok (r.map some) ∧
      KStrategy.seq.iterateP euclidP r [[1], [3, 4]] = .panic := by
  have hneg : (-1 : ℝ) < 0 := by norm_num
  obtain ⟨q, hq⟩ := (C124_seq hneg (C124_euclid (F := ℝ)) [[0, 0]] [[1], [3, 4]] (by simp)).1
    ((fits_one hneg euclidP [0, 0] _).2 (by simp [FirstLeast]))
  rcases C150_dies hneg C124_euclid KStrategy.seq [[(0 : ℝ), 0]] [[1], [3, 4]] (by simp) (a := [1]) (b := [3, 4])
    (by simp) (by simp) (by simp) with h | h | ⟨r, h, h'⟩
  · rw [hq] at h; cases h
  · rw [hq] at h; cases h
  · refine ⟨r, h, h'.resolve_right fun hc => ?_⟩
    simp only [KStrategy.iterateP] at hc
    cases h1 : reduceDBAP euclidP r [[1], [3, 4]] with
    | none => rw [h1] at hc; cases hc
    | some st =>
      rw [h1] at hc
      simp only at hc
      cases h2 : seqBuildResult r st.1 <;> rw [h2] at hc <;> cases hc

/-- A point of the line drawn first among points of the plane. -/
example (u : ℝ) (us : List ℝ) : ppInitializerP 2 [[1, 2], [1], [3, 4]] (euclidP (F := ℝ)) 4 1 (u :: us) = some .crash :=
  C150_pp_first C124_euclid 2 _ (by omega) (by simp) (by omega) 1 u us (x := [1]) (e := [3, 4]) rfl (by simp) (by simp)

end Distclus
