import Verif.Model.Share
import Verif.Proof.Hom
import Verif.Props.KMeansInit
import Verif.Spec.Example
import Verif.Props.StreamHeap
/-!
# C142: which vectors the clusterings share with the caller
-/
set_option linter.unusedSectionVars false

namespace Distclus
open Spec

section
variable {E F R : Type}

/-- The vector was made by the library. -/
def Ref.IsOwn (r : Ref E) : Prop := ∃ v, r = .own v

theorem Ref.IsOwn.see {r : Ref E} (h : r.IsOwn) (mem mem' : Nat → E) : r.see mem' = r.see mem := by
  obtain ⟨v, rfl⟩ := h; rfl

theorem memSpace_hom (space : Space E F) (mem : Nat → E) : CombHom (memSpace space mem) space (Ref.see mem) :=
  ⟨fun _ _ _ _ => rfl, fun _ => rfl⟩

variable [Zero F] [LT F] [DecidableLT F] [One F] [Neg F]

theorem mem_nearestLoop (space : Space E F) (mem : Nat → E) (e : Ref E) : ∀ (c : List (Ref E)) (i : Nat) (l : Int)
    (m : F), nearestLoop space (e.see mem) (c.map (Ref.see mem)) i l m = nearestLoop (memSpace space mem) e c i l m
  | [], _, _, _ => rfl
  | x :: c, i, l, m => by
    simp only [List.map_cons, nearestLoop, mem_nearestLoop space mem e c]
    rfl

theorem mem_nearest (space : Space E F) (mem : Nat → E) (c : List (Ref E)) (e : Ref E) :
    nearest space (c.map (Ref.see mem)) (e.see mem) = nearest (memSpace space mem) c e :=
  mem_nearestLoop space mem e c 0 (-1) (-1)

/-- **C142 (what is computed).** An iteration of k-means on references computes what it computes on the
vectors they show at the moment. -/
theorem C142_see_kmeans (space : Space E F) (mem : Nat → E) (s : KStrategy) (data c : List (Ref E)) :
    kmeansStep s space (data.map (Ref.see mem)) (c.map (Ref.see mem)) =
      (kmeansStep s (memSpace space mem) data c).map (List.map (Ref.see mem)) :=
  (memSpace_hom space mem).step s c data fun e _ => by rw [mem_nearest]

/-- **C142 (iterations).** After an iteration, the centroid of a cluster which received an element is a
new vector; that of an empty cluster is the reference it was. -/
theorem C142_iterate (hneg : (-1 : F) < 0) (space : Space E F) (mem : Nat → E) (s : KStrategy) (hs : s.Valid)
    (data c : List (Ref E)) (hc : c ≠ []) :
    ∃ out, kmeansStep s (memSpace space mem) data c = some out ∧ out.length = c.length ∧
      ∀ (l : Nat) (x : Ref E), c[l]? = some x →
        ((∃ e ∈ data, (nearest (memSpace space mem) c e).1 = l) → ∃ v, out[l]? = some (.own v)) ∧
        ((¬ ∃ e ∈ data, (nearest (memSpace space mem) c e).1 = l) → out[l]? = some x) := by
  obtain ⟨out, g1, g2, g3⟩ := iterate_spec hneg (space := memSpace space mem) (P := fun _ m => Ref.IsOwn m)
    (fun _ _ _ _ _ _ _ _ => ⟨_, rfl⟩) (by
      intro ms m hm
      cases ms with
      | nil => cases hm
      | cons a l =>
        have key : ∀ (l : List (Ref E)) (mw : Ref E × Int), mw.1.IsOwn →
            (l.foldl (fun mw x => ((memSpace space mem).combine mw.1 mw.2 x 1, mw.2 + 1)) mw).1.IsOwn := by
          intro l
          induction l with
          | nil => intro mw h; exact h
          | cons b l ih => intro mw _; exact ih _ ⟨_, rfl⟩
        cases hm
        exact key l _ ⟨_, rfl⟩) s hs c data hc
  refine ⟨out, by rw [kmeansStep, g1]; exact allSome_map_some out, g2, fun l x hx => ?_⟩
  obtain ⟨m, hm, e1, e2⟩ := g3 l x hx
  have hf : (data.filter fun e => (nearest (memSpace space mem) c e).1 == (l : Int)) = [] ↔
      ¬ ∃ e ∈ data, (nearest (memSpace space mem) c e).1 = l := by
    simp [List.filter_eq_nil_iff]
  constructor
  · intro h
    obtain ⟨v, rfl⟩ := e2 fun h' => (hf.1 h') h
    exact ⟨v, hm⟩
  · intro h
    rw [hm, e1 (hf.2 h)]

/-- Once the centroids are new vectors they stay so, whatever the data and the memory become. -/
theorem C142_run (hneg : (-1 : F) < 0) (space : Space E F) (s : KStrategy) (hs : s.Valid) :
    ∀ (l : List ((Nat → E) × List (Ref E))) (c : List (Ref E)), c ≠ [] → (∀ r ∈ c, r.IsOwn) →
    ∃ out, memRun s space l c = some out ∧ out.length = c.length ∧ ∀ r ∈ out, r.IsOwn
  | [], c, _, h => ⟨c, rfl, rfl, h⟩
  | (mem, data) :: rest, c, hc, h => by
    obtain ⟨c', h1, h2, h3⟩ := C142_iterate hneg space mem s hs data c hc
    have hown : ∀ r ∈ c', r.IsOwn := by
      intro r hr
      obtain ⟨i, hi, rfl⟩ := List.mem_iff_getElem.1 hr
      have hi' : i < c.length := by omega
      obtain ⟨e1, e2⟩ := h3 i c[i] (by simp)
      by_cases he : ∃ e ∈ data, (nearest (memSpace space mem) c e).1 = i
      · obtain ⟨v, hv⟩ := e1 he
        rw [List.getElem?_eq_getElem hi] at hv
        exact ⟨v, Option.some.inj hv⟩
      · have := e2 he
        rw [List.getElem?_eq_getElem hi] at this
        rw [Option.some.inj this]
        exact h _ (List.getElem_mem _)
    obtain ⟨out, g1, g2, g3⟩ := C142_run hneg space s hs rest c' (by
      intro h0; rw [h0] at h2; exact hc (List.length_eq_zero_iff.1 h2.symm)) hown
    exact ⟨out, by rw [memRun, h1]; exact g1, by omega, g3⟩

/-! ### Initialisation -/

/-- **C142 (given and random centroids).** They are new vectors. -/
theorem C142_given (space : Space E F) (mem : Nat → E) (k : Int) (data c : List (Ref E))
    (h : givenInitializer k data (memSpace space mem) = .ok c) : ∀ r ∈ c, r.IsOwn := by
  by_cases hk : 1 ≤ k ∧ k ≤ data.length
  · rw [(C26_given k data _).1 hk] at h
    cases h
    intro r hr
    obtain ⟨x, _, rfl⟩ := List.mem_map.1 hr
    exact ⟨_, rfl⟩
  · rw [(C26_given k data _).2 hk] at h; cases h

theorem randLoop_own (space : Space E F) (mem : Nat → E) (data : List (Ref E)) (k : Nat) :
    ∀ (draws chosen : List Nat) (acc c : List (Ref E)), (∀ r ∈ acc, r.IsOwn) →
      randLoop (memSpace space mem) data k draws chosen acc = some (some c) → ∀ r ∈ c, r.IsOwn := by
  intro draws
  induction draws with
  | nil =>
    intro chosen acc c ha h
    unfold randLoop at h
    split at h
    · cases h
    · cases h; exact ha
  | cons d ds ih =>
    intro chosen acc c ha h
    unfold randLoop at h
    split at h
    · by_cases hd : d ∈ chosen
      · exact ih chosen acc _ ha (by simpa [hd] using h)
      · cases he : data[d]? with
        | none => simp [hd, he] at h
        | some e =>
          refine ih (d :: chosen) (acc ++ [(memSpace space mem).copy e]) _ ?_ (by simpa [hd, he] using h)
          intro r hr
          rcases List.mem_append.1 hr with hr | hr
          · exact ha r hr
          · rw [List.mem_singleton.1 hr]; exact ⟨_, rfl⟩
    · cases h; exact ha

theorem C142_rand (space : Space E F) (mem : Nat → E) (k : Int) (data c : List (Ref E)) (draws : List Nat)
    (h : randInitializer k data (memSpace space mem) draws = some (.ok c)) : ∀ r ∈ c, r.IsOwn := by
  unfold randInitializer at h
  split at h
  · cases h
  · split at h
    · cases hr : randLoop (memSpace space mem) data k.toNat draws [] [] with
      | none => rw [hr] at h; cases h
      | some o =>
        cases o with
        | none => rw [hr] at h; cases h
        | some c' =>
          rw [hr] at h
          cases h
          exact randLoop_own space mem data _ draws [] [] c (by simp) hr
    · cases h

variable [Add F] [Sub F] [Mul F] [BEq F]

theorem ppLoop_own (space : Space E F) (mem : Nat → E) (data : List (Ref E)) : ∀ (n : Nat) (us : List F)
    (acc c : List (Ref E)), ppLoop (memSpace space mem) data n us acc = some (.ok c) →
    ∃ t, c = acc ++ t ∧ t.length = n ∧ ∀ r ∈ t, r.IsOwn := by
  intro n
  induction n with
  | zero => intro us acc c h; cases h; exact ⟨[], by simp⟩
  | succ n ih =>
    intro us acc c h
    cases us with
    | nil => cases h
    | cons u us =>
      unfold ppLoop at h
      cases hp : ppIter (memSpace space mem) acc data u with
      | panic => rw [hp] at h; cases h
      | nullSet => rw [hp] at h; cases h
      | ok e =>
        rw [hp] at h
        have he : e.IsOwn := by
          unfold ppIter at hp
          split at hp
          · cases hp
          · split at hp <;> cases hp
          · split at hp
            · cases hp
            · cases hp; exact ⟨_, rfl⟩
        obtain ⟨t, h1, h2, h3⟩ := ih us _ c h
        refine ⟨e :: t, by rw [h1]; simp, by simp [h2], ?_⟩
        intro r hr
        rcases List.mem_cons.1 hr with rfl | hr
        · exact he
        · exact h3 r hr

/-- **C142 (k-means++).** The first centroid is the datum drawn itself, the others are new vectors. -/
theorem C142_pp (space : Space E F) (mem : Nat → E) (k : Int) (data c : List (Ref E)) (first : Nat) (us : List F)
    (h : ppInitializer k data (memSpace space mem) first us = some (.ok c)) :
    ∃ x t, data[first]? = some x ∧ c = x :: t ∧ (t.length : Int) + 1 = k ∧ ∀ r ∈ t, r.IsOwn := by
  unfold ppInitializer at h
  split at h
  · cases h
  · split at h
    next hk =>
      obtain ⟨k1, k2⟩ := (initCheck_iff k data).1 hk
      cases hf : data[first]? with
      | none => rw [hf] at h; cases h
      | some x =>
        rw [hf] at h
        obtain ⟨t, h1, h2, h3⟩ := ppLoop_own space mem data _ us [x] c h
        exact ⟨x, t, rfl, h1, by omega, h3⟩
    · cases h

end

/-- **C142 (k-means++, then iterations).** In a space where the distances are not negative and that of a
vector to itself is zero, as long as the datum drawn first is in the buffer at the first iteration, the
centroids of every iteration are new vectors: nothing which the caller writes in their vectors changes a
clustering which an iteration returned. -/
theorem C142_kmeans {E F : Type} [Zero F] [One F] [Neg F] [Add F] [Sub F] [Mul F] [LinearOrder F] (hneg : (-1 : F) < 0)
    (space : Space E F) (h0 : ∀ a b, 0 ≤ space.dist a b) (hself : ∀ a, space.dist a a = 0) (s : KStrategy)
    (hs : s.Valid) (mem : Nat → E) (k : Int) (data c : List (Ref E)) (first : Nat) (us : List F)
    (hi : ppInitializer k data (memSpace space mem) first us = some (.ok c)) (mem1 : Nat → E) (data1 : List (Ref E))
    (hd : ∀ x, data[first]? = some x → x ∈ data1) (rest : List ((Nat → E) × List (Ref E))) :
    ∃ out, memRun s space ((mem1, data1) :: rest) c = some out ∧ (out.length : Int) = k ∧
      ∀ m m' : Nat → E, out.map (Ref.see m') = out.map (Ref.see m) := by
  obtain ⟨x, t, hx, rfl, hk, ht⟩ := C142_pp space mem k data c first us hi
  obtain ⟨c', g1, g2, g3⟩ := C142_iterate hneg space mem1 s hs data1 (x :: t) (by simp)
  have hlab : (nearest (memSpace space mem1) (x :: t) x).1 = (0 : Nat) := by
    obtain ⟨j, y, hj, hy⟩ := nearest_spec hneg (memSpace space mem1) x t x (fun h => h)
      (fun z _ => not_lt.2 (h0 _ _))
    rw [hj]
    rcases Nat.eq_zero_or_pos j with h | h
    · rw [h]
    · have := hy.first 0 x h (by simp) (fun h => h)
      have h1 : (memSpace space mem1).dist x x = 0 := hself _
      rw [h1] at this
      exact absurd this (not_lt.2 (h0 _ _))
  have hown : ∀ r ∈ c', r.IsOwn := by
    intro r hr
    obtain ⟨i, hil, rfl⟩ := List.mem_iff_getElem.1 hr
    have hi' : i < (x :: t).length := by omega
    obtain ⟨e1, e2⟩ := g3 i (x :: t)[i] (by simp)
    by_cases he : ∃ e ∈ data1, (nearest (memSpace space mem1) (x :: t) e).1 = i
    · obtain ⟨v, hv⟩ := e1 he
      rw [List.getElem?_eq_getElem hil] at hv
      exact ⟨v, Option.some.inj hv⟩
    · have h2 := e2 he
      rw [List.getElem?_eq_getElem hil] at h2
      rw [Option.some.inj h2]
      cases i with
      | zero => exact absurd ⟨x, hd x hx, hlab⟩ he
      | succ i => exact ht _ (List.getElem_mem _)
  obtain ⟨out, q1, q2, q3⟩ := C142_run hneg space s hs rest c' (by
    intro h; rw [h] at g2; simp at g2) hown
  refine ⟨out, by rw [memRun, g1]; exact q1, ?_, fun m m' => ?_⟩
  · rw [q2, g2]; simpa using hk
  · exact List.map_congr_left fun r hr => (q3 r hr).see m m'

/-! ### Streaming -/

section
variable {E F R : Type}

/-- What is seen of the algorithm when the vectors of the caller are `mem`. -/
def StreamImpl.see (mem : Nat → E) (i : StreamImpl (Ref E) F R) : StreamImpl E F R where
  maxDistance := i.maxDistance
  clust := i.clust.map (Ref.see mem)
  cards := i.cards
  c := i.c.map (Ref.see mem)
  conf := i.conf
  count := i.count

/-- Which centres are vectors of the caller. -/
structure Shared (P : Nat → Prop) (i : StreamImpl (Ref E) F R) : Prop where
  len : i.clust.length = i.cards.length
  queue : ∀ r ∈ i.c, ∃ a, P a ∧ r = .ptr a
  centre : ∀ (l : Nat) (r : Ref E) (n : Int), i.clust[l]? = some r → i.cards[l]? = some n →
    1 ≤ n ∧ (n = 1 → ∃ a, P a ∧ r = .ptr a) ∧ (n ≠ 1 → r.IsOwn)

variable [Zero F] [LT F] [DecidableLT F] [One F] [Neg F] [BEq F] [Div F]

theorem Shared.updateMax {P : Nat → Prop} {i : StreamImpl (Ref E) F R} (h : Shared P i) (d : F) : Shared P (i.updateMaxDistance d) := by
  unfold StreamImpl.updateMaxDistance
  split
  · exact ⟨h.len, h.queue, h.centre⟩
  · exact h

theorem Shared.addOutlier {P : Nat → Prop} {i : StreamImpl (Ref E) F R} (h : Shared P i) (a : Nat) (ha : P a) : Shared P (i.addOutlier (.ptr a)) := by
  refine ⟨by simp [StreamImpl.addOutlier, h.len], h.queue, ?_⟩
  intro l r n hr hn
  simp only [StreamImpl.addOutlier] at hr hn
  rcases Nat.lt_or_ge l i.clust.length with hl | hl
  · rw [List.getElem?_append_left hl] at hr
    rw [List.getElem?_append_left (by rw [← h.len]; exact hl)] at hn
    exact h.centre l r n hr hn
  · rw [List.getElem?_append_right hl] at hr
    rw [List.getElem?_append_right (by rw [← h.len]; exact hl)] at hn
    have hl0 : l - i.clust.length = 0 := by
      by_contra h'
      rw [List.getElem?_eq_none (by simp; omega)] at hr
      cases hr
    rw [hl0] at hr
    rw [← h.len, hl0] at hn
    cases hr; cases hn
    exact ⟨le_rfl, fun _ => ⟨a, ha, rfl⟩, fun h' => absurd rfl h'⟩

theorem Shared.addCenter {P : Nat → Prop} {i : StreamImpl (Ref E) F R} (h : Shared P i) (a : Nat) (ha : P a) (d : F) :
    Shared P (i.addCenter (.ptr a) d) := (h.addOutlier a ha).updateMax d

theorem Shared.updateCenter {P : Nat → Prop} {i j : StreamImpl (Ref E) F R} (h : Shared P i) (space : Space E F) (mem : Nat → E)
    (label : Int) (e : Ref E) (d : F) (hj : i.updateCenter label e d (memSpace space mem) = some j) : Shared P j := by
  unfold StreamImpl.updateCenter at hj
  cases h1 : idx? i.clust label with
  | none => rw [h1] at hj; cases hj
  | some center =>
    cases h2 : idx? i.cards label with
    | none => rw [h1, h2] at hj; cases hj
    | some card =>
      rw [h1, h2] at hj
      cases hj
      have g1 : i.clust[label.toNat]? = some center := by
        unfold idx? at h1; split at h1
        · cases h1
        · exact h1
      have g2 : i.cards[label.toNat]? = some card := by
        unfold idx? at h2; split at h2
        · cases h2
        · exact h2
      have hc := h.centre _ _ _ g1 g2
      refine Shared.updateMax (i := { i with
        clust := i.clust.set label.toNat ((memSpace space mem).combine center card e 1)
        cards := i.cards.set label.toNat (card + 1) }) ⟨by simp [h.len], h.queue, ?_⟩ d
      intro l r n hr hn
      simp only [List.getElem?_set] at hr hn
      by_cases hl : label.toNat = l
      · rw [if_pos hl] at hr hn
        split at hr
        · split at hn
          · cases hr; cases hn
            exact ⟨by omega, fun h' => by omega, fun _ => ⟨_, rfl⟩⟩
          · cases hn
        · cases hr
      · rw [if_neg hl] at hr hn
        exact h.centre l r n hr hn

theorem Shared.process {P : Nat → Prop} {i j : StreamImpl (Ref E) F R} (h : Shared P i) (space : Space E F) (mem : Nat → E) (t : F)
    (a : Nat) (ha : P a) (hj : i.process (memSpace space mem) t (.ptr a) = some j) : Shared P j := by
  unfold StreamImpl.process at hj
  cases hA : assign (memSpace space mem) i.clust (.ptr a) with
  | none => rw [hA] at hj; cases hj
  | some r =>
    obtain ⟨_, label, d⟩ := r
    rw [hA] at hj
    simp only at hj
    have hg : Shared P (i.getRelativeDistance d).1 := by
      unfold StreamImpl.getRelativeDistance
      simp only
      split
      · exact ⟨h.len, h.queue, h.centre⟩
      · exact h
    generalize (i.getRelativeDistance d).1 = g at hg hj
    generalize (i.getRelativeDistance d).2 = rel at hj
    have key : ∀ o, (if g.conf.outAfter ≤ g.count ∧ g.conf.outRatio < rel then some (g.addOutlier (.ptr a))
        else if t < rel then some (g.addCenter (.ptr a) d)
        else g.updateCenter label (.ptr a) d (memSpace space mem)) = some o → Shared P o := by
      intro o
      split
      · intro ho; cases ho; exact hg.addOutlier a ha
      · split
        · intro ho; cases ho; exact hg.addCenter a ha d
        · exact hg.updateCenter space mem label _ d
    revert hj
    cases hr : (if g.conf.outAfter ≤ g.count ∧ g.conf.outRatio < rel then some (g.addOutlier (.ptr a))
        else if t < rel then some (g.addCenter (.ptr a) d)
        else g.updateCenter label (.ptr a) d (memSpace space mem)) with
    | none => intro hj; cases hj
    | some o =>
      intro hj
      cases hj
      have := key o hr
      exact ⟨this.len, this.queue, this.centre⟩

theorem Shared.init {P : Nat → Prop} {i : StreamImpl (Ref E) F R} (h : Shared P i) : Shared P i.init.1 := by
  unfold StreamImpl.init
  cases hc : i.c with
  | nil => exact h
  | cons e q =>
    obtain ⟨a, ha, rfl⟩ := h.queue e (by simp [hc])
    exact Shared.addCenter (i := { i with c := q }) ⟨h.len, fun r hr => h.queue r (by simp [hc, hr]), h.centre⟩ a ha 0

theorem Shared.iterate {P : Nat → Prop} {i : StreamImpl (Ref E) F R} (h : Shared P i) (space : Space E F)
    (mem : Nat → E) (t : F) {r} (hr : i.iterate (memSpace space mem) t = some r) : Shared P r.1 := by
  unfold StreamImpl.iterate at hr
  cases hc : i.c with
  | nil => rw [hc] at hr; cases hr; exact h
  | cons e q =>
    rw [hc] at hr
    obtain ⟨a, ha, rfl⟩ := h.queue e (by simp [hc])
    simp only at hr
    cases hp : StreamImpl.process { i with c := q } (memSpace space mem) t (.ptr a) with
    | none => rw [hp] at hr; cases hr
    | some j =>
      rw [hp] at hr
      cases hr
      exact Shared.process (i := { i with c := q })
        ⟨h.len, fun r hr => h.queue r (by simp [hc, hr]), h.centre⟩ space mem t a ha hp

theorem Shared.step {P : Nat → Prop} (space : Space E F) {st st' : (Nat → E) × StreamImpl (Ref E) F R}
    (op : ShareOp E F) (hop : ∀ a, op = .push a → P a) (h : Shared P st.2)
    (hr : shareStep space st op = some st') : Shared P st'.2 := by
  cases op with
  | push a =>
    cases hr
    show Shared P (st.2.push (.ptr a)).1
    unfold StreamImpl.push
    split
    · refine ⟨h.len, ?_, h.centre⟩
      intro r hr
      rcases List.mem_append.1 hr with hr | hr
      · exact h.queue r hr
      · exact ⟨a, hop a rfl, List.mem_singleton.1 hr⟩
    · exact h
  | init => cases hr; exact h.init
  | iterate t =>
    simp only [shareStep] at hr
    cases hi : st.2.iterate (memSpace space st.1) t with
    | none => rw [hi] at hr; cases hr
    | some r =>
      rw [hi] at hr
      cases hr
      exact h.iterate space st.1 t hi
  | write i v => cases hr; exact h

theorem Shared.run {P : Nat → Prop} (space : Space E F) : ∀ (ops : List (ShareOp E F))
    (st st' : (Nat → E) × StreamImpl (Ref E) F R), (∀ a, .push a ∈ ops → P a) → Shared P st.2 →
    shareRun space st ops = some st' → Shared P st'.2
  | [], st, st', _, h, hr => by cases hr; exact h
  | op :: ops, st, st', hops, h, hr => by
    simp only [shareRun] at hr
    cases hs : shareStep space st op with
    | none => rw [hs] at hr; cases hr
    | some s1 =>
      rw [hs] at hr
      exact Shared.run space ops s1 st' (fun a ha => hops a (List.mem_cons_of_mem _ ha))
        (h.step space op (fun a ha => hops a (by simp [ha])) hs) hr

/-- **C142 (streaming).** After any sequence of calls and of writes by the caller, each centre has a
cardinality; a centre of cardinality 1 is the very vector which the caller gave, at the construction or in
a `Push`; a centre of a greater cardinality is a vector made by the library. -/
theorem C142_stream (space : Space E F) (conf : StreamingConf F R) (addrs : List Nat)
    (i : StreamImpl (Ref E) F R) (hi : StreamImpl.new conf (addrs.map .ptr) = some i) (mem : Nat → E)
    (ops : List (ShareOp E F)) (mem' : Nat → E) (j : StreamImpl (Ref E) F R)
    (hr : shareRun space (mem, i) ops = some (mem', j)) :
    j.clust.length = j.cards.length ∧
    ∀ (l : Nat) (r : Ref E) (n : Int), j.clust[l]? = some r → j.cards[l]? = some n →
      1 ≤ n ∧ (n = 1 → ∃ a, (a ∈ addrs ∨ .push a ∈ ops) ∧ r = .ptr a) ∧ (1 < n → ∃ v, r = .own v) := by
  have h0 : Shared (fun a => a ∈ addrs ∨ .push a ∈ ops) i := by
    unfold StreamImpl.new at hi
    split at hi
    · cases hi
    · cases hi
      refine ⟨rfl, ?_, ?_⟩
      · intro r hr
        obtain ⟨a, ha, rfl⟩ := List.mem_map.1 hr
        exact ⟨a, .inl ha, rfl⟩
      · intro l r n h; simp at h
  have := Shared.run space ops (mem, i) (mem', j) (fun a ha => .inr ha) h0 hr
  refine ⟨this.len, fun l r n hl hn => ?_⟩
  obtain ⟨h1, h2, h3⟩ := this.centre l r n hl hn
  exact ⟨h1, h2, fun h => h3 (by omega)⟩

/-- **C142 (streaming, a write).** When the caller writes `v` in their vector `a`, the centres of a
cardinality greater than 1 do not change; a centre of cardinality 1 becomes `v` if the vector `a` is the
one it was opened with, and does not change otherwise. -/
theorem C142_stream_write (space : Space E F) (conf : StreamingConf F R) (addrs : List Nat)
    (i : StreamImpl (Ref E) F R) (hi : StreamImpl.new conf (addrs.map .ptr) = some i) (mem : Nat → E)
    (ops : List (ShareOp E F)) (mem' : Nat → E) (j : StreamImpl (Ref E) F R)
    (hr : shareRun space (mem, i) ops = some (mem', j)) (a : Nat) (v : E) (l : Nat) (n : Int)
    (hn : j.cards[l]? = some n) :
    (1 < n → (j.see (writeMem mem' a v)).clust[l]? = (j.see mem').clust[l]?) ∧
    (n = 1 → ∃ b, (b ∈ addrs ∨ .push b ∈ ops) ∧ (j.see mem').clust[l]? = some (mem' b) ∧
      (j.see (writeMem mem' a v)).clust[l]? = some (if b = a then v else mem' b)) := by
  obtain ⟨hlen, h⟩ := C142_stream space conf addrs i hi mem ops mem' j hr
  have hl : l < j.clust.length := by
    rw [hlen]
    exact (List.getElem?_eq_some_iff.1 hn).1
  obtain ⟨_, h2, h3⟩ := h l j.clust[l] n (by simp) hn
  constructor
  · intro h1
    obtain ⟨w, hw⟩ := h3 h1
    simp [StreamImpl.see, List.getElem?_eq_getElem hl, hw, Ref.see]
  · intro h1
    obtain ⟨b, hb, hw⟩ := h2 h1
    refine ⟨b, hb, ?_, ?_⟩
    · simp [StreamImpl.see, List.getElem?_eq_getElem hl, hw, Ref.see]
    · simp [StreamImpl.see, List.getElem?_eq_getElem hl, hw, Ref.see, writeMem]

/-! ### Between two writes, the run is the ordinary one -/

theorem see_updateMax (mem : Nat → E) (i : StreamImpl (Ref E) F R) (d : F) :
    (i.updateMaxDistance d).see mem = (i.see mem).updateMaxDistance d := by
  simp only [StreamImpl.updateMaxDistance, show (i.see mem).maxDistance = i.maxDistance from rfl]
  split <;> rfl

theorem see_addOutlier (mem : Nat → E) (i : StreamImpl (Ref E) F R) (e : Ref E) :
    (i.addOutlier e).see mem = (i.see mem).addOutlier (e.see mem) := by
  simp [StreamImpl.addOutlier, StreamImpl.see]

theorem see_addCenter (mem : Nat → E) (i : StreamImpl (Ref E) F R) (e : Ref E) (d : F) :
    (i.addCenter e d).see mem = (i.see mem).addCenter (e.see mem) d := by
  have := see_addOutlier mem i e
  unfold StreamImpl.addCenter
  rw [see_updateMax]
  exact congrArg (fun x => StreamImpl.updateMaxDistance x d) this

theorem see_idx (mem : Nat → E) (l : List (Ref E)) (n : Int) :
    idx? (l.map (Ref.see mem)) n = (idx? l n).map (Ref.see mem) := by
  unfold idx?
  split <;> simp

theorem see_updateCenter (space : Space E F) (mem : Nat → E) (i : StreamImpl (Ref E) F R) (label : Int) (e : Ref E)
    (d : F) : (i.see mem).updateCenter label (e.see mem) d space =
      (i.updateCenter label e d (memSpace space mem)).map (StreamImpl.see mem) := by
  unfold StreamImpl.updateCenter
  rw [show (i.see mem).clust = i.clust.map (Ref.see mem) from rfl, show (i.see mem).cards = i.cards from rfl, see_idx]
  cases idx? i.clust label with
  | none => rfl
  | some center =>
    cases idx? i.cards label with
    | none => rfl
    | some card =>
      simp only [Option.map_some, see_updateMax]
      congr 2
      simp [StreamImpl.see, List.map_set, memSpace, Ref.see]

theorem see_assign (space : Space E F) (mem : Nat → E) (c : List (Ref E)) (e : Ref E) :
    assign space (c.map (Ref.see mem)) (e.see mem) =
      (assign (memSpace space mem) c e).map fun r => (r.1.map (Ref.see mem), r.2.1, r.2.2) := by
  unfold assign
  rw [mem_nearest]
  generalize nearest (memSpace space mem) c e = p
  obtain ⟨l, d⟩ := p
  simp only [see_idx]
  by_cases hl : l ≥ 0
  · rw [if_pos hl, if_pos hl]
    cases idx? c l <;> rfl
  · rw [if_neg hl, if_neg hl]
    rfl

theorem see_process (space : Space E F) (mem : Nat → E) (i : StreamImpl (Ref E) F R) (t : F) (e : Ref E) :
    (i.see mem).process space t (e.see mem) =
      (i.process (memSpace space mem) t e).map (StreamImpl.see mem) := by
  unfold StreamImpl.process
  rw [show (i.see mem).clust = i.clust.map (Ref.see mem) from rfl, see_assign]
  cases assign (memSpace space mem) i.clust e with
  | none => rfl
  | some r =>
    obtain ⟨x, label, d⟩ := r
    have hrel : (i.see mem).getRelativeDistance d =
        ((i.getRelativeDistance d).1.see mem, (i.getRelativeDistance d).2) := by
      simp only [StreamImpl.getRelativeDistance, show (i.see mem).maxDistance = i.maxDistance from rfl]
      split <;> rfl
    simp only [Option.map_some, hrel]
    generalize (i.getRelativeDistance d).1 = g
    generalize (i.getRelativeDistance d).2 = rel
    rw [show (g.see mem).conf = g.conf from rfl, show (g.see mem).count = g.count from rfl]
    have hr : (if g.conf.outAfter ≤ g.count ∧ g.conf.outRatio < rel then some ((g.see mem).addOutlier (e.see mem))
        else if t < rel then some ((g.see mem).addCenter (e.see mem) d)
        else (g.see mem).updateCenter label (e.see mem) d space) =
        (if g.conf.outAfter ≤ g.count ∧ g.conf.outRatio < rel then some (g.addOutlier e)
        else if t < rel then some (g.addCenter e d)
        else g.updateCenter label e d (memSpace space mem)).map (StreamImpl.see mem) := by
      split
      · rw [Option.map_some, see_addOutlier]
      · split
        · rw [Option.map_some, see_addCenter]
        · exact see_updateCenter space mem g label e d
    rw [hr]
    generalize (if g.conf.outAfter ≤ g.count ∧ g.conf.outRatio < rel then some (g.addOutlier e)
        else if t < rel then some (g.addCenter e d)
        else g.updateCenter label e d (memSpace space mem)) = o
    cases o <;> rfl

/-- The calls of a client who does not write, on the vectors. -/
def ShareOp.value (mem : Nat → E) : ShareOp E F → Option (StreamOp E F)
  | .push i => some (.push (mem i))
  | .init => some .init
  | .iterate t => some (.iterate t)
  | .write _ _ => none

/-- **C142 (what streaming computes).** Each call does to the vectors seen what it does in the model without
sharing, for the vectors as they are at that moment. -/
theorem C142_see_stream (space : Space E F) (mem : Nat → E) (i : StreamImpl (Ref E) F R) (op : ShareOp E F)
    (vop : StreamOp E F) (hv : op.value mem = some vop) :
    ((i.see mem).step space vop).map Prod.fst =
      (shareStep space (mem, i) op).map fun st => st.2.see mem := by
  cases op with
  | push a =>
    cases hv
    simp only [StreamImpl.step, shareStep, Option.map_some, StreamImpl.push]
    rw [show (i.see mem).c = i.c.map (Ref.see mem) from rfl, show (i.see mem).conf = i.conf from rfl, List.length_map]
    split
    · simp [StreamImpl.see, Ref.see]
    · rfl
  | init =>
    cases hv
    simp only [StreamImpl.step, shareStep, Option.map_some, StreamImpl.init]
    rw [show (i.see mem).c = i.c.map (Ref.see mem) from rfl]
    cases hc : i.c with
    | nil => rfl
    | cons e q =>
      simp only [List.map_cons, see_addCenter]
      rfl
  | iterate t =>
    cases hv
    simp only [StreamImpl.step, shareStep, StreamImpl.iterate]
    rw [show (i.see mem).c = i.c.map (Ref.see mem) from rfl]
    cases hc : i.c with
    | nil => rfl
    | cons e q =>
      have := see_process space mem { i with c := q } t e
      simp only [List.map_cons]
      rw [show ({ i.see mem with c := q.map (Ref.see mem) } : StreamImpl E F R) =
        StreamImpl.see mem { i with c := q } from rfl, this]
      cases StreamImpl.process { i with c := q } (memSpace space mem) t e <;> rfl
  | write _ _ => cases hv

end

/-! ### Examples, and what is refuted -/

namespace ShareExample

/-- The vectors of the caller at the beginning. -/
def mem : Nat → Int := fun i => if i = 0 then 10 else if i = 1 then 40 else 0

/-- The same vectors, of rational numbers. -/
def memQ : Nat → ℚ := fun i => if i = 0 then 10 else if i = 1 then 40 else 0

end ShareExample

open ShareExample in
/-- **C142 (a reused vector, refuted).** A client pushes 10, initialises, writes 20 in the same vector, pushes it
again, and iterates with a great threshold: the only centre is 20, of cardinality 2, the mean of 10 and 20
being 15. With another vector for 20, it is 15. -/
theorem C142_reused :
    ((StreamImpl.new (E := Ref Int) exStreamConf []).bind fun i =>
      (shareRun exSpace (mem, i) [.push 0, .init, .write 0 20, .push 0, .iterate 5]).map
        fun st => (st.2.clust, st.2.cards)) = some ([.own 20], [2]) ∧
    ((StreamImpl.new (E := Ref Int) exStreamConf []).bind fun i =>
      (shareRun exSpace (mem, i) [.push 0, .init, .write 1 20, .push 1, .iterate 5]).map
        fun st => (st.2.clust, st.2.cards)) = some ([.own 15], [2]) := by
  constructor <;> decide

open ShareExample in
/-- **C142 (the centroids of k-means++, refuted).** The centroids which `PPInitializer` returns change when the
caller writes in their datum; after an iteration they do not. -/
theorem C142_pp_shared :
    ppInitializer (F := ℚ) 2 [.ptr 0, .ptr 1] (memSpace exQSpace memQ) 0 [1 / 2] = some (.ok [.ptr 0, .own 40]) ∧
    ([.ptr 0, .own 40] : List (Ref ℚ)).map (Ref.see (writeMem memQ 0 99)) = [99, 40] ∧
    memRun .seq exQSpace [(memQ, [.ptr 0, .ptr 1])] [.ptr 0, .own 40] = some [.own 10, .own 40] := by
  refine ⟨?_, ?_, ?_⟩ <;> decide +kernel

/-- The hypotheses of `C142_kmeans` hold in the example. -/
example : (-1 : ℚ) < 0 ∧ (∀ a b, 0 ≤ exQSpace.dist a b) ∧ (∀ a, exQSpace.dist a a = 0) ∧
    ∀ x : Ref ℚ, ([.ptr 0, .ptr 1] : List (Ref ℚ))[0]? = some x → x ∈ ([.ptr 0, .ptr 1] : List (Ref ℚ)) := by
  refine ⟨by norm_num, ?_, ?_, ?_⟩
  · intro a b
    show (0 : ℚ) ≤ if a < b then b - a else a - b
    split <;> linarith
  · intro a
    show (if a < a then a - a else a - a) = 0
    simp
  · intro x hx
    cases hx
    simp

end Distclus
