import Verif.Model.KMeans
import Verif.Proof.ParDba
import Verif.Proof.Loss
import Verif.Proof.Euclid
/-! # Lemmas on k-means iterations -/

set_option linter.unusedSectionVars false

namespace Distclus
open Spec

section
variable {E F : Type}

theorem allSome_map_some {α : Type} (l : List α) : allSome (l.map some) = some l := by
  induction l with
  | nil => rfl
  | cons a l ih => simp [allSome, ih]

theorem seqBuildResult_spec : ∀ (c : List E) (r : List (Option E)), r.length = c.length →
    ∃ out : List E, seqBuildResult c r = some (out.map some) ∧ out.length = c.length ∧
      ∀ (l : Nat) (x : E) (o : Option E), c[l]? = some x → r[l]? = some o →
        out[l]? = some (o.getD x) := by
  intro c
  induction c with
  | nil =>
    intro r h
    have : r = [] := List.length_eq_zero_iff.1 (by simpa using h)
    subst this
    exact ⟨[], rfl, rfl, by simp⟩
  | cons a c ih =>
    intro r h
    cases r with
    | nil => simp at h
    | cons o r =>
      obtain ⟨out, h1, h2, h3⟩ := ih r (by simpa using h)
      refine ⟨o.getD a :: out, ?_, by simp [h2], ?_⟩
      · cases o <;> simp [seqBuildResult, h1]
      · intro l x o' hx ho
        cases l with
        | zero => simp at hx ho; subst hx ho; simp
        | succ l => simpa using h3 l x o' (by simpa using hx) (by simpa using ho)

variable [Zero F] [One F] [Neg F] [LT F] [DecidableLT F]

/-- The degree of the parallel strategy is positive. -/
def KStrategy.Valid : KStrategy → Prop
  | .seq => True
  | .par d => 1 ≤ d

theorem members_labelled (space : Space E F) (c elemts : List E) (l : Nat) :
    members (labelled space c elemts) l =
      elemts.filter fun e => (nearest space c e).1 == (l : Int) := by
  unfold members labelled
  rw [List.filter_map, List.map_map]
  exact List.map_id _

theorem iterate_spec (hneg : (-1 : F) < 0) {space : Space E F} {P : List E → E → Prop}
    (hP : CombineOk space P) (hrun : ∀ ms m, running space ms = some m → P ms m)
    (s : KStrategy) (hs : s.Valid) (c data : List E) (hc : c ≠ []) :
    ∃ out : List E, s.iterate space c data = some (out.map some) ∧ out.length = c.length ∧
      ∀ (l : Nat) (x : E), c[l]? = some x →
        let ms := data.filter fun e => (nearest space c e).1 == (l : Int)
        ∃ m, out[l]? = some m ∧ (ms = [] → m = x) ∧ (ms ≠ [] → P ms m) := by
  cases s with
  | seq =>
    obtain ⟨⟨cents, cards⟩, h, hst⟩ := reduceDBA_state hneg space c data hc
    obtain ⟨out, h1, h2, h3⟩ := seqBuildResult_spec c cents hst.len1
    refine ⟨out, by simp [KStrategy.iterate, h, h1], h2, ?_⟩
    intro l x hx
    have hlt := (List.getElem?_eq_some_iff.1 hx).1
    have hce := hst.cent l hlt
    rw [members_labelled] at hce
    refine ⟨_, h3 l x _ hx hce, ?_, ?_⟩
    · intro h0; rw [h0]; rfl
    · intro h0
      obtain ⟨m, hm⟩ := running_isSome space h0
      rw [hm]; exact hrun _ _ hm
  | par d =>
    obtain ⟨st, hrep, hpar⟩ := parReduce_rep hneg hP hrun c data hc d hs
    obtain ⟨r, hr, hl, hp⟩ := parBuildResult_rep c hrep
    have hex : ∃ out : List E, r = out.map some := by
      have : ∀ o ∈ r, ∃ x, o = some x := by
        intro o ho
        obtain ⟨l, hl', hlo⟩ := List.mem_iff_getElem.1 ho
        obtain ⟨o', ho', _⟩ := hp l (c[l]'(by omega)) (by simp)
        rw [List.getElem?_eq_getElem hl', hlo] at ho'
        exact ⟨o', by simpa using ho'⟩
      clear hr hl hp hpar
      induction r with
      | nil => exact ⟨[], rfl⟩
      | cons o r ih =>
        obtain ⟨x, rfl⟩ := this o (by simp)
        obtain ⟨out, rfl⟩ := ih fun o ho => this o (by simp [ho])
        exact ⟨x :: out, rfl⟩
    obtain ⟨out, rfl⟩ := hex
    refine ⟨out, by simp [KStrategy.iterate, hpar, hr], by simpa using hl, ?_⟩
    intro l x hx
    obtain ⟨o, ho, h1, h2⟩ := hp l x hx
    rw [members_labelled] at h1 h2
    exact ⟨o, by simpa [List.getElem?_map] using ho, h1, h2⟩

end

/-! ### Sums of squares -/

theorem sum_by_label (k : Nat) {E : Type} (lab : E → Int) (f : Nat → E → ℝ) :
    ∀ data : List E, (∀ e ∈ data, 0 ≤ lab e ∧ lab e < k) →
    (data.map fun e => f (lab e).toNat e).sum =
      ∑ l ∈ Finset.range k, ((data.filter fun e => lab e == (l : Int)).map (f l)).sum := by
  intro data
  induction data with
  | nil => intro _; simp
  | cons e es ih =>
    intro h
    obtain ⟨h0, h1⟩ := h e (by simp)
    have hl : ((lab e).toNat : Int) = lab e := Int.toNat_of_nonneg h0
    have key : ∀ l : Nat, (((e :: es).filter fun e => lab e == (l : Int)).map (f l)).sum =
        (if l = (lab e).toNat then f l e else 0) +
          ((es.filter fun e => lab e == (l : Int)).map (f l)).sum := by
      intro l
      by_cases hle : l = (lab e).toNat
      · have : lab e == (l : Int) := by rw [hle]; simp [hl]
        rw [List.filter_cons, if_pos this, if_pos hle, List.map_cons, List.sum_cons]
      · have : ¬ (lab e == (l : Int)) := by
          simp only [beq_iff_eq]; intro hc; exact hle (by rw [hc]; simp)
        rw [List.filter_cons, if_neg this, if_neg hle, zero_add]
    rw [List.map_cons, List.sum_cons, ih fun e he => h e (by simp [he])]
    simp only [key]
    rw [Finset.sum_add_distrib]
    congr 1
    rw [Finset.sum_ite_eq' (Finset.range k) (lab e).toNat (fun l => f l e), if_pos]
    simp; omega

theorem list_sum_finset {E : Type} {n : Nat} (g : Fin n → E → ℝ) (l : List E) :
    (l.map fun e => ∑ i, g i e).sum = ∑ i, (l.map (g i)).sum := by
  induction l with
  | nil => simp
  | cons a l ih => simp [ih, Finset.sum_add_distrib]

theorem sum_sq_shift (m x : ℝ) (l : List ℝ) :
    (l.map fun e => (e - x) ^ 2).sum =
      (l.map fun e => (e - m) ^ 2).sum + 2 * (m - x) * (l.sum - l.length * m) +
        l.length * (m - x) ^ 2 := by
  induction l with
  | nil => simp
  | cons a l ih =>
    simp only [List.map_cons, List.sum_cons, List.length_cons, ih]
    push_cast
    ring

/-- The mean minimises the sum of squared distances. -/
theorem mean_minimises {n : Nat} (ms : List (Vec ℝ n)) (hne : ms ≠ []) (m x : Vec ℝ n)
    (hm : m.coords = mean (ms.map Vec.coords)) :
    (ms.map fun e => (euclidSpace ℝ n).dist e m ^ 2).sum ≤
      (ms.map fun e => (euclidSpace ℝ n).dist e x ^ 2).sum := by
  have hsq : ∀ e y : Vec ℝ n, (euclidSpace ℝ n).dist e y ^ 2 =
      ∑ i, (e.coords i - y.coords i) ^ 2 := by
    intro e y
    rw [euclid_dist_eq, Real.sq_sqrt (Finset.sum_nonneg fun i _ => sq_nonneg _)]
  simp only [hsq]
  rw [list_sum_finset (fun i (e : Vec ℝ n) => (e.coords i - m.coords i) ^ 2),
    list_sum_finset (fun i (e : Vec ℝ n) => (e.coords i - x.coords i) ^ 2)]
  apply Finset.sum_le_sum
  intro i _
  have h := sum_sq_shift (m.coords i) (x.coords i) (ms.map fun e => e.coords i)
  simp only [List.map_map, Function.comp_def, List.length_map] at h
  rw [h]
  have hpos : (0 : ℝ) < ms.length := by exact_mod_cast List.length_pos_iff.2 hne
  have hsum : (ms.map fun e => e.coords i).sum = ms.length * m.coords i := by
    have h1 : ∀ l : List (Vec ℝ n), (l.map Vec.coords).sum i = (l.map fun e => e.coords i).sum := by
      intro l
      induction l with
      | nil => simp
      | cons a l ih => simp [ih]
    rw [hm, mean, Pi.smul_apply, List.length_map, smul_eq_mul, h1]
    field_simp
  rw [hsum, sub_self, mul_zero, add_zero]
  have : 0 ≤ (ms.length : ℝ) * (m.coords i - x.coords i) ^ 2 :=
    mul_nonneg hpos.le (sq_nonneg _)
  linarith

theorem nearest_le {E : Type} (space : Space E ℝ) (h0 : ∀ a b, 0 ≤ space.dist a b) (c : List E)
    (e y : E) (hy : y ∈ c) : (nearest space c e).2 ≤ space.dist e y := by
  cases c with
  | nil => cases hy
  | cons c0 cs =>
    obtain ⟨k, x, hk, hx⟩ := nearest_spec (by norm_num : (-1 : ℝ) < 0) space c0 cs e (fun h => h)
      (fun z _ => not_lt.2 (h0 e z))
    rw [hk]
    exact not_lt.1 (hx.minimal y hy (fun h => h))

end Distclus
