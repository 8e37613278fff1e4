import Verif.Spec.DtwMetric
import Verif.Props.Dtw
import Mathlib.Algebra.Order.Monoid.Unbundled.Basic
import Mathlib.Algebra.Order.Monoid.Defs
import Mathlib.Algebra.BigOperators.Group.List.Basic
import Mathlib.Algebra.BigOperators.Group.Finset.Basic
import Mathlib.Algebra.BigOperators.Intervals
import Mathlib.Tactic.Abel
import Mathlib.Order.Interval.Finset.Nat
/-!
# Warping paths: costs, bounds, composition (for C134)
-/

namespace Distclus
open Spec

section
variable {F : Type} [AddCommMonoid F]

theorem pathCost_cellSum (d : Nat → Nat → F) : ∀ p : List (Nat × Nat), p ≠ [] →
    pathCost d p = some (cellSum d p) := by
  intro p
  induction p with
  | nil => intro h; exact absurd rfl h
  | cons x p ih =>
    intro _
    cases p with
    | nil => simp [pathCost, cellSum]
    | cons y p =>
      rw [pathCost, ih (by simp)]
      · simp only [cellSum, List.map_cons, List.sum_cons, Option.map_some, Option.some.injEq]
        abel
      · simp

theorem cellSum_cons (d : Nat → Nat → F) (x : Nat × Nat) (p : List (Nat × Nat)) :
    cellSum d (x :: p) = d x.1 x.2 + cellSum d p := by simp [cellSum]

theorem Spec.Warp.head_cell {ok : Nat → Nat → Prop} {i j : Nat} {p : List (Nat × Nat)}
    (h : Warp ok i j p) : p = (i, j) :: p.tail ∧ ok i j := by
  cases h <;> simp_all

/-- The path along the diagonal. -/
theorem diagonal_warp (W : Nat) (d : Nat → Nat → F) : ∀ n, ∃ p, Warp (Within W) n n p ∧
    cellSum d p = ∑ i ∈ Finset.range (n + 1), d i i := by
  intro n
  induction n with
  | zero => exact ⟨_, .start (by unfold Within; omega), by simp [cellSum]⟩
  | succ n ih =>
    obtain ⟨p, hp, hs⟩ := ih
    refine ⟨_, .diag hp (by unfold Within; omega), ?_⟩
    rw [cellSum_cons, hs, Finset.sum_range_succ _ (n + 1), add_comm]

variable [LinearOrder F] [IsOrderedAddMonoid F]

/-- Every row is visited. -/
theorem rows_le_cellSum {ok : Nat → Nat → Prop} {d : Nat → Nat → F} {b : Nat → F}
    (hb : ∀ i, 0 ≤ b i) (hle : ∀ i j, ok i j → b i ≤ d i j) {i j : Nat} {p : List (Nat × Nat)}
    (h : Warp ok i j p) : ∑ a ∈ Finset.range (i + 1), b a ≤ cellSum d p := by
  induction h with
  | start h0 => simpa [cellSum] using hle 0 0 h0
  | @right i j p _ ho ih =>
    rw [cellSum_cons]
    exact ih.trans (le_add_of_nonneg_left ((hb i).trans (hle _ _ ho)))
  | down _ ho ih =>
    rw [cellSum_cons, Finset.sum_range_succ, add_comm]
    exact add_le_add (hle _ _ ho) ih
  | diag _ ho ih =>
    rw [cellSum_cons, Finset.sum_range_succ, add_comm]
    exact add_le_add (hle _ _ ho) ih

/-- Every column is visited. -/
theorem cols_le_cellSum {ok : Nat → Nat → Prop} {d : Nat → Nat → F} {b : Nat → F}
    (hb : ∀ i, 0 ≤ b i) (hle : ∀ i j, ok i j → b j ≤ d i j) {i j : Nat} {p : List (Nat × Nat)}
    (h : Warp ok i j p) : ∑ a ∈ Finset.range (j + 1), b a ≤ cellSum d p := by
  induction h with
  | start h0 => simpa [cellSum] using hle 0 0 h0
  | @down i j p _ ho ih =>
    rw [cellSum_cons]
    exact ih.trans (le_add_of_nonneg_left ((hb j).trans (hle _ _ ho)))
  | right _ ho ih =>
    rw [cellSum_cons, Finset.sum_range_succ, add_comm]
    exact add_le_add (hle _ _ ho) ih
  | diag _ ho ih =>
    rw [cellSum_cons, Finset.sum_range_succ, add_comm]
    exact add_le_add (hle _ _ ho) ih

theorem cellSum_nonneg {d : Nat → Nat → F} (hd : ∀ i j, 0 ≤ d i j) (p : List (Nat × Nat)) :
    0 ≤ cellSum d p := by
  induction p with
  | nil => simp [cellSum]
  | cons x p ih => rw [cellSum_cons]; exact add_nonneg (hd _ _) ih

theorem cell_le_cellSum {d : Nat → Nat → F} (hd : ∀ i j, 0 ≤ d i j) : ∀ p : List (Nat × Nat),
    ∀ x ∈ p, d x.1 x.2 ≤ cellSum d p := by
  intro p
  induction p with
  | nil => simp
  | cons y p ih =>
    intro x hx
    rw [cellSum_cons]
    rcases List.mem_cons.1 hx with rfl | hx
    · exact le_add_of_nonneg_right (cellSum_nonneg hd p)
    · exact (ih x hx).trans (le_add_of_nonneg_left (hd _ _))

theorem cell_zero {d : Nat → Nat → F} (hd : ∀ i j, 0 ≤ d i j) : ∀ p : List (Nat × Nat),
    cellSum d p = 0 → ∀ x ∈ p, d x.1 x.2 = 0 := by
  intro p
  induction p with
  | nil => simp
  | cons y p ih =>
    intro h x hx
    rw [cellSum_cons, add_eq_zero_iff_of_nonneg (hd _ _) (cellSum_nonneg hd p)] at h
    rcases List.mem_cons.1 hx with rfl | hx
    · exact h.1
    · exact ih h.2 x hx

theorem inRow_pos {ok : Nat → Nat → Prop} {i j : Nat} {p : List (Nat × Nat)}
    (h : Warp ok i j p) : 1 ≤ inRow p i := by
  rw [h.head_cell.1]; simp [inRow]

theorem inCol_pos {ok : Nat → Nat → Prop} {i j : Nat} {p : List (Nat × Nat)}
    (h : Warp ok i j p) : 1 ≤ inCol p j := by
  rw [h.head_cell.1]; simp [inCol]

theorem inRow_le_cons (x : Nat × Nat) (p : List (Nat × Nat)) (i : Nat) :
    inRow p i ≤ inRow (x :: p) i := by
  unfold inRow; rw [List.countP_cons]; omega

theorem inCol_le_cons (x : Nat × Nat) (p : List (Nat × Nat)) (i : Nat) :
    inCol p i ≤ inCol (x :: p) i := by
  unfold inCol; rw [List.countP_cons]; omega

/-- The algebra of a step of `compose_warp` which moves along the first path only. -/
theorem compose_algebra {M nq M1 np : Nat} {a a' b S T R c : F} (ha : 0 ≤ a) (ha' : 0 ≤ a')
    (h1 : 1 ≤ nq) (hn : nq ≤ M) (hR : R ≤ M • S + nq • a' + M1 • T + np • b) (hc : c ≤ a + b) :
    c + R ≤ M • (a' + S) + nq • a + M1 • T + (np + 1) • b := by
  have e1 : a ≤ nq • a := by simpa [one_nsmul] using nsmul_le_nsmul_left ha h1
  have e2 : nq • a' ≤ M • a' := nsmul_le_nsmul_left ha' hn
  calc c + R ≤ (a + b) + (M • S + nq • a' + M1 • T + np • b) := add_le_add hc hR
    _ ≤ (nq • a + b) + (M • S + M • a' + M1 • T + np • b) := by gcongr
    _ = _ := by rw [nsmul_add, succ_nsmul]; abel

/-- Two paths with a common middle series give a path between the outer ones. A cell of the first
path is used at most as often as there are cells in the corresponding row of the second one, and
conversely. -/
theorem compose_warp {A B C : Nat → Nat → Prop} {d1 d2 d3 : Nat → Nat → F}
    (hC : ∀ i j k, A i j → B j k → C i k) (h1 : ∀ i j, 0 ≤ d1 i j) (h2 : ∀ i j, 0 ≤ d2 i j)
    (h3 : ∀ i j, 0 ≤ d3 i j) (htri : ∀ i j k, d3 i k ≤ d1 i j + d2 j k) (M1 M2 : Nat) :
    ∀ (n i j k : Nat) (p q : List (Nat × Nat)), p.length + q.length ≤ n → Warp A i j p →
      Warp B j k q → (∀ c, inCol p c ≤ M1) → (∀ r, inRow q r ≤ M2) →
      ∃ r, Warp C i k r ∧ cellSum d3 r ≤ M2 • cellSum d1 p.tail + inRow q j • d1 i j +
        M1 • cellSum d2 q.tail + inCol p j • d2 j k := by
  intro n
  induction n with
  | zero =>
    intro i j k p q hn hp
    rw [hp.head_cell.1] at hn; simp at hn
  | succ n ih =>
    intro i j k p q hn hp hq hm1 hm2
    have hA := hp.head_cell.2
    have hB := hq.head_cell.2
    -- a step of both paths to the preceding point of the middle series
    have both : ∀ i' j' k' p' q', j = j' + 1 → p = (i, j) :: p' → q = (j, k) :: q' →
        Warp A i' j' p' → Warp B j' k' q' →
        ∃ r, Warp C i' k' r ∧ d3 i k + cellSum d3 r ≤ M2 • cellSum d1 p.tail + inRow q j • d1 i j +
          M1 • cellSum d2 q.tail + inCol p j • d2 j k := by
      intro i' j' k' p' q' hj ep eq hp' hq'
      obtain ⟨r, hr, hc⟩ := ih i' j' k' p' q' (by rw [ep, eq] at hn; simp at hn; omega) hp' hq'
        (fun c => (inCol_le_cons (i, j) p' c).trans (by rw [← ep]; exact hm1 c))
        (fun c => (inRow_le_cons (j, k) q' c).trans (by rw [← eq]; exact hm2 c))
      refine ⟨r, hr, ?_⟩
      have c1 : inRow q' j' ≤ M2 := (inRow_le_cons (j, k) q' j').trans (by rw [← eq]; exact hm2 j')
      have c2 : inCol p' j' ≤ M1 := (inCol_le_cons (i, j) p' j').trans (by rw [← ep]; exact hm1 j')
      have e1 : d1 i j ≤ inRow q j • d1 i j := by
        simpa [one_nsmul] using nsmul_le_nsmul_left (h1 i j) (inRow_pos hq)
      have e2 : d2 j k ≤ inCol p j • d2 j k := by
        simpa [one_nsmul] using nsmul_le_nsmul_left (h2 j k) (inCol_pos hp)
      have s1 : cellSum d1 p.tail = d1 i' j' + cellSum d1 p'.tail := by
        rw [ep, List.tail_cons]
        conv_lhs => rw [hp'.head_cell.1]
        rw [cellSum_cons]
      have s2 : cellSum d2 q.tail = d2 j' k' + cellSum d2 q'.tail := by
        rw [eq, List.tail_cons]
        conv_lhs => rw [hq'.head_cell.1]
        rw [cellSum_cons]
      have f1 := nsmul_le_nsmul_left (h1 i' j') c1
      have f2 := nsmul_le_nsmul_left (h2 j' k') c2
      rw [s1, s2, nsmul_add, nsmul_add]
      calc d3 i k + cellSum d3 r
          ≤ (d1 i j + d2 j k) + (M2 • cellSum d1 p'.tail + inRow q' j' • d1 i' j' +
            M1 • cellSum d2 q'.tail + inCol p' j' • d2 j' k') := add_le_add (htri i j k) hc
        _ ≤ (inRow q j • d1 i j + inCol p j • d2 j k) + (M2 • cellSum d1 p'.tail + M2 • d1 i' j' +
            M1 • cellSum d2 q'.tail + M1 • d2 j' k') := by gcongr
        _ = _ := by abel
    -- a step of the second path to the preceding point of the last series
    have second : ∀ k' q', q = (j, k) :: q' → Warp B j k' q' →
        ∃ r, Warp C i k' r ∧ d3 i k + cellSum d3 r ≤ M2 • cellSum d1 p.tail + inRow q j • d1 i j +
          M1 • cellSum d2 q.tail + inCol p j • d2 j k := by
      intro k' q' eq hq'
      obtain ⟨r, hr, hc⟩ := ih i j k' p q' (by rw [eq] at hn; simp at hn; omega) hp hq' hm1
        (fun c => (inRow_le_cons (j, k) q' c).trans (by rw [← eq]; exact hm2 c))
      refine ⟨r, hr, ?_⟩
      have e : inRow q j = inRow q' j + 1 := by rw [eq]; simp [inRow]
      have s : cellSum d2 q.tail = d2 j k' + cellSum d2 q'.tail := by
        rw [eq, List.tail_cons]
        conv_lhs => rw [hq'.head_cell.1]
        rw [cellSum_cons]
      rw [e, s]
      have := compose_algebra (M := M1) (nq := inCol p j) (M1 := M2) (np := inRow q' j)
        (a := d2 j k) (a' := d2 j k') (b := d1 i j) (S := cellSum d2 q'.tail)
        (T := cellSum d1 p.tail) (R := cellSum d3 r) (c := d3 i k) (h2 _ _) (h2 _ _) (inCol_pos hp)
        (hm1 j) (hc.trans (le_of_eq (by abel))) ((htri i j k).trans (le_of_eq (add_comm _ _)))
      exact this.trans (le_of_eq (by abel))
    cases hp with
    | @down i' _ p' hp' ho =>
      obtain ⟨r, hr, hc⟩ := ih i' j k p' q (by simp at hn; omega) hp' hq
        (fun c => (inCol_le_cons (i' + 1, j) p' c).trans (hm1 c)) hm2
      refine ⟨_, .down hr (hC _ _ _ hA hB), ?_⟩
      have e : inCol ((i' + 1, j) :: p') j = inCol p' j + 1 := by simp [inCol]
      have s : cellSum d1 p' = d1 i' j + cellSum d1 p'.tail := by
        conv_lhs => rw [hp'.head_cell.1]
        rw [cellSum_cons]
      rw [e, List.tail_cons, s, cellSum_cons]
      exact compose_algebra (h1 _ _) (h1 _ _) (inRow_pos hq) (hm2 j) hc (htri _ _ _)
    | start h0 =>
      cases hq with
      | start h0' =>
        refine ⟨_, .start (hC 0 0 0 h0 h0'), ?_⟩
        simpa [cellSum, inRow, inCol, one_nsmul] using htri 0 0 0
      | @right _ k' q' hq' ho =>
        obtain ⟨r, hr, hc⟩ := second k' q' rfl hq'
        exact ⟨_, .right hr (hC _ _ _ hA hB), by rw [cellSum_cons]; exact hc⟩
    | @right _ j' p' hp' ho =>
      cases hq with
      | @right _ k' q' hq' ho' =>
        obtain ⟨r, hr, hc⟩ := second k' q' rfl hq'
        exact ⟨_, .right hr (hC _ _ _ hA hB), by rw [cellSum_cons]; exact hc⟩
      | @down _ _ q' hq' ho' =>
        obtain ⟨r, hr, hc⟩ := both i j' k p' q' rfl rfl rfl hp' hq'
        exact ⟨r, hr, (le_add_of_nonneg_left (h3 _ _)).trans hc⟩
      | @diag _ k' q' hq' ho' =>
        obtain ⟨r, hr, hc⟩ := both i j' k' p' q' rfl rfl rfl hp' hq'
        exact ⟨_, .right hr (hC _ _ _ hA hB), by rw [cellSum_cons]; exact hc⟩
    | @diag i' j' p' hp' ho =>
      cases hq with
      | @right _ k' q' hq' ho' =>
        obtain ⟨r, hr, hc⟩ := second k' q' rfl hq'
        exact ⟨_, .right hr (hC _ _ _ hA hB), by rw [cellSum_cons]; exact hc⟩
      | @down _ _ q' hq' ho' =>
        obtain ⟨r, hr, hc⟩ := both i' j' k p' q' rfl rfl rfl hp' hq'
        exact ⟨_, .down hr (hC _ _ _ hA hB), by rw [cellSum_cons]; exact hc⟩
      | @diag _ k' q' hq' ho' =>
        obtain ⟨r, hr, hc⟩ := both i' j' k' p' q' rfl rfl rfl hp' hq'
        exact ⟨_, .diag hr (hC _ _ _ hA hB), by rw [cellSum_cons]; exact hc⟩

end

/-! ### How many cells a row and a column may have -/

theorem Spec.Warp.lt_head {ok : Nat → Nat → Prop} {i j : Nat} {p : List (Nat × Nat)}
    (h : Warp ok i j p) : ∀ x ∈ p.tail, x.1 + x.2 < i + j ∧ x.1 ≤ i ∧ x.2 ≤ j := by
  induction h with
  | start _ => simp
  | right h _ ih =>
    intro x hx
    rw [List.tail_cons, h.head_cell.1] at hx
    rcases List.mem_cons.1 hx with rfl | hx
    · simp
    · have := ih x hx; omega
  | down h _ ih =>
    intro x hx
    rw [List.tail_cons, h.head_cell.1] at hx
    rcases List.mem_cons.1 hx with rfl | hx
    · simp
    · have := ih x hx; omega
  | diag h _ ih =>
    intro x hx
    rw [List.tail_cons, h.head_cell.1] at hx
    rcases List.mem_cons.1 hx with rfl | hx
    · simp; omega
    · have := ih x hx; omega

theorem Spec.Warp.origin_mem {ok : Nat → Nat → Prop} {i j : Nat} {p : List (Nat × Nat)}
    (h : Warp ok i j p) : (0, 0) ∈ p := by
  induction h with
  | start _ => simp
  | right _ _ ih => exact List.mem_cons_of_mem _ ih
  | down _ _ ih => exact List.mem_cons_of_mem _ ih
  | diag _ _ ih => exact List.mem_cons_of_mem _ ih

theorem Spec.Warp.nodup {ok : Nat → Nat → Prop} {i j : Nat} {p : List (Nat × Nat)}
    (h : Warp ok i j p) : p.Nodup := by
  have key : ∀ {i j : Nat} {p : List (Nat × Nat)}, Warp ok i j p → p.tail.Nodup → p.Nodup := by
    intro i j p h ht
    rw [h.head_cell.1, List.nodup_cons]
    exact ⟨fun hm => by have := h.lt_head _ hm; simp at this, ht⟩
  induction h with
  | start _ => simp
  | right h ho ih => exact key (.right h ho) ih
  | down h ho ih => exact key (.down h ho) ih
  | diag h ho ih => exact key (.diag h ho) ih

theorem Spec.Warp.all_ok {ok : Nat → Nat → Prop} {i j : Nat} {p : List (Nat × Nat)}
    (h : Warp ok i j p) : ∀ x ∈ p, ok x.1 x.2 := by
  induction h with
  | start h0 => simpa using h0
  | right _ ho ih => intro x hx; rcases List.mem_cons.1 hx with rfl | hx; exacts [ho, ih x hx]
  | down _ ho ih => intro x hx; rcases List.mem_cons.1 hx with rfl | hx; exacts [ho, ih x hx]
  | diag _ ho ih => intro x hx; rcases List.mem_cons.1 hx with rfl | hx; exacts [ho, ih x hx]

/-- A duplicate-free list of numbers of an interval is not longer than it. -/
theorem length_le_interval (l : List Nat) (hn : l.Nodup) (a b : Nat) (h : ∀ x ∈ l, a ≤ x ∧ x ≤ b) :
    l.length ≤ b + 1 - a := by
  have hsub : l.toFinset ⊆ Finset.Icc a b := by
    intro x hx
    rw [List.mem_toFinset] at hx
    exact Finset.mem_Icc.2 (h x hx)
  have := Finset.card_le_card hsub
  rwa [List.toFinset_card_of_nodup hn, Nat.card_Icc] at this

theorem inRow_bound {W i j : Nat} {p : List (Nat × Nat)} (h : Warp (Within W) i j p) (r : Nat) :
    inRow p r ≤ min (j + 1) (2 * W + 1) := by
  have hnd : ((p.filter fun x => x.1 = r).map Prod.snd).Nodup := by
    rw [List.nodup_map_iff_inj_on (h.nodup.filter _)]
    intro x hx y hy hxy
    simp only [List.mem_filter, decide_eq_true_eq] at hx hy
    exact Prod.ext (hx.2.trans hy.2.symm) hxy
  have hmem : ∀ x ∈ (p.filter fun x => x.1 = r).map Prod.snd, x ≤ j ∧ r ≤ x + W ∧ x ≤ r + W := by
    intro x hx
    simp only [List.mem_map, List.mem_filter, decide_eq_true_eq] at hx
    obtain ⟨y, ⟨hy, rfl⟩, rfl⟩ := hx
    have h1 := h.bounds y hy
    have h2 := h.all_ok y hy
    unfold Within at h2
    omega
  have e : inRow p r = ((p.filter fun x => x.1 = r).map Prod.snd).length := by
    rw [List.length_map, inRow, List.countP_eq_length_filter]
  rw [e]
  refine le_min ?_ ?_
  · have := length_le_interval _ hnd 0 j fun x hx => ⟨by omega, (hmem x hx).1⟩
    omega
  · have := length_le_interval _ hnd (r - W) (r + W) fun x hx => by have := hmem x hx; omega
    omega

theorem inCol_bound {W i j : Nat} {p : List (Nat × Nat)} (h : Warp (Within W) i j p) (c : Nat) :
    inCol p c ≤ min (i + 1) (2 * W + 1) := by
  have hs : Warp (Within W) j i (p.map Prod.swap) := h.swap fun a b hab => ⟨hab.2, hab.1⟩
  have := inRow_bound hs c
  have e : inRow (p.map Prod.swap) c = inCol p c := by
    simp [inRow, inCol, List.countP_map, Function.comp_def]
  rwa [e] at this

/-! ### Series that differ by repetitions only -/

section
variable {P : Type} [DecidableEq P]

theorem collapse_snoc (l : List P) (a : P) : collapse (l ++ [a]) = appendNew (collapse l) a := by
  simp [collapse, List.foldl_append]

theorem collapse_last (l : List P) (a : P) : (collapse (l ++ [a])).getLast? = some a := by
  rw [collapse_snoc, appendNew]
  split
  · assumption
  · simp

theorem collapse_ne_nil {l : List P} (h : l ≠ []) : collapse l ≠ [] := by
  rw [← List.dropLast_append_getLast h]
  intro e
  have := collapse_last l.dropLast (l.getLast h)
  rw [e] at this; simp at this

omit [DecidableEq P] in
theorem take_snoc {l : List P} {n : Nat} {a : P} (h : l[n]? = some a) :
    l.take (n + 1) = l.take n ++ [a] := by
  rw [List.take_add_one, h]; rfl

theorem collapse_repeat {l : List P} {n : Nat} {a : P} (h : l[n]? = some a)
    (h' : l[n + 1]? = some a) : collapse (l.take (n + 2)) = collapse (l.take (n + 1)) := by
  rw [take_snoc h', collapse_snoc, appendNew, if_pos]
  rw [take_snoc h]; exact collapse_last _ _

theorem collapse_change {l : List P} {n : Nat} {a b : P} (h : l[n]? = some a)
    (h' : l[n + 1]? = some b) (hne : a ≠ b) :
    collapse (l.take (n + 2)) = collapse (l.take (n + 1)) ++ [b] := by
  rw [take_snoc h', collapse_snoc, appendNew, if_neg]
  rw [take_snoc h, collapse_last]; simpa using hne

/-- A path all cells of which pair equal points. -/
theorem collapse_of_warp {ok : Nat → Nat → Prop} {x y : List P} {i j : Nat} {p : List (Nat × Nat)}
    (h : Warp ok i j p) (hi : i < x.length) (hj : j < y.length)
    (heq : ∀ c ∈ p, x[c.1]? = y[c.2]?) : collapse (x.take (i + 1)) = collapse (y.take (j + 1)) := by
  induction h with
  | start _ =>
    have e := heq (0, 0) (by simp)
    obtain ⟨a, ha⟩ : ∃ a, x[0]? = some a := ⟨_, List.getElem?_eq_getElem hi⟩
    have hb : y[0]? = some a := by rw [← ha]; exact e.symm
    rw [take_snoc ha, take_snoc hb]; simp
  | @right i j p hw _ ih =>
    have e1 := heq (i, j + 1) (by simp)
    have e2 := heq (i, j) (by rw [hw.head_cell.1]; simp)
    obtain ⟨a, ha⟩ : ∃ a, y[j]? = some a := ⟨_, List.getElem?_eq_getElem (by omega)⟩
    rw [collapse_repeat ha (by rw [← ha, ← e2, ← e1])]
    exact ih hi (by omega) fun c hc => heq c (List.mem_cons_of_mem _ hc)
  | @down i j p hw _ ih =>
    have e1 := heq (i + 1, j) (by simp)
    have e2 := heq (i, j) (by rw [hw.head_cell.1]; simp)
    obtain ⟨a, ha⟩ : ∃ a, x[i]? = some a := ⟨_, List.getElem?_eq_getElem (by omega)⟩
    rw [collapse_repeat ha (by rw [← ha, e2, ← e1])]
    exact ih (by omega) hj fun c hc => heq c (List.mem_cons_of_mem _ hc)
  | @diag i j p hw _ ih =>
    have e1 := heq (i + 1, j + 1) (by simp)
    obtain ⟨a, ha⟩ : ∃ a, x[i + 1]? = some a := ⟨_, List.getElem?_eq_getElem (by omega)⟩
    have hb : y[j + 1]? = some a := by rw [← ha]; exact e1.symm
    rw [take_snoc ha, take_snoc hb, collapse_snoc, collapse_snoc,
      ih (by omega) (by omega) fun c hc => heq c (List.mem_cons_of_mem _ hc)]

/-- Series which differ by repetitions only have a path of pairs of equal points. -/
theorem warp_of_collapse (x y : List P) (W : Nat) : ∀ (n i j : Nat), i + j ≤ n → i < x.length →
    j < y.length → i ≤ W → j ≤ W → collapse (x.take (i + 1)) = collapse (y.take (j + 1)) →
    ∃ p, Warp (Within W) i j p ∧ ∀ c ∈ p, x[c.1]? = y[c.2]? := by
  intro n
  induction n with
  | zero =>
    intro i j hn hi hj _ _ h
    obtain ⟨rfl, rfl⟩ : i = 0 ∧ j = 0 := by omega
    obtain ⟨a, ha⟩ : ∃ a, x[0]? = some a := ⟨_, List.getElem?_eq_getElem hi⟩
    obtain ⟨b, hb⟩ : ∃ b, y[0]? = some b := ⟨_, List.getElem?_eq_getElem hj⟩
    refine ⟨_, .start (by unfold Within; omega), ?_⟩
    have := congrArg List.getLast? h
    rw [take_snoc ha, take_snoc hb, collapse_last, collapse_last] at this
    simp [ha, hb, this]
  | succ n ih =>
    intro i j hn hi hj hiW hjW h
    obtain ⟨a, ha⟩ : ∃ a, x[i]? = some a := ⟨_, List.getElem?_eq_getElem hi⟩
    obtain ⟨b, hb⟩ : ∃ b, y[j]? = some b := ⟨_, List.getElem?_eq_getElem hj⟩
    have hab : a = b := by
      have := congrArg List.getLast? h
      rw [take_snoc ha, take_snoc hb, collapse_last, collapse_last] at this
      simpa using this
    subst hab
    have top : x[i]? = y[j]? := ha.trans hb.symm
    have single : ∀ (z : List P) (c : P), z[0]? = some c → collapse (z.take 1) = [c] := by
      intro z c hc; rw [take_snoc hc]; simp [collapse, appendNew]
    cases i with
    | zero =>
      cases j with
      | zero => exact ⟨_, .start (by unfold Within; omega), by simpa using top⟩
      | succ j =>
        obtain ⟨c, hc⟩ : ∃ c, y[j]? = some c := ⟨_, List.getElem?_eq_getElem (by omega)⟩
        by_cases hca : c = a
        · subst hca
          obtain ⟨p, hp, he⟩ := ih 0 j (by omega) hi (by omega) hiW (by omega)
            (by rw [h, collapse_repeat hc hb])
          refine ⟨_, .right hp (by unfold Within; omega), ?_⟩
          intro d hd
          rcases List.mem_cons.1 hd with rfl | hd
          exacts [top, he d hd]
        · exfalso
          rw [single x a ha, collapse_change hc hb hca] at h
          have := congrArg List.length h
          have h0 : collapse (y.take (j + 1)) ≠ [] := collapse_ne_nil (by
            rw [take_snoc hc]; simp)
          simp only [List.length_append, List.length_cons, List.length_nil] at this
          exact h0 (List.length_eq_zero_iff.1 (by omega))
    | succ i =>
      obtain ⟨c, hc⟩ : ∃ c, x[i]? = some c := ⟨_, List.getElem?_eq_getElem (by omega)⟩
      by_cases hca : c = a
      · subst hca
        obtain ⟨p, hp, he⟩ := ih i j (by omega) (by omega) hj (by omega) hjW
          (by rw [← h, collapse_repeat hc ha])
        refine ⟨_, .down hp (by unfold Within; omega), ?_⟩
        intro d hd
        rcases List.mem_cons.1 hd with rfl | hd
        exacts [top, he d hd]
      · have h0 : collapse (x.take (i + 1)) ≠ [] := collapse_ne_nil (by rw [take_snoc hc]; simp)
        cases j with
        | zero =>
          exfalso
          rw [single y a hb, collapse_change hc ha hca] at h
          have := congrArg List.length h
          simp only [List.length_append, List.length_cons, List.length_nil] at this
          exact h0 (List.length_eq_zero_iff.1 (by omega))
        | succ j =>
          obtain ⟨e, he⟩ : ∃ e, y[j]? = some e := ⟨_, List.getElem?_eq_getElem (by omega)⟩
          by_cases hea : e = a
          · subst hea
            obtain ⟨p, hp, hq⟩ := ih (i + 1) j (by omega) hi (by omega) hiW (by omega)
              (by rw [h, collapse_repeat he hb])
            refine ⟨_, .right hp (by unfold Within; omega), ?_⟩
            intro d hd
            rcases List.mem_cons.1 hd with rfl | hd
            exacts [top, hq d hd]
          · rw [collapse_change hc ha hca, collapse_change he hb hea] at h
            obtain ⟨p, hp, hq⟩ := ih i j (by omega) (by omega) (by omega) (by omega) (by omega)
              (List.append_inj_left' h rfl)
            refine ⟨_, .diag hp (by unfold Within; omega), ?_⟩
            intro d hd
            rcases List.mem_cons.1 hd with rfl | hd
            exacts [top, hq d hd]

end
end Distclus
