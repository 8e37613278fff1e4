import Verif.Model.Par
import Verif.Spec.Par
import Mathlib.Tactic.Ring
import Mathlib.Tactic.Linarith
import Mathlib.Data.List.Basic
import Mathlib.Data.List.Perm.Basic

namespace Distclus

/-- boundary between chunk `i-1` and chunk `i` -/
def bound (q d r i : Nat) : Nat := i * q + (i - (d - r))

theorem bound_mono {q d r i j : Nat} (h : i ≤ j) : bound q d r i ≤ bound q d r j := by
  unfold bound
  have := Nat.mul_le_mul_right q h
  omega

theorem bound_succ (q d r i : Nat) :
    bound q d r (i + 1) = bound q d r i + (if d - r ≤ i then q + 1 else q) := by
  unfold bound
  split <;> (rw [Nat.add_mul]; omega)

theorem bound_last {q d r : Nat} (h : r < d) : bound q d r d = d * q + r := by
  unfold bound; omega

theorem parLoop_eq (q d r : Nat) (hr : r < d) :
    ∀ (n i off start : Nat), i + n = d → (off = if d - r < i then q + 1 else q) →
      start = bound q d r i →
      parLoop (d * q + r) d r n i off start =
        (List.range' i n).map fun i => ⟨bound q d r i, bound q d r (i + 1), i⟩ := by
  intro n
  induction n with
  | zero => intros; rfl
  | succ n ih =>
    intro i off start hi hoff hstart
    have hle : bound q d r (i + 1) ≤ d * q + r := by
      rw [← bound_last hr]; exact bound_mono (by omega)
    have hstop : start + (if i = d - r then off + 1 else off) = bound q d r (i + 1) := by
      rw [bound_succ, hstart, hoff]
      split <;> split <;> split <;> omega
    simp only [parLoop, List.range'_succ, List.map_cons]
    rw [hstop, if_neg (by omega), hstart]
    congr 1
    apply ih
    · omega
    · rw [hoff]; split <;> split <;> split <;> omega
    · rfl

theorem par_eq {size : Nat} {degree : Int} (h : 0 < degree) :
    par size degree = some ((List.range degree.toNat).map fun i =>
      ⟨bound (size / degree.toNat) degree.toNat (size % degree.toNat) i,
       bound (size / degree.toNat) degree.toNat (size % degree.toNat) (i + 1), i⟩) := by
  have hd : 0 < degree.toNat := by omega
  unfold par
  rw [if_neg (by omega)]
  simp only [Option.some.injEq]
  have hs : degree.toNat * (size / degree.toNat) + size % degree.toNat = size :=
    Nat.div_add_mod _ _
  have := parLoop_eq (size / degree.toNat) degree.toNat (size % degree.toNat)
    (Nat.mod_lt _ hd) degree.toNat 0 (size / degree.toNat) 0 (by omega)
    (by split <;> omega) (by simp [bound])
  rw [hs] at this
  rw [this, List.range_eq_range']

/-- concatenating the chunks' ranges -/
theorem flatMap_bound (q d r : Nat) (n : Nat) :
    ((List.range n).flatMap fun i =>
      List.range' (bound q d r i) (bound q d r (i + 1) - bound q d r i)) =
      List.range (bound q d r n) := by
  induction n with
  | zero => simp [bound]
  | succ n ih =>
    rw [List.range_succ, List.flatMap_append, ih]
    simp only [List.flatMap_cons, List.flatMap_nil, List.append_nil]
    rw [List.range_eq_range', List.range_eq_range']
    have hm := bound_mono (q := q) (d := d) (r := r) (show n ≤ n + 1 by omega)
    have := List.range'_append (s := 0) (m := bound q d r n)
      (n := bound q d r (n + 1) - bound q d r n) (step := 1)
    simp only [Nat.zero_add, Nat.one_mul] at this
    rw [this]
    congr 1
    omega

/-- chunk slices concatenate to the whole list -/
theorem flatMap_slice_bound {α : Type} (l : List α) (q d r : Nat) (n : Nat)
    (hn : bound q d r n ≤ l.length) :
    ((List.range n).flatMap fun i => slice l (bound q d r i) (bound q d r (i + 1))) =
      l.take (bound q d r n) := by
  induction n with
  | zero => simp [bound]
  | succ n ih =>
    have hm := bound_mono (q := q) (d := d) (r := r) (show n ≤ n + 1 by omega)
    rw [List.range_succ, List.flatMap_append, ih (by omega)]
    simp only [List.flatMap_cons, List.flatMap_nil, List.append_nil, slice]
    have h1 : bound q d r (n + 1) = bound q d r n + (bound q d r (n+1) - bound q d r n) := by omega
    conv_rhs => rw [h1, List.take_add]

/-- The slices handed to the workers, concatenated in rank order, are the data. -/
theorem par_slices {α : Type} (l : List α) {degree : Int} {chunks : List Chunk}
    (h : par l.length degree = some chunks) :
    (chunks.flatMap fun k => slice l k.start k.stop) = l := by
  by_cases hd : 0 < degree
  · rw [par_eq hd] at h
    cases h
    rw [List.flatMap_map]
    have hpos : 0 < degree.toNat := by omega
    have hlast : bound (l.length / degree.toNat) degree.toNat (l.length % degree.toNat)
        degree.toNat = l.length := by
      rw [bound_last (Nat.mod_lt _ hpos)]; exact Nat.div_add_mod _ _
    rw [flatMap_slice_bound _ _ _ _ _ (by rw [hlast]), hlast, List.take_length]
  · unfold par at h; rw [if_pos (by omega)] at h; cases h

theorem par_none {size : Nat} {degree : Int} (h : degree ≤ 0) : par size degree = none := by
  unfold par; rw [if_pos h]

theorem slice_length {α : Type} (l : List α) (a b : Nat) (h : b ≤ l.length) :
    (slice l a b).length = b - a := by
  simp [slice]; omega

theorem par_chunk_bounds {size : Nat} {degree : Int} {chunks : List Chunk}
    (h : par size degree = some chunks) : ∀ k ∈ chunks, k.start ≤ k.stop ∧ k.stop ≤ size := by
  by_cases hd : 0 < degree
  · rw [par_eq hd] at h
    cases h
    have hpos : 0 < degree.toNat := by omega
    intro k hk
    simp only [List.mem_map, List.mem_range] at hk
    obtain ⟨i, hi, rfl⟩ := hk
    refine ⟨bound_mono (by omega), ?_⟩
    have hlast : bound (size / degree.toNat) degree.toNat (size % degree.toNat)
        degree.toNat = size := by
      rw [bound_last (Nat.mod_lt _ hpos)]; exact Nat.div_add_mod _ _
    conv_rhs => rw [← hlast]
    exact bound_mono (by omega)
  · rw [par_none (by omega)] at h; cases h

/-! ### Interleavings -/

theorem Interleave.perm {α : Type} {ls : List (List α)} {out : List α}
    (h : Interleave ls out) : out.Perm ls.flatten := by
  induction h with
  | done h =>
    have : List.flatten _ = [] := List.flatten_eq_nil_iff.2 h
    rw [this]
  | @step ls i a rest out hi hin ih =>
    refine (List.Perm.cons a ih).trans ?_
    clear ih hin
    induction ls generalizing i with
    | nil => simp at hi
    | cons l ls ih =>
      cases i with
      | zero =>
        simp only [List.getElem?_cons_zero, Option.some.injEq] at hi
        subst hi
        simp
      | succ i =>
        simp only [List.getElem?_cons_succ] at hi
        simp only [List.set_cons_succ, List.flatten_cons]
        exact (List.perm_middle.symm).trans ((ih hi).append_left l)

theorem Interleave.exists {α : Type} (ls : List (List α)) : ∃ out, Interleave ls out := by
  generalize hn : (ls.map List.length).sum = n
  induction n generalizing ls with
  | zero =>
    refine ⟨[], .done fun l hl => ?_⟩
    have := List.sum_eq_zero_iff_forall_eq_nat.1 hn l.length (List.mem_map_of_mem hl)
    exact List.length_eq_zero_iff.1 this
  | succ n ih =>
    have : ∃ (i : Nat) (a : α) (rest : List α), ls[i]? = some (a :: rest) := by
      by_contra hcon
      push Not at hcon
      have : ∀ l ∈ ls, l.length = 0 := by
        intro l hl
        obtain ⟨i, hi⟩ := List.mem_iff_getElem?.1 hl
        cases l with
        | nil => rfl
        | cons a r => exact absurd hi (hcon i a r)
      have hz : (ls.map List.length).sum = 0 := by
        apply List.sum_eq_zero_iff_forall_eq_nat.2
        intro x hx
        obtain ⟨l, hl, rfl⟩ := List.mem_map.1 hx
        exact this l hl
      omega
    obtain ⟨i, a, rest, hi⟩ := this
    have hsum : ((ls.set i rest).map List.length).sum + 1 = (ls.map List.length).sum := by
      clear ih hn
      induction ls generalizing i with
      | nil => simp at hi
      | cons l ls ih =>
        cases i with
        | zero =>
          simp only [List.getElem?_cons_zero, Option.some.injEq] at hi
          subst hi; simp; omega
        | succ i =>
          simp only [List.getElem?_cons_succ] at hi
          have := ih i hi
          simp only [List.set_cons_succ, List.map_cons, List.sum_cons]
          omega
    obtain ⟨out, hout⟩ := ih (ls.set i rest) (by omega)
    exact ⟨a :: out, .step hi hout⟩

end Distclus
