import Verif.Model.Dtw
import Verif.Spec.Warp
import Verif.Proof.Nearest
import Mathlib.Tactic.Ring
import Mathlib.Order.BoundedOrder.Basic
/-! # Lemmas on dynamic time warping -/

set_option linter.unusedSectionVars false

namespace Distclus
open Spec

theorem idx?_nat {α : Type} (l : List α) (i : Nat) : idx? l (i : Int) = l[i]? := by
  unfold idx?; rw [if_neg (by omega), Int.toNat_natCast]

section
variable {P F : Type} [Top F] [Add F] [LE F] [DecidableLE F]

instance (w i j : Nat) : Decidable (Within w i j) := by unfold Within; infer_instance

/-- Accumulated costs by the recursion of the code, on an ideal matrix. -/
def ideal (W : Nat) (d : Nat → Nat → F) : Nat → Nat → F
  | 0, 0 => d 0 0
  | 0, j + 1 => ideal W d 0 j + d 0 (j + 1)
  | i + 1, 0 => ideal W d i 0 + d (i + 1) 0
  | i + 1, j + 1 =>
    min3 (ideal W d i j) (if Within W (i + 1) j then ideal W d (i + 1) j else ⊤)
      (if Within W i (j + 1) then ideal W d i (j + 1) else ⊤) + d (i + 1) (j + 1)
termination_by i j => i + j

/-- The distance of the points at two positions (`⊤` beyond the ends). -/
def cellDist (c : CostConf P F) (i j : Nat) : F :=
  match c.s1[i]?, c.s2[j]? with
  | some p, some q => c.space.dist p q
  | _, _ => ⊤

/-- The shape of the matrices built by `NewCumCostMatrix` when the band reaches the last pair. -/
structure CostOk (c : CostConf P F) (W S : Nat) : Prop where
  window : c.window = W
  stride0 : c.stride0 = c.s1.length
  stride1 : c.stride1 = S
  strideEq : S = min (2 * W + 1) c.s2.length
  pos1 : 0 < c.s1.length
  pos2 : 0 < c.s2.length
  reach : c.s1.length ≤ c.s2.length + W

/-- Column of the cell `(i,j)` in the banded storage. -/
def bandCol (W i j : Nat) : Nat := if i > W then j + W - i else j

theorem bandCol_lt {c : CostConf P F} {W S : Nat} (h : CostOk c W S) {i j : Nat}
    (hj : j < c.s2.length) (hw : Within W i j) : bandCol W i j < S := by
  unfold bandCol Within at *
  rw [h.strideEq]
  split <;> omega

theorem bandCol_inj {W i j j' : Nat} (hw : Within W i j) (hw' : Within W i j')
    (h : bandCol W i j = bandCol W i j') : j = j' := by
  unfold bandCol Within at *
  split at h <;> omega

theorem ravel_eq {c : CostConf P F} {W S : Nat} (h : CostOk c W S) {i j : Nat}
    (hw : Within W i j) : c.ravel i j = ((i * S + bandCol W i j : Nat) : Int) := by
  unfold CostConf.ravel CostConf.index bandCol
  rw [h.window, h.stride1]
  unfold Within at hw
  by_cases hi : i > W
  · rw [if_pos (by omega), if_pos hi]; push_cast; omega
  · rw [if_neg (by omega), if_neg hi]; push_cast; rfl

theorem ravel_lt {c : CostConf P F} {W S : Nat} (h : CostOk c W S) {i j : Nat}
    (hi : i < c.s1.length) (hj : j < c.s2.length) (hw : Within W i j) :
    i * S + bandCol W i j < c.s1.length * S := by
  have h1 := bandCol_lt h hj hw
  have h2 : (i + 1) * S ≤ c.s1.length * S := Nat.mul_le_mul_right S hi
  rw [Nat.add_mul, Nat.one_mul] at h2
  omega

theorem ravel_inj {c : CostConf P F} {W S : Nat} (h : CostOk c W S) {i j i' j' : Nat}
    (hj : j < c.s2.length) (hw : Within W i j) (hj' : j' < c.s2.length) (hw' : Within W i' j')
    (he : i * S + bandCol W i j = i' * S + bandCol W i' j') : i = i' ∧ j = j' := by
  have h1 := bandCol_lt h hj hw
  have h2 := bandCol_lt h hj' hw'
  have hii : i = i' := by
    rcases Nat.lt_trichotomy i i' with hlt | heq | hgt
    · have : (i + 1) * S ≤ i' * S := Nat.mul_le_mul_right S hlt
      rw [Nat.add_mul, Nat.one_mul] at this; omega
    · exact heq
    · have : (i' + 1) * S ≤ i * S := Nat.mul_le_mul_right S hgt
      rw [Nat.add_mul, Nat.one_mul] at this; omega
  subst hii
  exact ⟨rfl, bandCol_inj hw hw' (by omega)⟩

theorem inWindow_iff {c : CostConf P F} {W S : Nat} (h : CostOk c W S) (i j : Nat) :
    c.inWindow i j = decide (Within W i j) := by
  unfold CostConf.inWindow
  rw [h.window, Bool.eq_iff_iff]
  simp only [Bool.and_eq_true, decide_eq_true_eq]
  unfold Within
  constructor <;> intro h <;> constructor <;> omega

/-- The rows before `i1`, and the cells before `i2` in row `i1`, are stored. -/
structure Stored (c : CostConf P F) (W S : Nat) (i1 i2 : Nat) (values : List F) : Prop where
  len : values.length = c.s1.length * S
  val : ∀ a b, a < c.s1.length → b < c.s2.length → Within W a b → (a < i1 ∨ a = i1 ∧ b < i2) →
    values[a * S + bandCol W a b]? = some (ideal W (cellDist c) a b)

theorem get_stored {c : CostConf P F} {W S : Nat} (h : CostOk c W S) {i1 i2 : Nat}
    {values : List F} (hs : Stored c W S i1 i2 values) {a b : Nat} (ha : a < c.s1.length)
    (hb : b < c.s2.length) (hlt : a < i1 ∨ a = i1 ∧ b < i2) :
    c.get values a b = some (if Within W a b then ideal W (cellDist c) a b else ⊤) := by
  unfold CostConf.get
  rw [inWindow_iff h]
  by_cases hw : Within W a b
  · simp only [hw, decide_true, if_true]
    rw [ravel_eq h hw, idx?_nat]
    exact hs.val a b ha hb hw hlt
  · simp [hw]

theorem cellCost_stored {c : CostConf P F} {W S : Nat} (h : CostOk c W S) {i1 i2 : Nat}
    {values : List F} (hs : Stored c W S i1 i2 values) (h1 : i1 < c.s1.length)
    (h2 : i2 < c.s2.length) (hw : Within W i1 i2) :
    c.cellCost values i1 i2 (cellDist c i1 i2) = some (ideal W (cellDist c) i1 i2) := by
  unfold CostConf.cellCost
  cases i1 with
  | zero =>
    cases i2 with
    | zero => simp [ideal]
    | succ i2 =>
      have hg := get_stored h hs (a := 0) (b := i2) h1 (by omega) (Or.inr ⟨rfl, by omega⟩)
      have hw' : Within W 0 i2 := by unfold Within at *; omega
      rw [if_pos hw'] at hg
      rw [if_neg (by omega), if_pos (by rfl)]
      have e : ((i2 + 1 : Nat) : Int) - 1 = (i2 : Int) := by omega
      rw [e, hg]
      simp [ideal]
  | succ i1 =>
    cases i2 with
    | zero =>
      have hg := get_stored h hs (a := i1) (b := 0) (by omega) h2 (Or.inl (by omega))
      have hw' : Within W i1 0 := by unfold Within at *; omega
      rw [if_pos hw'] at hg
      rw [if_neg (by omega), if_neg (by omega), if_pos (by rfl)]
      have e : ((i1 + 1 : Nat) : Int) - 1 = (i1 : Int) := by omega
      rw [e, hg]
      simp [ideal]
    | succ i2 =>
      have g1 := get_stored h hs (a := i1) (b := i2 + 1) (by omega) h2 (Or.inl (by omega))
      have g2 := get_stored h hs (a := i1 + 1) (b := i2) h1 (by omega) (Or.inr ⟨rfl, by omega⟩)
      have g3 := get_stored h hs (a := i1) (b := i2) (by omega) (by omega) (Or.inl (by omega))
      have hw' : Within W i1 i2 := by unfold Within at *; omega
      rw [if_pos hw'] at g3
      rw [if_neg (by omega), if_neg (by omega), if_neg (by omega)]
      have e1 : ((i1 + 1 : Nat) : Int) - 1 = (i1 : Int) := by omega
      have e2 : ((i2 + 1 : Nat) : Int) - 1 = (i2 : Int) := by omega
      unfold CostConf.neighborCosts
      rw [e1, e2, g1, g2, g3, ideal]
      simp

theorem cell_stored {c : CostConf P F} {W S : Nat} (h : CostOk c W S) {i1 i2 : Nat}
    {values : List F} (hs : Stored c W S i1 i2 values) (h1 : i1 < c.s1.length)
    (h2 : i2 < c.s2.length) (hw : Within W i1 i2) :
    ∃ v', c.cell values i1 i2 = some v' ∧ Stored c W S i1 (i2 + 1) v' := by
  have hlt := ravel_lt h h1 h2 hw
  have hcost := cellCost_stored h hs h1 h2 hw
  refine ⟨values.set (i1 * S + bandCol W i1 i2) (ideal W (cellDist c) i1 i2), ?_, ?_, ?_⟩
  · unfold CostConf.cell
    rw [idx?_nat, idx?_nat, List.getElem?_eq_getElem h1, List.getElem?_eq_getElem h2]
    simp only
    have : c.space.dist c.s1[i1] c.s2[i2] = cellDist c i1 i2 := by
      unfold cellDist
      rw [List.getElem?_eq_getElem h1, List.getElem?_eq_getElem h2]
    rw [this, hcost]
    simp only
    rw [ravel_eq h hw]
    unfold setIdx?
    rw [if_neg (by omega), Int.toNat_natCast, if_pos (by rw [hs.len]; exact hlt)]
  · simp [hs.len]
  · intro a b ha hb hwab hor
    by_cases he : a = i1 ∧ b = i2
    · obtain ⟨rfl, rfl⟩ := he
      rw [List.getElem?_set_self (by rw [hs.len]; exact hlt)]
    · rw [List.getElem?_set_ne]
      · exact hs.val a b ha hb hwab (by omega)
      · intro hc
        exact he ((ravel_inj h h2 hw hb hwab hc).imp Eq.symm Eq.symm)

theorem rowLoop_stored {c : CostConf P F} {W S : Nat} (h : CostOk c W S) {i1 : Nat}
    (h1 : i1 < c.s1.length) : ∀ (n i2 : Nat) (values : List F), Stored c W S i1 i2 values →
    (∀ b, i2 ≤ b → b < i2 + n → b < c.s2.length ∧ Within W i1 b) →
    ∃ v', c.rowLoop i1 n i2 values = some v' ∧ Stored c W S i1 (i2 + n) v' := by
  intro n
  induction n with
  | zero => intro i2 values hs _; exact ⟨values, rfl, hs⟩
  | succ n ih =>
    intro i2 values hs hb
    obtain ⟨q1, q2⟩ := hb i2 (by omega) (by omega)
    obtain ⟨v', e, hs'⟩ := cell_stored h hs h1 q1 q2
    obtain ⟨v'', e', hs''⟩ := ih (i2 + 1) v' hs' (fun b hb1 hb2 => hb b (by omega) (by omega))
    refine ⟨v'', ?_, by rw [show i2 + (n + 1) = i2 + 1 + n by omega]; exact hs''⟩
    rw [CostConf.rowLoop, e]
    simpa using e'

theorem left_eq {c : CostConf P F} {W S : Nat} (h : CostOk c W S) (i : Nat) :
    c.left i = ((i - W : Nat) : Int) := by
  unfold CostConf.left
  have := inWindow_iff h i 0
  simp only [Int.natCast_zero] at this
  rw [this, h.window]
  unfold Within
  by_cases hw : i ≤ 0 + W ∧ 0 ≤ i + W
  · simp [hw]; omega
  · simp only [hw, decide_false]; simp; omega

theorem right_eq {c : CostConf P F} {W S : Nat} (h : CostOk c W S) {i : Nat}
    (hi : i < c.s1.length) :
    c.right i = ((min (c.s2.length - 1) (i + W) : Nat) : Int) := by
  have hp := h.pos2
  have hr := h.reach
  unfold CostConf.right
  have e : (c.s2.length : Int) - 1 = ((c.s2.length - 1 : Nat) : Int) := by omega
  rw [e, inWindow_iff h i (c.s2.length - 1), h.window]
  unfold Within
  by_cases hw : i ≤ c.s2.length - 1 + W ∧ c.s2.length - 1 ≤ i + W
  · simp [hw]
  · simp only [hw, decide_false]; simp; omega

theorem row_stored {c : CostConf P F} {W S : Nat} (h : CostOk c W S) {i1 : Nat}
    (h1 : i1 < c.s1.length) (values : List F) (hs : Stored c W S i1 0 values) :
    ∃ v', c.rowLoop i1 (c.right i1 - c.left i1 + 1).toNat (c.left i1) values = some v' ∧
      Stored c W S (i1 + 1) 0 v' := by
  have hp := h.pos2
  have hr := h.reach
  rw [right_eq h h1, left_eq h]
  have hs' : Stored c W S i1 (i1 - W) values := by
    refine ⟨hs.len, fun a b ha hb hw hor => hs.val a b ha hb hw ?_⟩
    unfold Within at hw; omega
  obtain ⟨v', e, q⟩ := rowLoop_stored h h1
    (((min (c.s2.length - 1) (i1 + W) : Nat) : Int) - ((i1 - W : Nat) : Int) + 1).toNat (i1 - W)
    values hs' (by intro b hb1 hb2; unfold Within; omega)
  refine ⟨v', e, q.len, fun a b ha hb hw hor => q.val a b ha hb hw ?_⟩
  unfold Within at hw
  omega

theorem rowsLoop_stored {c : CostConf P F} {W S : Nat} (h : CostOk c W S) :
    ∀ (n i1 : Nat) (values : List F), i1 + n = c.s1.length → Stored c W S i1 0 values →
    ∃ v', c.rowsLoop n i1 values = some v' ∧ Stored c W S c.s1.length 0 v' := by
  intro n
  induction n with
  | zero => intro i1 values hn hs; exact ⟨values, rfl, by rw [← hn]; exact hs⟩
  | succ n ih =>
    intro i1 values hn hs
    obtain ⟨v', e, q⟩ := row_stored h (by omega) values hs
    obtain ⟨v'', e', q'⟩ := ih (i1 + 1) v' (by omega) q
    refine ⟨v'', ?_, q'⟩
    rw [CostConf.rowsLoop, e]
    simpa using e'

theorem compute_stored [Zero F] {c : CostConf P F} {W S : Nat} (h : CostOk c W S) :
    ∃ values, c.computeCumCost = some values ∧ Stored c W S c.s1.length 0 values := by
  unfold CostConf.computeCumCost
  have e : c.stride0 * c.stride1 = ((c.s1.length * S : Nat) : Int) := by
    rw [h.stride0, h.stride1]; push_cast; rfl
  rw [e, if_neg (by omega), Int.toNat_natCast]
  exact rowsLoop_stored h c.s1.length 0 _ (by omega)
    ⟨by simp, fun a b _ _ _ hor => by omega⟩

/-- Every cell of the computed matrix reads as the ideal one. -/
theorem get_final {c : CostConf P F} {W S : Nat} (h : CostOk c W S) {values : List F}
    (hs : Stored c W S c.s1.length 0 values) {a b : Nat} (ha : a < c.s1.length)
    (hb : b < c.s2.length) :
    c.get values a b = some (if Within W a b then ideal W (cellDist c) a b else ⊤) :=
  get_stored h hs ha hb (Or.inl ha)

/-! ### The path -/

/-- A path as reported by the code. -/
def toEnds (p : List (Nat × Nat)) : List Ends := p.map fun x => ⟨x.1, x.2⟩

theorem min3_cases (a b c : F) : min3 a b c = a ∨ min3 a b c = b ∨ min3 a b c = c := by
  unfold min3; split
  · simp
  · split <;> simp

end

section
variable {P F : Type} [LinearOrder F] [OrderTop F] [Add F]

/-- The step of the path agrees with the minimum of the accumulated cost. -/
theorem decrPath_min (W : Nat) (d : Nat → Nat → F) (i j : Nat)
    (hw : Within W (i + 1) (j + 1)) :
    let l := if Within W i (j + 1) then ideal W d i (j + 1) else ⊤
    let u := if Within W (i + 1) j then ideal W d (i + 1) j else ⊤
    let ul := ideal W d i j
    (decrPath ul u l ((i + 1 : Nat) : Int) ((j + 1 : Nat) : Int) = ((i : Int), (j : Int)) ∧
      Within W i j ∧ min3 ul u l = ul) ∨
    (decrPath ul u l ((i + 1 : Nat) : Int) ((j + 1 : Nat) : Int) = ((i : Int), ((j + 1 : Nat) : Int)) ∧
      Within W i (j + 1) ∧ min3 ul u l = ideal W d i (j + 1)) ∨
    (decrPath ul u l ((i + 1 : Nat) : Int) ((j + 1 : Nat) : Int) = (((i + 1 : Nat) : Int), (j : Int)) ∧
      Within W (i + 1) j ∧ min3 ul u l = ideal W d (i + 1) j) := by
  intro l u ul
  have hij : Within W i j := by unfold Within at *; omega
  have e1 : ((i + 1 : Nat) : Int) - 1 = (i : Int) := by omega
  have e2 : ((j + 1 : Nat) : Int) - 1 = (j : Int) := by omega
  unfold decrPath min3
  rw [e1, e2]
  by_cases h1 : ul ≤ u ∧ ul ≤ l
  · left; simp [h1, hij]
  · right
    simp only [h1, if_false]
    by_cases h2 : l ≤ u
    · left
      have hl : Within W i (j + 1) := by
        by_contra hc
        apply h1
        have hlt : l = ⊤ := if_neg hc
        have : (⊤ : F) ≤ u := hlt ▸ h2
        exact ⟨le_trans le_top this, by rw [hlt]; exact le_top⟩
      have hle : l = ideal W d i (j + 1) := if_pos hl
      refine ⟨by simp [h2], hl, ?_⟩
      rw [← hle]
      by_cases h3 : u ≤ l
      · rw [if_pos h3]; exact le_antisymm h3 h2
      · rw [if_neg h3]
    · right
      have hul : u ≤ l := le_of_lt (not_le.1 h2)
      have hu : Within W (i + 1) j := by
        by_contra hc
        apply h2
        have : u = ⊤ := if_neg hc
        rw [this]; exact le_top
      have hue : u = ideal W d (i + 1) j := if_pos hu
      refine ⟨by simp [h2], hu, ?_⟩
      rw [← hue, if_pos hul]

theorem pathCost_cons {d : Nat → Nat → F} {p : List (Nat × Nat)} {v : F} (x : Nat × Nat)
    (hp : pathCost d p = some v) (hne : p ≠ []) : pathCost d (x :: p) = some (v + d x.1 x.2) := by
  cases p with
  | nil => exact absurd rfl hne
  | cons y p => rw [pathCost, hp]; rfl; simp

theorem Spec.Warp.ne_nil {ok : Nat → Nat → Prop} {i j : Nat} {p : List (Nat × Nat)}
    (h : Warp ok i j p) : p ≠ [] := by
  cases h <;> simp

/-- The backward walk from a cell is a warping path of the accumulated cost. -/
theorem pathLoop_spec {c : CostConf P F} {W S : Nat} (h : CostOk c W S) {values : List F}
    (hs : Stored c W S c.s1.length 0 values) : ∀ (n i j : Nat), i + j < n → i < c.s1.length →
    j < c.s2.length → Within W i j →
    ∃ p, c.pathLoop values n i j = some (toEnds p) ∧ Warp (Within W) i j p ∧
      pathCost (cellDist c) p = some (ideal W (cellDist c) i j) := by
  intro n
  induction n with
  | zero => intro i j hn; omega
  | succ n ih =>
    intro i j hn hi hj hw
    cases i with
    | zero =>
      cases j with
      | zero => exact ⟨[(0, 0)], by simp [CostConf.pathLoop, toEnds], .start hw, by simp [pathCost, ideal]⟩
      | succ j =>
        have hw' : Within W 0 j := by unfold Within at *; omega
        obtain ⟨p, h1, h2, h3⟩ := ih 0 j (by omega) hi (by omega) hw'
        refine ⟨(0, j + 1) :: p, ?_, .right h2 hw, ?_⟩
        · have e : ((j + 1 : Nat) : Int) - 1 = (j : Int) := by omega
          rw [CostConf.pathLoop, if_pos (by omega)]
          simp only [Int.natCast_zero, if_true, e] at h1 ⊢
          rw [h1]
          simp [toEnds]
        · rw [pathCost_cons _ h3 h2.ne_nil, ideal]
    | succ i =>
      cases j with
      | zero =>
        have hw' : Within W i 0 := by unfold Within at *; omega
        obtain ⟨p, h1, h2, h3⟩ := ih i 0 (by omega) (by omega) hj hw'
        refine ⟨(i + 1, 0) :: p, ?_, .down h2 hw, ?_⟩
        · have e : ((i + 1 : Nat) : Int) - 1 = (i : Int) := by omega
          have e' : ¬ ((i + 1 : Nat) : Int) = 0 := by omega
          rw [CostConf.pathLoop, if_pos (by omega)]
          simp only [Int.natCast_zero, if_true, e, e', if_false] at h1 ⊢
          rw [h1]
          simp [toEnds]
        · rw [pathCost_cons _ h3 h2.ne_nil, ideal]
      | succ j =>
        have g1 := get_final h hs (a := i) (b := j + 1) (by omega) hj
        have g2 := get_final h hs (a := i + 1) (b := j) hi (by omega)
        have g3 := get_final h hs (a := i) (b := j) (by omega) (by omega)
        have hw' : Within W i j := by unfold Within at *; omega
        rw [if_pos hw'] at g3
        have e1 : ((i + 1 : Nat) : Int) - 1 = (i : Int) := by omega
        have e2 : ((j + 1 : Nat) : Int) - 1 = (j : Int) := by omega
        have hn' : c.neighborCosts values ((i + 1 : Nat) : Int) ((j + 1 : Nat) : Int) =
            some (if Within W i (j + 1) then ideal W (cellDist c) i (j + 1) else ⊤,
              if Within W (i + 1) j then ideal W (cellDist c) (i + 1) j else ⊤,
              ideal W (cellDist c) i j) := by
          unfold CostConf.neighborCosts
          rw [e1, e2, g1, g2, g3]
        have hz1 : ¬ ((i + 1 : Nat) : Int) = 0 := by omega
        have hz2 : ¬ ((j + 1 : Nat) : Int) = 0 := by omega
        have step : ∀ (a b : Nat) (p : List (Nat × Nat)),
            decrPath (ideal W (cellDist c) i j)
              (if Within W (i + 1) j then ideal W (cellDist c) (i + 1) j else ⊤)
              (if Within W i (j + 1) then ideal W (cellDist c) i (j + 1) else ⊤)
              ((i + 1 : Nat) : Int) ((j + 1 : Nat) : Int) = ((a : Int), (b : Int)) →
            c.pathLoop values n a b = some (toEnds p) →
            c.pathLoop values (n + 1) ((i + 1 : Nat) : Int) ((j + 1 : Nat) : Int) =
              some (toEnds ((i + 1, j + 1) :: p)) := by
          intro a b p hd hp
          rw [CostConf.pathLoop, if_pos (by omega)]
          simp only [hz1, hz2, if_false, hn', Option.map_some, hd, hp]
          simp [toEnds]
        rcases decrPath_min W (cellDist c) i j hw with ⟨hd, hwd, hm⟩ | ⟨hd, hwd, hm⟩ | ⟨hd, hwd, hm⟩
        · obtain ⟨p, h1, h2, h3⟩ := ih i j (by omega) (by omega) (by omega) hwd
          refine ⟨_, step i j p hd h1, .diag h2 hw, ?_⟩
          rw [pathCost_cons _ h3 h2.ne_nil, ideal, hm]
        · obtain ⟨p, h1, h2, h3⟩ := ih i (j + 1) (by omega) (by omega) hj hwd
          refine ⟨_, step i (j + 1) p hd h1, .down h2 hw, ?_⟩
          rw [pathCost_cons _ h3 h2.ne_nil, ideal, hm]
        · obtain ⟨p, h1, h2, h3⟩ := ih (i + 1) j (by omega) hi (by omega) hwd
          refine ⟨_, step (i + 1) j p hd h1, .right h2 hw, ?_⟩
          rw [pathCost_cons _ h3 h2.ne_nil, ideal, hm]

theorem min3_le (a b c : F) : min3 a b c ≤ a ∧ min3 a b c ≤ b ∧ min3 a b c ≤ c := by
  unfold min3
  by_cases h1 : a ≤ b ∧ a ≤ c
  · rw [if_pos h1]; exact ⟨le_refl _, h1.1, h1.2⟩
  · rw [if_neg h1]
    by_cases h2 : b ≤ c
    · rw [if_pos h2]
      refine ⟨?_, le_refl _, h2⟩
      by_contra hc
      have hab := le_of_lt (not_le.1 hc)
      exact h1 ⟨hab, hab.trans h2⟩
    · rw [if_neg h2]
      have hcb := le_of_lt (not_le.1 h2)
      refine ⟨?_, hcb, le_refl _⟩
      by_contra hc
      have hac := le_of_lt (not_le.1 hc)
      exact h1 ⟨hac.trans hcb, hac⟩

/-- The accumulated cost is at most the cost of any warping path; only the monotonicity of the
addition is used, so it also holds with rounding. -/
theorem ideal_le (hadd : ∀ a b x : F, a ≤ b → a + x ≤ b + x) (W : Nat) (d : Nat → Nat → F) :
    ∀ {i j : Nat} {p : List (Nat × Nat)}, Warp (Within W) i j p →
      ∃ v, pathCost d p = some v ∧ ideal W d i j ≤ v := by
  intro i j p h
  induction h with
  | start _ => exact ⟨_, rfl, by simp [ideal]⟩
  | @right i j p hp hok ih =>
    obtain ⟨v, h1, h2⟩ := ih
    refine ⟨_, pathCost_cons _ h1 hp.ne_nil, ?_⟩
    cases i with
    | zero => rw [ideal]; exact hadd _ _ _ h2
    | succ i =>
      rw [ideal]
      refine hadd _ _ _ (le_trans ?_ h2)
      have hw : Within W (i + 1) j := by cases hp <;> assumption
      have := (min3_le (ideal W d i j) (if Within W (i + 1) j then ideal W d (i + 1) j else ⊤)
        (if Within W i (j + 1) then ideal W d i (j + 1) else ⊤)).2.1
      rwa [if_pos hw] at this ⊢
  | @down i j p hp hok ih =>
    obtain ⟨v, h1, h2⟩ := ih
    refine ⟨_, pathCost_cons _ h1 hp.ne_nil, ?_⟩
    cases j with
    | zero => rw [ideal]; exact hadd _ _ _ h2
    | succ j =>
      rw [ideal]
      refine hadd _ _ _ (le_trans ?_ h2)
      have hw : Within W i (j + 1) := by cases hp <;> assumption
      have := (min3_le (ideal W d i j) (if Within W (i + 1) j then ideal W d (i + 1) j else ⊤)
        (if Within W i (j + 1) then ideal W d i (j + 1) else ⊤)).2.2
      rwa [if_pos hw] at this ⊢
  | @diag i j p hp hok ih =>
    obtain ⟨v, h1, h2⟩ := ih
    refine ⟨_, pathCost_cons _ h1 hp.ne_nil, ?_⟩
    rw [ideal]
    exact hadd _ _ _ (le_trans (min3_le _ _ _).1 h2)

end
end Distclus
