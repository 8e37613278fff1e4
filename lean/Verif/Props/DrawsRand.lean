import Verif.Props.KMeansInit
import Mathlib.Data.Fintype.CardEmbedding
import Mathlib.Analysis.SpecificLimits.Basic
import Mathlib.Logic.Equiv.Fintype
import Mathlib.Tactic.Positivity
/-!
# C103: the random initializer is uniform
-/

namespace Distclus
open Spec Filter Topology

section
variable {E F : Type}

theorem randLoop_eq (space : Space E F) (elemts : List E) (k : Nat) :
    ∀ (draws chosen : List Nat) (acc : List E), (∀ d ∈ draws, d < elemts.length) → acc.length ≤ k →
      randLoop space elemts k draws chosen acc =
        if k - acc.length ≤ (draws.filter (· ∉ chosen)).eraseDups.length then
          some (some (acc ++ ((draws.filter (· ∉ chosen)).eraseDups.take (k - acc.length)).filterMap
            fun p => (elemts[p]?).map space.copy))
        else none := by
  intro draws
  induction draws with
  | nil =>
    intro chosen acc _ hk
    unfold randLoop
    by_cases h : acc.length < k
    · rw [if_pos h, if_neg (by simp; omega)]
    · rw [if_neg h, if_pos (by simp; omega)]
      simp
  | cons d ds ih =>
    intro chosen acc hd hk
    unfold randLoop
    by_cases h : acc.length < k
    · rw [if_pos h]
      by_cases hdc : d ∈ chosen
      · simp only [hdc, if_true]
        rw [ih chosen acc (fun x hx => hd x (by simp [hx])) hk, List.filter_cons_of_neg (by simp [hdc])]
      · have hdlt := hd d (by simp)
        simp only [hdc, if_false, List.getElem?_eq_getElem hdlt]
        rw [ih (d :: chosen) _ (fun x hx => hd x (by simp [hx])) (by simp; omega),
          List.filter_cons_of_pos (by simp [hdc]), List.eraseDups_cons, List.filter_filter]
        have hf : (ds.filter fun a => (!a == d) && decide (a ∉ chosen)) = ds.filter (· ∉ d :: chosen) := by
          apply List.filter_congr
          intro x _
          by_cases hx : x = d <;> simp [hx]
        rw [hf]
        obtain ⟨j, hj⟩ : ∃ j, k - acc.length = j + 1 := ⟨k - acc.length - 1, by omega⟩
        simp only [List.length_append, List.length_cons, List.length_nil, Nat.zero_add]
        rw [show k - (acc.length + 1) = j by omega, hj]
        by_cases hle : j ≤ (ds.filter (· ∉ d :: chosen)).eraseDups.length
        · rw [if_pos hle, if_pos (by omega)]
          simp [hdlt]
        · rw [if_neg hle, if_neg (by omega)]
    · rw [if_neg h, if_pos (by omega)]
      simp [show k - acc.length = 0 by omega]

/-- **C103 (positions).** For draws in range and `1 ≤ k ≤ n`, `RandInitializer` returns copies of the
elements at the first `k` different positions drawn, in the order of the draws. -/
theorem C103_positions (k : Nat) (elemts : List E) (space : Space E F) (draws : List Nat)
    (hd : ∀ d ∈ draws, d < elemts.length) (h1 : 1 ≤ k) (h2 : k ≤ elemts.length) :
    randInitializer k elemts space draws =
      if k ≤ draws.eraseDups.length then
        some (.ok ((draws.eraseDups.take k).filterMap fun p => (elemts[p]?).map space.copy))
      else none := by
  unfold randInitializer
  rw [if_neg (by omega), if_pos ((initCheck_iff _ _).2 (by omega)), Int.toNat_natCast,
    randLoop_eq space elemts k draws [] [] hd (by simp)]
  simp only [List.not_mem_nil, not_false_eq_true, decide_true, List.filter_true, List.length_nil,
    Nat.sub_zero, List.nil_append]
  by_cases h : k ≤ draws.eraseDups.length <;> simp [h]

/-- The sequences of `n` draws after which `RandInitializer` has returned `c`. -/
def Spec.randTo [DecidableEq E] (k : Nat) (elemts : List E) (space : Space E F) (n : Nat) (c : List E) :
    Finset (Fin n → Fin elemts.length) :=
  Finset.univ.filter fun f =>
    randInitializer k elemts space (List.ofFn fun i => (f i : Nat)) = some (.ok c)

/-- The sequences of `n` draws after which `RandInitializer` is still drawing. -/
def Spec.randOn [DecidableEq E] (k : Nat) (elemts : List E) (space : Space E F) (n : Nat) :
    Finset (Fin n → Fin elemts.length) :=
  Finset.univ.filter fun f =>
    randInitializer k elemts space (List.ofFn fun i => (f i : Nat)) = none

theorem eraseDups_map {α β : Type} [DecidableEq α] [DecidableEq β] {g : α → β} (hg : Function.Injective g) :
    ∀ (n : Nat) (l : List α), l.length ≤ n → (l.map g).eraseDups = l.eraseDups.map g := by
  intro n
  induction n with
  | zero => intro l h; simp [List.length_eq_zero_iff.1 (Nat.le_zero.1 h)]
  | succ n ih =>
    intro l h
    cases l with
    | nil => simp
    | cons a l =>
      simp only [List.map_cons, List.eraseDups_cons]
      rw [List.filter_map, ih]
      · congr 2
        apply congrArg
        apply List.filter_congr
        intro x _
        by_cases hx : x = a
        · simp [hx]
        · simp [hx, hg.ne hx]
      · have := List.length_filter_le (fun x => (fun b => !b == g a) (g x)) l
        simp only [List.length_cons] at h
        exact Nat.le_trans (List.length_filter_le _ _) (by omega)

theorem nodup_eraseDups {α : Type} [DecidableEq α] :
    ∀ (n : Nat) (l : List α), l.length ≤ n → l.eraseDups.Nodup := by
  intro n
  induction n with
  | zero => intro l h; simp [List.length_eq_zero_iff.1 (Nat.le_zero.1 h)]
  | succ n ih =>
    intro l h
    cases l with
    | nil => simp
    | cons a l =>
      rw [List.eraseDups_cons, List.nodup_cons]
      simp only [List.length_cons] at h
      refine ⟨?_, ih _ (Nat.le_trans (List.length_filter_le _ _) (by omega))⟩
      rw [List.mem_eraseDups]
      simp

variable [DecidableEq E]

omit [DecidableEq E] in
theorem randInitializer_iff {k : Nat} {elemts : List E} {space : Space E F} (h1 : 1 ≤ k)
    (h2 : k ≤ elemts.length) (hn : (elemts.map space.copy).Nodup) {n : Nat}
    (f : Fin n → Fin elemts.length) (ps : Fin k ↪ Fin elemts.length) :
    randInitializer k elemts space (List.ofFn fun i => (f i : Nat)) =
      some (.ok (List.ofFn fun j => space.copy elemts[ps j])) ↔
    (List.ofFn f).eraseDups.take k = List.ofFn ps := by
  have hdr : (List.ofFn fun i => (f i : Nat)) = (List.ofFn f).map Fin.val := by
    rw [List.map_ofFn]; rfl
  have hinj : Function.Injective fun p : Fin elemts.length => space.copy elemts[p] := by
    intro p q hpq
    have := List.nodup_iff_injective_getElem.1 hn
    have := @this ⟨p, by simp⟩ ⟨q, by simp⟩ (by simpa using hpq)
    simpa [Fin.ext_iff] using this
  rw [C103_positions k elemts space _ (by
      intro d hd; obtain ⟨i, rfl⟩ := List.mem_ofFn.1 hd; exact (f i).2) h1 h2, hdr,
    eraseDups_map Fin.val_injective _ _ (Nat.le_refl _), List.length_map]
  have hc : (List.ofFn fun j => space.copy elemts[ps j]) =
      (List.ofFn ps).map fun p : Fin elemts.length => space.copy elemts[p] := by
    rw [List.map_ofFn]; rfl
  have hm : ∀ l : List (Fin elemts.length), ((l.map Fin.val).filterMap fun p => (elemts[p]?).map space.copy) =
      l.map fun p : Fin elemts.length => space.copy elemts[p] := by
    intro l
    induction l with
    | nil => rfl
    | cons a l ih => simp [ih]
  rw [← List.map_take, hm, hc]
  by_cases hk : k ≤ (List.ofFn f).eraseDups.length
  · rw [if_pos hk]
    simp only [Option.some.injEq, InitRes.ok.injEq]
    exact ⟨fun h => List.map_injective_iff.2 hinj h, fun h => by rw [h]⟩
  · rw [if_neg hk]
    simp only [reduceCtorEq, false_iff]
    intro h
    have := congrArg List.length h
    simp at this
    omega

/-- **C103 (uniform).** After any number of draws, all the lists of `k` elements at different positions
are equally likely: as many sequences of draws give one as the other. -/
theorem C103_uniform {k : Nat} {elemts : List E} {space : Space E F} (h1 : 1 ≤ k)
    (h2 : k ≤ elemts.length) (hn : (elemts.map space.copy).Nodup) (n : Nat)
    (ps ps' : Fin k ↪ Fin elemts.length) :
    (randTo k elemts space n (List.ofFn fun j => space.copy elemts[ps j])).card =
      (randTo k elemts space n (List.ofFn fun j => space.copy elemts[ps' j])).card := by
  obtain ⟨σ, hσ⟩ : ∃ σ : Equiv.Perm (Fin elemts.length), ∀ j, σ (ps j) = ps' j := by
    let e := (Equiv.ofInjective ps ps.injective).symm.trans (Equiv.ofInjective ps' ps'.injective)
    refine ⟨Equiv.extendSubtype (p := fun x => x ∈ Set.range ps) (q := fun x => x ∈ Set.range ps') e, fun j => ?_⟩
    rw [Equiv.extendSubtype_apply_of_mem _ _ ⟨j, rfl⟩]
    simp [e]
  refine Finset.card_equiv (Equiv.arrowCongr (Equiv.refl _) σ) fun f => ?_
  simp only [randTo, Finset.mem_filter, Finset.mem_univ, true_and]
  rw [randInitializer_iff h1 h2 hn f ps, randInitializer_iff h1 h2 hn _ ps']
  have e1 : List.ofFn (Equiv.arrowCongr (Equiv.refl (Fin n)) σ f) = (List.ofFn f).map σ := by
    rw [List.map_ofFn]; rfl
  have e2 : List.ofFn ps' = (List.ofFn ps).map σ := by
    rw [List.map_ofFn]; congr 1; funext j; exact (hσ j).symm
  rw [e1, e2, eraseDups_map σ.injective _ _ (Nat.le_refl _), ← List.map_take]
  exact ⟨fun h => by rw [h], fun h => List.map_injective_iff.2 σ.injective h⟩

theorem randOn_iff {k : Nat} {elemts : List E} {space : Space E F} (h1 : 1 ≤ k)
    (h2 : k ≤ elemts.length) {n : Nat} (f : Fin n → Fin elemts.length) :
    f ∈ randOn k elemts space n ↔ (List.ofFn f).eraseDups.length < k := by
  have hdr : (List.ofFn fun i => (f i : Nat)) = (List.ofFn f).map Fin.val := by
    rw [List.map_ofFn]; rfl
  simp only [randOn, Finset.mem_filter, Finset.mem_univ, true_and]
  rw [C103_positions k elemts space _ (by
      intro d hd; obtain ⟨i, rfl⟩ := List.mem_ofFn.1 hd; exact (f i).2) h1 h2, hdr,
    eraseDups_map Fin.val_injective _ _ (Nat.le_refl _), List.length_map]
  split <;> simp <;> omega

/-- **C103 (termination).** The proportion of the sequences of `n` draws after which `RandInitializer`
is still drawing is at most `2^m ((m-1)/m)^n`, `m` being the number of elements. -/
theorem C103_termination {k : Nat} {elemts : List E} {space : Space E F} (h1 : 1 ≤ k)
    (h2 : k ≤ elemts.length) (n : Nat) :
    (randOn k elemts space n).card ≤ 2 ^ elemts.length * (elemts.length - 1) ^ n := by
  have hsub : randOn k elemts space n ⊆
      (Finset.univ.filter fun s : Finset (Fin elemts.length) => s.card ≤ elemts.length - 1).biUnion
        fun s => Fintype.piFinset fun _ => s := by
    intro f hf
    rw [randOn_iff h1 h2] at hf
    simp only [Finset.mem_biUnion, Finset.mem_filter, Finset.mem_univ, true_and, Fintype.mem_piFinset]
    refine ⟨(List.ofFn f).eraseDups.toFinset, ?_, fun i => ?_⟩
    · exact (List.toFinset_card_le _).trans (by omega)
    · simp
  refine (Finset.card_le_card hsub).trans (Finset.card_biUnion_le.trans ?_)
  have : ∀ s ∈ (Finset.univ.filter fun s : Finset (Fin elemts.length) => s.card ≤ elemts.length - 1),
      (Fintype.piFinset fun _ : Fin n => s).card ≤ (elemts.length - 1) ^ n := by
    intro s hs
    simp only [Finset.mem_filter, Finset.mem_univ, true_and] at hs
    rw [Fintype.card_piFinset]
    simpa using Nat.pow_le_pow_left hs n
  refine (Finset.sum_le_card_nsmul _ _ _ this).trans ?_
  rw [smul_eq_mul]
  apply Nat.mul_le_mul_right
  refine (Finset.card_filter_le _ _).trans ?_
  simp

theorem randTo_total {k : Nat} {elemts : List E} {space : Space E F} (h1 : 1 ≤ k)
    (h2 : k ≤ elemts.length) (hn : (elemts.map space.copy).Nodup) (n : Nat) :
    ∑ ps : Fin k ↪ Fin elemts.length,
        (randTo k elemts space n (List.ofFn fun j => space.copy elemts[ps j])).card +
      (randOn k elemts space n).card = elemts.length ^ n := by
  have hdis : ∀ ps ∈ (Finset.univ : Finset (Fin k ↪ Fin elemts.length)), ∀ ps' ∈ (Finset.univ : Finset (Fin k ↪ Fin elemts.length)),
      ps ≠ ps' → Disjoint (randTo k elemts space n (List.ofFn fun j => space.copy elemts[ps j]))
        (randTo k elemts space n (List.ofFn fun j => space.copy elemts[ps' j])) := by
    intro ps _ ps' _ hne
    refine Finset.disjoint_left.2 fun f hf hf' => hne ?_
    simp only [randTo, Finset.mem_filter, Finset.mem_univ, true_and] at hf hf'
    rw [randInitializer_iff h1 h2 hn] at hf hf'
    rw [hf] at hf'
    exact DFunLike.coe_injective (List.ofFn_injective hf')
  rw [← Finset.card_biUnion hdis, ← Finset.card_union_of_disjoint]
  · have : (Finset.univ.biUnion fun ps : Fin k ↪ Fin elemts.length =>
        randTo k elemts space n (List.ofFn fun j => space.copy elemts[ps j])) ∪ randOn k elemts space n =
        Finset.univ := by
      ext f
      simp only [Finset.mem_union, Finset.mem_biUnion, Finset.mem_univ, true_and, iff_true]
      by_cases hk : (List.ofFn f).eraseDups.length < k
      · exact Or.inr ((randOn_iff h1 h2 f).2 hk)
      · left
        have hlen : ((List.ofFn f).eraseDups.take k).length = k := by simp; omega
        refine ⟨⟨fun j => ((List.ofFn f).eraseDups.take k)[j.1]'(by rw [hlen]; exact j.2), ?_⟩, ?_⟩
        · intro i j hij
          have hnd : ((List.ofFn f).eraseDups.take k).Nodup := (nodup_eraseDups _ _ (Nat.le_refl _)).take
          exact Fin.ext ((List.Nodup.getElem_inj_iff hnd).1 hij)
        · simp only [randTo, Finset.mem_filter, Finset.mem_univ, true_and]
          rw [randInitializer_iff h1 h2 hn]
          refine List.ext_getElem (by simp; omega) fun i a b => ?_
          simp
    rw [this]
    simp
  · refine Finset.disjoint_left.2 fun f hf hf' => ?_
    simp only [Finset.mem_biUnion, Finset.mem_univ, true_and, randTo, randOn, Finset.mem_filter] at hf hf'
    obtain ⟨ps, hf⟩ := hf
    rw [hf'] at hf
    cases hf

/-- **C103 (limit).** The probability that `RandInitializer` returns the elements at given distinct
positions is `1 / (m (m-1) ... (m-k+1))`: the proportion of the sequences of `n` draws after which it
has returned them tends to it. -/
theorem C103_limit {k : Nat} {elemts : List E} {space : Space E F} (h1 : 1 ≤ k)
    (h2 : k ≤ elemts.length) (hn : (elemts.map space.copy).Nodup) (ps : Fin k ↪ Fin elemts.length) :
    Tendsto (fun n => ((randTo k elemts space n (List.ofFn fun j => space.copy elemts[ps j])).card : ℝ) /
      (elemts.length : ℝ) ^ n) atTop (𝓝 (1 / elemts.length.descFactorial k)) := by
  have hm : 0 < elemts.length := by omega
  have hmr : (0 : ℝ) < elemts.length := by exact_mod_cast hm
  have hD : (0 : ℝ) < elemts.length.descFactorial k := by
    exact_mod_cast Nat.pos_of_ne_zero fun h => by
      rw [Nat.descFactorial_eq_zero_iff_lt] at h; omega
  have heq : ∀ n, ((randTo k elemts space n (List.ofFn fun j => space.copy elemts[ps j])).card : ℝ) /
      (elemts.length : ℝ) ^ n = (1 - ((randOn k elemts space n).card : ℝ) / (elemts.length : ℝ) ^ n) *
        (1 / elemts.length.descFactorial k) := by
    intro n
    have ht := randTo_total h1 h2 hn n
    rw [Finset.sum_congr rfl fun ps' _ => C103_uniform h1 h2 hn n ps' ps, Finset.sum_const,
      Finset.card_univ, Fintype.card_embedding_eq, Fintype.card_fin, Fintype.card_fin, smul_eq_mul] at ht
    have ht' : (elemts.length.descFactorial k : ℝ) *
        ((randTo k elemts space n (List.ofFn fun j => space.copy elemts[ps j])).card : ℝ) +
        ((randOn k elemts space n).card : ℝ) = (elemts.length : ℝ) ^ n := by exact_mod_cast ht
    have hp : (0 : ℝ) < (elemts.length : ℝ) ^ n := by positivity
    field_simp
    linarith
  have hz : Tendsto (fun n => ((randOn k elemts space n).card : ℝ) / (elemts.length : ℝ) ^ n) atTop (𝓝 0) := by
    have hb : Tendsto (fun n => (2 : ℝ) ^ elemts.length * (((elemts.length : ℝ) - 1) / elemts.length) ^ n) atTop
        (𝓝 0) := by
      have hm1 : (1 : ℝ) ≤ elemts.length := by exact_mod_cast hm
      have := (tendsto_pow_atTop_nhds_zero_of_lt_one (r := ((elemts.length : ℝ) - 1) / elemts.length)
        (div_nonneg (by linarith) hmr.le) ((div_lt_one hmr).2 (by linarith))).const_mul
          ((2 : ℝ) ^ elemts.length)
      simpa using this
    refine squeeze_zero (fun n => by positivity) (fun n => ?_) hb
    rw [div_pow, ← mul_div_assoc]
    apply div_le_div_of_nonneg_right _ (by positivity)
    have := C103_termination (E := E) (F := F) (space := space) h1 h2 n
    have : ((randOn k elemts space n).card : ℝ) ≤ ((2 ^ elemts.length * (elemts.length - 1) ^ n : Nat) : ℝ) := by
      exact_mod_cast this
    rw [Nat.cast_mul, Nat.cast_pow, Nat.cast_pow, Nat.cast_sub hm] at this
    simpa using this
  simp only [heq]
  have := (hz.const_sub 1).mul_const (1 / (elemts.length.descFactorial k : ℝ))
  simpa using this

end

/-- Two centroids out of three elements: each of the six lists is obtained by 1 of the 9 sequences of
2 draws and by 4 of the 27 sequences of 3 draws. -/
example : (randTo 2 [5, 6, 7] exSpace 2 [6, 7]).card = 1 ∧ (randTo 2 [5, 6, 7] exSpace 3 [6, 7]).card = 4 ∧
    (randTo 2 [5, 6, 7] exSpace 3 [7, 5]).card = 4 ∧ (randOn 2 [5, 6, 7] exSpace 3).card = 3 := by
  decide +kernel

end Distclus
