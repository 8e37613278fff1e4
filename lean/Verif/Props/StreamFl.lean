import Verif.Props.Ieee
import Verif.Props.Fl64
/-!
# C132: the centres of streaming in `float64`

C38 with rounding: after any history the centres are the means of their members up to an explicit error.
-/
namespace Distclus
open Spec

section
variable {f : Format} {k n N : Nat}

theorem running_toIeee (hr : Room f k n N) (space : Space (Vec (Ieee f) n) (Ieee f))
    (hsp : space.combine = (euclidSpace (Ieee f) n).combine ∧ space.copy = (euclidSpace (Ieee f) n).copy)
    (ms : List (Vec (Fl f.r) n)) (hms : ∀ e ∈ ms, Box k e) (hlen : ms.length ≤ N) :
    running space (ms.map (Vec.toIeee f)) = (running (euclidSpace (Fl f.r) n) ms).map (Vec.toIeee f) ∧
      ∀ m, running (euclidSpace (Fl f.r) n) ms = some m → Box k m := by
  have key : ∀ (l : List (Vec (Fl f.r) n)) (m : Vec (Fl f.r) n) (w : Int), 0 < w → Box k m → (∀ e ∈ l, Box k e) →
      w + l.length ≤ N →
      ((l.map (Vec.toIeee f)).foldl (fun mw x => (space.combine mw.1 mw.2 x 1, mw.2 + 1)) (m.toIeee f, w)).1 =
        (l.foldl (fun mw x => ((euclidSpace (Fl f.r) n).combine mw.1 mw.2 x 1, mw.2 + 1)) (m, w)).1.toIeee f ∧
      Box k (l.foldl (fun mw x => ((euclidSpace (Fl f.r) n).combine mw.1 mw.2 x 1, mw.2 + 1)) (m, w)).1 := by
    intro l
    induction l with
    | nil => exact fun m w _ hm _ _ => ⟨rfl, hm⟩
    | cons a l ih =>
      intro m w hw hm hl hN
      rw [List.length_cons] at hN
      push_cast at hN
      obtain ⟨h1, h2⟩ := hr.combine hm (hl a (by simp)) hw (show (0 : Int) < 1 by omega) (by omega)
      simp only [List.map_cons, List.foldl_cons]
      rw [hsp.1, h1, ← hsp.1]
      exact ih _ (w + 1) (by omega) h2 (fun e he => hl e (by simp [he])) (by omega)
  cases ms with
  | nil => exact ⟨rfl, fun m h => by cases h⟩
  | cons a l =>
    obtain ⟨h1, h2⟩ := key l a 1 (by omega) (hms a (by simp)) (fun e he => hms e (by simp [he])) (by
      rw [List.length_cons] at hlen; omega)
    refine ⟨?_, fun m hm => ?_⟩
    · show some (List.foldl _ (space.copy (a.toIeee f), 1) (l.map (Vec.toIeee f))).1 = _
      rw [hsp.2]
      exact congrArg some h1
    · cases hm; exact h2

theorem exists_toIeee (l : List (Vec (Ieee f) n)) (h : ∀ x ∈ l, ∃ p : Vec (Fl f.r) n, Box k p ∧ x = p.toIeee f) :
    ∃ l' : List (Vec (Fl f.r) n), l = l'.map (Vec.toIeee f) ∧ ∀ x ∈ l', Box k x := by
  induction l with
  | nil => exact ⟨[], rfl, by simp⟩
  | cons x l ih =>
    obtain ⟨p, hp, rfl⟩ := h x (by simp)
    obtain ⟨l', rfl, hl⟩ := ih fun y hy => h y (by simp [hy])
    exact ⟨p :: l', rfl, by simpa using ⟨hp, hl⟩⟩

theorem members_toIeee (els : List (Vec (Fl f.r) n)) (labels : List Int) (l : Nat) :
    members ((els.map (Vec.toIeee f)).zip labels) l = (members (els.zip labels) l).map (Vec.toIeee f) := by
  induction els generalizing labels with
  | nil => simp [members]
  | cons e els ih =>
    cases labels with
    | nil => simp [members]
    | cons b labels =>
      have := ih labels
      unfold members at this ⊢
      simp only [List.map_cons, List.zip_cons_cons, List.filter_cons]
      split
      · simp only [List.map_cons, this]
      · exact this

theorem accepted_push {E F : Type} : ∀ (ops : List (StreamOp E F)) (rs : List (StreamRes E F)) (e : E), e ∈ accepted ops rs →
    StreamOp.push e ∈ ops := by
  intro ops
  induction ops with
  | nil => intro rs e h; simp [accepted] at h
  | cons op ops ih =>
    intro rs e h
    cases rs with
    | nil => cases op <;> simp [accepted] at h
    | cons r rs =>
      have hrec : e ∈ accepted ops rs → StreamOp.push e ∈ op :: ops := fun h => List.mem_cons_of_mem _ (ih rs e h)
      cases op with
      | push x =>
        cases r with
        | push b =>
          cases b with
          | false =>
            simp only [accepted, List.mem_cons] at h
            rcases h with rfl | h
            · simp
            · exact hrec h
          | true => exact hrec h
        | _ => exact hrec h
      | _ => exact hrec h

/-- **C132, centres.** In any history of the streaming algorithm in `float64` (or another format), in the Euclidean or the
cosine space, which consumes at most `N` elements, all within the bound: for some labelling of the elements consumed,
in which the cardinalities are the numbers of members, every centre is the mean of its members, up to an error which is
proportional to their number. -/
theorem C132_centres {R : Type} (hr : Room f k n N) (space : Space (Vec (Ieee f) n) (Ieee f))
    (hsp : space.combine = (euclidSpace (Ieee f) n).combine ∧ space.copy = (euclidSpace (Ieee f) n).copy)
    (conf : StreamingConf (Ieee f) R) (data : List (Vec (Ieee f) n)) (impl0 impl : StreamImpl (Vec (Ieee f) n) (Ieee f) R)
    (h0 : StreamImpl.new conf data = some impl0) (hd : ∀ e ∈ data, ∃ p : Vec (Fl f.r) n, Box k p ∧ e = p.toIeee f)
    (ops : List (StreamOp (Vec (Ieee f) n) (Ieee f)))
    (hop : ∀ e, StreamOp.push e ∈ ops → ∃ p : Vec (Fl f.r) n, Box k p ∧ e = p.toIeee f)
    (rs : List (StreamRes (Vec (Ieee f) n) (Ieee f))) (h : impl0.run space ops = some (impl, rs))
    (hN : consumptions rs ≤ N) :
    ∃ els : List (Vec (Fl f.r) n), (data ++ accepted ops rs).take (consumptions rs) = els.map (Vec.toIeee f) ∧
      els.length = consumptions rs ∧ (∀ e ∈ els, Box k e) ∧
      ∃ labels : List Int, labels.length = els.length ∧ (∀ l ∈ labels, 0 ≤ l ∧ l < impl.clust.length) ∧
        ∀ (l : Nat) (m : Vec (Ieee f) n), impl.clust[l]? = some m →
          let ms := members (els.zip labels) l
          ms ≠ [] ∧ impl.cards[l]? = some (ms.length : Int) ∧
          ∃ p : Vec (Fl f.r) n, m = p.toIeee f ∧ Box k p ∧
            ∀ i, |p.real i - mean (ms.map fun x => x.real i)| ≤ f.r.meanErr (2 ^ k) ms.length := by
  have hcopy : ∀ a, space.copy a = a := fun a => by rw [hsp.2]; rfl
  obtain ⟨a1, -, labels, a3⟩ := C35_stream hcopy conf data impl0 impl h0 ops rs h
  obtain ⟨els, e1, e2⟩ := exists_toIeee ((data ++ accepted ops rs).take (consumptions rs)) fun x hx => by
    rcases List.mem_append.1 (List.mem_of_mem_take hx) with hx | hx
    · exact hd x hx
    · exact hop x (accepted_push ops rs x hx)
  have e3 : els.length = consumptions rs := by
    have := congrArg List.length e1
    rw [List.length_take, List.length_map] at this
    omega
  rw [e1] at a3
  refine ⟨els, e1, e3, e2, labels, by simpa using a3.labelled, a3.range, fun l m hm => ?_⟩
  have hl : l < impl.clust.length := (List.getElem?_eq_some_iff.1 hm).1
  have hcen := a3.center l hl
  have hcard := a3.card l hl
  have hne := a3.nonempty l hl
  rw [members_toIeee] at hcen hcard hne
  have hmem : ∀ e ∈ members (els.zip labels) l, e ∈ els := by
    intro e he
    unfold members at he
    obtain ⟨q, hq, rfl⟩ := List.mem_map.1 he
    exact (List.of_mem_zip (List.mem_filter.1 hq).1).1
  have hlen : (members (els.zip labels) l).length ≤ N := by
    refine le_trans ?_ (e3.le.trans hN)
    unfold members
    rw [List.length_map]
    refine (List.length_filter_le _ _).trans ?_
    rw [List.length_zip]; omega
  obtain ⟨g1, g2⟩ := running_toIeee hr space hsp (members (els.zip labels) l) (fun e he => e2 e (hmem e he)) hlen
  rw [g1, hm] at hcen
  obtain ⟨p, hp, hp'⟩ : ∃ p, running (euclidSpace (Fl f.r) n) (members (els.zip labels) l) = some p ∧ p.toIeee f = m := by
    cases hrun : running (euclidSpace (Fl f.r) n) (members (els.zip labels) l) with
    | none => rw [hrun] at hcen; cases hcen
    | some p => rw [hrun] at hcen; exact ⟨p, rfl, (Option.some.inj hcen).symm⟩
  refine ⟨by simpa using hne, by rw [hcard, List.length_map], p, hp'.symm, g2 p hp, ?_⟩
  exact nearMean_running f.r hr.counts (2 ^ k) n _ p hp hlen fun x hx i =>
    e2 x (hmem x hx) _ (by unfold Vec.coords; exact List.getElem_mem _)

/-- **C132, mass.** The sum of the centres weighted by their cardinalities is the sum of the elements consumed, up to
an error proportional to the square of their number. -/
theorem C132_mass {R : Type} (hr : Room f k n N) (space : Space (Vec (Ieee f) n) (Ieee f))
    (hsp : space.combine = (euclidSpace (Ieee f) n).combine ∧ space.copy = (euclidSpace (Ieee f) n).copy)
    (conf : StreamingConf (Ieee f) R) (data : List (Vec (Ieee f) n)) (impl0 impl : StreamImpl (Vec (Ieee f) n) (Ieee f) R)
    (h0 : StreamImpl.new conf data = some impl0) (hd : ∀ e ∈ data, ∃ p : Vec (Fl f.r) n, Box k p ∧ e = p.toIeee f)
    (ops : List (StreamOp (Vec (Ieee f) n) (Ieee f)))
    (hop : ∀ e, StreamOp.push e ∈ ops → ∃ p : Vec (Fl f.r) n, Box k p ∧ e = p.toIeee f)
    (rs : List (StreamRes (Vec (Ieee f) n) (Ieee f))) (h : impl0.run space ops = some (impl, rs))
    (hN : consumptions rs ≤ N) :
    ∃ (els : List (Vec (Fl f.r) n)) (cs : List (Vec (Fl f.r) n)),
      (data ++ accepted ops rs).take (consumptions rs) = els.map (Vec.toIeee f) ∧
      impl.clust = cs.map (Vec.toIeee f) ∧ impl.cards.length = cs.length ∧
      ∀ i, |((cs.zip impl.cards).map fun q => (q.2 : ℝ) * q.1.real i).sum - (els.map fun x => x.real i).sum| ≤
        consumptions rs * f.r.meanErr (2 ^ k) (consumptions rs) := by
  have hcopy : ∀ a, space.copy a = a := fun a => by rw [hsp.2]; rfl
  obtain ⟨els, e1, e3, e2, labels, hlab, hrange, hcen⟩ := C132_centres hr space hsp conf data impl0 impl h0 hd ops hop rs h hN
  obtain ⟨k1, -, -, -⟩ := C37_cards hcopy conf data impl0 impl h0 ops rs h
  -- the centres, as numbers
  obtain ⟨cs, hcs⟩ : ∃ cs : List (Vec (Fl f.r) n), cs.length = impl.clust.length ∧ ∀ (l : Nat) (p : Vec (Fl f.r) n), cs[l]? = some p →
      impl.clust[l]? = some (p.toIeee f) ∧ impl.cards[l]? = some ((members (els.zip labels) l).length : Int) ∧
      members (els.zip labels) l ≠ [] ∧
      ∀ i, |p.real i - mean ((members (els.zip labels) l).map fun x => x.real i)| ≤
        f.r.meanErr (2 ^ k) (members (els.zip labels) l).length := by
    have hall : ∀ l : Fin impl.clust.length, ∃ p : Vec (Fl f.r) n, impl.clust[l.1]? = some (p.toIeee f) ∧
        impl.cards[l.1]? = some ((members (els.zip labels) l).length : Int) ∧ members (els.zip labels) l ≠ [] ∧
        ∀ i, |p.real i - mean ((members (els.zip labels) l).map fun x => x.real i)| ≤
          f.r.meanErr (2 ^ k) (members (els.zip labels) l).length := by
      intro l
      obtain ⟨g1, g2, p, g3, -, g4⟩ := hcen l.1 impl.clust[l.1] (by simp)
      exact ⟨p, by rw [← g3]; simp, g2, g1, g4⟩
    choose g hg using hall
    refine ⟨List.ofFn g, by simp, fun l p hp => ?_⟩
    obtain ⟨hl, hp'⟩ := List.getElem?_eq_some_iff.1 hp
    have hl' : l < impl.clust.length := by simpa using hl
    rw [List.getElem_ofFn] at hp'
    subst hp'
    exact hg ⟨l, hl'⟩
  obtain ⟨hlen, hcs⟩ := hcs
  have hclust : impl.clust = cs.map (Vec.toIeee f) := by
    apply List.ext_getElem?
    intro l
    by_cases hl : l < cs.length
    · rw [(hcs l cs[l] (by simp)).1]; simp [hl]
    · rw [List.getElem?_eq_none (by omega), List.getElem?_eq_none (by simp; omega)]
  refine ⟨els, cs, e1, hclust, by omega, fun i => ?_⟩
  set M : Nat → List (Vec (Fl f.r) n) := fun l => members (els.zip labels) l with hM
  set E := f.r.meanErr (2 ^ k) (consumptions rs) with hE
  have hz : (cs.zip impl.cards).map (fun q => (q.2 : ℝ) * q.1.real i) =
      (List.range impl.clust.length).map fun l => ((M l).length : ℝ) * ((cs[l]?.map fun p => p.real i).getD 0) := by
    apply List.ext_getElem?
    intro l
    by_cases hl : l < cs.length
    · obtain ⟨-, g2, -, -⟩ := hcs l cs[l] (by simp)
      have hq : (cs.zip impl.cards)[l]? = some (cs[l], ((M l).length : Int)) := by
        rw [List.getElem?_zip_eq_some]; exact ⟨by simp, g2⟩
      rw [List.getElem?_map, hq, List.getElem?_map, List.getElem?_range (by omega)]
      simp [hl]
    · rw [List.getElem?_eq_none (by simp; omega), List.getElem?_eq_none (by simp; omega)]
  have hsum := sum_members_vec (V := ℝ) (fun x : Vec (Fl f.r) n => x.real i) impl.clust.length (els.zip labels) (by
    intro q hq; exact hrange q.2 (List.of_mem_zip hq).2)
  have hels : ((els.zip labels).map fun q => q.1.real i) = els.map fun x => x.real i := by
    rw [show (fun q : Vec (Fl f.r) n × Int => q.1.real i) = (fun x : Vec (Fl f.r) n => x.real i) ∘ Prod.fst from rfl, ← List.map_map,
      List.map_fst_zip (by omega)]
  rw [hels] at hsum
  have hcard := card_sum impl.clust.length (els.zip labels) (by
    intro q hq; exact hrange q.2 (List.of_mem_zip hq).2)
  rw [List.length_zip, hlab, min_self, e3] at hcard
  rw [hz, ← hsum]
  have hE0 : 0 ≤ E := f.r.meanErr_nonneg (by positivity) _
  have hMlen : ∀ l, (M l).length ≤ consumptions rs := by
    intro l
    rw [← e3]
    show (members (els.zip labels) l).length ≤ _
    unfold members
    rw [List.length_map]
    refine (List.length_filter_le _ _).trans ?_
    rw [List.length_zip]; omega
  have key : ∀ m, m ≤ impl.clust.length →
      |((List.range m).map fun l => ((M l).length : ℝ) * ((cs[l]?.map fun p => p.real i).getD 0)).sum -
        ((List.range m).map fun l => ((members (els.zip labels) l).map fun x => x.real i).sum).sum| ≤
      ((((List.range m).map fun l => ((members (els.zip labels) l).length : Int)).sum : Int) : ℝ) * E := by
    intro m
    induction m with
    | zero => simp
    | succ m ih =>
      intro hm
      have ih := ih (by omega)
      simp only [List.range_succ, List.map_append, List.sum_append, List.map_cons, List.map_nil, List.sum_cons, List.sum_nil,
        add_zero]
      rw [Int.cast_add, Int.cast_natCast]
      have hlm : m < cs.length := by omega
      obtain ⟨-, -, g3, g4⟩ := hcs m cs[m] (by simp)
      have g4 := (g4 i).trans (f.r.meanErr_mono (by positivity) (hMlen m))
      have hpos : (0 : ℝ) < (M m).length := by exact_mod_cast List.length_pos_iff.2 g3
      have hmean : ((members (els.zip labels) m).map fun x => x.real i).sum =
          ((M m).length : ℝ) * mean ((M m).map fun x => x.real i) := by
        simp only [mean, List.length_map, smul_eq_mul]
        rw [← mul_assoc, mul_inv_cancel₀ hpos.ne', one_mul]
      rw [hmean, List.getElem?_eq_getElem hlm]
      simp only [Option.map_some, Option.getD_some]
      have hone : |((M m).length : ℝ) * cs[m].real i - (M m).length * mean ((M m).map fun x => x.real i)| ≤ (M m).length * E := by
        rw [← mul_sub, abs_mul, abs_of_pos hpos]
        exact mul_le_mul_of_nonneg_left g4 hpos.le
      rw [add_sub_add_comm, add_mul]
      exact (abs_add_le _ _).trans (add_le_add ih hone)
  have := key _ le_rfl
  rw [hcard] at this
  simpa using this

/-- **C132, `float64`.** The error of C132 for a cluster of `c` members, at most 2⁵⁰, within the bound `B`: less than
`c * (B * 2⁻⁵⁰ + 2⁻¹⁰⁷²)`. -/
theorem C132_float64 {c : Nat} (hc : c ≤ 2 ^ 50) (k : Nat) :
    float64.r.meanErr (2 ^ k) c ≤ c * (2 ^ (-50 : ℤ) * 2 ^ k + 2 ^ (-1072 : ℤ)) :=
  C100_binary64 hc (by positivity)

end
/-- The hypotheses of `C132_centres` are met: the history of the example of C131, with its three elements. -/
example (x : Fin 3 → Vec (Fl float64.r) 2) (hx : ∀ i, Box 484 (x i)) (conf : StreamingConf (Ieee float64) Nat) (hb : conf.bufferSize = 7)
    (t : Ieee float64) (impl : StreamImpl (Vec (Ieee float64) 2) (Ieee float64) Nat) (rs)
    (h : StreamImpl.run (euclidSpace (Ieee float64) 2)
      { maxDistance := 0, clust := [], cards := [], c := [(x 0).toIeee float64, (x 1).toIeee float64], conf, count := 0 }
      [.init, .iterate t, .push ((x 2).toIeee float64), .iterate t] = some (impl, rs)) (hN : consumptions rs ≤ 3) :
    ∀ m ∈ impl.clust, IeeeFinite m := by
  have hr : Room float64 484 2 3 := C131_float64 le_rfl (by norm_num) (by norm_num)
  obtain ⟨els, -, -, -, labels, -, -, hc⟩ := C132_centres hr (euclidSpace (Ieee float64) 2) ⟨rfl, rfl⟩ conf
    [(x 0).toIeee float64, (x 1).toIeee float64] _ impl (by
      unfold StreamImpl.new
      rw [if_neg (by rw [hb]; simp)]) (by
      intro e he
      simp only [List.mem_cons, List.not_mem_nil, or_false] at he
      rcases he with rfl | rfl
      · exact ⟨x 0, hx 0, rfl⟩
      · exact ⟨x 1, hx 1, rfl⟩) _ (by
      intro e he
      simp at he
      exact ⟨x 2, hx 2, he⟩) rs h hN
  intro m hm
  obtain ⟨l, hl, rfl⟩ := List.mem_iff_getElem.1 hm
  obtain ⟨-, -, p, hp, hbox, -⟩ := hc l impl.clust[l] (by simp)
  rw [hp]
  exact hr.finite hbox

/-! ### The centres do not always follow -/

open Fl64 in
/-- **C132 (claim examined).** With 2⁵⁵ members a centre does not move any more: merging 1 into the centre 2 leaves 2. -/
theorem C132_frozen : sp.combine (pt (fpow 1 (by norm_num))) (2 ^ 55 : Int) (pt 1) 1 = pt (fpow 1 (by norm_num)) := by
  apply Subtype.ext
  show [_] = [_]
  congr 1
  apply Fl.ext
  show binary64.rnd (binary64.rnd (binary64.rnd (2 ^ (1 : ℤ) * binary64.rnd ((2 ^ 55 : Int) : ℝ)) +
    binary64.rnd (1 * binary64.rnd ((1 : Int) : ℝ))) /
      binary64.rnd (binary64.rnd ((2 ^ 55 : Int) : ℝ) + binary64.rnd ((1 : Int) : ℝ))) = 2 ^ (1 : ℤ)
  have h1 : binary64.rnd ((2 ^ 55 : Int) : ℝ) = 2 ^ (55 : ℤ) := by
    rw [← rnd_pow 55 (by norm_num)]; congr 1; norm_num
  have h2 : binary64.rnd ((2 : ℝ) ^ (1 : ℤ) * 2 ^ (55 : ℤ)) = 2 ^ (56 : ℤ) := by
    rw [← rnd_pow 56 (by norm_num)]; congr 1; norm_num
  have h3 : binary64.rnd (2 ^ (56 : ℤ) + 1) = 2 ^ (56 : ℤ) := by
    have := binary64_eq (x := 2 ^ (56 : ℤ) + 1) 56 (2 ^ 52) (by norm_num) (by norm_num) (by norm_num) (by norm_num)
    rw [this]; norm_num
  rw [h1, h2, Int.cast_one, binary64.one, one_mul, binary64.one, h3, rnd_above, ← rnd_pow 1 (by norm_num)]
  congr 1
  norm_num

end Distclus
