import Verif.Model.CtrlTime
import Verif.Spec.CtrlTime
import Mathlib.Tactic.NormNum
import Mathlib.Tactic.Positivity
import Mathlib.Tactic.Ring
/-!
# C94, C95: the iteration frequency and the duration
-/
namespace Distclus
open Clock Spec

variable {P : Nat} {s s' : State}

/-! ## C94 -/

/-- Invariant of the loop. -/
structure Paced (P t0 : Nat) (s : State) : Prop where
  le : s.last ≤ s.now
  /-- a start is before the reading of the clock which follows it -/
  done : s.failed = false → ∀ i b, s.starts[i]? = some b → b + i * P ≤ s.last
  gap : Gapped P s.starts
  zero : s.failed = false → t0 + s.starts.length * P ≤ s.last
  since : ∀ i b, s.starts[i]? = some b → t0 + (s.starts.length - 1 - i) * P ≤ b

theorem Paced.turn {t0 : Nat} (hP : 0 < P) (h : Paced P t0 s) {t : Turn} (hs : s.turn P t = some s') :
    Paced P t0 s' := by
  cases t with
  | status d =>
    simp only [State.turn] at hs
    split at hs
    · cases hs
    · cases hs
      exact ⟨Nat.le_trans h.le (Nat.le_add_right _ _), h.done, h.gap, h.zero, h.since⟩
  | iter pre dur save over res =>
    simp only [State.turn] at hs
    split at hs
    · cases hs
    · rename_i hf
      have hf : s.failed = false := by simpa using hf
      have hgap : Gapped P ((s.now + pre) :: s.starts) := by
        refine ⟨fun i y hy => ?_, h.gap⟩
        have := h.done hf i y hy
        have := h.le
        omega
      have hsince : ∀ i b, ((s.now + pre) :: s.starts)[i]? = some b →
          t0 + (((s.now + pre) :: s.starts).length - 1 - i) * P ≤ b := by
        intro i b hb
        cases i with
        | zero =>
          simp only [List.getElem?_cons_zero, Option.some.injEq] at hb
          have := h.zero hf
          have := h.le
          simp only [List.length_cons, Nat.add_sub_cancel, Nat.sub_zero]
          omega
        | succ i =>
          rw [List.getElem?_cons_succ] at hb
          have := h.since i b hb
          simp only [List.length_cons]
          have e : s.starts.length + 1 - 1 - (i + 1) = s.starts.length - 1 - i := by omega
          rw [e]; exact this
      have hle := h.le
      have hz := h.zero hf
      have hd := h.done hf
      cases res with
      | fail =>
        cases hs
        exact ⟨by dsimp only; omega, by rintro ⟨⟩, hgap, by rintro ⟨⟩, hsince⟩
      | clust =>
        simp only [if_true] at hs
        cases hs
        refine ⟨Nat.le_refl _, fun _ i b hb => ?_, hgap, fun _ => ?_, hsince⟩
        · dsimp only at hb ⊢
          cases i with
          | zero =>
            simp only [List.getElem?_cons_zero, Option.some.injEq] at hb
            omega
          | succ i =>
            rw [List.getElem?_cons_succ] at hb
            have := hd i b hb
            rw [Nat.add_mul]
            omega
        · simp only [List.length_cons, Nat.add_mul]
          omega
      | nil =>
        simp only at hs
        cases hs
        refine ⟨Nat.le_refl _, fun _ i b hb => ?_, hgap, fun _ => ?_, hsince⟩
        · simp only [reduceCtorEq, if_false] at hb ⊢
          cases i with
          | zero =>
            simp only [List.getElem?_cons_zero, Option.some.injEq] at hb
            omega
          | succ i =>
            rw [List.getElem?_cons_succ] at hb
            have := hd i b hb
            rw [Nat.add_mul]
            omega
        · simp only [reduceCtorEq, if_false, List.length_cons, Nat.add_mul]
          omega


theorem Paced.turns {t0 : Nat} (hP : 0 < P) : ∀ {ts : List Turn} {s : State}, Paced P t0 s →
    s.turns P ts = some s' → Paced P t0 s' := by
  intro ts
  induction ts with
  | nil => intro s h hs; cases hs; exact h
  | cons t ts ih =>
    intro s h hs
    simp only [State.turns] at hs
    cases ht : s.turn P t with
    | none => rw [ht] at hs; cases hs
    | some s1 => rw [ht] at hs; exact ih (h.turn hP ht) hs

theorem Paced.enter (s : State) (gap : Nat) : Paced P s.now (s.enter gap) :=
  ⟨Nat.le_add_right _ _, fun _ i b hb => (by cases hb), trivial, fun _ => (by simp [State.enter]),
    fun i b hb => (by cases hb)⟩

/-- **C94.** With a period `P`, at most one more iteration starts in a run than periods have passed since its
beginning: the `n + 1`-th starts at least `n` periods after it. -/
theorem C94_since_start (hP : 0 < P) {gap : Nat} {ts : List Turn}
    (h : (s.enter gap).turns P ts = some s') (n b : Nat) (hb : s'.starts.reverse[n]? = some b) :
    s.now + n * P ≤ b := by
  have hp := (Paced.enter (P := P) s gap).turns hP h
  have hn : n < s'.starts.length := by
    have := (List.getElem?_eq_some_iff.1 hb).1
    simpa using this
  rw [List.getElem?_reverse hn] at hb
  have := hp.since _ b hb
  have e : s'.starts.length - 1 - (s'.starts.length - 1 - n) = n := by omega
  rwa [e] at this

theorem sublist_index {l l' : List Nat} (h : l'.Sublist l) :
    ∀ (i y : Nat), l'[i]? = some y → ∃ j : Nat, i ≤ j ∧ l[j]? = some y := by
  induction h with
  | slnil => intro i y h; cases h
  | cons a h ih =>
    intro i y hy
    obtain ⟨j, h1, h2⟩ := ih i y hy
    exact ⟨j + 1, by omega, by rw [List.getElem?_cons_succ]; exact h2⟩
  | cons_cons a h ih =>
    intro i y hy
    cases i with
    | zero => exact ⟨0, Nat.le_refl _, hy⟩
    | succ i =>
      rw [List.getElem?_cons_succ] at hy
      obtain ⟨j, h1, h2⟩ := ih i y hy
      exact ⟨j + 1, by omega, by rw [List.getElem?_cons_succ]; exact h2⟩

theorem gapped_sublist {l l' : List Nat} (h : l'.Sublist l) : Gapped P l → Gapped P l' := by
  induction h with
  | slnil => intro _; trivial
  | cons a h ih => intro hg; exact ih hg.2
  | cons_cons a h ih =>
    intro hg
    refine ⟨fun i y hy => ?_, ih hg.2⟩
    obtain ⟨j, h1, h2⟩ := sublist_index h i y hy
    have := hg.1 j y h2
    have := Nat.mul_le_mul_right P h1
    omega

/-- **C94 (windows).** In any window of width `w`, at any time of the run, at most `w / P + 2` iterations
start. -/
theorem C94_window (hP : 0 < P) {gap : Nat} {ts : List Turn} (h : (s.enter gap).turns P ts = some s')
    (a w : Nat) : (within a w s'.starts).length ≤ w / P + 2 := by
  have hp := (Paced.enter (P := P) s gap).turns hP h
  have hg : Gapped P (within a w s'.starts) := gapped_sublist List.filter_sublist hp.gap
  have hm : ∀ b ∈ within a w s'.starts, a ≤ b ∧ b ≤ a + w := fun b hb => by
    have := (List.mem_filter.1 hb).2
    exact of_decide_eq_true this
  generalize within a w s'.starts = l at hg hm
  cases l with
  | nil => exact Nat.zero_le _
  | cons x l =>
    rcases Nat.lt_or_ge l.length 1 with hl | hl
    · simp only [List.length_cons]; generalize w / P = q; omega
    · have hlt : l.length - 1 < l.length := by omega
      have h1 := hg.1 (l.length - 1) _ (List.getElem?_eq_getElem hlt)
      have h2 := hm x List.mem_cons_self
      have h3 := hm _ (List.mem_cons_of_mem x (List.getElem_mem hlt))
      have : l.length - 1 ≤ w / P := by
        rw [Nat.le_div_iff_mul_le hP]; omega
      simp only [List.length_cons]; omega

/-- **C94 (frequency).** The period of a frequency up to 10⁹ and not below 10⁹/2⁶³ is 10⁹ nanoseconds divided
by it, rounded down. -/
theorem C94_period (bad : Int) {f : ℚ} (h0 : 0 < f) (h1 : f ≤ 1000000000)
    (h2 : 1000000000 < 2 ^ 63 * f) :
    0 < period bad f ∧ (period bad f : ℚ) ≤ 1000000000 / f ∧ 1000000000 / f < (period bad f : ℚ) + 1 := by
  have hq : ((second : Nat) : ℚ) / f < 2 ^ 63 := by
    rw [div_lt_iff₀ h0]; exact_mod_cast h2
  have hs : ((second : Nat) : ℚ) = 1000000000 := by norm_num [second]
  have h3 : (1 : ℚ) ≤ 1000000000 / f := by rw [le_div_iff₀ h0]; simpa using h1
  have h4 : (1 : Int) ≤ ⌊(1000000000 : ℚ) / f⌋ := Int.le_floor.2 (by exact_mod_cast h3)
  simp only [period, if_pos h0, hs] at hq ⊢
  rw [if_pos hq]
  have h5 : ((⌊(1000000000 : ℚ) / f⌋.toNat : Nat) : ℚ) = (⌊(1000000000 : ℚ) / f⌋ : ℚ) := by
    have : ((⌊(1000000000 : ℚ) / f⌋.toNat : Nat) : Int) = ⌊(1000000000 : ℚ) / f⌋ := Int.toNat_of_nonneg (by omega)
    exact_mod_cast congrArg (Int.cast (R := ℚ)) this
  rw [h5]
  exact ⟨by omega, Int.floor_le _, Int.lt_floor_add_one _⟩

/-- **C94 (per second).** With a frequency of `n` iterations per second, where `n` divides 10⁹, at most
`n + 2` iterations start in any second. -/
theorem C94_per_second (bad : Int) {n : Nat} (hn : n ∣ 1000000000) {gap : Nat} {ts : List Turn}
    (h : (s.enter gap).turns (period bad n) ts = some s') (a : Nat) :
    (within a 1000000000 s'.starts).length ≤ n + 2 := by
  obtain ⟨m, hm⟩ := hn
  have hn0 : 0 < n := by rcases Nat.eq_zero_or_pos n with rfl | h; · simp at hm
                         · exact h
  have hm0 : 0 < m := by rcases Nat.eq_zero_or_pos m with rfl | h; · simp at hm
                         · exact h
  have hp : period bad (n : ℚ) = m := by
    have h1 : (0 : ℚ) < n := by exact_mod_cast hn0
    have hs : ((second : Nat) : ℚ) / n = m := by
      rw [div_eq_iff (ne_of_gt h1)]
      have : second = n * m := hm
      rw [this]; push_cast; ring
    simp only [period, if_pos h1, hs]
    have h2 : (m : ℚ) < 2 ^ 63 := by
      have : m < 2 ^ 63 := by
        have : m ≤ 1000000000 := by rw [hm]; exact Nat.le_mul_of_pos_left m hn0
        omega
      exact_mod_cast this
    rw [if_pos h2]
    simp
  rw [hp] at h
  have := C94_window hm0 h a 1000000000
  rw [hm, Nat.mul_div_cancel _ hm0] at this
  rw [hm]; exact this

/-- A run with frequency 1: the status is handled for two seconds (a pause), then iterations which take no
time. -/
def afterPause : List Turn :=
  [.status 2000000000, .iter 0 0 0 0 .clust, .iter 0 0 0 0 .clust, .iter 0 0 0 0 .clust]

/-- **C94 (claim examined).** "Maximal number of iterations per second" (core/conf.go:18) is false: with a
frequency of one per second three iterations can start in one second, two of them at once, after a pause or
an iteration which took long.  The bound of `C94_per_second` is reached. -/
theorem C94_not_max (bad : Int) : ∃ s', ((State.new 0).enter 0).turns (period bad 1) afterPause = some s' ∧
    s'.starts = [3000000000, 2000000000, 2000000000] ∧
    (within 2000000000 1000000000 s'.starts).length = 3 := by
  have hp : period bad (1 : ℚ) = 1000000000 := by
    have : ((second : Nat) : ℚ) / 1 = ((1000000000 : Nat) : ℚ) := by norm_num [second]
    simp only [period, this]
    rw [if_pos (by norm_num), if_pos (by norm_num)]
    simp
  rw [hp]
  exact ⟨_, rfl, rfl, rfl⟩

/-- **C94 (no limit).** Without a positive frequency, with one above 10⁹, or so low that the period does not fit in an `int64` and
the conversion gives a negative number or zero, there is no limit: any number of iterations can start at the
same time. -/
theorem C94_unlimited (bad : Int) {f : ℚ} (hf : f ≤ 0 ∨ 1000000000 < f ∨ (0 < f ∧ 2 ^ 63 * f ≤ 1000000000 ∧ bad ≤ 0))
    (n : Nat) : ∃ s', (s.enter 0).turns (period bad f) (List.replicate n (.iter 0 0 0 0 .clust)) = some s' ∧
      s'.starts = List.replicate n s.now := by
  have hs : ((second : Nat) : ℚ) = 1000000000 := by norm_num [second]
  have hp : period bad f = 0 := by
    rcases hf with hf | hf | ⟨h0, h1, h2⟩
    · rw [period, if_neg (not_lt.2 hf)]
    · have h0 : 0 < f := lt_trans (by norm_num) hf
      have hq : (1000000000 : ℚ) / f < 1 := by rw [div_lt_one h0]; exact hf
      have hq0 : (0 : ℚ) ≤ 1000000000 / f := by positivity
      have : ⌊(1000000000 : ℚ) / f⌋ = 0 := Int.floor_eq_zero_iff.2 ⟨hq0, hq⟩
      simp only [period, if_pos h0, hs, this]
      rw [if_pos (lt_trans hq (by norm_num))]; rfl
    · have : ¬ (1000000000 : ℚ) / f < 2 ^ 63 := by
        rw [not_lt, le_div_iff₀ h0]; exact h1
      simp only [period, if_pos h0, hs, if_neg this]
      exact Int.toNat_of_nonpos h2
  rw [hp]
  have key : ∀ n (s : State), s.failed = false → ∃ s', s.turns 0 (List.replicate n (.iter 0 0 0 0 .clust)) = some s' ∧
      s'.starts = List.replicate n s.now ++ s.starts := by
    intro n
    induction n with
    | zero => intro s _; exact ⟨s, rfl, rfl⟩
    | succ n ih =>
      intro s h
      rw [List.replicate_succ]
      simp only [State.turns, State.turn, h, Bool.false_eq_true, if_false, if_true, Nat.lt_irrefl,
        Option.bind_some]
      obtain ⟨s', h1, h2⟩ := ih { s with now := s.now + 0 + 0 + 0, failed := false, figure := some (s.total + (s.now + 0 + 0 - s.start)), starts := (s.now + 0) :: s.starts } rfl
      refine ⟨s', h1, ?_⟩
      rw [h2]
      simp only [Nat.add_zero]
      rw [List.append_cons, ← List.replicate_succ']
  obtain ⟨s', h1, h2⟩ := key n (s.enter 0) rfl
  exact ⟨s', h1, by rw [h2]; simp [State.enter]⟩

theorem steady (hP : 0 < P) : ∀ (l : List (Nat × Nat)) (s : State), (∀ p ∈ l, p.1 + p.2 ≤ P) →
    s.failed = false → s.last = s.now →
    ∃ s', s.turns P (l.map fun p => .iter 0 p.1 p.2 0 .clust) = some s' ∧
      s'.starts.reverse = s.starts.reverse ++ (List.range l.length).map fun n => s.now + n * P := by
  intro l
  induction l with
  | nil => intro s _ _ _; exact ⟨s, rfl, by simp⟩
  | cons p l ih =>
    intro s hl hf hn
    have hp := hl p List.mem_cons_self
    have hw : s.now + p.1 + p.2 + ((P : Int) - ((s.now + p.1 + p.2 : Nat) - s.last)).toNat = s.now + P := by
      rw [hn]; omega
    obtain ⟨s', h1, h2⟩ := ih { s with
      now := s.now + P, last := s.now + P, failed := false
      figure := some (s.total + (s.now + p.1 - s.start)), starts := s.now :: s.starts }
      (fun q hq => hl q (List.mem_cons_of_mem _ hq)) rfl rfl
    refine ⟨s', ?_, ?_⟩
    · simp only [List.map_cons, State.turns, State.turn, hf, Bool.false_eq_true, if_false, if_true, if_pos hP,
        Option.bind_some, Nat.add_zero, hw]
      exact h1
    · rw [h2]
      simp only [List.reverse_cons, List.append_assoc, List.length_cons, List.range_succ_eq_map, List.map_cons,
        List.map_map, Nat.zero_mul, Nat.add_zero, List.singleton_append, List.append_cancel_left_eq,
        List.cons.injEq, true_and]
      refine List.map_congr_left fun n _ => ?_
      simp only [Function.comp, Nat.succ_eq_add_one, Nat.add_mul]
      omega

/-- **C94 (steady).** If the iterations take less than a period and nothing else takes time, one iteration
starts at each period. -/
theorem C94_steady (hP : 0 < P) (l : List (Nat × Nat)) (hl : ∀ p ∈ l, p.1 + p.2 ≤ P) :
    ∃ s', (s.enter 0).turns P (l.map fun p => .iter 0 p.1 p.2 0 .clust) = some s' ∧
      s'.starts.reverse = (List.range l.length).map fun n => s.now + n * P := by
  obtain ⟨s', h1, h2⟩ := steady hP l (s.enter 0) hl rfl rfl
  exact ⟨s', h1, h2⟩

/-- **C94 (late).** An iteration which ends a period or more after the last one is not followed by a sleep. -/
theorem C94_late {pre dur save over : Nat} {res : Outcome} (hr : res ≠ .fail)
    (hl : s.last + P ≤ s.now + pre + dur + save) (h : s.turn P (.iter pre dur save over res) = some s') :
    s'.now ≤ s.now + pre + dur + save + over := by
  have hw : ((P : Int) - ((s.now + pre + dur + save : Nat) - s.last)).toNat = 0 := by omega
  simp only [State.turn] at h
  split at h
  · cases h
  · cases res with
    | fail => exact absurd rfl hr
    | clust =>
      simp only [if_true, hw] at h
      split at h <;> (cases h; dsimp only; omega)
    | nil =>
      simp only [hw] at h
      split at h <;> (cases h; dsimp only; omega)

/-- Four iterations with a period of 4: the second takes long, and the third starts at once. -/
example : ∃ s', ((State.new 100).enter 0).turns 4
    [.iter 0 1 0 0 .clust, .iter 0 9 0 0 .nil, .iter 0 1 0 0 .clust, .iter 0 0 0 0 .clust] = some s' ∧
    s'.starts.reverse = [100, 104, 113, 117] ∧ (within 104 13 s'.starts).length = 3 ∧ 3 ≤ 13 / 4 + 2 :=
  ⟨_, rfl, rfl, rfl, by decide⟩

/-! ## C95: the duration -/

/-- What a turn does to the clock and the figure. -/
theorem turn_view {t : Turn} (h : s.turn P t = some s') :
    s'.start = s.start ∧ s'.total = s.total ∧ s.now + iterating [t] + paused [t] ≤ s'.now ∧
    (s'.figure = s.figure ∨ ∃ e, s.now ≤ e ∧ e ≤ s'.now ∧ s'.figure = some (s.total + (e - s.start))) := by
  cases t with
  | status d =>
    simp only [State.turn] at h
    split at h
    · cases h
    · cases h
      exact ⟨rfl, rfl, by simp [iterating, paused], .inl rfl⟩
  | iter pre dur save over res =>
    simp only [State.turn] at h
    simp only [iterating, paused]
    split at h
    · cases h
    · cases res with
      | fail => cases h; exact ⟨rfl, rfl, by dsimp only; omega, .inl rfl⟩
      | clust =>
        simp only [if_true] at h
        split at h
        all_goals
          cases h
          refine ⟨rfl, rfl, by dsimp only; omega, .inr ⟨s.now + pre + dur, by omega, by dsimp only; omega, rfl⟩⟩
      | nil =>
        simp only at h
        split at h
        all_goals
          cases h
          refine ⟨rfl, rfl, by dsimp only; omega, .inl rfl⟩

theorem iterating_cons (t : Turn) (ts : List Turn) :
    iterating (t :: ts) = iterating [t] + iterating ts ∧ paused (t :: ts) = paused [t] + paused ts := by
  cases t <;> simp [iterating, paused]

theorem turns_view : ∀ {ts : List Turn} {s : State}, s.start ≤ s.now → s.turns P ts = some s' →
    s'.start = s.start ∧ s'.total = s.total ∧ s.now + iterating ts + paused ts ≤ s'.now ∧
    (s'.figure = s.figure ∨ ∃ e, s.now ≤ e ∧ e ≤ s'.now ∧ s'.figure = some (s.total + (e - s.start))) := by
  intro ts
  induction ts with
  | nil => intro s _ h; cases h; exact ⟨rfl, rfl, Nat.le_refl _, .inl rfl⟩
  | cons t ts ih =>
    intro s h0 h
    simp only [State.turns] at h
    cases ht : s.turn P t with
    | none => rw [ht] at h; cases h
    | some s1 =>
      rw [ht] at h
      obtain ⟨a1, a2, a3, a4⟩ := turn_view ht
      obtain ⟨b1, b2, b3, b4⟩ := ih (by omega) h
      obtain ⟨c1, c2⟩ := iterating_cons t ts
      refine ⟨b1.trans a1, b2.trans a2, by omega, ?_⟩
      rcases b4 with b4 | ⟨e, h1, h2, h3⟩
      · rcases a4 with a4 | ⟨e, h1, h2, h3⟩
        · exact .inl (b4.trans a4)
        · exact .inr ⟨e, h1, by omega, b4.trans h3⟩
      · exact .inr ⟨e, by omega, h2, by rw [h3, a1, a2]⟩

/-- **C95 (a run).** When a run is over, the figure is increased by the time from the start to the end of the
run, which contains what was spent in `Iterate`, in pause and in the 100 ms of `recover`. -/
theorem C95_run {gap d : Nat} {ts : List Turn} (h : s.phase P (.run gap ts d) = some s') :
    s'.total = s.total + (s'.now - (s.now + gap)) ∧ s'.figure = some s'.total ∧
    s.now + gap + iterating ts + paused ts + 100000000 ≤ s'.now := by
  simp only [State.phase] at h
  cases ht : (s.enter gap).turns P ts with
  | none => rw [ht] at h; cases h
  | some s1 =>
    rw [ht] at h
    cases h
    obtain ⟨a1, a2, a3, -⟩ := turns_view (Nat.le_refl _) ht
    simp only [State.enter] at a1 a2 a3
    refine ⟨?_, rfl, ?_⟩
    · simp only [State.leave, a1, a2]
    · simp only [State.leave, rest]; omega

/-- **C95 (during a run).** While a run goes on, the figure is that of the former runs and the time from the
start of the run to the end of its last iteration which returned centroids, or what it was before. -/
theorem C95_during {gap : Nat} {ts : List Turn} (h : (s.enter gap).turns P ts = some s') :
    s'.figure = s.figure ∨ ∃ e, s.now + gap ≤ e ∧ e ≤ s'.now ∧
      s'.figure = some (s.total + (e - (s.now + gap))) :=
  (turns_view (Nat.le_refl _) h).2.2.2

/-- **C95 (sum).** Over any runs without reset, the figure grows at least by the time spent in `Iterate`, in
pause and 100 ms for each run, and at most by the time which has passed. -/
theorem C95_sum : ∀ {ps : List Phase} {s : State}, .reset ∉ ps → s.phases P ps = some s' →
    s.total + occupied ps + runs ps * 100000000 ≤ s'.total ∧ s'.total + s.now ≤ s.total + s'.now ∧
    (runs ps ≠ 0 → s'.figure = some s'.total) ∧ (runs ps = 0 → s'.figure = s.figure ∧ s'.total = s.total) := by
  intro ps
  induction ps with
  | nil =>
    intro s _ h
    cases h
    exact ⟨by simp [occupied, runs], Nat.le_refl _, fun h => absurd rfl h, fun _ => ⟨rfl, rfl⟩⟩
  | cons p ps ih =>
    intro s hn h
    simp only [State.phases] at h
    cases hp : s.phase P p with
    | none => rw [hp] at h; cases h
    | some s1 =>
      rw [hp] at h
      obtain ⟨b1, b2, b3, b4⟩ := ih (fun h => hn (List.mem_cons_of_mem _ h)) h
      cases p with
      | reset => exact absurd List.mem_cons_self hn
      | idle d =>
        cases hp
        exact ⟨b1, by dsimp only at b2; omega, b3, b4⟩
      | run gap ts d =>
        obtain ⟨a1, a2, a3⟩ := C95_run hp
        refine ⟨?_, by omega, fun _ => ?_, fun h => (by cases h)⟩
        · simp only [occupied, runs, Nat.add_mul, Nat.one_mul]
          generalize runs ps * 100000000 = r at b1 ⊢
          generalize (100000000 : Nat) = q at a3 ⊢
          omega
        · by_cases h0 : runs ps = 0
          · rw [(b4 h0).1, (b4 h0).2, a2]
          · exact b3 h0

theorem phases_append {ps qs : List Phase} : ∀ {s : State},
    s.phases P (ps ++ qs) = (s.phases P ps).bind fun s1 => s1.phases P qs := by
  induction ps with
  | nil => intro s; rfl
  | cons p ps ih =>
    intro s
    simp only [List.cons_append, State.phases]
    cases s.phase P p with
    | none => rfl
    | some s1 => exact ih

/-- **C95 (reset).** After an initialisation of a Finished algorithm, the figure counts only the runs which
follow: it is at most the time which has passed since. -/
theorem C95_reset {ps qs : List Phase} (hq : .reset ∉ qs) (h : s.phases P (ps ++ .reset :: qs) = some s') :
    ∃ s0, s.phases P ps = some s0 ∧
      (runs qs = 0 → s'.figure = none) ∧
      (runs qs ≠ 0 → ∃ y, s'.figure = some y ∧ occupied qs + runs qs * 100000000 ≤ y ∧
        y + s0.now ≤ s'.now) := by
  rw [phases_append] at h
  cases h0 : s.phases P ps with
  | none => rw [h0] at h; cases h
  | some s0 =>
    rw [h0] at h
    simp only [Option.bind_some, State.phases, State.phase] at h
    obtain ⟨b1, b2, b3, b4⟩ := C95_sum hq h
    dsimp only at b1 b2 b4
    exact ⟨s0, rfl, fun hr => (b4 hr).1, fun hr => ⟨_, b3 hr, by omega, by omega⟩⟩

theorem figure_le : ∀ {ps : List Phase} {s : State}, (∀ x, s.figure = some x → x ≤ s.total) →
    s.phases P ps = some s' → ∀ x, s'.figure = some x → x ≤ s'.total := by
  intro ps
  induction ps with
  | nil => intro s hs h; cases h; exact hs
  | cons p ps ih =>
    intro s hs h
    simp only [State.phases] at h
    cases hp : s.phase P p with
    | none => rw [hp] at h; cases h
    | some s1 =>
      rw [hp] at h
      refine ih ?_ h
      cases p with
      | reset => cases hp; intro x hx; cases hx
      | idle d => cases hp; exact hs
      | run gap ts d =>
        obtain ⟨a1, a2, a3⟩ := C95_run hp
        intro x hx
        rw [a2] at hx
        cases hx
        exact Nat.le_refl _

/-- **C95 (monotone).** The figure never decreases from one moment of a run to another, nor at the end of
it. -/
theorem C95_monotone {t0 gap : Nat} {ps : List Phase} {ts ts' : List Turn} {s1 s2 : State} {x : Nat}
    (h : (State.new t0).phases P ps = some s) (h1 : (s.enter gap).turns P ts = some s1)
    (hx : s1.figure = some x) (h2 : s1.turns P ts' = some s2) :
    (∃ y, s2.figure = some y ∧ x ≤ y) ∧ ∀ d, ∃ y, (s2.leave d).figure = some y ∧ x ≤ y := by
  have h0 := figure_le (s := State.new t0) (fun x hx => by cases hx) h
  obtain ⟨a1, a2, a3, a4⟩ := turns_view (Nat.le_refl _) h1
  simp only [State.enter] at a1 a2 a3 a4
  obtain ⟨b1, b2, b3, b4⟩ := turns_view (by omega) h2
  have hle : x ≤ s.total + (s1.now - s1.start) := by
    rcases a4 with a4 | ⟨e, _, h4, h5⟩
    · have := h0 x (a4.symm.trans hx); omega
    · rw [hx] at h5; cases h5; omega
  refine ⟨?_, fun d => ⟨_, rfl, ?_⟩⟩
  · rcases b4 with b4 | ⟨e, h3, _, h5⟩
    · exact ⟨x, b4.trans hx, Nat.le_refl _⟩
    · exact ⟨_, h5, by omega⟩
  · rw [b1, b2]; omega

/-- **C95 (with a frequency).** A run with a period `P` in which `n` iterations have returned lasts at least
`n` periods, up to the time between the two first readings of the clock. -/
theorem C95_period (hP : 0 < P) {gap d : Nat} {ts : List Turn} {s1 : State}
    (h1 : (s.enter gap).turns P ts = some s1) (hf : s1.failed = false) :
    ∃ y, (s1.leave d).figure = some y ∧ s.total + s1.starts.length * P ≤ y + gap := by
  have hp := (Paced.enter (P := P) s gap).turns hP h1
  obtain ⟨a1, a2, a3, -⟩ := turns_view (Nat.le_refl _) h1
  simp only [State.enter] at a1 a2 a3
  refine ⟨_, rfl, ?_⟩
  have := hp.zero hf
  have := hp.le
  rw [a1, a2]
  omega

/-- **C95 (claim examined).** The figure is not the time spent iterating: a run without any iteration has a
duration of 100 ms, and a pause counts. -/
theorem C95_not_iterating : (∃ s', (State.new 0).phases 0 [.run 0 [] 0] = some s' ∧
      s'.figure = some 100000000) ∧
    ∃ s', (State.new 0).phases 0 [.run 0 [.iter 0 1000 0 0 .clust, .status 5000000000, .iter 0 1000 0 0 .clust] 0]
      = some s' ∧ iterating [.iter 0 1000 0 0 .clust, .status 5000000000, .iter 0 1000 0 0 .clust] = 2000 ∧
      s'.figure = some 5100002000 :=
  ⟨⟨_, rfl, rfl⟩, _, rfl, rfl, rfl⟩

/-- Two runs, a reset, and a third run. -/
example : ∃ s1 s2, (State.new 7).phases 3 [.run 1 [.iter 0 2 0 0 .clust] 0, .idle 50, .run 0 [.status 4] 6] = some s1 ∧
    s1.figure = some (2 + 100000000 + (4 + 100000000 + 6)) ∧
    s1.phases 3 [.reset, .run 0 [.iter 1 1 1 1 .fail] 0] = some s2 ∧ s2.figure = some 100000002 :=
  ⟨_, _, rfl, rfl, rfl, rfl⟩

end Distclus
