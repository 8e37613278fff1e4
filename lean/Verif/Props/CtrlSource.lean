import Verif.Proof.CtrlSource
import Verif.Props.CtrlBlock
import Verif.Props.KMeans
/-!
# C93: where the centroids come from

For any number of clients: the centroids the controller shows have been returned by the implementation, and
what the implementation keeps holds of them.
-/
namespace Distclus
open Ctrl Algo Spec

variable {C : Type} {conf : Conf} {s : Algo C}

/-- **C93.** In every execution, with any clients: centroids returned by `Centroids()` were returned before by
`Init` or `Iterate` of the implementation. -/
theorem C93_source (h : Reachable conf s) {t : Nat} {c : C} {l1 l2 : List (Event C)}
    (hl : s.log = l1 ++ .ret t (.centroids (some c)) :: l2) : Produced c l2 := by
  obtain ⟨s0, s1, h0, rfl, hs, h1⟩ := h.past hl
  have := h0.src.logStep hs
  rw [h1] at this
  exact this.1 c rfl

/-- **C93 (iterations).** So were the centroids given to `Iterate`. -/
theorem C93_given (h : Reachable conf s) {r : Nat} {st : OCStatus} {c : C} {l1 l2 : List (Event C)}
    (hl : s.log = l1 ++ .iterCall r st (some c) :: l2) : Produced c l2 := by
  obtain ⟨s0, s1, h0, rfl, hs, h1⟩ := h.past hl
  have := h0.src.logStep hs
  rw [h1] at this
  exact this.1 c rfl

theorem works_tail {I : C → Prop} {R : C → C → Prop} : ∀ {l1 : List (Event C)} {l2 : List (Event C)},
    Works I R (l1 ++ l2) → Works I R l2 := by
  intro l1
  induction l1 with
  | nil => intro l2 h; exact h
  | cons e l ih =>
    intro l2 h
    cases e <;> first | exact ih h.2 | exact ih h

/-- **C93 (kept).** What `Init` establishes and `Iterate` maintains holds of every result of `Centroids()`,
whatever the clients do, even if several runs iterate at the same time. -/
theorem C93_kept (h : Reachable conf s) {I Q : C → Prop} {R : C → C → Prop} (hI : ∀ c, I c → Q c)
    (hR : ∀ c c', R c c' → Q c → Q c') {t : Nat} {c : C} {l1 l2 : List (Event C)}
    (hl : s.log = l1 ++ .ret t (.centroids (some c)) :: l2) (hW : Works I R l2) : Q c := by
  have hp := C93_source h hl
  obtain ⟨s0, s1, h0, rfl, hs, h1⟩ := h.past hl
  exact keeps_produced h0.src.log (works_keeps hI hR hW) c hp

/-- **C93 (k-means).** Whatever the clients of a k-means algorithm do, `Centroids()` returns nil or `k`
centroids, if the initializer gives `k`. -/
theorem C93_kmeans {E F : Type} [Zero F] [One F] [Neg F] [LT F] [DecidableLT F] {conf : Conf}
    {s : Algo (List E)} (hneg : (-1 : F) < 0) (alg : KStrategy) (ha : alg.Valid) (space : Space E F)
    (h : Reachable conf s) {k : Nat} (hk : 0 < k) {t : Nat} {c : Option (List E)}
    {l1 l2 : List (Event (List E))} (hl : s.log = l1 ++ .ret t (.centroids c) :: l2)
    (hW : Works (fun c => c.length = k) (fun c c' => ∃ data, kmeansStep alg space data c = some c') l2) :
    c = none ∨ ∃ out, c = some out ∧ out.length = k := by
  cases c with
  | none => exact .inl rfl
  | some out =>
    refine .inr ⟨out, rfl, C93_kept h (Q := fun c => c.length = k) (fun _ h => h) ?_ hl hW⟩
    rintro c c' ⟨data, hd⟩ hq
    have hc : c ≠ [] := by rintro rfl; simp at hq; omega
    obtain ⟨o, h1, h2, -⟩ := C23_iterate hneg alg ha space c data hc
    simp only [kmeansStep, h1, allSome_map_some, Option.some.injEq] at hd
    rw [← hd, h2, hq]

/-- **C93 (nil).** If `Init` of the implementation always returns centroids, `Centroids()` returns nil only
until the end of the first initialisation: no status but Initializing has been set, and no iteration has
been started. -/
theorem C93_nil (h : Reachable conf s) {t : Nat} {l1 l2 : List (Event C)}
    (hl : s.log = l1 ++ .ret t (.centroids none) :: l2) (hF : Filled l2) :
    (∀ st, .set st ∈ l2 → st.value = .initializing) ∧ ∀ r st c, .iterCall r st c ∉ l2 := by
  obtain ⟨s0, s1, h0, rfl, hs, h1⟩ := h.past hl
  rcases hs.log with ⟨e, _⟩ | ⟨e, h2, -, h3⟩
  · rw [e] at h1; exact absurd (congrArg List.length h1) (by simp)
  · rw [h1] at h2
    cases h2
    exact (h0.early hF h3.2.1.symm).2.2

/-- **C93 (never nil).** Then no `Iterate` is given nil. -/
theorem C93_not_nil (h : Reachable conf s) {r : Nat} {st : OCStatus} {c : Option C} {l1 l2 : List (Event C)}
    (hl : s.log = l1 ++ .iterCall r st c :: l2) (hF : Filled l2) : c ≠ none := by
  obtain ⟨s0, s1, h0, rfl, hs, h1⟩ := h.past hl
  rcases hs.log with ⟨e, _⟩ | ⟨e, h2, -, h3⟩
  · rw [e] at h1; exact absurd (congrArg List.length h1) (by simp)
  · rw [h1] at h2
    cases h2
    rintro rfl
    have := (h0.early hF h3.2.2.1.symm).1 r
    rw [h3.1] at this
    cases this

/-! ## An execution with two runs which meets the hypotheses -/

namespace Sources
open Trace

/-- A client reads the centroids; two runs iterate at the same time and record their results, and the client
reads the centroids after each. -/
def mixed : List (Act Nat) :=
  [.client, call 0 .centroids, g 0] ++ twoPlays.tail ++
    [.act 3 (.iterOk 7), g 3, g 3, call 0 .centroids, g 0, .act 4 (.iterOk 8), g 4, g 4,
      call 0 .centroids, g 0]

/-- A test of `Works`. -/
def worksB (I : Nat → Bool) (R : Nat → Nat → Bool) : List (Event Nat) → Bool
  | [] => true
  | .initRet c _ :: l => c.all I && worksB I R l
  | .iterOk r c :: l => (match given r l with
    | some (some x) => R x c
    | _ => false) && worksB I R l
  | _ :: l => worksB I R l

theorem works_of_test {I : Nat → Bool} {R : Nat → Nat → Bool} : ∀ {l : List (Event Nat)},
    worksB I R l = true → Works (fun c => I c = true) (fun c c' => R c c' = true) l := by
  intro l
  induction l with
  | nil => intro _; trivial
  | cons e l ih =>
    intro h
    cases e
    case initRet c x =>
      simp only [worksB, Bool.and_eq_true] at h
      refine ⟨fun y hy => ?_, ih h.2⟩
      rw [hy] at h
      exact h.1
    case iterOk r c =>
      simp only [worksB, Bool.and_eq_true] at h
      refine ⟨?_, ih h.2⟩
      have h1 := h.1
      split at h1
      · rename_i x hx; exact ⟨x, hx, h1⟩
      · cases h1
    all_goals exact ih h

/-- The last centroids read, 8, are at least 5, because `Init` returned 5 and the iterations increase. -/
example : ∃ (s : Algo Nat) (l2 : List (Event Nat)), Reachable plain s ∧
    s.log = .ret 0 (.centroids (some 8)) :: l2 ∧
    rets 0 s.log = [.centroids (some 8), .centroids (some 7), .err none, .err none, .centroids none] ∧
    Works (fun c => decide (5 ≤ c) = true) (fun c c' => decide (c ≤ c') = true) l2 ∧
    Produced 8 l2 ∧ 5 ≤ 8 := by
  obtain ⟨s, hr, hs⟩ := Algo.reach (conf := plain) mixed
    (fun s => decide (s.log.head? = some (.ret 0 (.centroids (some 8))) ∧
      rets 0 s.log = [.centroids (some 8), .centroids (some 7), .err none, .err none, .centroids none] ∧
      worksB (fun c => decide (5 ≤ c)) (fun c c' => decide (c ≤ c')) s.log.tail = true))
    (by decide +kernel)
  obtain ⟨h1, h2, h3⟩ := of_decide_eq_true hs
  obtain ⟨l2, hl⟩ : ∃ l2, s.log = .ret 0 (.centroids (some 8)) :: l2 := by
    cases hlog : s.log with
    | nil => rw [hlog] at h1; cases h1
    | cons e l => rw [hlog] at h1; cases h1; exact ⟨l, rfl⟩
  rw [hl] at h3
  have hw := works_of_test h3
  refine ⟨s, l2, hr, hl, h2, hw, C93_source hr (l1 := []) hl, ?_⟩
  exact C93_kept (C := Nat) hr (Q := fun c => 5 ≤ c) (fun c h => of_decide_eq_true h)
    (fun c c' h hq => Nat.le_trans hq (of_decide_eq_true h)) (l1 := []) hl hw

/-- The first read is nil, and `C93_nil` applies to it. -/
example : ∃ (s : Algo Nat) (l1 l2 : List (Event Nat)), Reachable plain s ∧
    s.log = l1 ++ .ret 0 (.centroids none) :: l2 ∧ .initRet (some 5) none ∈ l1 ∧ Filled l2 := by
  obtain ⟨s, hr, hs⟩ := Algo.reach (conf := plain) mixed
    (fun s => decide ((s.log.reverse.take 2) = [.call 0 .centroids, .ret 0 (.centroids none)] ∧
      .initRet (some 5) none ∈ s.log)) (by decide +kernel)
  obtain ⟨h1, h2⟩ := of_decide_eq_true hs
  have hl : s.log = (s.log.reverse.drop 2).reverse ++ [.ret 0 (.centroids none), .call 0 .centroids] := by
    have := List.take_append_drop 2 s.log.reverse
    rw [h1] at this
    have := congrArg List.reverse this
    simpa using this.symm
  refine ⟨s, _, _, hr, hl, ?_, fun e h => ?_⟩
  · rw [hl] at h2
    rcases List.mem_append.1 h2 with h | h
    · exact h
    · simp at h
  · simp at h

end Sources
end Distclus
