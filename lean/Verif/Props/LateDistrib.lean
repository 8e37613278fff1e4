import Verif.Model.LateDistrib
import Mathlib.Tactic.SplitIfs
/-!
# C33: `LateDistrib` builds once
-/
namespace Distclus

variable {E D : Type}

/-- The goroutine is between `Lock` and `Unlock`. -/
def LatePC.inside : LatePC E D → Bool
  | .recheck _ | .build _ | .write _ | .setFlag | .unlock _ => true
  | _ => false

/-- Nothing built, or one value built and published. -/
def LateState.Settled (s : LateState E D) : Prop :=
  (s.initialized = false ∧ s.built = [] ∧ s.distrib = none ∧ s.calls = s.panics) ∨
  (s.initialized = true ∧ s.calls = s.panics + 1 ∧ ∃ b, s.built = [b] ∧ s.distrib = some b)

/-- What is known when the holder of the mutex is at some place. -/
def LateState.Know (s : LateState E D) : Option (LatePC E D) → Prop
  | some (.build _) => s.initialized = false ∧ s.built = [] ∧ s.distrib = none ∧
      s.calls = s.panics + 1
  | some (.write b) => s.initialized = false ∧ s.built = [b] ∧ s.distrib = none ∧
      s.calls = s.panics + 1
  | some .setFlag => s.initialized = false ∧ s.calls = s.panics + 1 ∧
      ∃ b, s.built = [b] ∧ s.distrib = some b
  | _ => s.Settled

/-- The invariant of the schedules. -/
structure LateInv (s : LateState E D) : Prop where
  /-- mutual exclusion -/
  mutex : ∀ t, (s.pc t).inside = true ↔ s.mu = some t
  know : s.Know (s.mu.map s.pc)
  /-- the calls that go on have seen the flag -/
  use : ∀ t, s.pc t = .use ∨ s.pc t = .unlock false → s.initialized = true
  /-- the completed calls -/
  used : ∀ o ∈ s.used, s.initialized = true ∧ ∃ b, s.built = [b] ∧ o = some b

theorem lateInv_new : LateInv (LateState.new : LateState E D) := by
  constructor <;> simp [LateState.new, LatePC.inside, LateState.Know, LateState.Settled]

/-- A move of a goroutine that is outside before and after, changing nothing else. -/
theorem lateInv_outside {s : LateState E D} (hi : LateInv s) (t : Nat) (q : LatePC E D)
    (h1 : (s.pc t).inside = false) (h2 : q.inside = false)
    (h3 : q = .use → s.initialized = true) : LateInv (s.goto t q) := by
  have hmu : s.mu ≠ some t := fun h => by rw [(hi.mutex t).2 h] at h1; cases h1
  constructor
  · intro j
    simp only [LateState.goto]
    split_ifs with hj
    · subst hj; rw [h2]; simp [hmu]
    · exact hi.mutex j
  · have : (s.goto t q).mu.map (s.goto t q).pc = s.mu.map s.pc := by
      simp only [LateState.goto]
      cases hm : s.mu with
      | none => rfl
      | some j =>
        have : j ≠ t := fun h => hmu (by rw [hm, h])
        simp [this]
    rw [this]
    exact hi.know
  · intro j
    simp only [LateState.goto]
    split_ifs with hj
    · rintro (h | h)
      · exact h3 h
      · rw [h] at h2; cases h2
    · exact hi.use j
  · exact hi.used

/-- A move of the holder of the mutex that stays inside. -/
theorem lateInv_inside {s : LateState E D} (hi : LateInv s) (t : Nat) (q : LatePC E D)
    (h1 : (s.pc t).inside = true) (h2 : q.inside = true) (s' : LateState E D)
    (hmu : s'.mu = s.mu) (hpc : s'.pc = (s.goto t q).pc) (hknow : s'.Know (some q))
    (hq : q = .unlock false → s'.initialized = true)
    (hmono : s.initialized = true → s'.initialized = true)
    (hbuilt : s.initialized = true → s'.built = s.built) (hused : s'.used = s.used) :
    LateInv s' := by
  have hm : s.mu = some t := (hi.mutex t).1 h1
  have hpct : ∀ j, s'.pc j = if j = t then q else s.pc j := by
    intro j; rw [hpc]; rfl
  constructor
  · intro j
    rw [hpct, hmu, hm]
    split_ifs with hj
    · simp [h2, hj]
    · rw [hi.mutex j, hm]
  · rw [hmu, hm]
    simp only [Option.map_some, hpct, if_true]
    exact hknow
  · intro j
    rw [hpct]
    split_ifs with hj
    · rintro (h | h)
      · rw [h] at h2; cases h2
      · exact hq h
    · intro h
      exact hmono (hi.use j h)
  · rw [hused]
    intro o ho
    obtain ⟨a1, b, a2, a3⟩ := hi.used o ho
    exact ⟨hmono a1, b, by rw [hbuilt a1, a2], a3⟩

theorem lateInv_step (s s' : LateState E D) (t : Nat) (c : LateChoice E D) (hi : LateInv s)
    (h : s.step t c = some s') : LateInv s' := by
  have hknow : (s.pc t).inside = true → s.Know (some (s.pc t)) := by
    intro hin
    have := hi.know
    rw [(hi.mutex t).1 hin] at this
    exact this
  unfold LateState.step at h
  split at h
  · rename_i e hpc
    cases h
    exact lateInv_outside hi t _ (by rw [hpc]; rfl) rfl (by simp)
  · rename_i e hpc
    cases h
    cases hin : s.initialized with
    | true => exact lateInv_outside hi t _ (by rw [hpc]; rfl) (by simp [LatePC.inside])
                (fun _ => hin)
    | false => exact lateInv_outside hi t _ (by rw [hpc]; rfl) (by simp [LatePC.inside]) (by simp)
  · -- lock
    rename_i e hpc
    split_ifs at h with hm
    cases h
    constructor
    · intro j
      simp only [LateState.goto]
      split_ifs with hj
      · simp [LatePC.inside, hj]
      · rw [hi.mutex j, hm]; simp [Ne.symm hj]
    · have := hi.know
      rw [hm] at this
      simp only [LateState.goto, Option.map_some, if_true]
      exact this
    · intro j
      simp only [LateState.goto]
      split_ifs with hj
      · simp
      · exact hi.use j
    · exact hi.used
  · -- recheck
    rename_i e hpc
    have hk := hknow (by rw [hpc]; rfl)
    rw [hpc] at hk
    split_ifs at h with hin
    · cases h
      exact lateInv_inside hi t (.unlock false) (by rw [hpc]; rfl) rfl _ rfl rfl hk (fun _ => hin)
        id (fun _ => rfl) rfl
    · cases h
      rcases hk with ⟨k1, k2, k3, k4⟩ | ⟨k1, _⟩
      · exact lateInv_inside hi t (.build e) (by rw [hpc]; rfl) rfl _ rfl rfl
          ⟨k1, k2, k3, by change s.calls + 1 = s.panics + 1; rw [k4]⟩ (by simp) id (fun _ => rfl) rfl
      · exact absurd k1 hin
  · -- builds
    rename_i e b hpc
    have hk := hknow (by rw [hpc]; rfl)
    rw [hpc] at hk
    obtain ⟨k1, k2, k3, k4⟩ := hk
    cases h
    exact lateInv_inside hi t (.write b) (by rw [hpc]; rfl) rfl _ rfl rfl
      ⟨k1, by change s.built ++ [b] = [b]; rw [k2]; rfl, k3, k4⟩ (by simp) id
      (fun h => by rw [k1] at h; cases h) rfl
  · -- panics
    rename_i e hpc
    have hk := hknow (by rw [hpc]; rfl)
    rw [hpc] at hk
    obtain ⟨k1, k2, k3, k4⟩ := hk
    cases h
    exact lateInv_inside hi t (.unlock true) (by rw [hpc]; rfl) rfl _ rfl rfl
      (.inl ⟨k1, k2, k3, k4⟩) (by simp) id (fun _ => rfl) rfl
  · -- write
    rename_i b hpc
    have hk := hknow (by rw [hpc]; rfl)
    rw [hpc] at hk
    obtain ⟨k1, k2, k3, k4⟩ := hk
    cases h
    exact lateInv_inside hi t .setFlag (by rw [hpc]; rfl) rfl _ rfl rfl
      ⟨k1, k4, b, k2, rfl⟩ (by simp) id (fun _ => rfl) rfl
  · -- setFlag
    rename_i hpc
    have hk := hknow (by rw [hpc]; rfl)
    rw [hpc] at hk
    obtain ⟨k1, k2, b, k3, k4⟩ := hk
    cases h
    exact lateInv_inside hi t (.unlock false) (by rw [hpc]; rfl) rfl _ rfl rfl
      (.inr ⟨rfl, k2, b, k3, k4⟩) (fun _ => rfl) (fun _ => rfl) (fun _ => rfl) rfl
  · -- unlock
    rename_i p hpc
    have hin : (s.pc t).inside = true := by rw [hpc]; rfl
    have hk := hknow hin
    rw [hpc] at hk
    have hm := (hi.mutex t).1 hin
    cases h
    constructor
    · intro j
      simp only [LateState.goto]
      by_cases hj : j = t
      · subst hj; cases p <;> simp [LatePC.inside]
      · simp only [hj, if_false]; rw [hi.mutex j, hm]; simp [Ne.symm hj]
    · exact hk
    · intro j
      simp only [LateState.goto]
      by_cases hj : j = t
      · subst hj
        cases p with
        | true => simp
        | false => intro _; exact hi.use j (.inr hpc)
      · simp only [hj, if_false]; exact hi.use j
    · exact hi.used
  · -- use
    rename_i hpc
    have huse := hi.use t (.inl hpc)
    have hsettled : ∃ b, s.built = [b] ∧ s.distrib = some b := by
      have hk := hi.know
      revert hk
      generalize s.mu.map s.pc = q
      intro hk
      unfold LateState.Know at hk
      split at hk
      · rw [huse] at hk; cases hk.1
      · rw [huse] at hk; cases hk.1
      · rw [huse] at hk; cases hk.1
      · rcases hk with ⟨h, _⟩ | ⟨_, _, h⟩
        · rw [huse] at h; cases h
        · exact h
    cases h
    have := lateInv_outside hi t .idle (by rw [hpc]; rfl) rfl (by simp)
    refine ⟨this.mutex, this.know, this.use, ?_⟩
    intro o ho
    rcases List.mem_append.1 ho with ho | ho
    · exact hi.used o ho
    · rw [List.mem_singleton] at ho
      subst ho
      obtain ⟨b, h1, h2⟩ := hsettled
      exact ⟨huse, b, h1, h2⟩
  · cases h

theorem lateInv_run (l : List (Nat × LateChoice E D)) : ∀ (s s' : LateState E D), LateInv s →
    s.run l = some s' → LateInv s' := by
  induction l with
  | nil => intro s s' hi h; cases h; exact hi
  | cons x l ih =>
    intro s s' hi h
    unfold LateState.run at h
    split at h
    · cases h
    · rename_i s1 h1
      exact ih s1 s' (lateInv_step s s1 x.1 x.2 hi h1) h

/-- **C33.** For every number of goroutines and every schedule: the builder succeeds at most once (it
is called at most once more than it panics); if some call has completed it has succeeded exactly once,
and every completed call has used the value it built. -/
theorem C33_builds_once (l : List (Nat × LateChoice E D)) (s : LateState E D)
    (h : LateState.new.run l = some s) :
    s.built.length ≤ 1 ∧ s.calls ≤ s.panics + 1 ∧
    (s.used ≠ [] → ∃ b, s.built = [b]) ∧
    (∀ o ∈ s.used, ∃ b, s.built = [b] ∧ o = some b) := by
  have hi := lateInv_run l _ _ lateInv_new h
  have hk : s.built.length ≤ 1 ∧ s.calls ≤ s.panics + 1 := by
    have hk := hi.know
    revert hk
    generalize s.mu.map s.pc = q
    intro hk
    unfold LateState.Know at hk
    split at hk
    · obtain ⟨_, h2, _, h4⟩ := hk; simp [h2, h4]
    · obtain ⟨_, h2, _, h4⟩ := hk; simp [h2, h4]
    · obtain ⟨_, h4, b, h2, _⟩ := hk; simp [h2, h4]
    · rcases hk with ⟨_, h2, _, h4⟩ | ⟨_, h4, b, h2, _⟩ <;> simp [h2, h4]
  refine ⟨hk.1, hk.2, fun hne => ?_, fun o ho => ?_⟩
  · obtain ⟨o, ho⟩ := List.exists_mem_of_ne_nil _ hne
    obtain ⟨_, b, hb, _⟩ := hi.used o ho
    exact ⟨b, hb⟩
  · obtain ⟨_, b, hb, he⟩ := hi.used o ho
    exact ⟨b, hb, he⟩

/-- **C33** (mutual exclusion). The builder never runs in two goroutines at once. -/
theorem C33_exclusive (l : List (Nat × LateChoice E D)) (s : LateState E D)
    (h : LateState.new.run l = some s) (t t' : Nat) (e e' : E) (h1 : s.pc t = .build e)
    (h2 : s.pc t' = .build e') : t = t' := by
  have hi := lateInv_run l _ _ lateInv_new h
  have m1 := (hi.mutex t).1 (by rw [h1]; rfl)
  have m2 := (hi.mutex t').1 (by rw [h2]; rfl)
  rw [m1] at m2
  exact Option.some.inj m2

/-- **C33** (no deadlock). While some call is pending, some pending call can make a step. -/
theorem C33_no_deadlock (l : List (Nat × LateChoice E D)) (s : LateState E D)
    (h : LateState.new.run l = some s) (t : Nat) (ht : s.pc t ≠ .idle) :
    ∃ t' c, s.pc t' ≠ .idle ∧ (s.step t' c).isSome = true := by
  have hi := lateInv_run l _ _ lateInv_new h
  have hin : ∀ j, (s.pc j).inside = true → ∃ c, (s.step j c).isSome = true := by
    intro j hj
    cases hpc : s.pc j with
    | idle => rw [hpc] at hj; cases hj
    | check e => rw [hpc] at hj; cases hj
    | lock e => rw [hpc] at hj; cases hj
    | use => rw [hpc] at hj; cases hj
    | recheck e => exact ⟨.go, by unfold LateState.step; rw [hpc]; simp only; split <;> rfl⟩
    | build e => exact ⟨.panics, by unfold LateState.step; rw [hpc]; rfl⟩
    | write b => exact ⟨.go, by unfold LateState.step; rw [hpc]; rfl⟩
    | setFlag => exact ⟨.go, by unfold LateState.step; rw [hpc]; rfl⟩
    | unlock p => exact ⟨.go, by unfold LateState.step; rw [hpc]; rfl⟩
  cases hm : s.mu with
  | some j =>
    have hj := (hi.mutex j).2 hm
    obtain ⟨c, hc⟩ := hin j hj
    refine ⟨j, c, ?_, hc⟩
    intro h; rw [h] at hj; cases hj
  | none =>
    have hout : (s.pc t).inside = false := by
      cases hb : (s.pc t).inside with
      | false => rfl
      | true => rw [(hi.mutex t).1 hb] at hm; cases hm
    refine ⟨t, .go, ht, ?_⟩
    cases hpc : s.pc t with
    | idle => exact absurd hpc ht
    | check e => unfold LateState.step; rw [hpc]; rfl
    | lock e => unfold LateState.step; rw [hpc]; simp [hm]
    | use => unfold LateState.step; rw [hpc]; rfl
    | recheck e => rw [hpc] at hout; cases hout
    | build e => rw [hpc] at hout; cases hout
    | write b => rw [hpc] at hout; cases hout
    | setFlag => rw [hpc] at hout; cases hout
    | unlock p => rw [hpc] at hout; cases hout

/-- Two goroutines race: the first one builds, the second one waits for the mutex and uses the value
built by the first; a third one comes late. -/
example : ((LateState.new : LateState Nat String).run
    [(0, .call 5), (1, .call 6), (0, .go), (1, .go), (0, .go), (0, .go), (0, .builds "a"), (0, .go),
      (2, .call 7), (2, .go), (0, .go), (0, .go), (1, .go), (1, .go), (1, .go), (1, .go), (2, .go),
      (0, .go), (2, .go), (2, .go), (2, .go)]).map (fun s => (s.built, s.used, s.calls)) =
    some (["a"], [some "a", some "a", some "a"], 1) := by decide

end Distclus
