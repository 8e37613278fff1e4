import Verif.Proof.CtrlStep
/-!
# The locks of the controller
-/
namespace Distclus
open Ctrl
namespace Algo
variable {C : Type}

/-- Program counters inside a section protected by `statusMutex`. -/
def holdsS : PC C → Bool
  | .in1 _ | .in2 _ | .in3 _ | .in4 _ | .in5 _ | .in6 _ _ _ | .in7 _ _ _ | .in8 _ _
  | .in9 _ _ | .in10 _ _ | .pl1 | .it1 _ | .it2
  | .c1 _ | .c2 _ | .c3 _ | .c4 _ | .c5 _ | .c6 | .c7 | .c8 => true
  | _ => false

/-- Program counters at which `modelMutex` is held, or announced, for writing. -/
def holdsM : PC C → Bool
  | .pu3 | .pu4 | .in2 _ | .in7 _ _ _ | .rS' _ | .c3 _ => true
  | _ => false

/-- Program counters reachable inside the `Play` called by `Push`, and its end. -/
def inPlay : PC C → Bool
  | .pu6 | .pl0 | .pl1 | .pl2 | .pl3
  | .in1 .play | .in2 .play | .in3 .play | .in4 .play | .in5 .play | .in6 .play _ _
  | .in7 .play _ _ | .in8 .play _ | .in9 .play _ | .in10 .play _
  | .sd0 _ .playIdle | .sd1 _ .playIdle | .sd2 .playIdle | .sd3 _ .playIdle
  | .sd0 _ .playRun | .sd1 _ .playRun | .sd2 .playRun | .sd3 _ .playRun => true
  | _ => false

/-- The lock discipline. -/
structure LockInv (s : Algo C) : Prop where
  /-- only the holder is inside a section of `statusMutex` -/
  hS : ∀ t, holdsS (s.thr t).pc → s.sm = some t
  /-- the writer of `modelMutex` is the goroutine inside a section -/
  hM : ∀ t, holdsM (s.thr t).pc ↔ s.ma = some t
  /-- the readers of `modelMutex` are the goroutines inside `Push` -/
  hR : ∀ t, s.mr.count t = if (s.thr t).inPush then 1 else 0
  /-- inside `Push` -/
  push : ∀ t, (s.thr t).inPush → inPlay (s.thr t).pc
  notPush : ∀ t, (s.thr t).pc = .pu6 → (s.thr t).inPush
  unborn : ∀ t, s.n ≤ t → (s.thr t).pc = .dead

theorem LockInv.lt {s : Algo C} (hI : LockInv s) {t : Nat} (h : (s.thr t).pc ≠ .dead) : t < s.n := by
  by_contra hc
  exact h (hI.unborn t (by omega))

/-- What a move of `t` from `p` to `p'` does to the locks. -/
structure LockMove (s s' : Algo C) (t : Nat) (p p' : PC C) : Prop where
  old : (s.thr t).pc = p
  new : (s'.thr t).pc = p'
  lt : t < s.n
  other : ∀ j, j ≠ t → (s'.thr j).pc = (s.thr j).pc ∧ (s'.thr j).inPush = (s.thr j).inPush
  n : s'.n = s.n
  S : (s'.sm = s.sm ∧ (holdsS p' → holdsS p)) ∨ (s.sm = none ∧ s'.sm = some t) ∨
      (s'.sm = none ∧ holdsS p = true ∧ holdsS p' = false)
  M : (s'.ma = s.ma ∧ holdsM p' = holdsM p) ∨ (s.ma = none ∧ s'.ma = some t ∧ holdsM p' = true) ∨
      (s'.ma = none ∧ holdsM p = true ∧ holdsM p' = false)
  R : (s'.mr = s.mr ∧ (s'.thr t).inPush = (s.thr t).inPush) ∨
      (s'.mr = t :: s.mr ∧ (s.thr t).inPush = false ∧ (s'.thr t).inPush = true) ∨
      (s'.mr = s.mr.erase t ∧ (s.thr t).inPush = true ∧ (s'.thr t).inPush = false)
  P : (s'.thr t).inPush → inPlay p'
  Q : p' = .pu6 → (s'.thr t).inPush

theorem LockInv.move {s s' : Algo C} {t : Nat} {p p' : PC C} (hI : LockInv s)
    (h : LockMove s s' t p p') : LockInv s' := by
  obtain ⟨hS, hM, hR, hP, hQ, hU⟩ := hI
  obtain ⟨ho, hn, hl, hot, hnn, h1, h2, h3, h4, h5⟩ := h
  constructor
  · intro j hj
    by_cases hjt : j = t
    · subst hjt
      rw [hn] at hj
      rcases h1 with ⟨a, b⟩ | ⟨a, b⟩ | ⟨a, b, c⟩
      · rw [a]; exact hS j (by rw [ho]; exact b hj)
      · exact b
      · rw [c] at hj; cases hj
    · rw [(hot j hjt).1] at hj
      have := hS j hj
      rcases h1 with ⟨a, b⟩ | ⟨a, b⟩ | ⟨a, b, c⟩
      · rw [a]; exact this
      · rw [a] at this; cases this
      · have := hS t (by rw [ho]; exact b)
        simp_all
  · intro j
    by_cases hjt : j = t
    · subst hjt
      rw [hn]
      have := hM j
      rw [ho] at this
      rcases h2 with ⟨a, b⟩ | ⟨a, b, c⟩ | ⟨a, b, c⟩
      · rw [a, b]; exact this
      · simp [b, c]
      · simp [a, c]
    · rw [(hot j hjt).1, hM j]
      have := hM t
      rw [ho] at this
      rcases h2 with ⟨a, b⟩ | ⟨a, b, c⟩ | ⟨a, b, c⟩
      · rw [a]
      · simp [a, b]; omega
      · simp only [b, true_iff] at this; simp [a, this]; omega
  · intro j
    by_cases hjt : j = t
    · subst hjt
      have := hR j
      rcases h3 with ⟨a, b⟩ | ⟨a, b, c⟩ | ⟨a, b, c⟩
      · rw [a, b]; exact this
      · rw [b] at this; simp only [Bool.false_eq_true, if_false] at this
        simp [a, c, this]
      · rw [b] at this; simp only [if_true] at this
        simp [a, c, List.count_erase_self, this]
    · rw [(hot j hjt).2, ← hR j]
      rcases h3 with ⟨a, b⟩ | ⟨a, b, c⟩ | ⟨a, b, c⟩
      · rw [a]
      · rw [a, List.count_cons_of_ne (by simpa using fun h => hjt h.symm)]
      · rw [a, List.count_erase_of_ne hjt]
  · intro j hj
    by_cases hjt : j = t
    · subst hjt; rw [hn]; exact h4 hj
    · rw [(hot j hjt).1]; rw [(hot j hjt).2] at hj; exact hP j hj
  · intro j hj
    by_cases hjt : j = t
    · subst hjt; exact h5 (hn ▸ hj)
    · rw [(hot j hjt).2]; rw [(hot j hjt).1] at hj; exact hQ j hj
  · intro j hj
    rw [(hot j (by omega)).1]; exact hU j (by omega)

/-- A new goroutine at a program counter outside the sections. -/
theorem LockInv.spawn {s : Algo C} (hI : LockInv s) (k : Kind) (p : PC C) (h1 : holdsS p = false)
    (h2 : holdsM p = false) (h3 : p ≠ .pu6) : LockInv (s.spawn k p) := by
  obtain ⟨hS, hM, hR, hP, hQ, hU⟩ := hI
  have hd := hU s.n (Nat.le_refl _)
  have hnp : (s.thr s.n).inPush = false := by
    by_contra hc
    have := hP s.n (by simpa using hc)
    rw [hd] at this; cases this
  constructor
  · intro j hj
    rw [spawn_pc] at hj
    split at hj
    · rw [h1] at hj; cases hj
    · exact hS j hj
  · intro j
    rw [spawn_pc]
    split
    · rename_i h; subst h
      have := hM s.n
      rw [hd] at this
      rw [h2]; exact this
    · exact hM j
  · intro j
    rw [spawn_inPush, spawn_mr, hR j]
    by_cases h : j = s.n
    · subst h; simp [hnp]
    · rw [if_neg h]
  · intro j hj
    rw [spawn_inPush] at hj
    rw [spawn_pc]
    split at hj
    · cases hj
    · rename_i h; rw [if_neg h]; exact hP j hj
  · intro j hj
    rw [spawn_inPush]
    rw [spawn_pc] at hj
    split at hj
    · exact absurd hj h3
    · rename_i h; rw [if_neg h]; exact hQ j hj
  · intro j hj
    rw [spawn_n] at hj
    rw [spawn_pc, if_neg (by omega)]
    exact hU j (by omega)

/-- Only the locks and the goroutines matter. -/
theorem LockInv.congr {s s' : Algo C} (hI : LockInv s) (h1 : s'.sm = s.sm) (h2 : s'.ma = s.ma)
    (h3 : s'.mr = s.mr) (h4 : s'.thr = s.thr) (h5 : s'.n = s.n) : LockInv s' := by
  obtain ⟨hS, hM, hR, hP, hQ, hU⟩ := hI
  constructor
  · rw [h1, h4]; exact hS
  · rw [h2, h4]; exact hM
  · rw [h3, h4]; exact hR
  · rw [h4]; exact hP
  · rw [h4]; exact hQ
  · rw [h4, h5]; exact hU

theorem LockInv.init : LockInv (new : Algo C) := by
  constructor <;> simp [new, holdsS, holdsM]

theorem LockInv.goG {s s1 : Algo C} {t : Nat} {p p' : PC C} (hI : LockInv s)
    (hthr : s1.thr = s.thr) (hn : s1.n = s.n) (hmr : s1.mr = s.mr) (ht : t < s.n)
    (hp : (s.thr t).pc = p)
    (S : (s1.sm = s.sm ∧ (holdsS p' → holdsS p)) ∨ (s.sm = none ∧ s1.sm = some t) ∨
      (s1.sm = none ∧ holdsS p = true ∧ holdsS p' = false))
    (M : (s1.ma = s.ma ∧ holdsM p' = holdsM p) ∨ (s.ma = none ∧ s1.ma = some t ∧ holdsM p' = true) ∨
      (s1.ma = none ∧ holdsM p = true ∧ holdsM p' = false))
    (P : inPlay p = true → inPlay p' = true) (Q : p' = .pu6 → (s.thr t).inPush) :
    LockInv (s1.go t p') := by
  refine hI.move (t := t) (p := p) (p' := p')
    ⟨hp, by rw [go_pc, if_pos rfl], ht, ?_, by rw [go_n, hn], S, M, .inl ⟨hmr, ?_⟩, ?_, ?_⟩
  · intro j hj; rw [go_pc, if_neg hj, go_inPush, hthr]; exact ⟨rfl, rfl⟩
  · rw [go_inPush, hthr]
  · intro h
    rw [go_inPush, hthr] at h
    exact P (hp ▸ hI.push t h)
  · intro h
    rw [go_inPush, hthr]
    exact Q h

theorem LockInv.retG {s s1 : Algo C} {t : Nat} {p : PC C} {r : Res C} (hI : LockInv s)
    (hthr : s1.thr = s.thr) (hn : s1.n = s.n) (hmr : s1.mr = s.mr) (ht : t < s.n)
    (hp : (s.thr t).pc = p)
    (S : s1.sm = s.sm ∨ (s.sm = none ∧ s1.sm = some t) ∨ (s1.sm = none ∧ holdsS p = true))
    (M : s1.ma = s.ma ∧ holdsM p = false) : LockInv (s1.ret t r) := by
  have hI1 : ∀ e, LockInv s → LockInv (s.ev e) := fun e h => h.congr rfl rfl rfl rfl rfl
  unfold ret
  split
  · rename_i h
    refine hI.goG hthr hn hmr ht hp ?_ ?_ (fun _ => rfl) (fun _ => by rw [← hthr]; exact h)
    · rcases S with h | h | h
      · exact .inl ⟨h, fun h => by cases h⟩
      · exact .inr (.inl h)
      · exact .inr (.inr ⟨h.1, h.2, rfl⟩)
    · exact .inl ⟨M.1, by rw [M.2]; rfl⟩
  · rename_i h
    refine hI.move (t := t) (p := p) (p' := .home)
      ⟨hp, by rw [go_pc, if_pos rfl], ht, ?_, by rw [go_n, ev_n, hn], ?_, ?_, .inl ⟨hmr, ?_⟩, ?_, ?_⟩
    · intro j hj; rw [go_pc, if_neg hj, go_inPush, ev_thr, hthr]; exact ⟨rfl, rfl⟩
    · rcases S with h | h | h
      · exact .inl ⟨h, fun h => by cases h⟩
      · exact .inr (.inl h)
      · exact .inr (.inr ⟨h.1, h.2, rfl⟩)
    · exact .inl ⟨M.1, by rw [M.2]; rfl⟩
    · rw [go_inPush, ev_thr, hthr]
    · intro h'
      rw [go_inPush, ev_thr] at h'
      exact absurd h' h
    · intro h; cases h

theorem LockInv.sentG {s s1 : Algo C} {t : Nat} {a : Nat} {k : SendFrom} {ok : Bool} (hI : LockInv s)
    (hthr : s1.thr = s.thr) (hn : s1.n = s.n) (hmr : s1.mr = s.mr) (ht : t < s.n)
    (hp : (s.thr t).pc = .sd3 a k) (S : s1.sm = s.sm) (M : s1.ma = s.ma) :
    LockInv (s1.sent t ok k) := by
  cases k
  · exact hI.retG hthr hn hmr ht hp (.inl S) ⟨M, rfl⟩
  · exact hI.goG hthr hn hmr ht hp (.inl ⟨S, fun h => by cases h⟩) (.inl ⟨M, rfl⟩) (fun _ => rfl)
      (fun h => by cases h)
  · exact hI.retG hthr hn hmr ht hp (.inl S) ⟨M, rfl⟩
  · exact hI.goG hthr hn hmr ht hp (.inl ⟨S, fun h => by cases h⟩) (.inl ⟨M, rfl⟩)
      (fun h => by cases h) (fun h => by cases h)

/-- A plain move keeps the discipline. -/
theorem LockInv.goP {s : Algo C} {t : Nat} {p p' : PC C} (hI : LockInv s) (ht : t < s.n)
    (hp : (s.thr t).pc = p) (S : holdsS p' = true → holdsS p = true) (M : holdsM p' = holdsM p)
    (P : inPlay p = true → inPlay p' = true) (Q : p' ≠ .pu6) : LockInv (s.go t p') :=
  hI.goG rfl rfl rfl ht hp (.inl ⟨rfl, S⟩) (.inl ⟨rfl, M⟩) P (fun h => absurd h Q)

set_option linter.unusedSimpArgs false in
theorem LockInv.step {conf : Conf} {s s' : Algo C} (hI : LockInv s) (h : Step conf s s') :
    LockInv s' := by
  have hev : ∀ {s : Algo C} (e), LockInv s → LockInv (s.ev e) :=
    fun e h => h.congr rfl rfl rfl rfl rfl
  cases h
  case client => exact hI.spawn _ _ rfl rfl (by simp)
  case call t ht hp op hk =>
    cases op <;> exact (hev _ hI).goP ht hp (by simp [holdsS, entry]) rfl (by simp [inPlay])
      (by simp [entry])
  case nl0 t ht hp j hj st p hq =>
    have hjt : t ≠ j := by
      rintro rfl; rw [hp] at hq; cases hq
    have h1 : LockInv ((s.ev (.notified st)).go j p) := by
      rcases notifying_some hq with ⟨k, h, _, rfl⟩ | ⟨k, h, _, rfl⟩ | ⟨k, _, h, _, rfl⟩ |
          ⟨k, h, _, rfl⟩ | ⟨h, rfl⟩ | ⟨h, _, rfl⟩ | ⟨h, _, rfl⟩ | ⟨h, _, rfl⟩ | ⟨_, h, _, rfl⟩ |
          ⟨_, h, _, rfl⟩ | ⟨h, rfl⟩ <;>
        first
        | exact (hev _ hI).goP hj h (fun _ => rfl) rfl (fun h => by cases h) (fun h => by cases h)
        | exact (hev _ hI).goP hj h (fun h => by cases h) rfl (fun h => by cases h)
            (fun h => by cases h)
        | (cases k <;> exact (hev _ hI).goP hj h (fun _ => rfl) rfl (by simp [inPlay])
            (fun h => by cases h))
    exact h1.goP (p := .nl0) ht (by rw [go_pc, if_neg hjt]; exact hp) (fun h => by cases h) rfl
      (fun h => by cases h) (fun h => by cases h)
  case pu5 t ht hp hm =>
    have hnp : (s.thr t).inPush = false := by
      by_contra hc
      have := hI.push t (by simpa using hc)
      rw [hp] at this; cases this
    refine hI.move (t := t) (p := .pu5) (p' := if s.newData = 0 then .pl0 else .pu6)
      ⟨hp, ?_, ht, ?_, rfl, .inl ⟨rfl, ?_⟩, .inl ⟨rfl, ?_⟩, .inr (.inl ⟨rfl, hnp, ?_⟩), ?_, ?_⟩
    · simp only [if_true]; split <;> rfl
    · intro j hj; simp only [if_neg hj]; trivial
    · split <;> simp [holdsS]
    · split <;> rfl
    · simp only [if_true]; split <;> rfl
    · intro; split <;> rfl
    · intro; simp only [if_true]; split <;> rfl
  case pu6 t ht hp =>
    refine hI.move (t := t) (p := .pu6) (p' := .home)
      ⟨hp, ?_, ht, ?_, rfl, .inl ⟨rfl, ?_⟩, .inl ⟨rfl, rfl⟩,
        .inr (.inr ⟨rfl, hI.notPush t hp, ?_⟩), ?_, ?_⟩
    · simp
    · intro j hj; simp only [if_neg hj]; trivial
    · simp [holdsS]
    · simp
    · simp
    · simp
  case in3Created t ht k hp hv =>
    have h1 : LockInv (({ s with notif := true } : Algo C).spawn .notifier .nl0) :=
      LockInv.spawn (s := { s with notif := true }) (hI.congr rfl rfl rfl rfl rfl) _ _ rfl rfl (by simp)
    refine (h1.congr (s' := (({ s with notif := true } : Algo C).spawn .notifier .nl0).put
      (.new .initializing)) rfl rfl rfl rfl rfl).goP (p := .in3 k) (Nat.lt_succ_of_lt ht) ?_
        (fun _ => rfl) rfl ?_ (by simp)
    · rw [put_thr, spawn_pc, if_neg (by exact Nat.ne_of_lt ht)]; exact hp
    · cases k <;> simp [inPlay]
  case pl1 t ht hp =>
    have h1 : LockInv ((s.ev (.runStart s.n)).spawn .run .r0) :=
      LockInv.spawn (hev _ hI) _ _ rfl rfl (by simp)
    refine h1.goG (p := .pl1) (s1 := (({ s with sm := none } : Algo C).ev (.runStart s.n)).spawn .run .r0)
      rfl rfl rfl (Nat.lt_succ_of_lt ht) ?_ (.inr (.inr ⟨rfl, rfl, rfl⟩)) (.inl ⟨rfl, rfl⟩)
      (fun _ => rfl) (by simp)
    rw [spawn_pc, if_neg (by exact Nat.ne_of_lt ht)]; exact hp
  case pl3Timeout t ht hp hm hc =>
    have h1 : LockInv (({ s with timeout := some s.n } : Algo C).spawn .timer .ti0) :=
      LockInv.spawn (s := { s with timeout := some s.n }) (hI.congr rfl rfl rfl rfl rfl) _ _ rfl rfl
        (by simp)
    refine h1.retG (p := .pl3) rfl rfl rfl (Nat.lt_succ_of_lt ht) ?_ (.inl rfl) ⟨rfl, rfl⟩
    rw [spawn_pc, if_neg (by exact Nat.ne_of_lt ht)]; exact hp
  case sd3Closed t ht a k hp ha => exact hI.sentG rfl rfl rfl ht hp rfl rfl
  case sd3 t ht a k hp j hj i hq ha =>
    have hjt : t ≠ j := by rintro rfl; rw [hp] at hq; cases hq
    have h1 : LockInv (s.go j (if i then .r1 else .r6)) := by
      cases i <;> exact hI.goP hj hq (fun h => by cases h) rfl (fun h => by cases h)
        (fun h => by cases h)
    exact h1.sentG rfl rfl rfl ht (by rw [go_pc, if_neg hjt]; exact hp) rfl rfl
  case c6 t ht hp j hj i hq ha =>
    have hjt : t ≠ j := by rintro rfl; rw [hp] at hq; cases hq
    have h1 : LockInv (s.go j (if i then .r1 else .r6)) := by
      cases i <;> exact hI.goP hj hq (fun h => by cases h) rfl (fun h => by cases h)
        (fun h => by cases h)
    exact h1.goP (p := .c6) ht (by rw [go_pc, if_neg hjt]; exact hp) (fun _ => rfl) rfl
      (fun h => by cases h) (fun h => by cases h)
  case r1 t ht hp j hj st k hq =>
    have hjt : t ≠ j := by rintro rfl; rw [hp] at hq; cases hq
    have h1 : LockInv (s.go j (.sd2 k)) := hI.goP hj hq (fun h => by cases h) rfl
      (by cases k <;> simp [inPlay]) (fun h => by cases h)
    exact h1.goP (p := .r1) ht (by rw [go_pc, if_neg hjt]; exact hp) (fun h => by cases h) rfl
      (fun h => by cases h) (fun h => by cases h)
  case r9 t ht hp j hj st k hq =>
    have hjt : t ≠ j := by rintro rfl; rw [hp] at hq; cases hq
    have h1 : LockInv (s.go j (.sd2 k)) := hI.goP hj hq (fun h => by cases h) rfl
      (by cases k <;> simp [inPlay]) (fun h => by cases h)
    exact h1.goP (p := .r9) ht (by rw [go_pc, if_neg hjt]; exact hp) (fun h => by cases h) rfl
      (fun h => by cases h) (fun h => by cases h)
  case c4 t ht hp j hj st k hq =>
    have hjt : t ≠ j := by rintro rfl; rw [hp] at hq; cases hq
    have h1 : LockInv (s.go j (.sd2 k)) := hI.goP hj hq (fun h => by cases h) rfl
      (by cases k <;> simp [inPlay]) (fun h => by cases h)
    exact (h1.congr (s' := (s.go j (.sd2 k)).put st) rfl rfl rfl rfl rfl).goP (p := .c4 none) ht
      (by rw [put_thr, go_pc, if_neg hjt]; exact hp) (fun _ => rfl) rfl (fun h => by cases h)
      (fun h => by cases h)
  case c4Panic t ht e hp j hj st k hq =>
    have hjt : t ≠ j := by rintro rfl; rw [hp] at hq; cases hq
    have h1 : LockInv (s.go j (.sd2 k)) := hI.goP hj hq (fun h => by cases h) rfl
      (by cases k <;> simp [inPlay]) (fun h => by cases h)
    exact h1.goP (p := .c4 (some e)) ht (by rw [go_pc, if_neg hjt]; exact hp) (fun _ => rfl) rfl
      (fun h => by cases h) (fun h => by cases h)
  case in0 t ht hp hs =>
    exact hI.goG rfl rfl rfl ht hp (.inr (.inl ⟨hs, rfl⟩))
      (.inl ⟨rfl, by cases s.status.value <;> rfl⟩) (fun h => by cases h)
      (by cases s.status.value <;> simp [beginPc])
  case pl0Init t ht hp hs hv =>
    exact hI.goG rfl rfl rfl ht hp (.inr (.inl ⟨hs, rfl⟩))
      (.inl ⟨rfl, by cases s.status.value <;> rfl⟩) (by cases s.status.value <;> simp [beginPc, inPlay])
      (by cases s.status.value <;> simp [beginPc])
  case nl1 t ht st hp hm =>
    exact hI.goP ht hp (by split <;> simp [holdsS]) (by split <;> rfl) (fun h => by cases h)
      (by split <;> simp)
  case r7 t ht hp hm hd =>
    exact hI.goP ht hp (by split <;> simp [holdsS]) (by split <;> rfl) (fun h => by cases h)
      (by split <;> simp)
  all_goals
    first
    | exact hI.retG rfl rfl rfl ‹_› ‹_› (.inl rfl) ⟨rfl, rfl⟩
    | exact hI.retG rfl rfl rfl ‹_› ‹_› (.inr (.inl ⟨‹_›, rfl⟩)) ⟨rfl, rfl⟩
    | exact hI.retG rfl rfl rfl ‹_› ‹_› (.inr (.inr ⟨rfl, rfl⟩)) ⟨rfl, rfl⟩
    | (refine hI.goG rfl rfl rfl ‹_› ‹_› ?_ ?_ ?_ ?_
       · first
         | exact .inl ⟨rfl, fun h => by first | rfl | cases h⟩
         | exact .inr (.inl ⟨‹_›, rfl⟩)
         | exact .inr (.inr ⟨rfl, rfl, rfl⟩)
       · first
         | exact .inl ⟨rfl, rfl⟩
         | exact .inr (.inl ⟨‹_›, rfl, rfl⟩)
         | exact .inr (.inr ⟨rfl, rfl, rfl⟩)
       · first
         | exact fun _ => rfl
         | exact fun h => by cases h
         | (cases ‹InitFrom› <;> simp [inPlay])
         | (cases ‹SendFrom› <;> simp [inPlay])
       · exact fun h => by cases h)

theorem Reachable.lock {conf : Conf} {s : Algo C} (h : Reachable conf s) : LockInv s :=
  h.induction LockInv.init (fun _ _ => LockInv.step)

end Algo
end Distclus
