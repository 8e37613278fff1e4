import Verif.Proof.CtrlLock
/-!
# Invariants about all program counters, and counting goroutines
-/
namespace Distclus
open Ctrl
namespace Algo
variable {C : Type}

section sentFrame
variable (s : Algo C) (t j : Nat) (ok : Bool) (q : SendFrom)

theorem sent_status : (s.sent t ok q).status = s.status := by
  cases q <;> simp only [sent, ret_status, go_status]
theorem sent_sm : (s.sent t ok q).sm = s.sm := by
  cases q <;> simp only [sent, ret_sm, go_sm]
theorem sent_ma : (s.sent t ok q).ma = s.ma := by
  cases q <;> simp only [sent, ret_ma, go_ma]
theorem sent_mr : (s.sent t ok q).mr = s.mr := by
  cases q <;> simp only [sent, ret_mr, go_mr]
theorem sent_notif : (s.sent t ok q).notif = s.notif := by
  cases q <;> simp only [sent, ret_notif, go_notif]
theorem sent_ack : (s.sent t ok q).ack = s.ack := by
  cases q <;> simp only [sent, ret_ack, go_ack]
theorem sent_acks : (s.sent t ok q).acks = s.acks := by
  cases q <;> simp only [sent, ret_acks, go_acks]
theorem sent_closed : (s.sent t ok q).closed = s.closed := by
  cases q <;> simp only [sent, ret_closed, go_closed]
theorem sent_centroids : (s.sent t ok q).centroids = s.centroids := by
  cases q <;> simp only [sent, ret_centroids, go_centroids]
theorem sent_iterations : (s.sent t ok q).iterations = s.iterations := by
  cases q <;> simp only [sent, ret_iterations, go_iterations]
theorem sent_pushedData : (s.sent t ok q).pushedData = s.pushedData := by
  cases q <;> simp only [sent, ret_pushedData, go_pushedData]
theorem sent_newData : (s.sent t ok q).newData = s.newData := by
  cases q <;> simp only [sent, ret_newData, go_newData]
theorem sent_figIter : (s.sent t ok q).figIter = s.figIter := by
  cases q <;> simp only [sent, ret_figIter, go_figIter]
theorem sent_figPushed : (s.sent t ok q).figPushed = s.figPushed := by
  cases q <;> simp only [sent, ret_figPushed, go_figPushed]
theorem sent_timeout : (s.sent t ok q).timeout = s.timeout := by
  cases q <;> simp only [sent, ret_timeout, go_timeout]
theorem sent_disabled : (s.sent t ok q).disabled = s.disabled := by
  cases q <;> simp only [sent, ret_disabled, go_disabled]
theorem sent_n : (s.sent t ok q).n = s.n := by
  cases q <;> simp only [sent, ret_n, go_n]
theorem sent_inPush : ((s.sent t ok q).thr j).inPush = (s.thr j).inPush := by
  cases q <;> simp only [sent, ret_inPush, go_inPush]
theorem sent_kind : ((s.sent t ok q).thr j).kind = (s.thr j).kind := by
  cases q <;> simp only [sent, ret_kind, go_kind]

end sentFrame

/-- Every goroutine except possibly `x` is at a program counter satisfying `Q`. -/
def AllBut (x : Nat) (Q : PC C → Prop) (s : Algo C) : Prop := ∀ j, j ≠ x → Q (s.thr j).pc

/-- Every goroutine is at a program counter satisfying `Q`. -/
def AllPc (Q : PC C → Prop) (s : Algo C) : Prop := ∀ j, Q (s.thr j).pc

section
variable {Q : PC C → Prop} {s s' : Algo C} {t x : Nat} {p : PC C} {e : Event C} {st : OCStatus}
  {k : Kind} {r : Res C} {q : SendFrom} {ok : Bool}

theorem AllPc.but (h : AllPc Q s) : AllBut x Q s := fun j _ => h j

theorem AllBut.go' (h : AllBut t Q s) (hp : Q p) : AllPc Q (s.go t p) := by
  intro j
  rw [go_pc]
  split
  · exact hp
  · exact h j ‹_›

theorem AllPc.go (h : AllPc Q s) (hp : Q p) : AllPc Q (s.go t p) := h.but.go' hp

theorem AllBut.go (h : AllBut x Q s) (hp : Q p) : AllBut x Q (s.go t p) := by
  intro j hj
  rw [go_pc]
  split
  · exact hp
  · exact h j hj

theorem AllPc.ev (h : AllPc Q s) : AllPc Q (s.ev e) := h
theorem AllPc.put (h : AllPc Q s) : AllPc Q (s.put st) := h
theorem AllBut.ev (h : AllBut x Q s) : AllBut x Q (s.ev e) := h
theorem AllBut.put (h : AllBut x Q s) : AllBut x Q (s.put st) := h

theorem AllPc.spawn (h : AllPc Q s) (hp : Q p) : AllPc Q (s.spawn k p) := by
  intro j
  rw [spawn_pc]
  split
  · exact hp
  · exact h j

theorem AllBut.spawn (h : AllBut x Q s) (hp : Q p) : AllBut x Q (s.spawn k p) := by
  intro j hj
  rw [spawn_pc]
  split
  · exact hp
  · exact h j hj

theorem AllBut.ret' (h : AllBut t Q s) (h1 : Q .home) (h2 : Q .pu6) : AllPc Q (s.ret t r) := by
  intro j
  rw [ret_pc]
  split
  · split
    · exact h2
    · exact h1
  · exact h j ‹_›

theorem AllPc.ret (h : AllPc Q s) (h1 : Q .home) (h2 : Q .pu6) : AllPc Q (s.ret t r) :=
  h.but.ret' h1 h2

theorem AllPc.sent (h : AllPc Q s) (h1 : Q .home) (h2 : Q .pu6) (h3 : Q .pl2) (h4 : Q .it3) :
    AllPc Q (s.sent t ok q) := by
  cases q
  · exact h.ret h1 h2
  · exact h.go h3
  · exact h.ret h1 h2
  · exact h.go h4

theorem AllPc.congr (h : AllPc Q s) (ht : s'.thr = s.thr) : AllPc Q s' := by
  intro j; rw [ht]; exact h j

theorem AllBut.congr (h : AllBut x Q s) (ht : s'.thr = s.thr) : AllBut x Q s' := by
  intro j hj; rw [ht]; exact h j hj

end

/-- Peel the state changes off an `AllPc` goal. -/
macro "all_pc" h:term : tactic => `(tactic|
  repeat' first
    | exact $h
    | refine AllPc.go ?_ ?_
    | refine AllPc.ret ?_ ?_ ?_
    | refine AllPc.sent ?_ ?_ ?_ ?_ ?_
    | refine AllPc.spawn ?_ ?_
    | refine AllPc.ev ?_
    | refine AllPc.put ?_
    | exact AllPc.congr $h rfl)

/-- Some goroutine is at a program counter satisfying `P`. -/
def ExPc (P : PC C → Prop) (s : Algo C) : Prop := ∃ j, P (s.thr j).pc

section
variable {P : PC C → Prop} {s s' : Algo C} {t : Nat} {p : PC C} {e : Event C} {st : OCStatus}
  {k : Kind} {r : Res C} {q : SendFrom} {ok : Bool}

theorem ExPc.go (h : ExPc P s) (hp : P (s.thr t).pc → P p) : ExPc P (s.go t p) := by
  obtain ⟨j, hj⟩ := h
  refine ⟨j, ?_⟩
  rw [go_pc]
  split
  · rename_i h; subst h; exact hp hj
  · exact hj

theorem ExPc.spawn (h : ExPc P s) (hp : ¬ P (s.thr s.n).pc) : ExPc P (s.spawn k p) := by
  obtain ⟨j, hj⟩ := h
  refine ⟨j, ?_⟩
  rw [spawn_pc]
  split
  · rename_i h; subst h; exact absurd hj hp
  · exact hj

theorem ExPc.ret (h : ExPc P s) (hp : ¬ P (s.thr t).pc) : ExPc P (s.ret t r) := by
  obtain ⟨j, hj⟩ := h
  refine ⟨j, ?_⟩
  rw [ret_pc]
  split
  · rename_i h; subst h; exact absurd hj hp
  · exact hj

theorem ExPc.sent (h : ExPc P s) (hp : ¬ P (s.thr t).pc) : ExPc P (s.sent t ok q) := by
  cases q
  · exact h.ret hp
  · exact h.go (fun h => absurd h hp)
  · exact h.ret hp
  · exact h.go (fun h => absurd h hp)

theorem ExPc.congr (h : ExPc P s) (ht : s'.thr = s.thr) : ExPc P s' := by
  obtain ⟨j, hj⟩ := h
  exact ⟨j, by rw [ht]; exact hj⟩

end

/-- Sum of `f` over the goroutines. -/
def tot (f : PC C → Nat) (s : Algo C) : Nat := ((List.range s.n).map (fun j => f (s.thr j).pc)).sum

section
variable {f : PC C → Nat} {s s' : Algo C} {t : Nat} {p : PC C} {e : Event C} {st : OCStatus}
  {k : Kind} {r : Res C} {q : SendFrom} {ok : Bool}

theorem sum_range_update (n t : Nat) (g h : Nat → Nat) (ht : t < n) (hgh : ∀ j, j ≠ t → h j = g j) :
    ((List.range n).map h).sum + g t = ((List.range n).map g).sum + h t := by
  induction n with
  | zero => omega
  | succ n ih =>
    simp only [List.range_succ, List.map_append, List.map_cons, List.map_nil, List.sum_append,
      List.sum_cons, List.sum_nil, Nat.add_zero]
    by_cases htn : t = n
    · subst htn
      have : (List.range t).map h = (List.range t).map g := by
        apply List.map_congr_left
        intro j hj
        exact hgh j (by have := List.mem_range.1 hj; omega)
      rw [this]; omega
    · have := ih (by omega)
      rw [hgh n (by omega)]
      omega

theorem tot_go (ht : t < s.n) : tot f (s.go t p) + f (s.thr t).pc = tot f s + f p := by
  have := sum_range_update s.n t (fun j => f (s.thr j).pc) (fun j => f ((s.go t p).thr j).pc) ht
    (fun j hj => by rw [go_pc, if_neg hj])
  simpa only [tot, go_n, go_pc, if_true] using this

theorem tot_congr (ht : s'.thr = s.thr) (hn : s'.n = s.n) : tot f s' = tot f s := by
  unfold tot; rw [ht, hn]

theorem tot_spawn : tot f (s.spawn k p) = tot f s + f p := by
  unfold tot
  rw [spawn_n, List.range_succ, List.map_append, List.sum_append]
  congr 1
  · congr 1
    apply List.map_congr_left
    intro j hj
    have := List.mem_range.1 hj
    rw [spawn_pc, if_neg (by omega)]
  · simp [spawn_pc]

theorem tot_ret (ht : t < s.n) : tot f (s.ret t r) + f (s.thr t).pc =
    tot f s + f (if (s.thr t).inPush then .pu6 else .home) := by
  unfold ret
  split
  · exact tot_go ht
  · have := tot_go (f := f) (s := s.ev (.ret t r)) (t := t) (p := .home) ht
    rw [ev_thr, tot_congr (s := s) (s' := s.ev (.ret t r)) rfl rfl] at this
    exact this

/-- A goroutine of weight `f` contributes to the total. -/
theorem tot_pos (ht : t < s.n) : f (s.thr t).pc ≤ tot f s := by
  have := tot_go (f := f) (s := s) (t := t) (p := (s.thr t).pc) ht
  unfold tot
  have hmem : f (s.thr t).pc ∈ (List.range s.n).map (fun j => f (s.thr j).pc) :=
    List.mem_map.2 ⟨t, List.mem_range.2 ht, rfl⟩
  generalize (List.range s.n).map (fun j => f (s.thr j).pc) = l at hmem
  induction l with
  | nil => cases hmem
  | cons a l ih =>
    rcases List.mem_cons.1 hmem with h | h
    · rw [h, List.sum_cons]; omega
    · have := ih h; rw [List.sum_cons]; omega

end

end Algo
end Distclus
