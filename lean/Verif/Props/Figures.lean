import Verif.Proof.FigOps
import Mathlib.Data.List.Induction
/-!
# C90: the runtime figures are a shared map

`RuntimeFigures()` returns the map of the controller itself.  The limit on the iterations reads this map
after the lock is released, and `Push` and the end of a run write in the same map.
-/
namespace Distclus
open Fig

/-- A state of some execution of any goroutines. -/
def Fig.Reached (s : State) : Prop := ∃ as, exec new as = some s

/-- **C90 (writes).** Whatever the goroutines do, no write of the figures begins while another is in
progress: the runtime never reports concurrent map writes. -/
theorem C90_writes {s : State} (h : Reached s) : s.fault ≠ some .writeWrite := by
  obtain ⟨as, he⟩ := h
  have key : ∀ (as : List Act) (s s' : State) (m : Nat → Mode), Inv true s m → s.fault ≠ some .writeWrite →
      exec s as = some s' → s'.fault ≠ some .writeWrite := by
    intro as
    induction as with
    | nil => intro s s' m _ h0 he; cases he; exact h0
    | cons a as ih =>
      intro s s' m hI h0 he
      simp only [exec] at he
      cases hs : s.step a with
      | none => rw [hs] at he; cases he
      | some s1 =>
        rw [hs] at he
        obtain ⟨m1, h1⟩ := hI.step hs (fun _ _ _ _ => rfl)
        refine ih s1 s' m1 h1 ?_ he
        have hn : s.fault = none := by
          cases a <;> simp only [State.step] at hs <;> split at hs <;> first | (cases hs; done) | skip
          · rename_i h; exact h.1
          · rename_i h; exact h
        intro e
        have := (hI.fault hs hn (by rw [e]; rintro ⟨⟩)).2.1
        rw [e] at this; cases this
  exact key as new s _ Inv.start (by rintro ⟨⟩) he

/-- **C90 (claim examined).** A `Push` while the run checks its limit can end the process: goroutine 0
pushes once, goroutine 1 checks the limit once, and the runtime reports a concurrent map read and map
write. -/
theorem C90_push_crashes : ∃ s, exec new [.start 1 .finished, .go 1, .go 1, .go 1, .start 0 (.push 7), .go 0, .go 0,
    .go 0, .go 0, .go 1] = some s ∧ s.fault = some .readWrite := by
  refine ⟨_, rfl, ?_⟩
  decide

/-- **C90 (claim examined).** Nobody pushes: a client which reads the figures it got while the run ends
can end the process too. -/
theorem C90_end_crashes : ∃ s, exec new [.start 0 (.figures [.iterations]), .go 0, .go 0, .go 0,
    .start 1 (.recover 5), .go 1, .go 1, .go 1, .go 0] = some s ∧ s.fault = some .readWrite := by
  refine ⟨_, rfl, ?_⟩
  decide

/-- **C90 (where).** The process is only ended by a read, without the lock, of the map which is still the
one of the controller. -/
theorem C90_where {s s' : State} (h : Reached s) {a : Act} (hs : s.step a = some s')
    (h0 : s.fault = none) (h1 : s'.fault ≠ none) :
    ∃ t k c, a = .go t ∧ (s.thr t).code = .read k :: c ∧ (s.thr t).reg = s.cur ∧ s.writer ≠ some t := by
  obtain ⟨as, he⟩ := h
  obtain ⟨m, hI⟩ := Inv.exec (p := true) Inv.start he (fun _ _ _ _ => rfl)
  exact (hI.fault hs h0 h1).2.2

/-- **C90 (safe).** As long as nobody pushes and no run ends, the figures can be read during the
iterations, by any number of goroutines. -/
theorem C90_safe {s : State} {as : List Act} (he : exec new as = some s)
    (h : ∀ t op, Act.start t op ∈ as → (∀ now, op ≠ .push now) ∧ ∀ d, op ≠ .recover d) : s.fault = none := by
  have hp : ∀ t op, Act.start t op ∈ as → patches op = true → false = true := by
    intro t op hm hop
    obtain ⟨h1, h2⟩ := h t op hm
    cases op with
    | push now => exact absurd rfl (h1 now)
    | recover d => exact absurd rfl (h2 d)
    | _ => exact hop
  have key : ∀ (as : List Act) (s s' : State) (m : Nat → Mode), Inv false s m → s.fault = none →
      exec s as = some s' → (∀ t op, Act.start t op ∈ as → patches op = true → false = true) →
      s'.fault = none := by
    intro as
    induction as with
    | nil => intro s s' m _ h0 he _; cases he; exact h0
    | cons a as ih =>
      intro s s' m hI h0 he hp
      simp only [exec] at he
      cases hs : s.step a with
      | none => rw [hs] at he; cases he
      | some s1 =>
        rw [hs] at he
        obtain ⟨m1, h1⟩ := hI.step hs (fun t op e => hp t op (e ▸ List.mem_cons_self))
        refine ih s1 s' m1 h1 ?_ he (fun t op e => hp t op (List.mem_cons_of_mem _ e))
        apply Classical.byContradiction
        intro hn
        have := (hI.fault hs h0 hn).1
        cases this
  exact key as new s _ Inv.start rfl he hp

/-- **C90 (frozen).** Once an iteration has replaced the map, the former one never changes again: the
figures a client has kept are those of one moment. -/
theorem C90_frozen {s s' : State} (h : Reached s) {as : List Act} (he : exec s as = some s') {i : Nat}
    (hi : i < s.cur) : s'.map i = s.map i := by
  obtain ⟨as0, he0⟩ := h
  obtain ⟨m, hI⟩ := Inv.exec (p := true) Inv.start he0 (fun _ _ _ _ => rfl)
  clear he0 as0
  induction as generalizing s m with
  | nil => cases he; rfl
  | cons a as ih =>
    simp only [exec] at he
    cases hs : s.step a with
    | none => rw [hs] at he; cases he
    | some s1 =>
      rw [hs] at he
      obtain ⟨m1, h1⟩ := hI.step hs (fun _ _ _ _ => rfl)
      rw [ih he (Nat.lt_of_lt_of_le hi (hI.cur_mono hs)) m1 h1, hI.frozen hs hi]

/-- What goroutine `t` has is not changed by the others. -/
theorem Fig.thr_other {s s' : State} {t : Nat} {as : List Act} (he : exec s as = some s')
    (hg : Act.go t ∉ as) (hc : (s.thr t).code ≠ []) : s'.thr t = s.thr t := by
  induction as generalizing s with
  | nil => cases he; rfl
  | cons a as ih =>
    simp only [exec] at he
    cases hs : s.step a with
    | none => rw [hs] at he; cases he
    | some s1 =>
      rw [hs] at he
      have h1 : s1.thr t = s.thr t := by
        cases a with
        | start u op =>
          simp only [State.step] at hs
          split at hs
          · rename_i hh
            cases hs
            rw [set_thr, if_neg]
            rintro rfl; exact hc hh.2
          · cases hs
        | go u =>
          have hu : t ≠ u := by rintro rfl; exact hg List.mem_cons_self
          simp only [State.step] at hs
          split at hs
          · cases hcu : (s.thr u).code with
            | nil => rw [hcu] at hs; cases hs
            | cons i c =>
              rw [hcu] at hs
              simp only at hs
              cases i <;> simp only [State.instr] at hs
              all_goals
                first
                  | (cases hs; rw [set_thr, if_neg hu]; done)
                  | (split at hs <;> first | (cases hs; rw [set_thr, if_neg hu]; done) | (cases hs; rfl) | (cases hs; done))
          · cases hs
      rw [ih he (fun h => hg (List.mem_cons_of_mem _ h)) (by rw [h1]; exact hc), h1]

/-- **C90 (coherent).** The check of the limit reads `Iterations`, then `PushedData`, without the lock,
and anything may happen in between; but when the process survives, the two values are those of one
moment, the moment of the second read. (This is why the check can be one step of `Verif.Model.Ctrl`.) -/
theorem C90_coherent {s s1 s2 s3 : State} {t : Nat} {as : List Act} (h : Reached s)
    (hc : (s.thr t).code = [.read .iterations, .read .pushedData]) (hseen : (s.thr t).seen = [])
    (h1 : s.step (.go t) = some s1) (h2 : exec s1 as = some s2) (hg : Act.go t ∉ as)
    (h3 : s2.step (.go t) = some s3) (hf : s3.fault = none) :
    (s3.thr t).seen = [s3.map (s3.thr t).reg .pushedData, s3.map (s3.thr t).reg .iterations] := by
  obtain ⟨as0, he0⟩ := h
  obtain ⟨m, hI⟩ := Inv.exec (p := true) Inv.start he0 (fun _ _ _ _ => rfl)
  obtain ⟨m1, hI1⟩ := hI.step h1 (fun _ _ _ _ => rfl)
  have hn1 : s1.fault = none := by
    cases hn : s1.fault with
    | none => rfl
    | some f =>
      exfalso
      have hd : ∀ a, s1.step a = none := by
        intro a; cases a <;> simp [State.step, hn]
      cases as with
      | nil => cases h2; rw [hd] at h3; cases h3
      | cons a as => simp only [exec, hd] at h2; cases h2
  have e1 : s1.thr t = ⟨[.read .pushedData], (s.thr t).reg, [s.map (s.thr t).reg .iterations]⟩ ∧
      s1.maps = s.maps ∧ s1.writer = s.writer := by
    simp only [State.step] at h1
    split at h1
    · rw [hc] at h1
      simp only [State.instr] at h1
      split at h1
      · cases h1; cases hn1
      · cases h1
        refine ⟨?_, rfl, rfl⟩
        rw [set_thr, if_pos rfl, hseen]
    · cases h1
  have hst : s2.map (s.thr t).reg .iterations = s.map (s.thr t).reg .iterations := by
    have hm : s.map (s.thr t).reg = s1.map (s.thr t).reg := by unfold State.map; rw [e1.2.1]
    rw [hm]
    have hr : (s.thr t).reg = (s1.thr t).reg := by rw [e1.1]
    rw [hr]
    have hcode : (s1.thr t).code = [.read .pushedData] := by rw [e1.1]
    clear hr hm h3 hI he0 h1 hn1 e1
    induction as generalizing s1 m1 with
    | nil => cases h2; rfl
    | cons a as ih =>
      simp only [exec] at h2
      cases hs : s1.step a with
      | none => rw [hs] at h2; cases h2
      | some sa =>
        rw [hs] at h2
        obtain ⟨ma, hIa⟩ := hI1.step hs (fun _ _ _ _ => rfl)
        have hte : sa.thr t = s1.thr t :=
          thr_other (as := [a]) (by simp only [exec, hs])
            (fun h => hg (by rw [List.mem_singleton.1 h]; exact List.mem_cons_self)) (by rw [hcode]; rintro ⟨⟩)
        have hw : s1.writer ≠ some t := by
          intro hw
          have hh := hI1.holds t
          have hfi := hI1.fits t
          rw [hcode] at hfi
          obtain ⟨m', hx, _⟩ := hfi
          cases hm : m1 t with
          | out => rw [hm] at hh; exact hh.1 hw
          | cur w => rw [hm] at hx; cases w <;> cases hx
          | fresh w => rw [hm] at hx; cases w <;> cases hx
          | pub w b => rw [hm] at hx; cases w <;> cases b <;> cases hx
          | _ => rw [hm] at hx; cases hx
        have := ih h2 (fun h => hg (List.mem_cons_of_mem _ h)) ma hIa (by rw [hte]; exact hcode)
        rw [hte] at this
        rw [this]
        exact hI1.stable hs hw
  have e2 : s2.thr t = ⟨[.read .pushedData], (s.thr t).reg, [s.map (s.thr t).reg .iterations]⟩ := by
    rw [thr_other h2 hg (by rw [e1.1]; rintro ⟨⟩), e1.1]
  simp only [State.step] at h3
  split at h3
  · rw [e2] at h3
    simp only [State.instr] at h3
    split at h3
    · cases h3; cases hf
    · cases h3
      simp only [set_thr, if_pos]
      show [s2.map (s.thr t).reg .pushedData, _] = [s2.map (s.thr t).reg .pushedData, s2.map (s.thr t).reg .iterations]
      rw [hst]
  · cases h3

/-- **C90 (values).** When nobody is changing the figures, they are those of the operations which have
been done (the pushes, the iterations, the ends of runs and the resets), each applied as if it were
alone, in the order in which they released the lock. -/
theorem C90_values {s : State} {as : List Act} (he : exec new as = some s) (hw : s.writer = none) :
    (⟨s.iterations, s.pushedData, s.map s.cur⟩ : View) =
      (done new (fun _ => none) as).foldl View.apply ⟨0, 0, fun _ => 0⟩ := by
  have h0 : Lin new (fun _ => none) ⟨0, 0, fun _ => 0⟩ :=
    ⟨fun _ => rfl, (fun _ h => by cases h), fun _ h => absurd rfl h⟩
  obtain ⟨g, hl⟩ := h0.exec (m := fun _ => .out) Inv.start he
  exact hl.free hw

/-- **C90 (counts).** When nobody is changing the figures, `Iterations` is the number of iterations saved
and `PushedData` the number of pushes since the last reset. -/
theorem C90_counts {s : State} {as : List Act} (he : exec new as = some s) (hw : s.writer = none) :
    s.map s.cur .iterations =
      since (fun | .save .. => true | _ => false) (done new (fun _ => none) as) ∧
    s.map s.cur .pushedData =
      since (fun | .push .. => true | _ => false) (done new (fun _ => none) as) := by
  have key : ∀ ops : List Op,
      let v := ops.foldl View.apply ⟨0, 0, fun _ => 0⟩
      v.figures .iterations = v.iterations ∧ v.figures .pushedData = v.pushedData ∧
      v.iterations = since (fun | .save .. => true | _ => false) ops ∧
      v.pushedData = since (fun | .push .. => true | _ => false) ops := by
    intro ops
    induction ops using List.reverseRecOn with
    | nil => exact ⟨rfl, rfl, rfl, rfl⟩
    | append_singleton ops op ih =>
      obtain ⟨h1, h2, h3, h4⟩ := ih
      simp only [List.foldl_append, List.foldl_cons, List.foldl_nil]
      cases op <;> simp [View.apply, since, h1, h2, h3, h4]
  have := key (done new (fun _ => none) as)
  rw [← C90_values he hw] at this
  exact ⟨this.1.trans this.2.2.1, this.2.1.trans this.2.2.2⟩

/-- Example: a push, then an iteration, by two goroutines which overlap. -/
example : ∃ s, exec new ([.start 0 (.push 7), .start 1 (.save [(0, 9)] 3 7)] ++ List.replicate 10 (.go 0) ++
    List.replicate 15 (.go 1)) = some s ∧ s.writer = none ∧
    done new (fun _ => none) ([.start 0 (.push 7), .start 1 (.save [(0, 9)] 3 7)] ++
      List.replicate 10 (.go 0) ++ List.replicate 15 (.go 1)) = [.push 7, .save [(0, 9)] 3 7] := by
  refine ⟨_, rfl, ?_⟩
  decide

/-- Example: a client reads the figures while the run saves an iteration; the values are those before. -/
example : ∃ s, exec new ([.start 0 (.figures [.iterations]), .go 0, .go 0, .go 0, .start 1 (.save [] 3 0)] ++
    List.replicate 13 (.go 1) ++ [.go 0, .start 0 (.figures [.iterations]), .go 0, .go 0, .go 0, .go 0]) = some s ∧
    s.fault = none ∧ s.cur = 1 ∧ (s.thr 0).seen = [1] ∧ s.map 0 .iterations = 0 := by
  refine ⟨_, rfl, ?_⟩
  decide

/-- Example: a push between the two reads of the limit; both are those after the push. -/
example : ∃ s, exec new ([.start 1 .finished, .go 1, .go 1, .go 1, .go 1, .start 0 (.push 7)] ++
    List.replicate 10 (.go 0) ++ [.go 1]) = some s ∧
    s.fault = none ∧ (s.thr 1).seen = [1, 0] ∧ s.map 0 .pushedData = 1 := by
  refine ⟨_, rfl, ?_⟩
  decide

end Distclus
