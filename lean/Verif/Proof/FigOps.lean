import Verif.Spec.Figures
import Verif.Proof.Figures
/-!
# The runtime figures: the operations are atomic
-/
namespace Distclus
namespace Fig

/-- What the holder of the lock sees. -/
structure Ghost where
  it : Nat
  pd : Nat
  cur : Map
  reg : Map
  same : Bool

/-- The value of a source. -/
def Ghost.value (v : Ghost) : Src → Nat
  | .iterations => v.it
  | .pushedData => v.pd
  | .val x => x

/-- The effect of its actions. -/
def Ghost.eff (v : Ghost) : Instr → Ghost
  | .incPushed => { v with pd := v.pd + 1 }
  | .incIter => { v with it := v.it + 1 }
  | .zero => { v with it := 0, pd := 0 }
  | .load => { v with reg := v.cur, same := true }
  | .fresh => { v with reg := fun _ => 0, same := false }
  | .publish => { v with cur := v.reg, same := true }
  | .writeEnd k x => { v with reg := v.reg.put k (v.value x),
                              cur := if v.same then v.reg.put k (v.value x) else v.cur }
  | _ => v

/-- What an observer sees. -/
def Ghost.view (v : Ghost) : View := ⟨v.it, v.pd, v.cur⟩

/-- What an observer sees. -/
def State.view (s : State) : View := ⟨s.iterations, s.pushedData, s.map s.cur⟩

/-- `v` is what goroutine `t` sees. -/
structure Sees (s : State) (t : Nat) (v : Ghost) : Prop where
  it : v.it = s.iterations
  pd : v.pd = s.pushedData
  cur : v.cur = s.map s.cur
  reg : v.reg = s.map (s.thr t).reg
  same : v.same = true ↔ (s.thr t).reg = s.cur
  lcur : s.cur < s.maps.length
  lreg : (s.thr t).reg < s.maps.length

variable {s s' : State} {t u : Nat}

theorem Sees.value {v : Ghost} (h : Sees s t v) (x : Src) : v.value x = s.value x := by
  cases x <;> simp [Ghost.value, State.value, h.it, h.pd]

theorem Sees.exists (h1 : s.cur < s.maps.length) (h2 : (s.thr t).reg < s.maps.length) :
    ∃ v, Sees s t v ∧ v.view = s.view :=
  ⟨⟨s.iterations, s.pushedData, s.map s.cur, s.map (s.thr t).reg, decide ((s.thr t).reg = s.cur)⟩,
    ⟨rfl, rfl, rfl, rfl, by simp, h1, h2⟩, rfl⟩

theorem Sees.congr {v : Ghost} (h : Sees s t v) (h1 : s'.iterations = s.iterations)
    (h2 : s'.pushedData = s.pushedData) (h3 : s'.maps = s.maps) (h4 : s'.cur = s.cur)
    (h5 : (s'.thr t).reg = (s.thr t).reg) : Sees s' t v := by
  have hm : ∀ i, s'.map i = s.map i := fun i => by unfold State.map; rw [h3]
  exact ⟨by rw [h1]; exact h.it, by rw [h2]; exact h.pd, by rw [h4, hm]; exact h.cur,
    by rw [h5, hm]; exact h.reg, by rw [h5, h4]; exact h.same, by rw [h4, h3]; exact h.lcur,
    by rw [h5, h3]; exact h.lreg⟩

/-- An action of goroutine `t`. -/
theorem Sees.own {v : Ghost} (h : Sees s t v) {i : Instr} {c : List Instr}
    (hs : s.instr t (s.thr t) i c = some s') (hf : s'.fault = none) :
    Sees s' t (v.eff i) ∧ (s'.thr t).code = c := by
  obtain ⟨h1, h2, h3, h4, h5, h6, h7⟩ := h
  have h : Sees s t v := ⟨h1, h2, h3, h4, h5, h6, h7⟩
  have hv := h.value
  have hr : ∀ (s1 : State) (x : Thread), ((s1.set t x).thr t).reg = x.reg := fun s1 x => by simp [set_thr]
  cases i <;> simp only [State.instr] at hs
  case lock =>
    split at hs
    · cases hs; exact ⟨h.congr rfl rfl rfl rfl (hr _ _), by simp [set_thr]⟩
    · cases hs
  case rlock =>
    split at hs
    · cases hs; exact ⟨h.congr rfl rfl rfl rfl (hr _ _), by simp [set_thr]⟩
    · cases hs
  case read k =>
    split at hs
    · cases hs; cases hf
    · cases hs; exact ⟨h.congr rfl rfl rfl rfl (hr _ _), by simp [set_thr]⟩
  case writeBegin k x =>
    split at hs
    · cases hs; cases hf
    · cases hs; exact ⟨h.congr rfl rfl rfl rfl (hr _ _), by simp [set_thr]⟩
  case unlock => cases hs; exact ⟨h.congr rfl rfl rfl rfl (hr _ _), by simp [set_thr]⟩
  case runlock => cases hs; exact ⟨h.congr rfl rfl rfl rfl (hr _ _), by simp [set_thr]⟩
  case load => cases hs; exact ⟨⟨h1, h2, h3, by rw [hr]; exact h3, by rw [hr]; simp [Ghost.eff, State.set], h6, by rw [hr]; exact h6⟩, by simp [set_thr]⟩
  case incPushed => cases hs; exact ⟨⟨h1, by simp [Ghost.eff, h2, State.set], h3, by rw [hr]; exact h4, by rw [hr]; exact h5, h6, by rw [hr]; exact h7⟩, by simp [set_thr]⟩
  case incIter => cases hs; exact ⟨⟨by simp [Ghost.eff, h1, State.set], h2, h3, by rw [hr]; exact h4, by rw [hr]; exact h5, h6, by rw [hr]; exact h7⟩, by simp [set_thr]⟩
  case zero => cases hs; exact ⟨⟨rfl, rfl, h3, by rw [hr]; exact h4, by rw [hr]; exact h5, h6, by rw [hr]; exact h7⟩, by simp [set_thr]⟩
  case publish => cases hs; exact ⟨⟨h1, h2, h4, by rw [hr]; exact h4, by rw [hr]; simp [Ghost.eff, State.set], h7, by rw [hr]; exact h7⟩, by simp [set_thr]⟩
  case fresh =>
    cases hs
    refine ⟨⟨h1, h2, ?_, ?_, ?_, ?_, ?_⟩, by simp [set_thr]⟩
    · show v.cur = _
      rw [h3]; exact (map_append h6 _ _ rfl).symm
    · rw [set_thr, if_pos rfl]
      show _ = State.map _ _
      simp [State.map, State.set, Ghost.eff, List.getD]
    · rw [set_thr, if_pos rfl]
      simp only [Ghost.eff, State.set]
      constructor
      · rintro ⟨⟩
      · intro e; omega
    · simp only [State.set, List.length_append]; omega
    · rw [set_thr, if_pos rfl]; simp [State.set]
  case writeEnd k x =>
    cases hs
    refine ⟨⟨h1, h2, ?_, ?_, ?_, ?_, ?_⟩, by simp [set_thr]⟩
    · show (if v.same then _ else _) = State.map _ s.cur
      by_cases e : (s.thr t).reg = s.cur
      · rw [if_pos (h5.2 e), h4, hv, ← e]; exact (map_set_eq h7 _ _ rfl).symm
      · rw [if_neg (fun hh => e (h5.1 hh)), h3]; exact (map_set_ne (Ne.symm e) _ _ rfl).symm
    · rw [set_thr, if_pos rfl]
      show v.reg.put k _ = _
      rw [h4, hv]; exact (map_set_eq h7 _ _ rfl).symm
    · rw [set_thr, if_pos rfl]; exact h5
    · simp only [State.set, List.length_set]; exact h6
    · rw [set_thr, if_pos rfl]; simp only [State.set, List.length_set]; exact h7

/-- The others do not change what the holder of the lock sees. -/
theorem Inv.quiet {m : Nat → Mode} (h : Inv true s m) {c : List Instr} {i : Instr}
    (hc : (s.thr u).code = i :: c) (hw : s.writer ≠ some u)
    (hs : s.instr u (s.thr u) i c = some s') (hl : i = .lock → False) :
    s'.iterations = s.iterations ∧ s'.pushedData = s.pushedData ∧ s'.maps = s.maps ∧ s'.cur = s.cur ∧
      s'.writer = s.writer ∧ ∀ t, t ≠ u → s'.thr t = s.thr t := by
  have hf := h.fits u
  rw [hc] at hf
  obtain ⟨m', h1, _⟩ := hf
  have key : ∀ {x : Thread} {s1 : State}, s1.thr = s.thr → ∀ t, t ≠ u → (s1.set u x).thr t = s.thr t := by
    intro x s1 e t ht; rw [set_thr, if_neg ht, e]
  rcases (h.holds u).not hw with e | e <;> rw [e] at h1 <;> cases i <;> first | (cases h1; done) | skip
  case inl.lock => exact (hl rfl).elim
  case inl.rlock =>
    simp only [State.instr] at hs
    split at hs
    · cases hs; exact ⟨rfl, rfl, rfl, rfl, rfl, key rfl⟩
    · cases hs
  case inl.read k =>
    simp only [State.instr] at hs
    split at hs
    · cases hs; exact ⟨rfl, rfl, rfl, rfl, rfl, fun _ _ => rfl⟩
    · cases hs; exact ⟨rfl, rfl, rfl, rfl, rfl, key rfl⟩
  case inr.load => cases hs; exact ⟨rfl, rfl, rfl, rfl, rfl, key rfl⟩
  case inr.runlock => cases hs; exact ⟨rfl, rfl, rfl, rfl, rfl, key rfl⟩

theorem eff_other (own : List (Nat × Nat)) (v : Ghost) (hv : v.same = false) :
    (own.flatMap fun p => assign (.other p.1) (.val p.2)).foldl Ghost.eff v =
      { v with reg := fun
          | .other n => ((own.reverse.find? (·.1 = n)).map (·.2)).getD (v.reg (.other n))
          | k => v.reg k } := by
  induction own generalizing v with
  | nil =>
    simp only [List.flatMap_nil, List.foldl_nil, List.reverse_nil, List.find?_nil, Option.map_none,
      Option.getD_none]
    cases v; simp only [Ghost.mk.injEq, true_and, and_true]; funext k; cases k <;> rfl
  | cons p own ih =>
    simp only [List.flatMap_cons, List.foldl_append]
    rw [ih _ (by simpa [assign, Ghost.eff] using hv)]
    simp only [assign, List.foldl_cons, List.foldl_nil, Ghost.eff, Ghost.value, hv, List.reverse_cons,
      List.find?_append, Ghost.mk.injEq, true_and]
    refine ⟨rfl, ?_, trivial⟩
    funext k
    cases k <;> simp only [Map.put] <;> first | rfl | skip
    rename_i n
    cases hfind : own.reverse.find? (fun x => decide (x.1 = n)) with
    | some q => simp
    | none =>
      by_cases e : p.1 = n
      · simp [e]
      · simp [e, Ne.symm e]

set_option linter.unusedSimpArgs false in
/-- What an operation does with the lock. -/
theorem eff_code (op : Op) {c : List Instr} (hc : code op = .lock :: c) (v : Ghost) :
    ∃ pre, c = pre ++ [.unlock] ∧ .unlock ∉ pre ∧ (pre.foldl Ghost.eff v).view = v.view.apply op := by
  have hd : ∀ l : List Instr, (l ++ [Instr.unlock]).dropLast = l := fun l => List.dropLast_concat
  refine ⟨c.dropLast, ?_⟩
  cases op with
  | push now =>
    have hc' : c = (.incPushed :: .load :: update now) ++ [.unlock] := by
      rw [← (List.cons.inj hc).2]; simp
    rw [hc', hd]
    refine ⟨rfl, by simp [assign, update], ?_⟩
    simp only [update, assign, List.cons_append, List.nil_append, List.append_assoc,
      List.foldl_cons, List.foldl_nil, Ghost.eff, Ghost.value, if_true, Ghost.view, View.apply, View.mk.injEq, true_and]
    funext k; cases k <;> simp [Map.put]
  | recover d =>
    have hc' : c = (.load :: assign .duration (.val d)) ++ [.unlock] := by
      rw [← (List.cons.inj hc).2]; simp
    rw [hc', hd]
    refine ⟨rfl, by simp [assign, update], ?_⟩
    simp only [update, assign, List.cons_append, List.nil_append, List.append_assoc,
      List.foldl_cons, List.foldl_nil, Ghost.eff, Ghost.value, if_true, Ghost.view, View.apply, View.mk.injEq, true_and]
    funext k; cases k <;> simp [Map.put]
  | reset =>
    have hc' : c = (.zero :: .fresh :: .publish :: update 0) ++ [.unlock] := by
      rw [← (List.cons.inj hc).2]; simp
    rw [hc', hd]
    refine ⟨rfl, by simp [assign, update], ?_⟩
    simp only [update, assign, List.cons_append, List.nil_append, List.append_assoc,
      List.foldl_cons, List.foldl_nil, Ghost.eff, Ghost.value, if_true, Ghost.view, View.apply, View.mk.injEq, true_and]
    funext k; cases k <;> simp [Map.put]
  | save own d now =>
    have hc' : c = (.incIter :: .fresh :: ((own.flatMap fun p => assign (.other p.1) (.val p.2)) ++
        assign .duration (.val d) ++ [.publish] ++ update now)) ++ [.unlock] := by
      rw [← (List.cons.inj hc).2]; simp
    rw [hc', hd]
    refine ⟨rfl, by simp [assign, update], ?_⟩
    simp only [List.foldl_cons, List.foldl_append]
    rw [eff_other _ _ (by simp [Ghost.eff])]
    simp only [update, assign, List.cons_append, List.nil_append, List.append_assoc,
      List.foldl_cons, List.foldl_nil, Ghost.eff, Ghost.value, if_true, Ghost.view, View.apply, View.mk.injEq, true_and]
    funext k; cases k <;> simp [Map.put]
  | finished => cases hc
  | figures ks => cases hc

theorem code_lock (op : Op) {pre c : List Instr} (h : code op = pre ++ .lock :: c) : pre = [] := by
  cases pre with
  | nil => rfl
  | cons i pre =>
    exfalso
    have hm : Instr.lock ∈ (code op).tail := by rw [h]; simp
    revert hm
    cases op <;> simp [code, update, assign]

theorem thr_of_instr {i : Instr} {c : List Instr} (hs : s.instr t (s.thr t) i c = some s') (u : Nat)
    (hu : u ≠ t) : s'.thr u = s.thr u := by
  cases i <;> simp only [State.instr] at hs
  all_goals
    first
      | (cases hs; rw [set_thr, if_neg hu]; done)
      | (split at hs <;> first | (cases hs; rw [set_thr, if_neg hu]; done) | (cases hs; rfl) | (cases hs; done))

theorem code_of_instr {i : Instr} {c : List Instr} (hs : s.instr t (s.thr t) i c = some s')
    (hf : s'.fault = none) : (s'.thr t).code = c := by
  cases i <;> simp only [State.instr] at hs
  all_goals
    first
      | (cases hs; simp [set_thr]; done)
      | (split at hs <;> first | (cases hs; simp [set_thr]; done) | (cases hs; cases hf; done) | (cases hs; done))

/-- The state is that of the operations done; the holder of the lock is about to apply its own. -/
structure Lin (s : State) (g : Nat → Option Op) (L : View) : Prop where
  free : s.writer = none → s.view = L
  held : ∀ t, s.writer = some t → ∃ op pre v, g t = some op ∧ (s.thr t).code = pre ++ [.unlock] ∧
    .unlock ∉ pre ∧ Sees s t v ∧ (pre.foldl Ghost.eff v).view = L.apply op
  doing : ∀ t, (s.thr t).code ≠ [] → ∃ op pre, g t = some op ∧ code op = pre ++ (s.thr t).code

theorem Lin.congr {g : Nat → Option Op} {L : View} (h : Lin s g L) (h1 : s'.iterations = s.iterations)
    (h2 : s'.pushedData = s.pushedData) (h3 : s'.maps = s.maps) (h4 : s'.cur = s.cur)
    (h5 : s'.writer = s.writer) (h6 : ∀ t, t ≠ u → s'.thr t = s.thr t) (h7 : s.writer ≠ some u)
    (h8 : (s'.thr u).code ≠ [] → ∃ op pre, g u = some op ∧ code op = pre ++ (s'.thr u).code) :
    Lin s' g L := by
  have hm : ∀ i, s'.map i = s.map i := fun i => by unfold State.map; rw [h3]
  refine ⟨fun hw => ?_, fun t hw => ?_, fun t hc => ?_⟩
  · rw [← h.free (h5 ▸ hw)]; simp only [State.view, h1, h2, h4, hm]
  · have hw' : s.writer = some t := h5 ▸ hw
    have htu : t ≠ u := by rintro rfl; exact h7 hw'
    obtain ⟨op, pre, v, a, b, c, d, e⟩ := h.held t hw'
    refine ⟨op, pre, v, a, by rw [h6 t htu]; exact b, c, ?_, e⟩
    exact ⟨by rw [h1]; exact d.it, by rw [h2]; exact d.pd, by rw [h4, hm]; exact d.cur,
      by rw [h6 t htu, hm]; exact d.reg, by rw [h6 t htu, h4]; exact d.same, by rw [h4, h3]; exact d.lcur,
      by rw [h6 t htu, h3]; exact d.lreg⟩
  · by_cases htu : t = u
    · subst htu; exact h8 hc
    · rw [h6 t htu] at hc ⊢; exact h.doing t hc

/-- In an execution, the state is that of the operations done. -/
theorem Lin.exec {m : Nat → Mode} {g : Nat → Option Op} {L : View} (hI : Inv true s m) (h : Lin s g L)
    {as : List Act} (he : exec s as = some s') : ∃ g', Lin s' g' ((done s g as).foldl View.apply L) := by
  induction as generalizing s m g L with
  | nil => cases he; exact ⟨g, h⟩
  | cons a as ih =>
    simp only [Fig.exec] at he
    cases hs : s.step a with
    | none => rw [hs] at he; cases he
    | some s1 =>
      rw [hs] at he
      obtain ⟨m1, hI1⟩ := hI.step hs (fun _ _ _ _ => rfl)
      simp only [done, hs]
      cases a with
      | start t op =>
        simp only [State.step] at hs
        split at hs
        · rename_i hh
          cases hs
          refine ih hI1 ?_ he
          refine ⟨h.free, fun u hw => ?_, fun u hc => ?_⟩
          · obtain ⟨op', pre, v, a, b, c, d, e⟩ := h.held u hw
            have hut : u ≠ t := by
              rintro rfl
              rw [hh.2] at b
              cases pre <;> cases b
            refine ⟨op', pre, v, ?_, ?_, c, ?_, e⟩
            · simp only [if_neg hut]; exact a
            · rw [set_thr, if_neg hut]; exact b
            · exact ⟨d.it, d.pd, d.cur, by rw [set_thr, if_neg hut]; exact d.reg,
                by rw [set_thr, if_neg hut]; exact d.same, d.lcur, by rw [set_thr, if_neg hut]; exact d.lreg⟩
          · by_cases hut : u = t
            · subst hut
              exact ⟨op, [], by simp, by simp [set_thr]⟩
            · rw [set_thr, if_neg hut] at hc ⊢
              obtain ⟨op', pre, a, b⟩ := h.doing u hc
              refine ⟨op', pre, ?_, by rw [if_neg hut]; exact b⟩
              exact a
        · cases hs
      | go t =>
        simp only [List.foldl_append]
        by_cases hfault : s1.fault ≠ none
        · -- the process ends: nothing but the fault changes
          have h1 := hs
          simp only [State.step] at hs
          split at hs
          · rename_i hf0
            obtain ⟨_, _, t', k, c, e, hc, _, hw⟩ := hI.fault h1 hf0 hfault
            cases e
            rw [hc] at hs
            simp only [State.instr] at hs
            split at hs
            · cases hs
              rw [hc]
              exact ih hI1 (h.congr (u := t) rfl rfl rfl rfl rfl (fun _ _ => rfl) hw (h.doing t)) he
            · cases hs; exact absurd hf0 hfault
          · cases hs
        have hfault : s1.fault = none := Decidable.not_not.1 hfault
        have hf0 : s.fault = none := by
          simp only [State.step] at hs
          split at hs
          · assumption
          · cases hs
        simp only [State.step, if_pos hf0] at hs
        cases hc : (s.thr t).code with
        | nil => rw [hc] at hs; cases hs
        | cons i c =>
          rw [hc] at hs
          simp only at hs
          obtain ⟨op, pre0, hg, hop⟩ := h.doing t (by rw [hc]; rintro ⟨⟩)
          have hdo : (s1.thr t).code = c → (s1.thr t).code ≠ [] →
              ∃ op pre, g t = some op ∧ code op = pre ++ (s1.thr t).code := by
            intro e _
            refine ⟨op, pre0 ++ [i], hg, ?_⟩
            rw [hop, hc, e]; simp
          by_cases hw : s.writer = some t
          · obtain ⟨op', pre, v, a, b, hnu, d, e⟩ := h.held t hw
            rw [hg] at a; cases a
            rw [hc] at b
            obtain ⟨hse, hcode⟩ := d.own hs hfault
            cases pre with
            | nil =>
              simp only [List.nil_append, List.cons.injEq] at b
              obtain ⟨rfl, rfl⟩ := b
              simp only [List.head?_cons, if_true, hg, Option.toList_some, List.foldl_cons, List.foldl_nil]
              refine ih hI1 ?_ he
              have hse' := hse
              simp only [State.instr] at hs
              cases hs
              refine ⟨fun _ => ?_, (fun u hu => by cases hu), fun u hu => ?_⟩
              · rw [← e]
                simp only [List.foldl_nil, State.view, Ghost.view, d.it, d.pd, d.cur]
                rfl
              · by_cases hut : u = t
                · subst hut; exact absurd hcode hu
                · rw [set_thr, if_neg hut] at hu ⊢; exact h.doing u hu
            | cons j pre =>
              simp only [List.cons_append, List.cons.injEq] at b
              obtain ⟨rfl, rfl⟩ := b
              have hiu : i ≠ .unlock := fun e => hnu (by rw [e]; simp)
              rw [if_neg (by simpa using hiu), List.foldl_nil]
              refine ih hI1 ?_ he
              have hw1 : s1.writer = some t := by
                cases i <;> simp only [State.instr] at hs <;> first | exact absurd rfl hiu | skip
                all_goals
                  first
                    | (cases hs; exact hw)
                    | (split at hs <;> first | (cases hs; exact hw) | (cases hs; rfl) | (cases hs; done))
              have hoth : ∀ u, u ≠ t → s1.thr u = s.thr u := by
                intro u hut
                have := thr_of_instr hs u hut
                exact this
              refine ⟨fun hn => (by rw [hw1] at hn; cases hn), fun u hu => ?_, fun u hu => ?_⟩
              · rw [hw1] at hu; cases hu
                exact ⟨op, pre, _, hg, hcode, fun hm => hnu (List.mem_cons_of_mem _ hm), hse, e⟩
              · by_cases hut : u = t
                · subst hut; exact hdo hcode hu
                · rw [hoth u hut] at hu ⊢; exact h.doing u hu
          · by_cases hl : i = .lock
            · subst hl
              rw [if_neg (by simp), List.foldl_nil]
              refine ih hI1 ?_ he
              rw [hc] at hop
              obtain rfl := code_lock op hop
              simp only [List.nil_append] at hop
              simp only [State.instr] at hs
              split at hs
              · rename_i hfree
                cases hs
                refine ⟨(fun hn => by cases hn), fun u hu => ?_, fun u hu => ?_⟩
                · cases hu
                  obtain ⟨v, hv, hvv⟩ := Sees.exists (s := s) (t := t) hI.curLt
                    (Nat.lt_of_le_of_lt (hI.old t hw) hI.curLt)
                  obtain ⟨pre, rfl, hnu, hpre⟩ := eff_code op hop v
                  refine ⟨op, pre, v, hg, by simp [set_thr], hnu, ?_, ?_⟩
                  · exact hv.congr rfl rfl rfl rfl (by simp [set_thr])
                  · rw [hpre, hvv, h.free hfree.1]
                · by_cases hut : u = t
                  · subst hut; exact hdo (by simp [set_thr]) hu
                  · rw [set_thr, if_neg hut] at hu ⊢; exact h.doing u hu
              · cases hs
            · have hiu : i ≠ .unlock := by
                rintro rfl
                have hf := hI.fits t
                rw [hc] at hf
                obtain ⟨m', h1, _⟩ := hf
                rcases (hI.holds t).not hw with e | e <;> rw [e] at h1 <;> cases h1
              rw [if_neg (by simpa using hiu), List.foldl_nil]
              obtain ⟨a1, a2, a3, a4, a5, a6⟩ := hI.quiet hc hw hs hl
              refine ih hI1 (h.congr a1 a2 a3 a4 a5 a6 hw (hdo ?_)) he
              exact code_of_instr hs hfault

end Fig
end Distclus
