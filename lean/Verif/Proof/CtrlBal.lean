import Verif.Proof.CtrlHistory
/-!
# Balances between the record and the goroutines

`Bal f w d s`: the sum of the weights `w` of the recorded events, plus `d`, is the number of
goroutines counted by `f`.
-/
namespace Distclus
open Ctrl Spec
namespace Algo
variable {C : Type}

/-- Sum of the weights of the events. -/
def wsum (w : Event C → Int) (l : List (Event C)) : Int := (l.map w).sum

/-- The balance. -/
def Bal (f : PC C → Nat) (w : Event C → Int) (d : Int) (s : Algo C) : Prop :=
  wsum w s.log + d = (tot f s : Int)

section
variable {f : PC C → Nat} {w : Event C → Int} {d d' : Int} {s s' : Algo C} {t : Nat} {p p0 : PC C}
  {e : Event C} {st : OCStatus} {k : Kind} {r : Res C} {q : SendFrom} {ok : Bool}

theorem Bal.fin (h : Bal f w d s) (hd : d = d') : Bal f w d' s := hd ▸ h

theorem Bal.congr (h : Bal f w d s) (h1 : s'.log = s.log) (h2 : s'.thr = s.thr) (h3 : s'.n = s.n) :
    Bal f w d s' := by
  unfold Bal at *; rw [h1, tot_congr h2 h3]; exact h

theorem Bal.go (h : Bal f w d s) (ht : t < s.n) (hp : (s.thr t).pc = p0) :
    Bal f w (d + f p - f p0) (s.go t p) := by
  unfold Bal at *
  have := tot_go (f := f) (s := s) (p := p) ht
  rw [hp] at this
  rw [go_log]; omega

theorem Bal.ev (h : Bal f w d s) : Bal f w (d - w e) (s.ev e) := by
  unfold Bal at *
  rw [tot_congr (s := s) (s' := s.ev e) rfl rfl, ev_log, ← h]
  simp only [wsum, List.map_cons, List.sum_cons]; omega

theorem Bal.put (h : Bal f w d s) : Bal f w (d - w (.set st)) (s.put st) := by
  unfold Bal at *
  rw [tot_congr (s := s) (s' := s.put st) rfl rfl, put_log, ← h]
  simp only [wsum, List.map_cons, List.sum_cons]; omega

theorem Bal.spawn (h : Bal f w d s) : Bal f w (d + f p) (s.spawn k p) := by
  unfold Bal at *
  rw [tot_spawn, spawn_log]; omega

theorem Bal.ret (h : Bal f w d s) (ht : t < s.n) (hp : (s.thr t).pc = p0) (h1 : f .home = 0)
    (h2 : f .pu6 = 0) (h3 : w (.ret t r) = 0) : Bal f w (d - f p0) (s.ret t r) := by
  unfold Bal at *
  have := tot_ret (f := f) (s := s) (r := r) ht
  rw [hp] at this
  have hz : f (if (s.thr t).inPush then .pu6 else .home) = 0 := by split <;> assumption
  rw [hz] at this
  rw [ret_log]
  split
  · omega
  · simp only [wsum, List.map_cons, List.sum_cons] at *; omega

theorem Bal.sent (h : Bal f w d s) (ht : t < s.n) (hp : (s.thr t).pc = p0) (h1 : f .home = 0)
    (h2 : f .pu6 = 0) (h3 : ∀ r, w (.ret t r) = 0) (h4 : f .pl2 = 0) (h5 : f .it3 = 0) :
    Bal f w (d - f p0) (s.sent t ok q) := by
  cases q
  · exact h.ret ht hp h1 h2 (h3 _)
  · exact (h.go (p := .pl2) ht hp).fin (by rw [h4]; omega)
  · exact h.ret ht hp h1 h2 (h3 _)
  · exact (h.go (p := .it3) ht hp).fin (by rw [h5]; omega)

end

/-- The program counters which a balance may count. -/
def special : PC C → Bool
  | .pu2 | .pu3 | .pu4 | .rS _ | .rS' _ => true
  | p => (notifying p).isSome

/-- The events which a balance may weigh. -/
def specialE : Event C → Bool
  | .implPushed | .pushed | .counted _ | .iterOk _ _ | .saved _ | .set _ | .notified _ => true
  | _ => false

/-- What a balance must satisfy. -/
structure Balanced (f : PC C → Nat) (w : Event C → Int) : Prop where
  z : ∀ p, special p = false → f p = 0
  wz : ∀ e, specialE e = false → w e = 0
  push : w .implPushed = f .pu2
  pu23 : f .pu3 = f .pu2
  pushed : w .pushed = f .pu4 - f .pu3
  counted : ∀ b, w (.counted b) = - f .pu4
  iter : ∀ t c, w (.iterOk t c) = f (.rS c)
  rS : ∀ c, f (.rS' c) = f (.rS c)
  saved : ∀ c, w (.saved c) = - f (.rS' c)
  set : ∀ p st, (notifying p).map (·.1) = some st → w (.set st) = f p
  notified : ∀ st, w (.notified st) = - w (.set st)

section
variable {f : PC C → Nat} {w : Event C → Int} {s s1 s' : Algo C} {t : Nat} {p p0 q : PC C}
  {e : Event C} {st : OCStatus} {k : Kind} {r : Res C} {ok : Bool}

theorem Bal.goZ (H : Balanced f w) (h : Bal f w 0 s) (h1 : s1.log = s.log) (h2 : s1.thr = s.thr)
    (h3 : s1.n = s.n) (ht : t < s.n) (hp : (s.thr t).pc = p0) (z0 : special p0 = false)
    (z : special p = false) : Bal f w 0 (s1.go t p) :=
  (Bal.go (p0 := p0) (h.congr h1 h2 h3) (by rw [h3]; exact ht) (by rw [h2]; exact hp)).fin
    (by rw [H.z _ z, H.z _ z0]; rfl)

theorem Bal.evZ (H : Balanced f w) (h : Bal f w 0 s) (h1 : s1.log = s.log) (h2 : s1.thr = s.thr)
    (h3 : s1.n = s.n) (ht : t < s.n) (hp : (s.thr t).pc = p0) (z0 : special p0 = false)
    (z : special p = false) (ze : specialE e = false) : Bal f w 0 ((s1.ev e).go t p) :=
  (Bal.go (p0 := p0) (h.congr h1 h2 h3).ev (by rw [ev_n, h3]; exact ht)
    (by rw [ev_thr, h2]; exact hp)).fin (by rw [H.z _ z, H.z _ z0, H.wz _ ze]; rfl)

theorem Bal.putZ (H : Balanced f w) (h : Bal f w 0 s) (h1 : s1.log = s.log) (h2 : s1.thr = s.thr)
    (h3 : s1.n = s.n) (ht : t < s.n) (hp : (s.thr t).pc = p0) (z0 : special p0 = false)
    (z : (notifying p).map (·.1) = some st) : Bal f w 0 ((s1.put st).go t p) :=
  (Bal.go (p0 := p0) (h.congr h1 h2 h3).put (by rw [put_n, h3]; exact ht)
    (by rw [put_thr, h2]; exact hp)).fin (by rw [H.set _ _ z, H.z _ z0]; omega)

theorem Bal.retZ (H : Balanced f w) (h : Bal f w 0 s) (h1 : s1.log = s.log) (h2 : s1.thr = s.thr)
    (h3 : s1.n = s.n) (ht : t < s.n) (hp : (s.thr t).pc = p0) (z0 : special p0 = false) :
    Bal f w 0 (s1.ret t r) :=
  (Bal.ret (p0 := p0) (h.congr h1 h2 h3) (by rw [h3]; exact ht) (by rw [h2]; exact hp) (H.z _ rfl) (H.z _ rfl)
    (H.wz _ rfl)).fin (by rw [H.z _ z0]; rfl)

theorem Bal.sentZ {k : SendFrom} (H : Balanced f w) (h : Bal f w 0 s) (h1 : s1.log = s.log) (h2 : s1.thr = s.thr)
    (h3 : s1.n = s.n) (ht : t < s.n) (hp : (s.thr t).pc = p0) (z0 : special p0 = false) :
    Bal f w 0 (s1.sent t ok k) :=
  (Bal.sent (p0 := p0) (h.congr h1 h2 h3) (by rw [h3]; exact ht) (by rw [h2]; exact hp) (H.z _ rfl) (H.z _ rfl)
    (fun _ => H.wz _ rfl) (H.z _ rfl) (H.z _ rfl)).fin (by rw [H.z _ z0]; rfl)

theorem Bal.pu (h : Bal f w 0 s) (ht : t < s.n) (hp : (s.thr t).pc = p0) (hp' : (s'.thr t).pc = p)
    (ho : ∀ j, j ≠ t → (s'.thr j).pc = (s.thr j).pc) (hn : s'.n = s.n)
    (hl : wsum w s'.log = wsum w s.log) (hf : f p = f p0) : Bal f w 0 s' := by
  unfold Bal at *
  rw [hl, h]
  have := sum_range_update s.n t (fun j => f (s.thr j).pc) (fun j => f (s'.thr j).pc) ht
    (fun j hj => by rw [ho j hj])
  simp only [hp, hp', hf] at this
  unfold tot
  rw [hn]
  omega

end

/-- Every action keeps every balance. -/
theorem Bal.step {f : PC C → Nat} {w : Event C → Int} {conf : Conf} {s s' : Algo C}
    (H : Balanced f w) (hb : Bal f w 0 s) (h : Step conf s s') : Bal f w 0 s' := by
  cases h
  case client => exact Bal.fin (Bal.spawn hb) (by rw [H.z _ rfl]; rfl)
  case in3Created t ht k hp hv =>
    refine Bal.putZ (s := ({ s with notif := true } : Algo C).spawn .notifier .nl0) H
      (Bal.fin (Bal.spawn (Bal.congr hb rfl rfl rfl)) (by rw [H.z _ rfl]; rfl)) rfl rfl rfl
      (Nat.lt_succ_of_lt ht) (p0 := .in3 k) ?_ rfl rfl
    rw [spawn_pc, if_neg (by exact Nat.ne_of_lt ht)]; exact hp
  case pl1 t ht hp =>
    refine Bal.goZ (s := (({ s with sm := none } : Algo C).ev (.runStart s.n)).spawn .run .r0) H
      (Bal.fin (Bal.spawn (Bal.ev (Bal.congr hb rfl rfl rfl))) (by rw [H.z _ rfl, H.wz _ rfl]; rfl))
      rfl rfl rfl (Nat.lt_succ_of_lt ht) (p0 := .pl1) ?_ rfl rfl
    rw [spawn_pc, if_neg (by exact Nat.ne_of_lt ht)]; exact hp
  case pl3Timeout t ht hp hm hc =>
    refine Bal.retZ (s := ({ s with timeout := some s.n } : Algo C).spawn .timer .ti0) H
      (Bal.fin (Bal.spawn (Bal.congr hb rfl rfl rfl)) (by rw [H.z _ rfl]; rfl)) rfl rfl rfl
      (Nat.lt_succ_of_lt ht) (p0 := .pl3) ?_ rfl
    rw [spawn_pc, if_neg (by exact Nat.ne_of_lt ht)]; exact hp
  case pu1 t ht hp =>
    exact Bal.fin (Bal.go (p0 := .pu1) (Bal.ev hb) ht hp) (by rw [H.z .pu1 rfl, H.push]; omega)
  case pu2 t ht hp hm =>
    exact Bal.fin (Bal.go (p0 := .pu2) (Bal.congr hb rfl rfl rfl) ht hp) (by rw [H.pu23]; omega)
  case pu3 t ht hp hr =>
    exact Bal.fin (Bal.go (p0 := .pu3) (Bal.ev (Bal.congr hb rfl rfl rfl)) ht hp)
      (by rw [H.pushed]; omega)
  case pu4 t ht hp hs =>
    exact Bal.fin (Bal.go (p0 := .pu4) (Bal.ev (Bal.congr hb rfl rfl rfl)) ht hp)
      (by rw [H.z .pu5 rfl, H.counted]; omega)
  case iterOk t ht hp c =>
    exact Bal.fin (Bal.go (p0 := .rI) (Bal.ev hb) ht hp) (by rw [H.z .rI rfl, H.iter]; omega)
  case rS t ht c hp hm =>
    exact Bal.fin (Bal.go (p0 := .rS c) (Bal.congr hb rfl rfl rfl) ht hp) (by rw [H.rS]; omega)
  case rS' t ht c hp hr =>
    exact Bal.fin (Bal.go (p0 := .rS' c) (Bal.ev (Bal.congr hb rfl rfl rfl)) ht hp)
      (by rw [H.z .r6 rfl, H.saved]; omega)
  case pu5 t ht hp hm =>
    refine hb.pu (p := if s.newData = 0 then .pl0 else .pu6) ht hp ?_ ?_ rfl rfl ?_
    · simp only [if_true]; split <;> rfl
    · intro j hj; simp only [if_neg hj]
    · split
      · rw [H.z _ rfl, H.z _ rfl]
      · rw [H.z _ rfl, H.z _ rfl]
  case pu6 t ht hp =>
    refine hb.pu (p := .home) ht hp ?_ ?_ rfl ?_ ?_
    · simp only [if_true]
    · intro j hj; simp only [if_neg hj]
    · simp [wsum, H.wz _ (show specialE (.ret t (.err none)) = false from rfl)]
    · rw [H.z _ rfl, H.z _ rfl]
  case nl0 t ht hp j hj st p hq =>
    have hjt : t ≠ j := by rintro rfl; rw [hp] at hq; cases hq
    refine Bal.fin (Bal.go (p0 := .nl0) (Bal.go (p0 := (s.thr j).pc) (Bal.ev hb) hj rfl) ht ?_) ?_
    · rw [go_pc, if_neg hjt]; exact hp
    · have hz : f p = 0 := by
        rcases notifying_some hq with ⟨k, h, _, rfl⟩ | ⟨k, h, _, rfl⟩ | ⟨k, _, h, _, rfl⟩ |
            ⟨k, h, _, rfl⟩ | ⟨h, rfl⟩ | ⟨h, _, rfl⟩ | ⟨h, _, rfl⟩ | ⟨h, _, rfl⟩ | ⟨_, h, _, rfl⟩ |
            ⟨_, h, _, rfl⟩ | ⟨h, rfl⟩ <;> exact H.z _ rfl
      rw [hz, H.z (.nl1 st) rfl, H.z .nl0 rfl, H.notified, H.set _ _ (by rw [hq]; rfl)]; omega
  case sd3 t ht a k hp j hj i hq ha =>
    have hjt : t ≠ j := by rintro rfl; rw [hp] at hq; cases hq
    have h1 : Bal f w 0 (s.go j (if i then .r1 else .r6)) :=
      Bal.goZ H hb rfl rfl rfl hj hq rfl (by cases i <;> rfl)
    exact Bal.sentZ (p0 := .sd3 a k) H h1 rfl rfl rfl ht (by rw [go_pc, if_neg hjt]; exact hp) rfl
  case c6 t ht hp j hj i hq ha =>
    have hjt : t ≠ j := by rintro rfl; rw [hp] at hq; cases hq
    have h1 : Bal f w 0 (s.go j (if i then .r1 else .r6)) :=
      Bal.goZ H hb rfl rfl rfl hj hq rfl (by cases i <;> rfl)
    exact Bal.goZ (p0 := .c6) H h1 rfl rfl rfl ht (by rw [go_pc, if_neg hjt]; exact hp) rfl rfl
  case r1 t ht hp j hj st k hq =>
    have hjt : t ≠ j := by rintro rfl; rw [hp] at hq; cases hq
    have h1 : Bal f w 0 (s.go j (.sd2 k)) := Bal.goZ H hb rfl rfl rfl hj hq rfl rfl
    exact Bal.goZ (p0 := .r1) H h1 rfl rfl rfl ht (by rw [go_pc, if_neg hjt]; exact hp) rfl rfl
  case r9 t ht hp j hj st k hq =>
    have hjt : t ≠ j := by rintro rfl; rw [hp] at hq; cases hq
    have h1 : Bal f w 0 (s.go j (.sd2 k)) := Bal.goZ H hb rfl rfl rfl hj hq rfl rfl
    exact Bal.goZ (p0 := .r9) H h1 rfl rfl rfl ht (by rw [go_pc, if_neg hjt]; exact hp) rfl rfl
  case c4 t ht hp j hj st k hq =>
    have hjt : t ≠ j := by rintro rfl; rw [hp] at hq; cases hq
    have h1 : Bal f w 0 (s.go j (.sd2 k)) := Bal.goZ H hb rfl rfl rfl hj hq rfl rfl
    exact Bal.putZ (p0 := .c4 none) H h1 rfl rfl rfl ht (by rw [go_pc, if_neg hjt]; exact hp) rfl rfl
  case c4Panic t ht e hp j hj st k hq =>
    have hjt : t ≠ j := by rintro rfl; rw [hp] at hq; cases hq
    have h1 : Bal f w 0 (s.go j (.sd2 k)) := Bal.goZ H hb rfl rfl rfl hj hq rfl rfl
    exact Bal.goZ (p0 := .c4 (some e)) H h1 rfl rfl rfl ht (by rw [go_pc, if_neg hjt]; exact hp)
      rfl rfl
  case call t ht hp op hk =>
    exact Bal.evZ H hb rfl rfl rfl ht hp rfl (by cases op <;> rfl) rfl
  case in0 t ht hp hs =>
    exact Bal.goZ H hb rfl rfl rfl ht hp rfl (by cases s.status.value <;> rfl)
  case pl0Init t ht hp hs hv =>
    exact Bal.goZ H hb rfl rfl rfl ht hp rfl (by cases s.status.value <;> rfl)
  case nl1 t ht st hp hm =>
    exact Bal.goZ H hb rfl rfl rfl ht hp rfl (by split <;> rfl)
  case r7 t ht hp hm hd =>
    exact Bal.goZ H hb rfl rfl rfl ht hp rfl (by split <;> rfl)
  all_goals first
    | (with_reducible refine Bal.retZ H hb ?_ ?_ ?_ ‹_› ‹_› ?_) <;> rfl
    | (with_reducible refine Bal.evZ H hb ?_ ?_ ?_ ‹_› ‹_› ?_ ?_ ?_) <;> rfl
    | (with_reducible refine Bal.putZ H hb ?_ ?_ ?_ ‹_› ‹_› ?_ ?_) <;> rfl
    | (with_reducible refine Bal.sentZ H hb ?_ ?_ ?_ ‹_› ‹_› ?_) <;> rfl
    | (with_reducible refine Bal.goZ H hb ?_ ?_ ?_ ‹_› ‹_› ?_ ?_) <;> rfl

/-- Every balance holds in every reachable state. -/
theorem Reachable.bal {f : PC C → Nat} {w : Event C → Int} {conf : Conf} {s : Algo C}
    (h : Reachable conf s) (H : Balanced f w) : wsum w s.log = tot f s := by
  have := Reachable.induction (P := fun s => Bal f w 0 s) rfl (fun _ _ hb hs => hb.step H hs) h
  unfold Bal at this
  omega

end Algo
end Distclus
