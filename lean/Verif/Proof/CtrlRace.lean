import Verif.Proof.CtrlBatchRun
import Verif.Proof.CtrlBlock
import Verif.Spec.CtrlRace
/-!
# Data races: which accesses can race
-/
namespace Distclus
open Ctrl
namespace Algo
open Spec
set_option linter.unusedTactic false
set_option linter.unusedSimpArgs false
set_option linter.unreachableTactic false
set_option linter.unnecessarySeqFocus false

variable {C : Type} {conf : Conf} {s : Algo C} {i j : Nat} {a b : Access} {v : ClustStatus} {p q : PC C}

/-- The access is made with the lock of its variable; `notifChannel` is written with `statusMutex`. -/
def guarded (a : Access) : Bool :=
  match a.loc with
  | .status => decide (Lock.status ∈ a.locks)
  | .notif => decide (Lock.status ∈ a.locks)
  | .ack | .timeout => false
  | _ => decide (Lock.modelW ∈ a.locks) || (!a.write && decide (Lock.modelR ∈ a.locks))

theorem mem_guarded (h : a ∈ accesses conf v p) :
    guarded a = true ∨ lockless a.loc p = true ∨
      (a.loc = .notif ∧ a.write = false ∧ (p = .nl0 ∨ p = .r14 ∨ (∃ st, p = .r3 st ∨ p = .r11 st) ∨ ∃ e, p = .r16 e)) := by
  unfold accesses at h
  split at h <;> (try split at h) <;> simp only [List.mem_cons, List.not_mem_nil, or_false] at h
  all_goals rcases h with rfl | rfl | rfl | rfl
  all_goals first
    | exact .inl rfl
    | exact .inr (.inl rfl)
    | exact .inr (.inr ⟨rfl, rfl, .inl rfl⟩)
    | exact .inr (.inr ⟨rfl, rfl, .inr (.inl rfl)⟩)
    | exact .inr (.inr ⟨rfl, rfl, .inr (.inr (.inl ⟨_, .inl rfl⟩))⟩)
    | exact .inr (.inr ⟨rfl, rfl, .inr (.inr (.inl ⟨_, .inr rfl⟩))⟩)
    | exact .inr (.inr ⟨rfl, rfl, .inr (.inr (.inr ⟨_, rfl⟩))⟩)

theorem apart_of {k l : Lock} (hk : k ∈ a.locks) (hl : l ∈ b.locks) (h : excludes k l = true) :
    apart a b = true :=
  List.any_eq_true.2 ⟨k, hk, List.any_eq_true.2 ⟨l, hl, h⟩⟩

theorem clash_iff : clash a b = true ↔ a.loc = b.loc ∧ (a.write = true ∨ b.write = true) ∧ apart a b = false := by
  simp only [clash, Bool.and_eq_true, decide_eq_true_eq, Bool.or_eq_true, Bool.not_eq_true', and_assoc]

theorem guarded_apart (ha : guarded a = true) (hb : guarded b = true) : clash a b = false := by
  rw [Bool.eq_false_iff]
  intro hc
  obtain ⟨hl, hw, hn⟩ := clash_iff.1 hc
  have model : (decide (Lock.modelW ∈ a.locks) || (!a.write && decide (Lock.modelR ∈ a.locks))) = true →
      (decide (Lock.modelW ∈ b.locks) || (!b.write && decide (Lock.modelR ∈ b.locks))) = true → False := by
    intro h1 h2
    simp only [Bool.or_eq_true, decide_eq_true_eq, Bool.and_eq_true, Bool.not_eq_true'] at h1 h2
    rcases h1 with h1 | ⟨h1, h1'⟩ <;> rcases h2 with h2 | ⟨h2, h2'⟩
    · rw [apart_of h1 h2 rfl] at hn; cases hn
    · rw [apart_of h1 h2' rfl] at hn; cases hn
    · rw [apart_of h1' h2 rfl] at hn; cases hn
    · rw [h1, h2] at hw; simp at hw
  have status : decide (Lock.status ∈ a.locks) = true → decide (Lock.status ∈ b.locks) = true → False := by
    intro h1 h2
    rw [apart_of (of_decide_eq_true h1) (of_decide_eq_true h2) rfl] at hn; cases hn
  unfold guarded at ha hb
  rw [← hl] at hb
  cases h : a.loc <;> rw [h] at ha hb
  case status => exact status ha hb
  case notif => exact status ha hb
  case ack => cases ha
  case timeout => cases ha
  all_goals exact model ha hb

/-- A lockless access to a variable which has a lock is a read. -/
theorem lockless_read (h : a ∈ accesses conf v p) (hl : lockless a.loc p = true) :
    a.loc = .ack ∨ a.loc = .timeout ∨ a.write = false := by
  unfold accesses at h
  split at h <;> (try split at h) <;> simp only [List.mem_cons, List.not_mem_nil, or_false] at h
  all_goals rcases h with rfl | rfl | rfl | rfl
  all_goals first
    | exact .inl rfl
    | exact .inr (.inl rfl)
    | exact .inr (.inr rfl)
    | cases hl

/-- `notifChannel` is written when the status is Created. -/
theorem notif_write (h : a ∈ accesses conf v p) (hl : a.loc = .notif) (hw : a.write = true) : v = .created := by
  unfold accesses at h
  split at h <;> (try split at h) <;> simp only [List.mem_cons, List.not_mem_nil, or_false] at h
  all_goals rcases h with rfl | rfl | rfl | rfl
  all_goals first | (cases hl; done) | (cases hw; done) | exact of_decide_eq_true hw

theorem ack_write (h : a ∈ accesses conf v p) (hl : a.loc = .ack) (hw : a.write = true) : p = .r0 := by
  unfold accesses at h
  split at h <;> (try split at h) <;> simp only [List.mem_cons, List.not_mem_nil, or_false] at h
  all_goals rcases h with rfl | rfl | rfl | rfl
  all_goals first | rfl | (cases hl; done) | (cases hw; done)

theorem timeout_pc (h : a ∈ accesses conf v p) (hl : a.loc = .timeout) : p = .pl2 ∨ p = .pl3 := by
  unfold accesses at h
  split at h <;> (try split at h) <;> simp only [List.mem_cons, List.not_mem_nil, or_false] at h
  all_goals rcases h with rfl | rfl | rfl | rfl
  all_goals first | exact .inl rfl | exact .inr rfl | cases hl

theorem clash_comm : clash a b = clash b a := by
  have : ∀ {a b : Access}, apart a b = true → apart b a = true := by
    intro a b h
    obtain ⟨k, hk, h⟩ := List.any_eq_true.1 h
    obtain ⟨l, hl, h⟩ := List.any_eq_true.1 h
    exact apart_of hl hk (by cases k <;> cases l <;> first | rfl | cases h)
  have h : apart a b = apart b a := Bool.eq_iff_iff.2 ⟨this, this⟩
  unfold clash
  rw [h, Bool.or_comm a.write]
  congr 2
  exact decide_eq_decide.2 eq_comm

theorem Race.symm (h : Race conf s i j a b) : Race conf s j i b a :=
  ⟨h.1.symm, h.2.2.1, h.2.1, clash_comm ▸ h.2.2.2⟩

/-- The reads of `notifChannel` without lock come after its creation. -/
theorem notif_created (hr : Reachable conf s) (hi : i < s.n)
    (h : (s.thr i).pc = .nl0 ∨ (s.thr i).pc = .r14 ∨ (∃ st, (s.thr i).pc = .r3 st ∨ (s.thr i).pc = .r11 st) ∨
      ∃ e, (s.thr i).pc = .r16 e) : s.status.value ≠ .created := by
  have hS := hr.st.2.pc i
  rcases h with h | h | ⟨st, h | h⟩ | ⟨e, h⟩
  · exact hr.notif.created i hi (hr.notif.loop i (.inl h))
  all_goals rw [h] at hS
  · exact hS
  · exact hS.1
  · exact hS.1
  · exact hS

/-- A race involves an access without the lock of its variable. -/
theorem Race.lockless (hr : Reachable conf s) (h : Race conf s i j a b) :
    lockless a.loc (s.thr i).pc = true ∨ lockless a.loc (s.thr j).pc = true := by
  obtain ⟨_, ⟨hi, ha, _⟩, ⟨hj, hb, _⟩, hc⟩ := h
  obtain ⟨hl, hw, hn⟩ := clash_iff.1 hc
  rcases mem_guarded ha with h1 | h1 | ⟨h1, h2, h3⟩
  · rcases mem_guarded hb with h4 | h4 | ⟨h4, h5, h6⟩
    · rw [guarded_apart h1 h4] at hc; cases hc
    · exact .inr (hl ▸ h4)
    · rw [h5] at hw
      have := notif_write ha (hl.trans h4) (by simpa using hw)
      exact absurd this (notif_created hr hj h6)
  · exact .inl h1
  · rw [h2] at hw
    have := notif_write hb (hl ▸ h1) (by simpa using hw)
    exact absurd this (notif_created hr hi h3)

/-! ## One client -/

/-- The program counters with a lockless access. -/
def hot : PC C → Bool
  | .it3 | .r6 | .r9 | .r12 | .r0 | .r7 | .sd2 _ | .r4 _ | .c6 | .c7 | .pl2 | .pl3 => true
  | _ => false

theorem hot_of (h : a ∈ accesses conf v p) (hl : Spec.lockless a.loc p = true) : hot p = true := by
  unfold accesses at h
  split at h <;> (try split at h) <;> simp only [List.mem_cons, List.not_mem_nil, or_false] at h
  all_goals rcases h with rfl | rfl | rfl | rfl
  all_goals first | rfl | cases hl

/-- The client and its run do not clash. -/
theorem row_clash {op : Option Op} {d : ClustStatus} {ph : Ph} {k : Nat} {cl : Prop} (ht : Tame conf)
    (hC : ClientOk k op d ph p) (hO : RunOk k cl v q ph)
    (h7 : (conf.iter = 0 ∧ conf.iterPerData = 0) ∨ (op = some .push → d ≠ .running))
    (ha : a ∈ accesses conf v p) (hb : b ∈ accesses conf v q) (hh : hot p = true ∨ hot q = true) :
    clash a b = false := by
  obtain ⟨_, htm, _⟩ := ht
  by_cases hp : hot p = true
  · cases p <;> first | (cases hp; done) | exact hC.elim | skip
    case pl2 =>
      simp only [accesses, List.mem_singleton] at ha
      subst ha
      rw [Bool.eq_false_iff]
      intro hc
      obtain ⟨_, _, rfl⟩ := hC
      rcases timeout_pc hb (clash_iff.1 hc).1.symm with rfl | rfl <;> exact hO.2.1
    case pl3 => simp [accesses, htm] at ha
    case it3 =>
      obtain ⟨_, _, rfl⟩ := hC
      obtain ⟨_, _, rfl | rfl⟩ := hO <;> simp [accesses] at hb
    case sd2 k =>
      simp only [accesses, List.mem_singleton] at ha
      subst ha
      rw [Bool.eq_false_iff]
      intro hc
      obtain ⟨_, rfl⟩ := hC
      obtain ⟨h1, h2, _⟩ := clash_iff.1 hc
      cases ack_write hb h1.symm (by simpa using h2)
      cases k <;> first | exact hO.1 | exact hO
  · have hq := hh.resolve_left hp
    have hr := hO.pc
    cases p <;> first | exact hC.elim | exact absurd rfl hp | (cases ha; done) | (simp [accesses, htm] at ha; done) | skip
    case wa2 =>
      obtain ⟨rfl, _⟩ := hC
      replace ha := List.mem_singleton.1 ha
      subst ha
      cases q <;> first | (cases hq; done) | (rcases hr with hr | hr <;> cases hr; done) | skip
      all_goals (try simp only [accesses] at hb) <;> (try split at hb) <;> (try simp only [List.mem_cons, List.not_mem_nil, or_false] at hb)
      all_goals (try rcases hb with rfl | rfl | rfl | rfl) <;> first | rfl | (cases hb; done)
    all_goals cases q <;> first | (cases hq; done) | (rcases hr with hr | hr <;> cases hr; done) | skip
    all_goals first
      | (exfalso; simp_all [ClientOk, RunOk]; done)
      | skip
    all_goals (try simp only [accesses] at ha hb) <;> (try split at hb) <;> (try simp only [List.mem_cons, List.not_mem_nil, or_false] at ha hb)
    all_goals (try rcases ha with rfl | rfl | rfl | rfl) <;> (try rcases hb with rfl | rfl | rfl | rfl) <;> first | rfl | (cases hb; done) | skip
    · obtain ⟨rfl, rfl⟩ := hC
      obtain ⟨rfl, hO⟩ := hO
      rcases h7 with h7 | h7
      · contradiction
      · cases v <;> first | exact absurd rfl (h7 rfl) | (simp [Quiet] at hO; done)
    all_goals
      obtain ⟨_, _, _, rfl⟩ := hC
      obtain ⟨rfl, hO⟩ := hO
      cases v <;> first | rfl | (simp [Quiet, InLoop] at hO; done)

/-- The same after the limit of the run. -/
theorem end_clash {op : Option Op} {d : ClustStatus} (ht : Tame conf) (hC : ClientEnd op d v p)
    (hO : RunEnd v q) (ha : a ∈ accesses conf v p) (hb : b ∈ accesses conf v q)
    (hh : hot p = true ∨ hot q = true) : clash a b = false := by
  obtain ⟨_, htm, _⟩ := ht
  have hr := hO.pc
  by_cases hp : hot p = true
  · cases p <;> first | (cases hp; done) | exact hC.elim | skip
    case pl2 =>
      simp only [accesses, List.mem_singleton] at ha
      subst ha
      rw [Bool.eq_false_iff]
      intro hc
      rcases timeout_pc hb (clash_iff.1 hc).1.symm with rfl | rfl <;> exact hO
    case pl3 => simp [accesses, htm] at ha
  · have hq := hh.resolve_left hp
    cases p <;> first | exact hC.elim | exact absurd rfl hp | (cases ha; done) | (simp [accesses, htm] at ha; done) | skip
    case wa2 =>
      obtain ⟨rfl, _⟩ := hC
      replace ha := List.mem_singleton.1 ha
      subst ha
      cases q <;> first | (cases hq; done) | exact hO.elim | skip
      all_goals (try simp only [accesses] at hb) <;> (try split at hb) <;> (try simp only [List.mem_cons, List.not_mem_nil, or_false] at hb)
      all_goals (try rcases hb with rfl | rfl | rfl | rfl) <;> first | rfl | (cases hb; done)
    all_goals cases q <;> first | (cases hq; done) | exact hO.elim | skip
    all_goals (try simp only [accesses] at ha hb) <;> (try split at hb) <;> (try simp only [List.mem_cons, List.not_mem_nil, or_false] at ha hb)
    all_goals (try rcases ha with rfl | rfl | rfl | rfl) <;> (try rcases hb with rfl | rfl | rfl | rfl) <;> first | rfl | (cases hb; done) | (cases hO; rfl)

/-- Goroutines which are over make no access. -/
theorem not_dead (h : a ∈ accesses conf v p) : p ≠ .dead := by
  rintro rfl; cases h

/-- The notification loop reads `notifChannel` only. -/
theorem notif_lockless (h : a ∈ accesses conf v p) (hn : NotifOk p) (q : PC C) :
    Spec.lockless a.loc q = false := by
  cases p <;> first | exact hn.elim | (cases h; done) | (cases List.mem_singleton.1 h; rfl)

theorem race_hot (hr : Reachable conf s) (h : Race conf s i j a b) :
    hot (s.thr i).pc = true ∨ hot (s.thr j).pc = true := by
  obtain ⟨_, _, ⟨_, hb, _⟩, hc⟩ := id h
  rcases Race.lockless hr h with h1 | h1
  · exact .inl (hot_of h.2.1.2.1 h1)
  · exact .inr (hot_of hb ((clash_iff.1 hc).1 ▸ h1))

/-- No race, when the goroutines are the client, the notification loop and one run which do not clash. -/
theorem raceFree_of (hr : Reachable conf s) {x y : PC C}
    (who : ∀ t < s.n, (s.thr t).pc ≠ .dead → (t = 0 ∧ (s.thr t).pc = x) ∨ NotifOk (s.thr t).pc ∨
      (t = s.n - 1 ∧ (s.thr t).pc = y))
    (h : ∀ a b, a ∈ accesses conf s.status.value x → b ∈ accesses conf s.status.value y →
      hot x = true ∨ hot y = true → clash a b = false) : RaceFree conf s := by
  intro i j a b h1
  have hh := race_hot hr h1
  have hl := Race.lockless hr h1
  obtain ⟨hij, ⟨hi, ha, _⟩, ⟨hj, hb, _⟩, hc⟩ := h1
  have hab := (clash_iff.1 hc).1
  rcases who i hi (not_dead ha) with ⟨rfl, hx⟩ | hx | ⟨rfl, hx⟩
  · rcases who j hj (not_dead hb) with ⟨rfl, hy⟩ | hy | ⟨rfl, hy⟩
    · exact hij rfl
    · rw [hab, notif_lockless hb hy, notif_lockless hb hy] at hl; simp at hl
    · rw [hx] at ha hh; rw [hy] at hb hh
      rw [h a b ha hb hh] at hc; cases hc
  · rw [notif_lockless ha hx, notif_lockless ha hx] at hl; simp at hl
  · rcases who j hj (not_dead hb) with ⟨rfl, hy⟩ | hy | ⟨rfl, hy⟩
    · rw [hx] at ha hh; rw [hy] at hb hh
      rw [clash_comm, h b a hb ha hh.symm] at hc; cases hc
    · rw [hab, notif_lockless hb hy, notif_lockless hb hy] at hl; simp at hl
    · exact hij rfl

theorem UseInv.raceFree {fol : List (Op × Res C) → Option ClustStatus} (ht : Tame conf)
    (hr : Reachable conf s) (hI : UseInv fol s)
    (h7 : (conf.iter = 0 ∧ conf.iterPerData = 0) ∨
      ((session s.log).1 = some .push → fol (session s.log).2 ≠ some .running)) : RaceFree conf s := by
  obtain ⟨op, d, ph, ⟨h1, h2⟩, hC, hO⟩ := hI.row
  refine raceFree_of hr (x := (s.thr 0).pc) (y := runPc s) ?_ ?_
  · intro t ht hd
    rcases hI.who ht rfl hd with ⟨rfl, _⟩ | ⟨rfl, _, _, hN⟩ | ⟨rfl, _, hR, _⟩
    · exact .inl ⟨rfl, rfl⟩
    · exact .inr (.inl hN)
    · exact .inr (.inr ⟨rfl, hR.symm⟩)
  · intro a b ha hb hh
    refine row_clash ht hC hO ?_ ha hb hh
    rcases h7 with h7 | h7
    · exact .inl h7
    · rw [h1, h2] at h7
      exact .inr fun ho hd => h7 ho (hd ▸ rfl)

theorem EndInv.raceFree (ht : Tame conf) (hr : Reachable conf s) (hI : EndInv conf s) : RaceFree conf s := by
  obtain ⟨op, d, _, hC, hO⟩ := hI.row
  refine raceFree_of hr (x := (s.thr 0).pc) (y := (s.thr (s.n - 1)).pc) ?_ (fun a b => end_clash ht hC hO)
  intro t ht hd
  rcases hI.who ht rfl hd with ⟨rfl, _⟩ | ⟨rfl, _, hN⟩ | ⟨rfl, hR⟩
  · exact .inl ⟨rfl, rfl⟩
  · exact .inr (.inl hN)
  · exact .inr (.inr ⟨rfl, rfl⟩)

end Algo
end Distclus
