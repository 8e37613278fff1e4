import Verif.Proof.CtrlRun
import Verif.Spec.CtrlUse
/-!
# A client which uses the controller alone: the invariant
-/
namespace Distclus
open Ctrl
namespace Algo
open Spec
variable {C : Type}
variable {conf : Conf} {s s' : Algo C} {t u : Nat}
variable {fol : List (Op × Res C) → Option ClustStatus}

/-- The reading follows the documented workflow, except perhaps for a `Wait` on a run which has a limit. -/
structure Reads (conf : Conf) (fol : List (Op × Res C) → Option ClustStatus) : Prop where
  nil : fol [] = some .created
  next : ∀ {l v op r}, fol l = some v → right v op r = true →
    (v = .running → (∀ c d, op ≠ .wait c d) ∨ (conf.iter = 0 ∧ conf.iterPerData = 0)) →
    fol ((op, r) :: l) = some (after v op)

/-- `Peaceful` for another reading. -/
def Mild (fol : List (Op × Res C) → Option ClustStatus) : List (Event C) → Prop
  | [] => True
  | e :: l => (match e with
    | .call t op => t = 0 ∧ (∀ c d, op = .wait c d → c = false ∧ d = false) ∧
        (op = .stop → fol (session l).2 ≠ some .idle)
    | .initRet _ e => e = none
    | .iterErr _ _ => False
    | .iterPanic _ _ => False
    | _ => True) ∧ Mild fol l

theorem peaceful_mild : ∀ {l : List (Event C)}, Peaceful l → Mild follows l
  | [], _ => trivial
  | _ :: _, h => ⟨h.1, peaceful_mild h.2⟩

theorem Reads.follows : Reads conf (follows (C := C)) :=
  ⟨rfl, fun h hr _ => by simp only [Spec.follows, h, hr, if_true]⟩

/-- Where the client and its run are with respect to each other. -/
inductive Ph where
  /-- the client does not interfere with the run -/
  | quiet (d : ClustStatus)
  /-- there is no run and the client is changing the status, which is `v` -/
  | alone (v : ClustStatus)
  /-- the client is about to send a status to the run -/
  | offer (k : SendFrom)
  /-- the run has received it, the client waits for the acknowledgement -/
  | wait (k : SendFrom)
  /-- the run has been stopped and is over -/
  | ended

/-- The call from which `init` is called. -/
def opOf : InitFrom → Op
  | .init => .init
  | .play => .play

/-- What the client may be sending. -/
def sendOk (op : Option Op) (d : ClustStatus) : SendFrom → Prop
  | .playRun => op = some .play ∧ (d = .created ∨ d = .finished ∨ d = .ready)
  | .playIdle => op = some .play ∧ d = .idle
  | .pause => op = some .pause ∧ d = .running
  | .interrupt => op = some .stop ∧ d = .running

/-- The status sent. -/
def sentSt : SendFrom → OCStatus
  | .playRun => .new .running
  | .playIdle => .new .running
  | .pause => .new .idle
  | .interrupt => .ofError none

/-- Where the client may be, in the call `op` begun when the documented status was `d`. -/
def ClientOk (a : Nat) (op : Option Op) (d : ClustStatus) (ph : Ph) : PC C → Prop
  | .home => op = none ∧ ph = .quiet d
  | .rdStatus => op = some .status ∧ ph = .quiet d
  | .rdCentroids => op = some .centroids ∧ ph = .quiet d
  | .rdFigures => op = some .figures ∧ ph = .quiet d
  | .rdConf => op = some .conf ∧ ph = .quiet d
  | .pu0 | .pu1 | .pu2 | .pu3 | .pu4 | .pu5 | .pu6 => op = some .push ∧ ph = .quiet d
  | .in0 => op = some .init ∧ ph = .quiet d
  | .in1 k | .in2 k => op = some (opOf k) ∧ d = .finished ∧ ph = .alone .finished
  | .in3 k => op = some (opOf k) ∧ (d = .created ∨ d = .finished) ∧ ph = .alone d
  | .in4 k | .in5 k => op = some (opOf k) ∧ (d = .created ∨ d = .finished) ∧ ph = .alone .initializing
  | .in6 k _ e | .in7 k _ e | .in8 k e => e = none ∧ op = some (opOf k) ∧
      (d = .created ∨ d = .finished) ∧ ph = .alone .initializing
  | .in9 k e => e = none ∧ op = some (opOf k) ∧ (d = .created ∨ d = .finished) ∧ ph = .alone .ready
  | .in10 k e => (e = none ∧ op = some (opOf k) ∧ (d = .created ∨ d = .finished) ∧ ph = .alone .ready) ∨
      (e = some .alreadyCreated ∧ k = .init ∧ op = some .init ∧ d ≠ .created ∧ d ≠ .finished ∧
        ph = .quiet d)
  | .pl0 => op = some .play ∧ ph = .quiet d
  | .pl1 => op = some .play ∧ (d = .created ∨ d = .finished ∨ d = .ready) ∧ ph = .alone .ready
  | .pl2 | .pl3 => op = some .play ∧ (d = .created ∨ d = .finished ∨ d = .ready) ∧ ph = .quiet .running
  | .pa0 => op = some .pause ∧ ph = .quiet d
  | .it0 e => e = none ∧ op = some .stop ∧ d ≠ .idle ∧ ph = .quiet d
  | .it1 e => e = none ∧ op = some .stop ∧ d = .ready ∧ ph = .alone .finished
  | .it2 => op = some .stop ∧ d = .ready ∧ ph = .alone .finished
  | .it3 => op = some .stop ∧ d = .running ∧ ph = .ended
  | .sd0 st k | .sd1 st k => sendOk op d k ∧ st = sentSt k ∧ ph = .offer k
  | .sd2 k => sendOk op d k ∧ ph = .wait k
  | .sd3 a' k => sendOk op d k ∧ a' = a ∧ ph = .wait k
  | .wa0 c b => c = false ∧ b = false ∧ op = some (.wait false false) ∧ ph = .quiet d
  | .wa1 c b | .wa2 c b =>
    c = false ∧ b = false ∧ op = some (.wait false false) ∧ d = .running ∧ ph = .quiet d
  | _ => False

/-- A run in its loop. -/
def InLoop : PC C → Prop
  | .r6 | .r7 | .r9 | .rI | .rS _ | .rS' _ => True
  | _ => False

/-- A run left alone, by the documented status. -/
def Quiet (cl : Prop) (r : PC C) : ClustStatus → Prop
  | .created => r = .dead
  | .ready => r = .dead
  | .running => InLoop r ∧ ¬ cl
  | .idle => r = .r1 ∧ ¬ cl
  | .finished => r = .dead ∨ r = .c8
  | .initializing => False

/-- A run which has received Running. -/
def Starting (a : Nat) (v : ClustStatus) : PC C → Prop
  | .r2 st => st = .new .running ∧ (v = .ready ∨ v = .idle)
  | .r3 st => st = .new .running ∧ v = .running
  | .r4 i => i = false ∧ v = .running
  | .r5 i a' => i = false ∧ a' = a ∧ v = .running
  | _ => False

/-- A run which has received Idle. -/
def Pausing (a : Nat) (v : ClustStatus) : PC C → Prop
  | .r10 st => st = .new .idle ∧ v = .running
  | .r11 st => st = .new .idle ∧ v = .idle
  | .r4 i => i = true ∧ v = .idle
  | .r5 i a' => i = true ∧ a' = a ∧ v = .idle
  | _ => False

/-- A run which has received Finished. -/
def Stopping (cl : Prop) (v : ClustStatus) : PC C → Prop
  | .r10 st => st = .ofError none ∧ v = .running ∧ ¬ cl
  | .r11 st => st = .ofError none ∧ v = .finished ∧ ¬ cl
  | .c0 p | .c2 p | .c3 p | .c4 p => p = none ∧ v = .finished ∧ ¬ cl
  | .r6 | .r12 | .c6 | .c7 => v = .finished ∧ ¬ cl
  | .c8 | .dead => v = .finished ∧ cl
  | _ => False

/-- Where the run may be; `cl`: its channel is closed. -/
def RunOk (a : Nat) (cl : Prop) (v : ClustStatus) (r : PC C) : Ph → Prop
  | .quiet d => v = d ∧ Quiet cl r d
  | .alone v' => v = v' ∧ r = .dead
  | .offer .playRun => v = .ready ∧ (r = .r0 ∨ (r = .r1 ∧ ¬ cl))
  | .offer .playIdle => v = .idle ∧ r = .r1 ∧ ¬ cl
  | .offer _ => v = .running ∧ InLoop r ∧ ¬ cl
  | .wait .playRun => Starting a v r ∧ ¬ cl
  | .wait .playIdle => Starting a v r ∧ ¬ cl
  | .wait .pause => Pausing a v r ∧ ¬ cl
  | .wait .interrupt => Stopping cl v r
  | .ended => v = .finished ∧ cl ∧ (r = .dead ∨ r = .c8)

/-- The last run. -/
def runPc (s : Algo C) : PC C := if 3 ≤ s.n then (s.thr (s.n - 1)).pc else .dead

/-- The record says: call `op`, documented status `d`. -/
def Rec (fol : List (Op × Res C) → Option ClustStatus) (l : List (Event C)) (op : Option Op) (d : ClustStatus) : Prop :=
  (session l).1 = op ∧ fol (session l).2 = some d

/-- The notification loop. -/
def NotifOk : PC C → Prop
  | .nl0 | .nl1 _ | .home => True
  | _ => False

/-- The client, its call and the run fit together. -/
def Row (fol : List (Op × Res C) → Option ClustStatus) (s : Algo C) : Prop := ∃ op d ph, Rec fol s.log op d ∧ ClientOk s.ack op d ph (s.thr 0).pc ∧
  RunOk s.ack (s.ack ∈ s.closed) s.status.value (runPc s) ph

/-- The invariant. -/
structure UseInv (fol : List (Op × Res C) → Option ClustStatus) (s : Algo C) : Prop where
  pos : 1 ≤ s.n
  others : ∀ j, 2 ≤ j → j + 1 < s.n → (s.thr j).pc = .dead
  notif : 2 ≤ s.n → NotifOk (s.thr 1).pc
  kind0 : (s.thr 0).kind = .client
  kind1 : 2 ≤ s.n → (s.thr 1).kind = .notifier
  born : s.status.value = .created ↔ s.n = 1
  row : Row fol s
  err : s.status.error = none
  push : (s.thr 0).inPush = true → (s.thr 0).pc = .pu6
  newData : (s.thr 0).pc = .pu5 → s.newData ≠ 0
  full : ∀ j, s.sm = some j → holdsS (s.thr j).pc = true

/-- Who a live goroutine is. -/
theorem UseInv.who (hI : UseInv fol s) {p : PC C} (ht : t < s.n) (hp : (s.thr t).pc = p) (hd : p ≠ .dead) :
    (t = 0 ∧ (s.thr 0).pc = p) ∨ (t = 1 ∧ 2 ≤ s.n ∧ (s.thr 1).pc = p ∧ NotifOk p) ∨
    (t = s.n - 1 ∧ 3 ≤ s.n ∧ runPc s = p ∧ (s.thr (s.n - 1)).pc = p) := by
  by_cases h0 : t = 0
  · subst h0; exact .inl ⟨rfl, hp⟩
  by_cases h1 : t = 1
  · subst h1; exact .inr (.inl ⟨rfl, ht, hp, hp ▸ hI.notif ht⟩)
  by_cases h2 : t = s.n - 1
  · subst h2
    have : 3 ≤ s.n := by omega
    exact .inr (.inr ⟨rfl, this, by simp [runPc, this, hp], hp⟩)
  · exact absurd (hI.others t (by omega) (by omega)) (hp ▸ hd)

/-- A new state with the same goroutines. -/
theorem UseInv.same (hI : UseInv fol s) (hn : s'.n = s.n) (hk : ∀ j, (s'.thr j).kind = (s.thr j).kind)
    (ho : ∀ j, j ≠ 0 → j ≠ 1 → j + 1 ≠ s.n → (s'.thr j).pc = (s.thr j).pc)
    (h1 : 2 ≤ s.n → NotifOk (s'.thr 1).pc)
    (hv : s'.status.value = .created ↔ s.status.value = .created)
    (row : Row fol s') (err : s'.status.error = none)
    (push : (s'.thr 0).inPush = true → (s'.thr 0).pc = .pu6)
    (newData : (s'.thr 0).pc = .pu5 → s'.newData ≠ 0)
    (full : ∀ j, s'.sm = some j → holdsS (s'.thr j).pc = true) : UseInv fol s' :=
  ⟨hn ▸ hI.pos, fun j a b => by
      rw [hn] at b
      rw [ho j (by omega) (by omega) (by omega)]; exact hI.others j a b,
    fun h => h1 (hn ▸ h), by rw [hk]; exact hI.kind0, fun h => by rw [hk]; exact hI.kind1 (hn ▸ h),
    by rw [hv, hn]; exact hI.born, row, err, push, newData, full⟩

theorem runPc_eq (hn : s'.n = s.n) (h : 3 ≤ s.n → (s'.thr (s.n - 1)).pc = (s.thr (s.n - 1)).pc) :
    runPc s' = runPc s := by
  unfold runPc
  rw [hn]
  split
  · exact h ‹_›
  · rfl

/-- The client moves. -/
theorem UseInv.go0 {s1 : Algo C} {p : PC C} (hI : UseInv fol s) (hn : s1.n = s.n) (ht : s1.thr = s.thr)
    (hv : s1.status.value = .created ↔ s.status.value = .created) (err : s1.status.error = none)
    {op : Option Op} {d : ClustStatus} {ph : Ph} (hR : Rec fol s1.log op d)
    (hC : ClientOk s1.ack op d ph p)
    (hO : RunOk s1.ack (s1.ack ∈ s1.closed) s1.status.value (runPc s) ph)
    (push : (s.thr 0).inPush = false) (newData : p = .pu5 → s1.newData ≠ 0)
    (full : s1.sm = none ∨ (s1.sm = some 0 ∧ holdsS p = true) ∨
      (s1.sm = s.sm ∧ (holdsS (s.thr 0).pc = true → holdsS p = true))) : UseInv fol (s1.go 0 p) := by
  refine hI.same hn (fun j => ?_) (fun j h0 _ _ => ?_) (fun h => ?_) hv ⟨op, d, ph, hR, ?_, ?_⟩ err ?_ ?_ ?_
  · rw [go_kind, ht]
  · rw [go_pc, if_neg h0, ht]
  · rw [go_pc, if_neg (by omega), ht]; exact hI.notif h
  · rw [go_pc, if_pos rfl]; exact hC
  · rw [runPc_eq (s := s)]
    · exact hO
    · exact hn
    · intro h; rw [go_pc, if_neg (by omega), ht]
  · rw [go_inPush, ht, push]; rintro ⟨⟩
  · rw [go_pc, if_pos rfl]; exact newData
  · intro j hj
    rw [go_sm] at hj
    rw [go_pc, ht]
    rcases full with h | ⟨h, h'⟩ | ⟨h, h'⟩
    · rw [h] at hj; cases hj
    · rw [h] at hj; cases hj; rw [if_pos rfl]; exact h'
    · have := hI.full j (h ▸ hj)
      split
      · subst j; exact h' this
      · exact this

/-- The client returns. -/
theorem UseInv.ret0 {s1 : Algo C} {r : Res C} (hI : UseInv fol s) (hn : s1.n = s.n) (ht : s1.thr = s.thr)
    (hv : s1.status.value = .created ↔ s.status.value = .created) (err : s1.status.error = none)
    {op : Op} {d : ClustStatus} (hR : Rec fol s1.log (some op) d) (hr : right d op r = true) (hF : Reads conf fol)
    (hw : d = .running → (∀ c d, op ≠ .wait c d) ∨ (conf.iter = 0 ∧ conf.iterPerData = 0))
    (hO : RunOk s1.ack (s1.ack ∈ s1.closed) s1.status.value (runPc s) (.quiet (after d op)))
    (push : (s.thr 0).inPush = false)
    (full : s1.sm = none ∨ (s1.sm = s.sm ∧ holdsS (s.thr 0).pc = false)) : UseInv fol (s1.ret 0 r) := by
  have e : s1.ret 0 r = (s1.ev (.ret 0 r)).go 0 .home := by
    unfold ret; rw [ht, if_neg (by rw [push]; rintro ⟨⟩)]
  rw [e]
  refine hI.go0 (s1 := s1.ev (.ret 0 r)) (op := none) (d := after d op) (ph := .quiet (after d op)) hn ht hv err ?_ ⟨rfl, rfl⟩ hO push
    (fun h => by cases h) ?_
  · obtain ⟨h1, h2⟩ := hR
    simp only [ev_log, Rec, session, h1, hF.next h2 hr hw, and_self]
  · rcases full with h | ⟨h, h'⟩
    · exact .inl h
    · exact .inr (.inr ⟨h, by rw [h']; rintro ⟨⟩⟩)

/-- The run moves. -/
theorem UseInv.goR {s1 : Algo C} {p : PC C} (hI : UseInv fol s) (h3 : 3 ≤ s.n) (hn : s1.n = s.n) (ht : s1.thr = s.thr)
    (hv : s1.status.value ≠ .created) (err : s1.status.error = none)
    {op : Option Op} {d : ClustStatus} {ph : Ph} (hR : Rec fol s1.log op d)
    (hC : ClientOk s1.ack op d ph (s.thr 0).pc)
    (hO : RunOk s1.ack (s1.ack ∈ s1.closed) s1.status.value p ph)
    (hw : s1.newData = s.newData)
    (full : s1.sm = none ∨ (s1.sm = some (s.n - 1) ∧ holdsS p = true) ∨
      (s1.sm = s.sm ∧ (holdsS (s.thr (s.n - 1)).pc = true → holdsS p = true))) : UseInv fol (s1.go (s.n - 1) p) := by
  have hv' : s.status.value ≠ .created := fun h => by have := hI.born.1 h; omega
  refine hI.same hn (fun j => ?_) (fun j h0 _ _ => ?_) (fun h => ?_) ⟨fun h => absurd h hv, fun h => absurd h hv'⟩
    ⟨op, d, ph, hR, ?_, ?_⟩ err ?_ ?_ ?_
  · rw [go_kind, ht]
  · rw [go_pc, if_neg (by omega), ht]
  · rw [go_pc, if_neg (by omega), ht]; exact hI.notif h
  · rw [go_pc, if_neg (by omega), ht]; exact hC
  · have : runPc (s1.go (s.n - 1) p) = p := by
      unfold runPc; rw [go_n, hn, if_pos h3, go_pc, if_pos rfl]
    rw [this]; exact hO
  · rw [go_inPush, go_pc, if_neg (by omega), ht]; exact hI.push
  · rw [go_pc, if_neg (by omega), ht, go_newData, hw]; exact hI.newData
  · intro j hj
    rw [go_sm] at hj
    rw [go_pc, ht]
    rcases full with h | ⟨h, h'⟩ | ⟨h, h'⟩
    · rw [h] at hj; cases hj
    · rw [h] at hj; cases hj; rw [if_pos rfl]; exact h'
    · have := hI.full j (h ▸ hj)
      split
      · subst j; exact h' this
      · exact this

/-- The notification loop moves. -/
theorem UseInv.go1 {s1 : Algo C} {p : PC C} (hI : UseInv fol s) (_ : 2 ≤ s.n) (hp : NotifOk p)
    (hn : s1.n = s.n) (ht : s1.thr = s.thr)
    (h1 : s1.status = s.status) (h3 : s1.ack = s.ack) (h4 : s1.closed = s.closed) (h5 : s1.sm = s.sm)
    (h6 : s1.newData = s.newData) (h7 : session s1.log = session s.log)
    (h8 : holdsS (s.thr 1).pc = false) : UseInv fol (s1.go 1 p) := by
  obtain ⟨op, d, ph, hR, hC, hO⟩ := hI.row
  refine hI.same hn (fun j => ?_) (fun j h0 _ _ => ?_) (fun h => ?_) (by rw [go_status, h1]) ⟨op, d, ph, ?_, ?_, ?_⟩ (by rw [go_status, h1]; exact hI.err) ?_ ?_ ?_
  · rw [go_kind, ht]
  · rw [go_pc, if_neg (by omega), ht]
  · rw [go_pc, if_pos rfl]; exact hp
  · unfold Rec; rw [go_log, h7]; exact hR
  · rw [go_pc, if_neg (by omega), ht, go_ack, h3]; exact hC
  · rw [runPc_eq (s := s) (s' := s1.go 1 p) hn (fun h => by rw [go_pc, if_neg (by omega), ht])]
    rw [go_ack, go_closed, go_status, h3, h4, h1]; exact hO
  · rw [go_inPush, go_pc, if_neg (by omega), ht]; exact hI.push
  · rw [go_pc, if_neg (by omega), ht, go_newData, h6]; exact hI.newData
  · intro j hj
    rw [go_sm, h5] at hj
    have := hI.full j hj
    rw [go_pc, ht]
    split
    · subst j; rw [h8] at this; cases this
    · exact this

/-- The client and the run meet. -/
theorem UseInv.both {q p : PC C} (hI : UseInv fol s) (h3 : 3 ≤ s.n) (hn : s'.n = s.n)
    (hk : ∀ j, (s'.thr j).kind = (s.thr j).kind) (h0 : (s'.thr 0).pc = q)
    (hr : (s'.thr (s.n - 1)).pc = p) (ho : ∀ j, j ≠ 0 → j + 1 ≠ s.n → (s'.thr j).pc = (s.thr j).pc)
    (hp : (s'.thr 0).inPush = false) (h1 : s'.status = s.status) (h4 : s'.sm = s.sm)
    {op : Option Op} {d : ClustStatus} {ph : Ph} (hR : Rec fol s'.log op d)
    (hC : ClientOk s'.ack op d ph q)
    (hO : RunOk s'.ack (s'.ack ∈ s'.closed) s.status.value p ph)
    (hw : q ≠ .pu5)
    (hs : holdsS (s.thr 0).pc = false) (hs' : holdsS (s.thr (s.n - 1)).pc = false) : UseInv fol s' := by
  refine hI.same hn hk (fun j a _ b => ho j a b) (fun h => ?_) (by rw [h1]) ⟨op, d, ph, hR, h0 ▸ hC, ?_⟩
    (by rw [h1]; exact hI.err) (by rw [hp]; rintro ⟨⟩) (by rw [h0]; exact fun h => absurd h hw) ?_
  · rw [ho 1 (by omega) (by omega)]; exact hI.notif h
  · have : runPc s' = p := by unfold runPc; rw [hn, if_pos h3, hr]
    rw [this, h1]; exact hO
  · intro j hj
    rw [h4] at hj
    have := hI.full j hj
    by_cases j0 : j = 0
    · subst j0; rw [hs] at this; cases this
    by_cases jn : j + 1 = s.n
    · have : j = s.n - 1 := by omega
      subst this; rw [hs'] at this; cases this
    · rw [ho j j0 jn]; exact this

end Algo
end Distclus
