import Verif.Proof.CtrlCount
import Verif.Spec.CtrlBlock
/-!
# The actions seen by one goroutine

`Edge conf s u p p'`: in state `s` an action can bring goroutine `u` from `p` to `p'`.
-/
namespace Distclus
open Ctrl Spec
namespace Algo
variable {C : Type}

set_option linter.unusedVariables false

/-- Where a call ends. -/
def back (s : Algo C) (u : Nat) : PC C := if (s.thr u).inPush then .pu6 else .home

/-- Where `sendStatus` ends. -/
def sentPc (s : Algo C) (u : Nat) : SendFrom → PC C
  | .playIdle => back s u
  | .playRun => .pl2
  | .pause => back s u
  | .interrupt => .it3

/-- The moves of a goroutine, with what they need. -/
inductive Edge (conf : Conf) (s : Algo C) (u : Nat) : PC C → PC C → Prop
  | born (hu : u = s.n) : Edge conf s u .dead .home
  | bornRun (hu : u = s.n) (t : Nat) (h : (s.thr t).pc = .pl1) : Edge conf s u .dead .r0
  | bornNotif (hu : u = s.n) (t : Nat) (k : InitFrom) (h : (s.thr t).pc = .in3 k)
      (hv : s.status.value = .created) : Edge conf s u .dead .nl0
  | bornTimer (hu : u = s.n) (t : Nat) (h : (s.thr t).pc = .pl3) : Edge conf s u .dead .ti0
  | call (op : Op) (hk : (s.thr u).kind = .client ∨ (s.thr u).kind = .notifier) :
      Edge conf s u .home (entry op)
  | notifRet (hk : (s.thr u).kind = .notifier) : Edge conf s u .home .nl0
  | rdStatus (hs : s.sm = none) : Edge conf s u .rdStatus (back s u)
  | rdCentroids (hm : s.ma = none) : Edge conf s u .rdCentroids (back s u)
  | rdFigures (hm : s.ma = none) : Edge conf s u .rdFigures (back s u)
  | rdConf (hm : s.ma = none) : Edge conf s u .rdConf (back s u)
  | pu0 : Edge conf s u .pu0 .pu1
  | pu1 : Edge conf s u .pu1 .pu2
  | pu1Err : Edge conf s u .pu1 (back s u)
  | pu2 (hm : s.ma = none) : Edge conf s u .pu2 .pu3
  | pu3 (hr : s.mr = []) : Edge conf s u .pu3 .pu4
  | pu4 (hs : s.sm = none) : Edge conf s u .pu4 .pu5
  | pu5 (hm : s.ma = none) : Edge conf s u .pu5 (if s.newData = 0 then .pl0 else .pu6)
  | pu6 : Edge conf s u .pu6 .home
  | in0 (hs : s.sm = none) : Edge conf s u .in0 (beginPc s.status.value .init)
  | in1 (k : InitFrom) (hm : s.ma = none) : Edge conf s u (.in1 k) (.in2 k)
  | in2 (k : InitFrom) (hr : s.mr = []) : Edge conf s u (.in2 k) (.in3 k)
  | in3 (k : InitFrom) : Edge conf s u (.in3 k) (.in4 k)
  | in4 (k : InitFrom) (j : Nat) (hj : (s.thr j).pc = .nl0) : Edge conf s u (.in4 k) (.in5 k)
  | in5Read (k : InitFrom) : Edge conf s u (.in5 k) (.in5 k)
  | in5 (k : InitFrom) (c : Option C) (e : Option Err) : Edge conf s u (.in5 k) (.in6 k c e)
  | in6 (k : InitFrom) (c : Option C) (e : Option Err) (hm : s.ma = none) :
      Edge conf s u (.in6 k c e) (.in7 k c e)
  | in7 (k : InitFrom) (c : Option C) (e : Option Err) (hr : s.mr = []) :
      Edge conf s u (.in7 k c e) (.in8 k e)
  | in8 (k : InitFrom) (e : Option Err) : Edge conf s u (.in8 k e) (.in9 k e)
  | in9 (k : InitFrom) (e : Option Err) (j : Nat) (hj : (s.thr j).pc = .nl0) :
      Edge conf s u (.in9 k e) (.in10 k e)
  | in10 (e : Option Err) : Edge conf s u (.in10 .init e) (back s u)
  | in10Err (e : Option Err) (he : e ≠ none ∧ e ≠ some .alreadyCreated) :
      Edge conf s u (.in10 .play e) (back s u)
  | in10Play (e : Option Err) (he : ¬ (e ≠ none ∧ e ≠ some .alreadyCreated)) :
      Edge conf s u (.in10 .play e) .pl1
  | pl0Idle (hs : s.sm = none) (hv : s.status.value = .idle) :
      Edge conf s u .pl0 (.sd0 (.new .running) .playIdle)
  | pl0Init (hs : s.sm = none) (hv : s.status.value = .finished ∨ s.status.value = .created) :
      Edge conf s u .pl0 (beginPc s.status.value .play)
  | pl0Ready (hs : s.sm = none) (hv : s.status.value = .ready) : Edge conf s u .pl0 .pl1
  | pl0Running (hs : s.sm = none)
      (hv : s.status.value = .running ∨ s.status.value = .initializing) :
      Edge conf s u .pl0 (back s u)
  | pl1 : Edge conf s u .pl1 (.sd0 (.new .running) .playRun)
  | pl2 : Edge conf s u .pl2 .pl3
  | pl3 (hm : s.ma = none) : Edge conf s u .pl3 (back s u)
  | pa0 (hs : s.sm = none) (hv : s.status.value = .running) :
      Edge conf s u .pa0 (.sd0 (.new .idle) .pause)
  | pa0Err (hs : s.sm = none) (hv : s.status.value ≠ .running) : Edge conf s u .pa0 (back s u)
  | it0Ready (e : Option Err) (hs : s.sm = none) (hv : s.status.value = .ready) :
      Edge conf s u (.it0 e) (.it1 e)
  | it0 (e : Option Err) (hs : s.sm = none)
      (hv : s.status.value = .idle ∨ s.status.value = .running) :
      Edge conf s u (.it0 e) (.sd0 (.ofError e) .interrupt)
  | it0Err (e : Option Err) (hs : s.sm = none)
      (hv : s.status.value ≠ .ready ∧ s.status.value ≠ .idle ∧ s.status.value ≠ .running) :
      Edge conf s u (.it0 e) (back s u)
  | it1 (e : Option Err) (j : Nat) (hj : (s.thr j).pc = .nl0) : Edge conf s u (.it1 e) .it2
  | it2 : Edge conf s u .it2 (back s u)
  | it3 : Edge conf s u .it3 (back s u)
  | sd0 (st : OCStatus) (k : SendFrom) : Edge conf s u (.sd0 st k) (.sd1 st k)
  | sd1 (st : OCStatus) (k : SendFrom) (j : Nat) (h : (s.thr j).pc = .r1 ∨ (s.thr j).pc = .r9 ∨
      ∃ p, (s.thr j).pc = .c4 p) : Edge conf s u (.sd1 st k) (.sd2 k)
  | sd2 (k : SendFrom) : Edge conf s u (.sd2 k) (.sd3 s.ack k)
  | sd3Closed (a : Nat) (k : SendFrom) (ha : a ∈ s.closed) : Edge conf s u (.sd3 a k) (sentPc s u k)
  | sd3 (a : Nat) (k : SendFrom) (j : Nat) (i : Bool) (hj : (s.thr j).pc = .r5 i a)
      (ha : a ∉ s.closed) : Edge conf s u (.sd3 a k) (sentPc s u k)
  | wa0Running (c d : Bool) (hs : s.sm = none) (hv : s.status.value = .running) :
      Edge conf s u (.wa0 c d) (.wa1 c d)
  | wa0 (c d : Bool) (hs : s.sm = none) (hv : s.status.value ≠ .running) :
      Edge conf s u (.wa0 c d) (back s u)
  | wa1Never (c d : Bool) (hm : s.ma = none)
      (hn : (!c && !d && !conf.finishing && !conf.timeout && conf.iter == 0 &&
        conf.iterPerData == 0) = true) : Edge conf s u (.wa1 c d) (back s u)
  | wa1 (c d : Bool) (hm : s.ma = none)
      (hn : (!c && !d && !conf.finishing && !conf.timeout && conf.iter == 0 &&
        conf.iterPerData == 0) = false) : Edge conf s u (.wa1 c d) (.wa2 c d)
  | wa2Done (c d : Bool) (hc : c = false → s.sm = none ∧ (s.status.error.isSome ∨
      s.status.value = .ready ∨ s.status.value = .idle ∨ s.status.value = .finished)) :
      Edge conf s u (.wa2 c d) .wa3
  | wa2Again (c d : Bool) : Edge conf s u (.wa2 c d) (.wa2 c d)
  | wa2Timeout (c : Bool) : Edge conf s u (.wa2 c true) (back s u)
  | wa3 (hs : s.sm = none) : Edge conf s u .wa3 (back s u)
  | r0 : Edge conf s u .r0 .r1
  | r1 (j : Nat) (st : OCStatus) (k : SendFrom) (hq : (s.thr j).pc = .sd1 st k) :
      Edge conf s u .r1 (.r2 st)
  | r2 (st : OCStatus) (hs : s.sm = none) : Edge conf s u (.r2 st) (.r3 st)
  | r3 (st : OCStatus) (j : Nat) (hj : (s.thr j).pc = .nl0) : Edge conf s u (.r3 st) (.r4 false)
  | r4 (i : Bool) : Edge conf s u (.r4 i) (.r5 i s.ack)
  | r5Closed (i : Bool) (a : Nat) (ha : a ∈ s.closed) :
      Edge conf s u (.r5 i a) (.c0 (some sendOnClosed))
  | r5 (i : Bool) (a : Nat) (ha : a ∉ s.closed) :
      Edge conf s u (.r5 i a) (if i then .r1 else .r6)
  | r6 (hv : s.status.value = .running) : Edge conf s u .r6 .r7
  | r6Exit (hv : s.status.value ≠ .running) : Edge conf s u .r6 .r12
  | r7Done (hm : s.ma = none) (hd : iterDone conf s = true) : Edge conf s u .r7 .r12
  | r7 (hm : s.ma = none) (hd : iterDone conf s = false) :
      Edge conf s u .r7 (if conf.finishing then .r8 else .r9)
  | r8Done : Edge conf s u .r8 .r12
  | r8 : Edge conf s u .r8 .r9
  | r9 (j : Nat) (st : OCStatus) (k : SendFrom) (hq : (s.thr j).pc = .sd1 st k) :
      Edge conf s u .r9 (.r10 st)
  | r10 (st : OCStatus) (hs : s.sm = none) : Edge conf s u (.r10 st) (.r11 st)
  | r11 (st : OCStatus) (j : Nat) (hj : (s.thr j).pc = .nl0) :
      Edge conf s u (.r11 st) (if st.value = .idle then .r4 true else .r6)
  | r9Default (hn : s.noSender = true) : Edge conf s u .r9 .rI
  | iterNil : Edge conf s u .rI .r6
  | iterOk (c : C) : Edge conf s u .rI (.rS c)
  | iterErr (e : Err) : Edge conf s u .rI (.r15 e)
  | iterPanic (e : Err) : Edge conf s u .rI (.c0 (some e))
  | rS (c : C) (hm : s.ma = none) : Edge conf s u (.rS c) (.rS' c)
  | rS' (c : C) (hr : s.mr = []) : Edge conf s u (.rS' c) .r6
  | r12 (hv : s.status.value = .running) : Edge conf s u .r12 .r13
  | r12Exit (hv : s.status.value ≠ .running) : Edge conf s u .r12 (.c0 none)
  | r13 (hs : s.sm = none) : Edge conf s u .r13 .r14
  | r14 (j : Nat) (hj : (s.thr j).pc = .nl0) : Edge conf s u .r14 (.c0 none)
  | r15 (e : Err) (hs : s.sm = none) : Edge conf s u (.r15 e) (.r16 e)
  | r16 (e : Err) (j : Nat) (hj : (s.thr j).pc = .nl0) : Edge conf s u (.r16 e) (.c0 none)
  | c0 (hs : s.sm = none) : Edge conf s u (.c0 none) (.c2 none)
  | c0Panic (e : Err) (hs : s.sm = none) : Edge conf s u (.c0 (some e)) (.c1 (some e))
  | c1 (p : Option Err) (j : Nat) (hj : (s.thr j).pc = .nl0) : Edge conf s u (.c1 p) (.c2 p)
  | c2 (p : Option Err) (hm : s.ma = none) : Edge conf s u (.c2 p) (.c3 p)
  | c3 (p : Option Err) (hr : s.mr = []) : Edge conf s u (.c3 p) (.c4 p)
  | c4 (j : Nat) (st : OCStatus) (k : SendFrom) (hq : (s.thr j).pc = .sd1 st k) :
      Edge conf s u (.c4 none) (.c5 st)
  | c4Panic (e : Err) (j : Nat) (st : OCStatus) (k : SendFrom) (hq : (s.thr j).pc = .sd1 st k) :
      Edge conf s u (.c4 (some e)) .c6
  | c4Default (p : Option Err) (hn : s.noSender = true) : Edge conf s u (.c4 p) .c6
  | c5 (st : OCStatus) (j : Nat) (hj : (s.thr j).pc = .nl0) : Edge conf s u (.c5 st) .c6
  | c6Closed (ha : s.ack ∈ s.closed) : Edge conf s u .c6 .c8
  | c6 (j : Nat) (i : Bool) (hq : (s.thr j).pc = .r5 i s.ack) (ha : s.ack ∉ s.closed) :
      Edge conf s u .c6 .c8
  | c6Default (ha : s.ack ∉ s.closed) : Edge conf s u .c6 .c7
  | c7 : Edge conf s u .c7 .c8
  | c8 : Edge conf s u .c8 .dead
  | nl0 (j : Nat) (st : OCStatus) (p : PC C) (hq : notifying (s.thr j).pc = some (st, p)) :
      Edge conf s u .nl0 (.nl1 st)
  | nl1 (st : OCStatus) (hm : s.ma = none) :
      Edge conf s u (.nl1 st) (if conf.notifier then .home else .nl0)
  | ti0 : Edge conf s u .ti0 .dead
  | ti0Fire : Edge conf s u .ti0 (.it0 (some .timeout))

/-- Each goroutine stays or moves along an edge. -/
def Moved (conf : Conf) (s : Algo C) (pc' : Nat → PC C) : Prop :=
  ∀ u, pc' u = (s.thr u).pc ∨ Edge conf s u (s.thr u).pc (pc' u)

section
variable {conf : Conf} {s s1 s' : Algo C} {t j : Nat} {p p0 q q0 : PC C} {k : Kind}

theorem Moved.one (h : ∀ u, u ≠ t → (s'.thr u).pc = (s.thr u).pc) (h0 : (s.thr t).pc = p0)
    (h1 : (s'.thr t).pc = p) (he : Edge conf s t p0 p) : Moved conf s (fun u => (s'.thr u).pc) := by
  intro u
  by_cases hu : u = t
  · subst hu; right; dsimp only; rw [h0, h1]; exact he
  · left; exact h u hu

theorem Moved.go (ht : s1.thr = s.thr) (h0 : (s.thr t).pc = p0) (he : Edge conf s t p0 p) :
    Moved conf s (fun u => ((s1.go t p).thr u).pc) :=
  Moved.one (fun u hu => by rw [go_pc, if_neg hu, ht]) h0 (by rw [go_pc, if_pos rfl]) he

theorem Moved.ret {r : Res C} (ht : s1.thr = s.thr) (h0 : (s.thr t).pc = p0)
    (he : Edge conf s t p0 (back s t)) : Moved conf s (fun u => ((s1.ret t r).thr u).pc) :=
  Moved.one (fun u hu => by rw [ret_pc, if_neg hu, ht]) h0 (by rw [ret_pc, if_pos rfl, ht]; rfl) he

theorem sent_pc_ne {ok : Bool} {q : SendFrom} {u : Nat} (hu : u ≠ t) :
    ((s.sent t ok q).thr u).pc = (s.thr u).pc := by
  cases q <;> simp only [Algo.sent, go_pc, ret_pc, if_neg hu]

theorem sent_pc_eq {ok : Bool} {q : SendFrom} : ((s.sent t ok q).thr t).pc = sentPc s t q := by
  cases q <;> simp only [Algo.sent, go_pc, ret_pc, if_true, sentPc, back]

theorem Moved.two {s2 : Algo C} (ht : s1.thr = s.thr) (hthr : s2.thr = (s1.go j q).thr)
    (hjt : j ≠ t) (h0 : (s.thr t).pc = p0)
    (hq : (s.thr j).pc = q0) (he : Edge conf s t p0 p) (he' : Edge conf s j q0 q) :
    Moved conf s (fun u => ((s2.go t p).thr u).pc) := by
  intro u
  by_cases hu : u = t
  · subst hu; right; dsimp only; rw [go_pc, if_pos rfl, h0]; exact he
  · by_cases huj : u = j
    · subst huj; right; dsimp only
      rw [go_pc, if_neg hu, hthr, go_pc, if_pos rfl, hq]; exact he'
    · left; dsimp only; rw [go_pc, if_neg hu, hthr, go_pc, if_neg huj, ht]

theorem ne_of_pc (h0 : (s.thr t).pc = p0) (hq : (s.thr j).pc = q0) (h : p0 ≠ q0) : j ≠ t := by
  rintro rfl; exact h (h0.symm.trans hq)

theorem Edge.notifying {p q : PC C} {st : OCStatus} {u j : Nat}
    (h : Algo.notifying p = some (st, q)) (hj : (s.thr j).pc = .nl0) : Edge conf s u p q := by
  unfold Algo.notifying at h
  split at h <;> cases h
  · exact .in4 _ j hj
  · exact .in9 _ _ j hj
  · exact .in9 _ _ j hj
  · exact .it1 _ j hj
  · exact .r3 _ j hj
  · exact .r11 _ j hj
  · exact .r14 j hj
  · exact .r16 _ j hj
  · exact .c1 _ j hj
  · exact .c5 _ j hj

end

theorem Step.edge {conf : Conf} {s s' : Algo C} (h : Step conf s s') (hL : LockInv s) :
    Moved conf s (fun u => (s'.thr u).pc) := by
  have hd : ∀ u, u = s.n → (s.thr u).pc = .dead := fun u hu => hL.unborn u (by omega)
  cases h
  case client =>
    intro u
    by_cases hu : u = s.n
    · right; dsimp only; rw [spawn_pc, if_pos hu, hd u hu]; exact .born hu
    · left; dsimp only; rw [spawn_pc, if_neg hu]
  case pu5 t ht hp hm =>
    refine Moved.one (t := t) (fun u hu => ?_) hp ?_ (.pu5 hm)
    · dsimp only; rw [if_neg hu]
    · dsimp only; rw [if_pos rfl]; split <;> rfl
  case pu6 t ht hp =>
    refine Moved.one (t := t) (fun u hu => ?_) hp ?_ .pu6
    · dsimp only; rw [if_neg hu]
    · dsimp only; rw [if_pos rfl]
  case in3Created t ht k hp hv =>
    intro u
    by_cases hu : u = t
    · subst hu; right; dsimp only; rw [go_pc, if_pos rfl, hp]; exact .in3 k
    · dsimp only; rw [go_pc, if_neg hu, put_thr, spawn_pc]
      by_cases hn : u = s.n
      · right; rw [if_pos hn, hd u hn]; exact .bornNotif hn t k hp hv
      · left; rw [if_neg hn]
  case pl1 t ht hp =>
    intro u
    by_cases hu : u = t
    · subst hu; right; dsimp only; rw [go_pc, if_pos rfl, hp]; exact .pl1
    · dsimp only; rw [go_pc, if_neg hu, spawn_pc, ev_n, ev_thr]
      by_cases hn : u = s.n
      · right; rw [if_pos (show u = _ from hn), hd u hn]; exact .bornRun hn t hp
      · left; rw [if_neg (show ¬ u = _ from hn)]
  case pl3Timeout t ht hp hm hc =>
    intro u
    have hne : t ≠ s.n := by omega
    by_cases hu : u = t
    · subst hu; right; dsimp only
      rw [ret_pc, if_pos rfl, hp, spawn_inPush, if_neg (show ¬ u = _ from hne)]; exact .pl3 hm
    · dsimp only; rw [ret_pc, if_neg hu, spawn_pc]
      by_cases hn : u = s.n
      · right; rw [if_pos (show u = _ from hn), hd u hn]; exact .bornTimer hn t hp
      · left; rw [if_neg (show ¬ u = _ from hn)]
  case sd3Closed t ht a k hp ha =>
    exact Moved.one (t := t) (fun u hu => sent_pc_ne hu) hp sent_pc_eq (.sd3Closed a k ha)
  case sd3 t ht a k hp j hj i hq ha =>
    have hjt : j ≠ t := ne_of_pc hp hq (by rintro ⟨⟩)
    intro u
    by_cases hu : u = t
    · subst hu; right; dsimp only
      rw [sent_pc_eq, hp]
      have : sentPc (s.go j (if i then .r1 else .r6)) u k = sentPc s u k := by
        cases k <;> simp only [sentPc, back, go_inPush]
      rw [this]; exact .sd3 a k j i hq ha
    · dsimp only; rw [sent_pc_ne hu, go_pc]
      by_cases hn : u = j
      · right; subst hn; rw [if_pos rfl, hq]; exact .r5 i a ha
      · left; rw [if_neg hn]
  case r1 t ht hp j hj st k hq =>
    exact Moved.two rfl rfl (ne_of_pc hp hq (by rintro ⟨⟩)) hp hq (.r1 j st k hq)
      (.sd1 st k t (.inl hp))
  case r9 t ht hp j hj st k hq =>
    exact Moved.two rfl rfl (ne_of_pc hp hq (by rintro ⟨⟩)) hp hq (.r9 j st k hq)
      (.sd1 st k t (.inr (.inl hp)))
  case c4 t ht hp j hj st k hq =>
    exact Moved.two (s1 := s) rfl rfl (ne_of_pc hp hq (by rintro ⟨⟩)) hp hq (.c4 j st k hq)
      (.sd1 st k t (.inr (.inr ⟨_, hp⟩)))
  case c4Panic t ht e hp j hj st k hq =>
    exact Moved.two rfl rfl (ne_of_pc hp hq (by rintro ⟨⟩)) hp hq (.c4Panic e j st k hq)
      (.sd1 st k t (.inr (.inr ⟨_, hp⟩)))
  case c6 t ht hp j hj i hq ha =>
    exact Moved.two rfl rfl (ne_of_pc hp hq (by rintro ⟨⟩)) hp hq (.c6 j i hq ha) (.r5 i _ ha)
  case nl0 t ht hp j hj st p hq =>
    refine Moved.two (s1 := s.ev _) rfl rfl ?_ hp rfl (.nl0 j st p hq) (Edge.notifying hq hp)
    rintro rfl
    rw [hp] at hq; cases hq
  case notifRet t ht hp hk => exact Moved.go rfl hp (.notifRet hk)
  case in8 t ht k hp => exact Moved.go rfl hp (.in8 k none)
  case in8Err t ht k e hp => exact Moved.go rfl hp (.in8 k (some e))
  case pl0Running t ht hp hs hv => exact Moved.ret rfl hp (.pl0Running hs (.inl hv))
  case pl0Initializing t ht hp hs hv => exact Moved.ret rfl hp (.pl0Running hs (.inr hv))
  all_goals first
    | exact Moved.go rfl ‹_› (by constructor <;> assumption)
    | exact Moved.ret rfl ‹_› (by constructor <;> assumption)

/-- How `statusMutex` changes hands. -/
theorem Step.smFact {conf : Conf} {s s' : Algo C} (h : Step conf s s') :
    s'.sm = s.sm ∨ (s.sm = none ∧ s'.sm ≠ none) ∨
    (s'.sm = none ∧ ∃ t, (∃ e, (s.thr t).pc = .in10 .init e) ∨ (s.thr t).pc = .pl1 ∨
      (s.thr t).pc = .it2 ∨ (s.thr t).pc = .c8) := by
  cases h
  case in10 t ht e hp => exact .inr (.inr ⟨ret_sm .., t, .inl ⟨e, hp⟩⟩)
  case pl1 t ht hp => exact .inr (.inr ⟨rfl, t, .inr (.inl hp)⟩)
  case it2 t ht hp => exact .inr (.inr ⟨ret_sm .., t, .inr (.inr (.inl hp))⟩)
  case c8 t ht hp => exact .inr (.inr ⟨rfl, t, .inr (.inr (.inr hp))⟩)
  all_goals first
    | exact .inl (by with_reducible rfl)
    | exact .inl rfl
    | exact .inl (ret_sm ..)
    | exact .inl (sent_sm ..)
    | exact .inr (.inl ⟨‹_›, by rintro ⟨⟩⟩)
    | exact .inr (.inl ⟨‹_›, by rw [ret_sm]; rintro ⟨⟩⟩)

/-- How the writer of `modelMutex` changes. -/
theorem Step.maFact {conf : Conf} {s s' : Algo C} (h : Step conf s s') :
    s'.ma = s.ma ∨ (s.ma = none ∧ s'.ma ≠ none) ∨
    (s'.ma = none ∧ ((s.sm = none ∧ ∃ t, (s.thr t).pc = .pu4) ∨ s.mr = [])) := by
  cases h
  case pu4 t ht hp hs => exact .inr (.inr ⟨rfl, .inl ⟨hs, t, hp⟩⟩)
  all_goals first
    | exact .inl rfl
    | exact .inl (ret_ma ..)
    | exact .inl (sent_ma ..)
    | exact .inr (.inl ⟨‹_›, by rintro ⟨⟩⟩)
    | exact .inr (.inr ⟨rfl, .inr ‹_›⟩)

/-- How the readers of `modelMutex` change. -/
theorem Step.mrFact {conf : Conf} {s s' : Algo C} (h : Step conf s s') :
    s'.mr = s.mr ∨ (∃ t, (s.thr t).pc = .pu5 ∧ s'.mr = t :: s.mr) ∨
    (∃ t, (s.thr t).pc = .pu6 ∧ s'.mr = s.mr.erase t) := by
  cases h
  case pu5 t ht hp hm => exact .inr (.inl ⟨t, hp, rfl⟩)
  case pu6 t ht hp => exact .inr (.inr ⟨t, hp, rfl⟩)
  all_goals first
    | exact .inl rfl
    | exact .inl (ret_mr ..)
    | exact .inl (sent_mr ..)

/-- A goroutine which holds `modelMutex` for reading keeps it until the end of its `Push`. -/
theorem Step.keepsR {conf : Conf} {s s' : Algo C} (h : Step conf s s') {t : Nat} (ht : t ∈ s.mr)
    (hp : (s.thr t).pc ≠ .pu6) : t ∈ s'.mr := by
  rcases h.mrFact with e | ⟨u, -, e⟩ | ⟨u, hu, e⟩ <;> rw [e]
  · exact ht
  · exact List.mem_cons_of_mem _ ht
  · exact (List.mem_erase_of_ne (by rintro rfl; exact hp hu)).2 ht

/-- Goroutines do not change kind; who starts the new ones. -/
theorem Step.kindFact {conf : Conf} {s s' : Algo C} (h : Step conf s s') (j : Nat) :
    ((s'.n = s.n ∨ j ≠ s.n) ∧ (s'.thr j).kind = (s.thr j).kind) ∨
    (j = s.n ∧ ((s'.thr j).kind ≠ .notifier ∧ (s'.thr j).pc ≠ .nl0 ∨
      (s'.thr j).kind = .notifier ∧ s.status.value = .created ∧ s'.status.value ≠ .created)) := by
  cases h
  case client =>
    rw [spawn_kind, spawn_pc]; split
    · exact .inr ⟨‹_›, .inl ⟨by rintro ⟨⟩, by rintro ⟨⟩⟩⟩
    · exact .inl ⟨.inr ‹_›, rfl⟩
  case pu5 t ht hp hm => exact .inl ⟨.inl rfl, by dsimp only; split <;> [(subst j; split <;> rfl); rfl]⟩
  case pu6 t ht hp => exact .inl ⟨.inl rfl, by dsimp only; split <;> [(subst j; rfl); rfl]⟩
  case in3Created t ht k hp hv =>
    rw [go_kind, put_thr, spawn_kind]; split
    · exact .inr ⟨‹_›, .inr ⟨rfl, hv, by rintro ⟨⟩⟩⟩
    · exact .inl ⟨.inr ‹_›, rfl⟩
  case pl1 t ht hp =>
    rw [go_kind, spawn_kind, go_pc, spawn_pc]; split
    · refine .inr ⟨‹_›, .inl ⟨by rintro ⟨⟩, ?_⟩⟩
      split <;> rintro ⟨⟩
    · exact .inl ⟨.inr ‹_›, rfl⟩
  case pl3Timeout t ht hp hm hc =>
    rw [ret_kind, spawn_kind, ret_pc, spawn_pc]; split
    · refine .inr ⟨‹_›, .inl ⟨by rintro ⟨⟩, ?_⟩⟩
      split
      · split <;> rintro ⟨⟩
      · rintro ⟨⟩
    · exact .inl ⟨.inr ‹_›, rfl⟩
  all_goals
    simp only [go_kind, ret_kind, sent_kind, ev_thr, put_thr, go_n, ret_n, sent_n, ev_n, put_n]
    exact .inl ⟨.inl trivial, trivial⟩

theorem Step.nFact {conf : Conf} {s s' : Algo C} (h : Step conf s s') :
    s'.n = s.n ∨ s'.n = s.n + 1 := by
  cases h
  case pl3Timeout => right; rw [ret_n]; rfl
  all_goals first
    | exact .inl rfl
    | exact .inr rfl
    | exact .inl (ret_n ..)
    | exact .inl (sent_n ..)

theorem ret_rets {s : Algo C} {t u : Nat} {r : Res C} :
    rets u (s.ret t r).log = rets u s.log ∨ ((s.ret t r).thr u).pc = .home := by
  rw [ret_log, ret_pc]
  by_cases hi : (s.thr t).inPush
  · rw [if_pos hi]; exact .inl rfl
  · rw [if_neg hi, if_neg hi]
    by_cases hu : u = t
    · exact .inr (if_pos hu)
    · left; simp [rets, Ne.symm hu]

theorem sent_rets {s : Algo C} {t u : Nat} {ok : Bool} {q : SendFrom} :
    rets u (s.sent t ok q).log = rets u s.log ∨ ((s.sent t ok q).thr u).pc = .home := by
  cases q
  · exact ret_rets
  · exact .inl rfl
  · exact ret_rets
  · exact .inl rfl

/-- A call of `u` returns only when `u` comes back. -/
theorem Step.retsFact {conf : Conf} {s s' : Algo C} (h : Step conf s s') (u : Nat) :
    rets u s'.log = rets u s.log ∨ (s'.thr u).pc = .home := by
  cases h
  case pu6 t ht hp =>
    by_cases hu : u = t
    · subst hu; right; dsimp only; rw [if_pos rfl]
    · left; simp [rets, Ne.symm hu]
  all_goals first
    | exact .inl rfl
    | exact ret_rets
    | exact sent_rets

end Algo
end Distclus
