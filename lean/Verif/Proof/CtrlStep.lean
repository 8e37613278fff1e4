import Verif.Proof.CtrlBase
/-!
# The actions of the controller as an inductive relation

`Step conf s s'` lists the actions of `Algo.next` one by one; `Step.of_next` shows that they are all
there.  Invariants are proved by cases on it.
-/
namespace Distclus
open Ctrl
namespace Algo
variable {C : Type}

set_option linter.unusedVariables false
set_option linter.unusedSimpArgs false
set_option linter.unnecessarySeqFocus false
set_option linter.unusedTactic false

/-- The actions, one constructor per outcome of `Algo.next`. -/
inductive Step (conf : Conf) (s : Algo C) : Algo C → Prop
  | client : Step conf s (s.spawn .client .home)
  -- stepHome
  | call (t : Nat) (ht : t < s.n) (hp : (s.thr t).pc = .home) (op : Op)
      (hk : (s.thr t).kind = .client ∨ (s.thr t).kind = .notifier) :
      Step conf s ((s.ev (.call t op)).go t (entry op))
  | notifRet (t : Nat) (ht : t < s.n) (hp : (s.thr t).pc = .home) (hk : (s.thr t).kind = .notifier) :
      Step conf s (s.go t .nl0)
  -- stepRead
  | rdStatus (t : Nat) (ht : t < s.n) (hp : (s.thr t).pc = .rdStatus) (hs : s.sm = none) :
      Step conf s (s.ret t (.status s.status))
  | rdCentroids (t : Nat) (ht : t < s.n) (hp : (s.thr t).pc = .rdCentroids) (hm : s.ma = none) :
      Step conf s (s.ret t (.centroids s.centroids))
  | rdFigures (t : Nat) (ht : t < s.n) (hp : (s.thr t).pc = .rdFigures) (hm : s.ma = none) :
      Step conf s (s.ret t (.figures s.figIter s.figPushed))
  | rdConf (t : Nat) (ht : t < s.n) (hp : (s.thr t).pc = .rdConf) (hm : s.ma = none) :
      Step conf s (s.ret t .unit)
  -- stepPush
  | pu0 (t : Nat) (ht : t < s.n) (hp : (s.thr t).pc = .pu0) (hs : s.sm = none) :
      Step conf s (s.go t .pu1)
  | pu0' (t : Nat) (ht : t < s.n) (hp : (s.thr t).pc = .pu0) : Step conf s (s.go t .pu1)
  | pu1 (t : Nat) (ht : t < s.n) (hp : (s.thr t).pc = .pu1) :
      Step conf s ((s.ev .implPushed).go t .pu2)
  | pu1Err (t : Nat) (ht : t < s.n) (hp : (s.thr t).pc = .pu1) (e : Err) :
      Step conf s (s.ret t (.err (some e)))
  | pu2 (t : Nat) (ht : t < s.n) (hp : (s.thr t).pc = .pu2) (hm : s.ma = none) :
      Step conf s ({ s with ma := some t }.go t .pu3)
  | pu3 (t : Nat) (ht : t < s.n) (hp : (s.thr t).pc = .pu3) (hr : s.mr = []) :
      Step conf s (({ s with pushedData := s.pushedData + 1 }.ev .pushed).go t .pu4)
  | pu4 (t : Nat) (ht : t < s.n) (hp : (s.thr t).pc = .pu4) (hs : s.sm = none) :
      Step conf s (({ s with
        newData := if s.autoPlay conf then 0 else s.newData + 1
        figIter := s.iterations
        figPushed := s.pushedData
        ma := none }.ev (.counted (s.autoPlay conf))).go t .pu5)
  | pu5 (t : Nat) (ht : t < s.n) (hp : (s.thr t).pc = .pu5) (hm : s.ma = none) :
      Step conf s { s with
        mr := t :: s.mr
        thr := fun j => if j = t then
            (if s.newData = 0 then { s.thr t with pc := .pl0, inPush := true }
             else { s.thr t with pc := .pu6, inPush := true })
          else s.thr j }
  | pu6 (t : Nat) (ht : t < s.n) (hp : (s.thr t).pc = .pu6) :
      Step conf s { s with
        mr := s.mr.erase t
        thr := fun j => if j = t then { s.thr t with pc := .home, inPush := false } else s.thr j
        log := .ret t (.err none) :: s.log }
  -- stepInit
  | in0 (t : Nat) (ht : t < s.n) (hp : (s.thr t).pc = .in0) (hs : s.sm = none) :
      Step conf s ({ s with sm := some t }.go t (beginPc s.status.value .init))
  | in1 (t : Nat) (ht : t < s.n) (k : InitFrom) (hp : (s.thr t).pc = .in1 k) (hm : s.ma = none) :
      Step conf s ({ s with ma := some t }.go t (.in2 k))
  | in2 (t : Nat) (ht : t < s.n) (k : InitFrom) (hp : (s.thr t).pc = .in2 k) (hr : s.mr = []) :
      Step conf s (({ s with pushedData := 0, iterations := 0, figIter := 0, figPushed := 0,
                             ma := none }.ev .reset).go t (.in3 k))
  | in3Created (t : Nat) (ht : t < s.n) (k : InitFrom) (hp : (s.thr t).pc = .in3 k)
      (hv : s.status.value = .created) :
      Step conf s (((({ s with notif := true } : Algo C).spawn .notifier .nl0).put
        (.new .initializing)).go t (.in4 k))
  | in3 (t : Nat) (ht : t < s.n) (k : InitFrom) (hp : (s.thr t).pc = .in3 k)
      (hv : s.status.value ≠ .created) :
      Step conf s ((s.put (.new .initializing)).go t (.in4 k))
  | in5Read (t : Nat) (ht : t < s.n) (k : InitFrom) (hp : (s.thr t).pc = .in5 k)
      (hm : s.ma = none) : Step conf s (s.go t (.in5 k))
  | in5 (t : Nat) (ht : t < s.n) (k : InitFrom) (hp : (s.thr t).pc = .in5 k) (c : Option C)
      (e : Option Err) : Step conf s ((s.ev (.initRet c e)).go t (.in6 k c e))
  | in6 (t : Nat) (ht : t < s.n) (k : InitFrom) (c : Option C) (e : Option Err)
      (hp : (s.thr t).pc = .in6 k c e) (hm : s.ma = none) :
      Step conf s ({ s with ma := some t }.go t (.in7 k c e))
  | in7 (t : Nat) (ht : t < s.n) (k : InitFrom) (c : Option C) (e : Option Err)
      (hp : (s.thr t).pc = .in7 k c e) (hr : s.mr = []) :
      Step conf s ({ s with centroids := c, ma := none }.go t (.in8 k e))
  | in8 (t : Nat) (ht : t < s.n) (k : InitFrom) (hp : (s.thr t).pc = .in8 k none) :
      Step conf s ((s.put (.new .ready)).go t (.in9 k none))
  | in8Err (t : Nat) (ht : t < s.n) (k : InitFrom) (e : Err) (hp : (s.thr t).pc = .in8 k (some e)) :
      Step conf s ((s.put (.ofError (some e))).go t (.in9 k (some e)))
  | in10 (t : Nat) (ht : t < s.n) (e : Option Err) (hp : (s.thr t).pc = .in10 .init e) :
      Step conf s ({ s with sm := none }.ret t (.err e))
  | in10Err (t : Nat) (ht : t < s.n) (e : Option Err) (hp : (s.thr t).pc = .in10 .play e)
      (he : e ≠ none ∧ e ≠ some .alreadyCreated) : Step conf s (s.ret t (.err e))
  | in10Play (t : Nat) (ht : t < s.n) (e : Option Err) (hp : (s.thr t).pc = .in10 .play e)
      (he : ¬ (e ≠ none ∧ e ≠ some .alreadyCreated)) : Step conf s (s.go t .pl1)
  -- stepPlay
  | pl0Idle (t : Nat) (ht : t < s.n) (hp : (s.thr t).pc = .pl0) (hs : s.sm = none)
      (hv : s.status.value = .idle) : Step conf s (s.go t (.sd0 (.new .running) .playIdle))
  | pl0Init (t : Nat) (ht : t < s.n) (hp : (s.thr t).pc = .pl0) (hs : s.sm = none)
      (hv : s.status.value = .finished ∨ s.status.value = .created) :
      Step conf s ({ s with sm := some t }.go t (beginPc s.status.value .play))
  | pl0Ready (t : Nat) (ht : t < s.n) (hp : (s.thr t).pc = .pl0) (hs : s.sm = none)
      (hv : s.status.value = .ready) : Step conf s ({ s with sm := some t }.go t .pl1)
  | pl0Running (t : Nat) (ht : t < s.n) (hp : (s.thr t).pc = .pl0) (hs : s.sm = none)
      (hv : s.status.value = .running) : Step conf s (s.ret t (.err (some .running)))
  | pl0Initializing (t : Nat) (ht : t < s.n) (hp : (s.thr t).pc = .pl0) (hs : s.sm = none)
      (hv : s.status.value = .initializing) :
      Step conf s ({ s with sm := some t }.ret t (.err none))
  | pl1 (t : Nat) (ht : t < s.n) (hp : (s.thr t).pc = .pl1) :
      Step conf s (((({ s with sm := none } : Algo C).ev (.runStart s.n)).spawn .run .r0).go t
        (.sd0 (.new .running) .playRun))
  | pl2 (t : Nat) (ht : t < s.n) (hp : (s.thr t).pc = .pl2) (hi : s.timeout = none) :
      Step conf s (s.go t .pl3)
  | pl2Disable (t : Nat) (ht : t < s.n) (hp : (s.thr t).pc = .pl2) (i : Nat)
      (hi : s.timeout = some i) :
      Step conf s (({ s with disabled := i :: s.disabled }.ev (.disabled i)).go t .pl3)
  | pl3Timeout (t : Nat) (ht : t < s.n) (hp : (s.thr t).pc = .pl3) (hm : s.ma = none)
      (hc : conf.timeout = true) :
      Step conf s (({ s with timeout := some s.n }.spawn .timer .ti0).ret t (.err none))
  | pl3 (t : Nat) (ht : t < s.n) (hp : (s.thr t).pc = .pl3) (hm : s.ma = none)
      (hc : conf.timeout = false) : Step conf s (s.ret t (.err none))
  -- stepPause
  | pa0 (t : Nat) (ht : t < s.n) (hp : (s.thr t).pc = .pa0) (hs : s.sm = none)
      (hv : s.status.value = .running) : Step conf s (s.go t (.sd0 (.new .idle) .pause))
  | pa0Err (t : Nat) (ht : t < s.n) (hp : (s.thr t).pc = .pa0) (hs : s.sm = none)
      (hv : s.status.value ≠ .running) : Step conf s (s.ret t (.err (some .notRunning)))
  -- stepInterrupt
  | it0Ready (t : Nat) (ht : t < s.n) (e : Option Err) (hp : (s.thr t).pc = .it0 e)
      (hs : s.sm = none) (hv : s.status.value = .ready) :
      Step conf s (({ s with sm := some t }.put (.ofError e)).go t (.it1 e))
  | it0 (t : Nat) (ht : t < s.n) (e : Option Err) (hp : (s.thr t).pc = .it0 e) (hs : s.sm = none)
      (hv : s.status.value = .idle ∨ s.status.value = .running) :
      Step conf s (s.go t (.sd0 (.ofError e) .interrupt))
  | it0Err (t : Nat) (ht : t < s.n) (e : Option Err) (hp : (s.thr t).pc = .it0 e) (hs : s.sm = none)
      (hv : s.status.value ≠ .ready ∧ s.status.value ≠ .idle ∧ s.status.value ≠ .running) :
      Step conf s (s.ret t (.err (some .notAlive)))
  | it2 (t : Nat) (ht : t < s.n) (hp : (s.thr t).pc = .it2) :
      Step conf s ({ s with sm := none }.ret t (.err none))
  | it3 (t : Nat) (ht : t < s.n) (hp : (s.thr t).pc = .it3) :
      Step conf s (s.ret t (.err s.status.error))
  -- stepSend
  | sd0 (t : Nat) (ht : t < s.n) (st : OCStatus) (k : SendFrom) (hp : (s.thr t).pc = .sd0 st k) :
      Step conf s (s.go t (.sd1 st k))
  | sd2 (t : Nat) (ht : t < s.n) (k : SendFrom) (hp : (s.thr t).pc = .sd2 k) :
      Step conf s (s.go t (.sd3 s.ack k))
  | sd3Closed (t : Nat) (ht : t < s.n) (a : Nat) (k : SendFrom) (hp : (s.thr t).pc = .sd3 a k)
      (ha : a ∈ s.closed) : Step conf s (s.sent t false k)
  | sd3 (t : Nat) (ht : t < s.n) (a : Nat) (k : SendFrom) (hp : (s.thr t).pc = .sd3 a k) (j : Nat)
      (hj : j < s.n) (i : Bool) (hq : (s.thr j).pc = .r5 i a) (ha : a ∉ s.closed) :
      Step conf s ((s.go j (if i then .r1 else .r6)).sent t true k)
  -- stepWait
  | wa0Running (t : Nat) (ht : t < s.n) (c d : Bool) (hp : (s.thr t).pc = .wa0 c d)
      (hs : s.sm = none) (hv : s.status.value = .running) : Step conf s (s.go t (.wa1 c d))
  | wa0 (t : Nat) (ht : t < s.n) (c d : Bool) (hp : (s.thr t).pc = .wa0 c d) (hs : s.sm = none)
      (e : Option Err)
      (hv : e = match s.status.value with
        | .idle => some .idle | .ready => none | .finished => none | _ => some .notRunning)
      (hn : s.status.value ≠ .running) : Step conf s (s.ret t (.err e))
  | wa1Never (t : Nat) (ht : t < s.n) (c d : Bool) (hp : (s.thr t).pc = .wa1 c d) (hm : s.ma = none)
      (hn : (!c && !d && !conf.finishing && !conf.timeout && conf.iter == 0 &&
        conf.iterPerData == 0) = true) :
      Step conf s (s.ret t (.err (some .neverFinish)))
  | wa1 (t : Nat) (ht : t < s.n) (c d : Bool) (hp : (s.thr t).pc = .wa1 c d) (hm : s.ma = none)
      (hn : (!c && !d && !conf.finishing && !conf.timeout && conf.iter == 0 &&
        conf.iterPerData == 0) = false) : Step conf s (s.go t (.wa2 c d))
  | wa2Done (t : Nat) (ht : t < s.n) (c d : Bool) (hp : (s.thr t).pc = .wa2 c d)
      (hc : c = false → s.sm = none ∧ (s.status.error.isSome ∨ s.status.value = .ready ∨
        s.status.value = .idle ∨ s.status.value = .finished)) : Step conf s (s.go t .wa3)
  | wa2Again (t : Nat) (ht : t < s.n) (c d : Bool) (hp : (s.thr t).pc = .wa2 c d) :
      Step conf s (s.go t (.wa2 c d))
  | wa2Timeout (t : Nat) (ht : t < s.n) (c : Bool) (hp : (s.thr t).pc = .wa2 c true) :
      Step conf s (s.ret t (.err (some .timeout)))
  | wa3 (t : Nat) (ht : t < s.n) (hp : (s.thr t).pc = .wa3) (hs : s.sm = none) :
      Step conf s (s.ret t (.err s.status.error))
  -- stepRun
  | r0 (t : Nat) (ht : t < s.n) (hp : (s.thr t).pc = .r0) :
      Step conf s ({ s with ack := s.acks, acks := s.acks + 1 }.go t .r1)
  | r1 (t : Nat) (ht : t < s.n) (hp : (s.thr t).pc = .r1) (j : Nat) (hj : j < s.n) (st : OCStatus)
      (k : SendFrom) (hq : (s.thr j).pc = .sd1 st k) :
      Step conf s ((s.go j (.sd2 k)).go t (.r2 st))
  | r2 (t : Nat) (ht : t < s.n) (st : OCStatus) (hp : (s.thr t).pc = .r2 st) (hs : s.sm = none) :
      Step conf s ((s.put st).go t (.r3 st))
  | r4 (t : Nat) (ht : t < s.n) (i : Bool) (hp : (s.thr t).pc = .r4 i) :
      Step conf s (s.go t (.r5 i s.ack))
  | r5Closed (t : Nat) (ht : t < s.n) (i : Bool) (a : Nat) (hp : (s.thr t).pc = .r5 i a)
      (ha : a ∈ s.closed) : Step conf s (s.go t (.c0 (some sendOnClosed)))
  | r6 (t : Nat) (ht : t < s.n) (hp : (s.thr t).pc = .r6) (hv : s.status.value = .running) :
      Step conf s (s.go t .r7)
  | r6Exit (t : Nat) (ht : t < s.n) (hp : (s.thr t).pc = .r6) (hv : s.status.value ≠ .running) :
      Step conf s (s.go t .r12)
  | r7Done (t : Nat) (ht : t < s.n) (hp : (s.thr t).pc = .r7) (hm : s.ma = none)
      (hd : iterDone conf s = true) : Step conf s (s.go t .r12)
  | r7 (t : Nat) (ht : t < s.n) (hp : (s.thr t).pc = .r7) (hm : s.ma = none)
      (hd : iterDone conf s = false) : Step conf s (s.go t (if conf.finishing then .r8 else .r9))
  | r8Done (t : Nat) (ht : t < s.n) (hp : (s.thr t).pc = .r8) : Step conf s (s.go t .r12)
  | r8 (t : Nat) (ht : t < s.n) (hp : (s.thr t).pc = .r8) : Step conf s (s.go t .r9)
  | r9 (t : Nat) (ht : t < s.n) (hp : (s.thr t).pc = .r9) (j : Nat) (hj : j < s.n) (st : OCStatus)
      (k : SendFrom) (hq : (s.thr j).pc = .sd1 st k) :
      Step conf s ((s.go j (.sd2 k)).go t (.r10 st))
  | r10 (t : Nat) (ht : t < s.n) (st : OCStatus) (hp : (s.thr t).pc = .r10 st) (hs : s.sm = none) :
      Step conf s ((s.put st).go t (.r11 st))
  | r9Default (t : Nat) (ht : t < s.n) (hp : (s.thr t).pc = .r9) (hn : s.noSender = true) :
      Step conf s ((s.ev (.iterCall t s.status s.centroids)).go t .rI)
  | iterNil (t : Nat) (ht : t < s.n) (hp : (s.thr t).pc = .rI) :
      Step conf s ((s.ev (.iterNil t)).go t .r6)
  | iterOk (t : Nat) (ht : t < s.n) (hp : (s.thr t).pc = .rI) (c : C) :
      Step conf s ((s.ev (.iterOk t c)).go t (.rS c))
  | iterErr (t : Nat) (ht : t < s.n) (hp : (s.thr t).pc = .rI) (e : Err) :
      Step conf s ((s.ev (.iterErr t e)).go t (.r15 e))
  | iterPanic (t : Nat) (ht : t < s.n) (hp : (s.thr t).pc = .rI) (e : Err) :
      Step conf s ((s.ev (.iterPanic t e)).go t (.c0 (some e)))
  | rS (t : Nat) (ht : t < s.n) (c : C) (hp : (s.thr t).pc = .rS c) (hm : s.ma = none) :
      Step conf s ({ s with ma := some t }.go t (.rS' c))
  | rS' (t : Nat) (ht : t < s.n) (c : C) (hp : (s.thr t).pc = .rS' c) (hr : s.mr = []) :
      Step conf s (({ s with
        iterations := s.iterations + 1
        centroids := some c
        figIter := s.iterations + 1
        figPushed := s.pushedData
        ma := none }.ev (.saved c)).go t .r6)
  | r12 (t : Nat) (ht : t < s.n) (hp : (s.thr t).pc = .r12) (hv : s.status.value = .running) :
      Step conf s (s.go t .r13)
  | r12Exit (t : Nat) (ht : t < s.n) (hp : (s.thr t).pc = .r12) (hv : s.status.value ≠ .running) :
      Step conf s (s.go t (.c0 none))
  | r13 (t : Nat) (ht : t < s.n) (hp : (s.thr t).pc = .r13) (hs : s.sm = none) :
      Step conf s ((s.put (.new .ready)).go t .r14)
  | r15 (t : Nat) (ht : t < s.n) (e : Err) (hp : (s.thr t).pc = .r15 e) (hs : s.sm = none) :
      Step conf s ((s.put (.ofError (some e))).go t (.r16 e))
  -- stepRecover
  | c0 (t : Nat) (ht : t < s.n) (hp : (s.thr t).pc = .c0 none) (hs : s.sm = none) :
      Step conf s ({ s with sm := some t }.go t (.c2 none))
  | c0Panic (t : Nat) (ht : t < s.n) (e : Err) (hp : (s.thr t).pc = .c0 (some e)) (hs : s.sm = none) :
      Step conf s (({ s with sm := some t }.put (.ofError (some e))).go t (.c1 (some e)))
  | c2 (t : Nat) (ht : t < s.n) (p : Option Err) (hp : (s.thr t).pc = .c2 p) (hm : s.ma = none) :
      Step conf s ({ s with ma := some t }.go t (.c3 p))
  | c3 (t : Nat) (ht : t < s.n) (p : Option Err) (hp : (s.thr t).pc = .c3 p) (hr : s.mr = []) :
      Step conf s ({ s with ma := none }.go t (.c4 p))
  | c4 (t : Nat) (ht : t < s.n) (hp : (s.thr t).pc = .c4 none) (j : Nat)
      (hj : j < s.n) (st : OCStatus) (k : SendFrom) (hq : (s.thr j).pc = .sd1 st k) :
      Step conf s (((s.go j (.sd2 k)).put st).go t (.c5 st))
  | c4Panic (t : Nat) (ht : t < s.n) (e : Err) (hp : (s.thr t).pc = .c4 (some e)) (j : Nat)
      (hj : j < s.n) (st : OCStatus) (k : SendFrom) (hq : (s.thr j).pc = .sd1 st k) :
      Step conf s ((s.go j (.sd2 k)).go t .c6)
  | c4Default (t : Nat) (ht : t < s.n) (p : Option Err) (hp : (s.thr t).pc = .c4 p)
      (hn : s.noSender = true) : Step conf s (s.go t .c6)
  | c6Closed (t : Nat) (ht : t < s.n) (hp : (s.thr t).pc = .c6) (ha : s.ack ∈ s.closed) :
      Step conf s (s.go t .c8)
  | c6 (t : Nat) (ht : t < s.n) (hp : (s.thr t).pc = .c6) (j : Nat) (hj : j < s.n) (i : Bool)
      (hq : (s.thr j).pc = .r5 i s.ack) (ha : s.ack ∉ s.closed) :
      Step conf s ((s.go j (if i then .r1 else .r6)).go t .c8)
  | c6Default (t : Nat) (ht : t < s.n) (hp : (s.thr t).pc = .c6) (ha : s.ack ∉ s.closed)
      (hn : ∀ j < s.n, ∀ i, (s.thr j).pc ≠ .r5 i s.ack) : Step conf s (s.go t .c7)
  | c7 (t : Nat) (ht : t < s.n) (hp : (s.thr t).pc = .c7) :
      Step conf s (({ s with closed := s.ack :: s.closed }.ev (.closed s.ack)).go t .c8)
  | c8 (t : Nat) (ht : t < s.n) (hp : (s.thr t).pc = .c8) :
      Step conf s (({ s with sm := none }.ev (.runEnd t)).go t .dead)
  -- stepNotif
  | nl0 (t : Nat) (ht : t < s.n) (hp : (s.thr t).pc = .nl0) (j : Nat) (hj : j < s.n) (st : OCStatus)
      (p : PC C) (hq : notifying (s.thr j).pc = some (st, p)) :
      Step conf s (((s.ev (.notified st)).go j p).go t (.nl1 st))
  | nl1 (t : Nat) (ht : t < s.n) (st : OCStatus) (hp : (s.thr t).pc = .nl1 st) (hm : s.ma = none) :
      Step conf s (s.go t (if conf.notifier then .home else .nl0))
  -- stepTimer
  | ti0 (t : Nat) (ht : t < s.n) (hp : (s.thr t).pc = .ti0) (hd : t ∈ s.disabled) :
      Step conf s (s.go t .dead)
  | ti0Fire (t : Nat) (ht : t < s.n) (hp : (s.thr t).pc = .ti0) (hd : t ∉ s.disabled) :
      Step conf s ((s.ev (.fired t)).go t (.it0 (some .timeout)))

theorem Step.of_stepRun {conf : Conf} {s s' : Algo C} {t : Nat} {c : Choice C} (ht : t < s.n)
    (h : s.stepRun conf t (s.thr t).pc c = some s') : Step conf s s' := by
  generalize hp : (s.thr t).pc = p at h
  cases p <;> cases c <;> simp only [stepRun, reduceCtorEq] at h <;>
    (repeat' split at h) <;> (try cases h)
  all_goals try simp only [sending_some, acking_some, Bool.not_eq_true] at *
  all_goals first
    | exact .r0 t ht hp
    | exact .r1 t ht hp _ ‹_› _ _ ‹_›
    | exact .r2 t ht _ hp ‹_›
    | exact .r4 t ht _ hp
    | exact .r5Closed t ht _ _ hp ‹_›
    | exact .r6 t ht hp ‹_›
    | exact .r6Exit t ht hp ‹_›
    | exact .r7Done t ht hp ‹_› ‹_›
    | (have := Step.r7 (conf := conf) t ht hp ‹_› ‹_›; simp_all)
    | exact .r8Done t ht hp
    | exact .r8 t ht hp
    | exact .r9 t ht hp _ ‹_› _ _ ‹_›
    | exact .r10 t ht _ hp ‹_›
    | exact .r9Default t ht hp ‹_›
    | exact .iterNil t ht hp
    | exact .iterOk t ht hp _
    | exact .iterErr t ht hp _
    | exact .iterPanic t ht hp _
    | exact .rS t ht _ hp ‹_›
    | exact .rS' t ht _ hp ‹_›
    | exact .r12 t ht hp ‹_›
    | exact .r12Exit t ht hp ‹_›
    | exact .r13 t ht hp ‹_›
    | exact .r15 t ht _ hp ‹_›

theorem Step.of_stepPush {conf : Conf} {s s' : Algo C} {t : Nat} {c : Choice C} (ht : t < s.n)
    (h : s.stepPush conf t (s.thr t).pc c = some s') : Step conf s s' := by
  generalize hp : (s.thr t).pc = p at h
  cases p <;> cases c <;> simp only [stepPush, reduceCtorEq] at h <;>
    (try split at h) <;> (try cases h)
  all_goals try simp only [sending_some, acking_some, Bool.not_eq_true] at *
  all_goals first
    | exact .pu0 t ht hp ‹_›
    | exact .pu0' t ht hp
    | exact .pu1 t ht hp
    | exact .pu1Err t ht hp _
    | exact .pu2 t ht hp ‹_›
    | exact .pu3 t ht hp ‹_›
    | exact .pu4 t ht hp ‹_›
    | exact .pu5 t ht hp ‹_›
    | exact .pu6 t ht hp

theorem Step.of_stepInit {conf : Conf} {s s' : Algo C} {t : Nat} {c : Choice C} (ht : t < s.n)
    (h : s.stepInit t (s.thr t).pc c = some s') : Step conf s s' := by
  generalize hp : (s.thr t).pc = p at h
  cases p <;> cases c <;> (try cases ‹InitFrom›) <;> simp only [stepInit, reduceCtorEq] at h <;>
    (repeat' split at h) <;> (try cases h)
  all_goals try simp only [sending_some, acking_some, Bool.not_eq_true] at *
  all_goals first
    | exact .in0 t ht hp ‹_›
    | exact .in1 t ht _ hp ‹_›
    | exact .in2 t ht _ hp ‹_›
    | exact .in3Created t ht _ hp ‹_›
    | exact .in3 t ht _ hp ‹_›
    | exact .in5Read t ht _ hp ‹_›
    | exact .in5 t ht _ hp _ _
    | exact .in6 t ht _ _ _ hp ‹_›
    | exact .in7 t ht _ _ _ hp ‹_›
    | exact .in8 t ht _ hp
    | exact .in8Err t ht _ _ hp
    | exact .in10 t ht _ hp
    | exact .in10Err t ht _ hp ‹_›
    | exact .in10Play t ht _ hp ‹_›

theorem Step.of_stepPlay {conf : Conf} {s s' : Algo C} {t : Nat} {c : Choice C} (ht : t < s.n)
    (h : s.stepPlay conf t (s.thr t).pc c = some s') : Step conf s s' := by
  generalize hp : (s.thr t).pc = p at h
  cases p <;> cases c <;> simp only [stepPlay, reduceCtorEq] at h <;>
    (repeat' split at h) <;> (try cases h)
  all_goals try simp only [sending_some, acking_some, Bool.not_eq_true] at *
  all_goals first
    | exact .pl0Idle t ht hp ‹_› ‹_›
    | exact .pl0Ready t ht hp ‹_› ‹_›
    | exact .pl0Running t ht hp ‹_› ‹_›
    | exact .pl0Initializing t ht hp ‹_› ‹_›
    | exact .pl0Init t ht hp ‹_› (.inl ‹_›)
    | exact .pl0Init t ht hp ‹_› (.inr ‹_›)
    | exact .pl1 t ht hp
    | exact .pl2 t ht hp ‹_›
    | exact .pl2Disable t ht hp _ ‹_›
    | exact .pl3Timeout t ht hp ‹_› ‹_›
    | exact .pl3 t ht hp ‹_› ‹_›

theorem Step.of_stepPause {conf : Conf} {s s' : Algo C} {t : Nat} {c : Choice C} (ht : t < s.n)
    (h : s.stepPause t (s.thr t).pc c = some s') : Step conf s s' := by
  generalize hp : (s.thr t).pc = p at h
  cases p <;> cases c <;> simp only [stepPause, reduceCtorEq] at h <;>
    (repeat' split at h) <;> (try cases h)
  all_goals try simp only [sending_some, acking_some, Bool.not_eq_true] at *
  all_goals first
    | exact .pa0 t ht hp ‹_› ‹_›
    | exact .pa0Err t ht hp ‹_› ‹_›

theorem Step.of_stepInterrupt {conf : Conf} {s s' : Algo C} {t : Nat} {c : Choice C} (ht : t < s.n)
    (h : s.stepInterrupt t (s.thr t).pc c = some s') : Step conf s s' := by
  generalize hp : (s.thr t).pc = p at h
  cases p <;> cases c <;> simp only [stepInterrupt, reduceCtorEq] at h <;>
    (repeat' split at h) <;> (try cases h)
  all_goals try simp only [sending_some, acking_some, Bool.not_eq_true] at *
  all_goals first
    | exact .it0Ready t ht _ hp ‹_› ‹_›
    | exact .it0 t ht _ hp ‹_› (.inl ‹_›)
    | exact .it0 t ht _ hp ‹_› (.inr ‹_›)
    | exact .it0Err t ht _ hp ‹_› ⟨‹_›, ‹_›, ‹_›⟩
    | exact .it2 t ht hp
    | exact .it3 t ht hp

theorem Step.of_stepSend {conf : Conf} {s s' : Algo C} {t : Nat} {c : Choice C} (ht : t < s.n)
    (h : s.stepSend t (s.thr t).pc c = some s') : Step conf s s' := by
  generalize hp : (s.thr t).pc = p at h
  cases p <;> cases c <;> simp only [stepSend, reduceCtorEq] at h <;>
    (repeat' split at h) <;> (try cases h)
  all_goals try simp only [sending_some, acking_some, Bool.not_eq_true] at *
  all_goals first
    | exact .sd0 t ht _ _ hp
    | exact .sd2 t ht _ hp
    | exact .sd3Closed t ht _ _ hp ‹_›
    | (obtain ⟨i, hq, rfl⟩ := ‹∃ _, _›; obtain ⟨hj, rfl, ha⟩ := ‹_ ∧ _›; exact .sd3 t ht _ _ hp _ hj i hq ha)

theorem Step.of_stepWait {conf : Conf} {s s' : Algo C} {t : Nat} {c : Choice C} (ht : t < s.n)
    (h : s.stepWait conf t (s.thr t).pc c = some s') : Step conf s s' := by
  generalize hp : (s.thr t).pc = p at h
  cases p <;> cases c <;> (try cases ‹Bool›) <;> (try cases ‹Bool›) <;> (try cases ‹Bool›) <;> simp only [stepWait, reduceCtorEq] at h <;>
    (repeat' split at h) <;> (try cases h)
  all_goals try simp only [sending_some, acking_some, Bool.not_eq_true] at *
  all_goals first
    | exact .wa0Running t ht _ _ hp ‹_› ‹_›
    | (refine .wa0 t ht _ _ hp ‹_› _ ?_ ?_ <;> simp_all; done)
    | exact .wa1Never t ht _ _ hp ‹_› (by simp_all; done)
    | exact .wa1 t ht _ _ hp ‹_› (by simp_all)
    | exact .wa2Done t ht _ _ hp (fun _ => ⟨‹_›, ‹_›⟩)
    | exact .wa2Done t ht _ _ hp (by simp)
    | exact .wa2Again t ht _ _ hp
    | exact .wa2Timeout t ht _ hp
    | exact .wa3 t ht hp ‹_›

theorem Step.of_stepRecover {conf : Conf} {s s' : Algo C} {t : Nat} {c : Choice C} (ht : t < s.n)
    (h : s.stepRecover t (s.thr t).pc c = some s') : Step conf s s' := by
  generalize hp : (s.thr t).pc = p at h
  cases p <;> cases c <;> simp only [stepRecover, reduceCtorEq] at h <;>
    (repeat' split at h) <;> (try cases h)
  all_goals try simp only [sending_some, acking_some, Bool.not_eq_true] at *
  all_goals first
    | exact .c0 t ht hp ‹_›
    | exact .c0Panic t ht _ hp ‹_›
    | exact .c2 t ht _ hp ‹_›
    | exact .c3 t ht _ hp ‹_›
    | exact .c4Default t ht _ hp ‹_›
    | (subst_vars; exact .c4 t ht hp _ ‹_› _ _ ‹_›)
    | (rename Option Err => p; cases p
       · simp at *
       · exact .c4Panic t ht _ hp _ ‹_› _ _ ‹_›)
    | exact .c6Closed t ht hp ‹_›
    | (obtain ⟨i, hq, rfl⟩ := ‹∃ _, _›; obtain ⟨hj, rfl, ha⟩ := ‹_ ∧ _›; exact .c6 t ht hp _ hj i hq ha)
    | (obtain ⟨ha, hn⟩ := ‹_ ∧ _›; exact .c6Default t ht hp ha (fun j hj i hq => hn j hj (by simp [hq, acking])))
    | exact .c7 t ht hp
    | exact .c8 t ht hp

theorem Step.of_stepNotif {conf : Conf} {s s' : Algo C} {t : Nat} {c : Choice C} (ht : t < s.n)
    (h : s.stepNotif conf t (s.thr t).pc c = some s') : Step conf s s' := by
  generalize hp : (s.thr t).pc = p at h
  cases p <;> cases c <;> simp only [stepNotif, reduceCtorEq] at h <;>
    (repeat' split at h) <;> (try cases h)
  all_goals try simp only [sending_some, acking_some, Bool.not_eq_true] at *
  all_goals first
    | exact .nl0 t ht hp _ ‹_› _ _ ‹_›
    | exact .nl1 t ht _ hp ‹_›
    | (have := Step.nl1 (conf := conf) t ht _ hp ‹_›; simp_all)

theorem Step.of_stepTimer {conf : Conf} {s s' : Algo C} {t : Nat} {c : Choice C} (ht : t < s.n)
    (h : s.stepTimer t (s.thr t).pc c = some s') : Step conf s s' := by
  generalize hp : (s.thr t).pc = p at h
  cases p <;> cases c <;> simp only [stepTimer, reduceCtorEq] at h <;>
    (repeat' split at h) <;> (try cases h)
  all_goals try simp only [sending_some, acking_some, Bool.not_eq_true] at *
  all_goals first
    | exact .ti0 t ht hp ‹_›
    | exact .ti0Fire t ht hp ‹_›

theorem Step.of_stepHome {conf : Conf} {s s' : Algo C} {t : Nat} {c : Choice C} (ht : t < s.n)
    (hp : (s.thr t).pc = .home) (h : s.stepHome t c = some s') : Step conf s s' := by
  cases c <;> simp only [stepHome, reduceCtorEq] at h <;> split at h <;> cases h
  · exact .notifRet t ht hp ‹_›
  · exact .call t ht hp _ ‹_›

theorem Step.of_stepRead {conf : Conf} {s s' : Algo C} {t : Nat} (ht : t < s.n)
    (h : s.stepRead t (s.thr t).pc = some s') : Step conf s s' := by
  generalize hp : (s.thr t).pc = p at h
  cases p <;> simp only [stepRead, reduceCtorEq] at h <;> split at h <;> cases h
  · exact .rdStatus t ht hp ‹_›
  · exact .rdCentroids t ht hp ‹_›
  · exact .rdFigures t ht hp ‹_›
  · exact .rdConf t ht hp ‹_›

theorem Step.of_step {conf : Conf} {s s' : Algo C} {t : Nat} {c : Choice C}
    (h : s.step conf t c = some s') : Step conf s s' :=
  have ht := step_lt h
  step_elim h (fun h => Step.of_stepHome ht h) (fun h => Step.of_stepRead ht h)
    (fun h => Step.of_stepPush ht h) (fun h => Step.of_stepInit ht h)
    (fun h => Step.of_stepPlay ht h) (fun h => Step.of_stepPause ht h)
    (fun h => Step.of_stepInterrupt ht h) (fun h => Step.of_stepSend ht h)
    (fun h => Step.of_stepWait ht h) (fun h => Step.of_stepRun ht h)
    (fun h => Step.of_stepRecover ht h) (fun h => Step.of_stepNotif ht h)
    (fun h => Step.of_stepTimer ht h)

theorem notifying_some {q p : PC C} {st : OCStatus} (h : notifying q = some (st, p)) :
    (∃ k, q = .in4 k ∧ st = .new .initializing ∧ p = .in5 k) ∨
    (∃ k, q = .in9 k none ∧ st = .new .ready ∧ p = .in10 k none) ∨
    (∃ k e, q = .in9 k (some e) ∧ st = .ofError (some e) ∧ p = .in10 k (some e)) ∨
    (∃ e, q = .it1 e ∧ st = .ofError e ∧ p = .it2) ∨
    (q = .r3 st ∧ p = .r4 false) ∨
    (q = .r11 st ∧ st.value = .idle ∧ p = .r4 true) ∨
    (q = .r11 st ∧ st.value ≠ .idle ∧ p = .r6) ∨
    (q = .r14 ∧ st = .new .ready ∧ p = .c0 none) ∨
    (∃ e, q = .r16 e ∧ st = .ofError (some e) ∧ p = .c0 none) ∨
    (∃ e, q = .c1 e ∧ st = .ofError e ∧ p = .c2 e) ∨
    (q = .c5 st ∧ p = .c6) := by
  unfold notifying at h
  split at h <;> simp only [Option.some.injEq, Prod.mk.injEq, reduceCtorEq] at h <;>
    obtain ⟨rfl, rfl⟩ := h
  · exact .inl ⟨_, rfl, rfl, rfl⟩
  · exact .inr (.inl ⟨_, rfl, rfl, rfl⟩)
  · exact .inr (.inr (.inl ⟨_, _, rfl, rfl, rfl⟩))
  · exact .inr (.inr (.inr (.inl ⟨_, rfl, rfl, rfl⟩)))
  · exact .inr (.inr (.inr (.inr (.inl ⟨rfl, rfl⟩))))
  · rename_i st
    by_cases hv : st.value = .idle
    · exact .inr (.inr (.inr (.inr (.inr (.inl ⟨rfl, hv, by simp [hv]⟩)))))
    · exact .inr (.inr (.inr (.inr (.inr (.inr (.inl ⟨rfl, hv, by simp [hv]⟩))))))
  · exact .inr (.inr (.inr (.inr (.inr (.inr (.inr (.inl ⟨rfl, rfl, rfl⟩)))))))
  · exact .inr (.inr (.inr (.inr (.inr (.inr (.inr (.inr (.inl ⟨_, rfl, rfl, rfl⟩))))))))
  · exact .inr (.inr (.inr (.inr (.inr (.inr (.inr (.inr (.inr (.inl ⟨_, rfl, rfl, rfl⟩)))))))))
  · exact .inr (.inr (.inr (.inr (.inr (.inr (.inr (.inr (.inr (.inr ⟨rfl, rfl⟩)))))))))

/-- Every action is one of the list. -/
theorem Step.of_next {conf : Conf} {s s' : Algo C} {a : Act C} (h : s.next conf a = some s') :
    Step conf s s' := by
  cases a with
  | act t c => exact Step.of_step h
  | client => cases h; exact .client

theorem exec_append (conf : Conf) (s : Algo C) (as bs : List (Act C)) :
    s.exec conf (as ++ bs) = (s.exec conf as).bind (·.exec conf bs) := by
  induction as generalizing s with
  | nil => rfl
  | cons a as ih =>
    simp only [List.cons_append, exec]
    cases s.next conf a with
    | none => rfl
    | some s1 => exact ih s1

/-- Induction over the reachable states: an invariant of the initial state kept by every action. -/
theorem exec_induction {conf : Conf} {P : Algo C → Prop} (hstep : ∀ s s', P s → Step conf s s' → P s')
    (as : List (Act C)) : ∀ (s s' : Algo C), P s → s.exec conf as = some s' → P s' := by
  induction as with
  | nil => intro s s' h0 h; cases h; exact h0
  | cons a as ih =>
    intro s s' h0 h
    simp only [exec] at h
    split at h
    · cases h
    · rename_i s1 h1
      exact ih s1 s' (hstep s s1 h0 (Step.of_next h1)) h

theorem Reachable.induction {conf : Conf} {P : Algo C → Prop} (h0 : P new)
    (hstep : ∀ s s', P s → Step conf s s' → P s') {s : Algo C} (h : Reachable conf s) : P s := by
  obtain ⟨as, h⟩ := h
  exact exec_induction hstep as _ _ h0 h

theorem Reachable.next {conf : Conf} {s s' : Algo C} {a : Act C} (h : Reachable conf s)
    (h' : s.next conf a = some s') : Reachable conf s' := by
  obtain ⟨as, h⟩ := h
  exact ⟨as ++ [a], by rw [exec_append, h]; simp [exec, h']⟩

end Algo
end Distclus
