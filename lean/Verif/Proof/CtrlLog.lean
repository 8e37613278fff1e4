import Verif.Proof.CtrlStatus
/-!
# What the ghost log records
-/
namespace Distclus
open Ctrl
namespace Algo
variable {C : Type}

set_option linter.unusedSimpArgs false
set_option linter.unusedVariables false

/-- Where a status is set. -/
def SetFact (s : Algo C) (st : OCStatus) : Prop :=
  (∃ t k, (s.thr t).pc = .in3 k ∧ st = .new .initializing) ∨
  (∃ t k, (s.thr t).pc = .in8 k none ∧ st = .new .ready) ∨
  (∃ t k e, (s.thr t).pc = .in8 k (some e) ∧ st = .ofError (some e)) ∨
  (s.sm = none ∧ s.status.value = .ready ∧ ∃ t e, (s.thr t).pc = .it0 e ∧ st = .ofError e) ∨
  (s.sm = none ∧ ∃ t, (s.thr t).pc = .r2 st ∨ (s.thr t).pc = .r10 st) ∨
  (s.sm = none ∧ ∃ t, (s.thr t).pc = .r13 ∧ st = .new .ready) ∨
  (s.sm = none ∧ ∃ t e, ((s.thr t).pc = .r15 e ∨ (s.thr t).pc = .c0 (some e)) ∧
    st = .ofError (some e)) ∨
  (∃ t j k, (s.thr t).pc = .c4 none ∧ (s.thr j).pc = .sd1 st k)

/-- Where each result is returned. -/
def RetFact (s : Algo C) (t : Nat) : Res C → Prop
  | .status st => (s.thr t).pc = .rdStatus ∧ st = s.status ∧ s.sm = none
  | .centroids c => (s.thr t).pc = .rdCentroids ∧ c = s.centroids ∧ s.ma = none
  | .figures i p => (s.thr t).pc = .rdFigures ∧ i = s.figIter ∧ p = s.figPushed ∧ s.ma = none
  | .unit => (s.thr t).pc = .rdConf
  | .err _ => True

/-- Where each event is recorded. -/
def EvFact (s s' : Algo C) : Event C → Prop
  | .call t op => (s.thr t).pc = .home ∧ (s'.thr t).pc = entry op
  | .ret t r => RetFact s t r
  | .set st => s'.status = st ∧ SetFact s st
  | .notified st => ∃ t j p, (s.thr t).pc = .nl0 ∧ notifying (s.thr j).pc = some (st, p)
  | .initRet c e => ∃ t k, (s.thr t).pc = .in5 k ∧ (s'.thr t).pc = .in6 k c e
  | .iterCall r st c => (s.thr r).pc = .r9 ∧ st = s.status ∧ c = s.centroids ∧ s.noSender = true
  | .iterNil r => (s.thr r).pc = .rI
  | .iterOk r c => (s.thr r).pc = .rI ∧ (s'.thr r).pc = .rS c
  | .iterErr r e => (s.thr r).pc = .rI ∧ (s'.thr r).pc = .r15 e
  | .iterPanic r e => (s.thr r).pc = .rI ∧ (s'.thr r).pc = .c0 (some e)
  | .saved c => ∃ t, (s.thr t).pc = .rS' c
  | .implPushed => ∃ t, (s.thr t).pc = .pu1
  | .pushed => ∃ t, (s.thr t).pc = .pu3
  | .counted _ => ∃ t, (s.thr t).pc = .pu4
  | .reset => ∃ t k, (s.thr t).pc = .in2 k
  | .runStart r => ∃ t, (s.thr t).pc = .pl1 ∧ r = s.n
  | .runEnd r => (s.thr r).pc = .c8
  | .closed a => ∃ t, (s.thr t).pc = .c7 ∧ a = s.ack
  | .disabled i => (∃ t, (s.thr t).pc = .pl2 ∧ s.timeout = some i) ∧ i ∈ s'.disabled
  | .fired i => (s.thr i).pc = .ti0 ∧ i ∉ s.disabled ∧ (s'.thr i).pc ≠ .ti0

/-- Is the event the assignment of a status? -/
def isSet : Event C → Bool
  | .set _ => true
  | _ => false

/-- An action which records nothing, or one event. -/
def LogStep (s s' : Algo C) : Prop :=
  (s'.log = s.log ∧ s'.status = s.status) ∨
  ∃ e, s'.log = e :: s.log ∧ (isSet e = false → s'.status = s.status) ∧ EvFact s s' e

theorem LogStep.ret {s s1 : Algo C} {t : Nat} {r : Res C} (h1 : s1.log = s.log)
    (h2 : s1.status = s.status) (h : RetFact s t r) : LogStep s (s1.ret t r) := by
  by_cases hi : (s1.thr t).inPush
  · exact .inl ⟨by rw [ret_log, if_pos hi, h1], by rw [ret_status, h2]⟩
  · exact .inr ⟨.ret t r, by rw [ret_log, if_neg hi, h1], fun _ => by rw [ret_status, h2], h⟩

theorem LogStep.sent {s s1 : Algo C} {t : Nat} {ok : Bool} {k : SendFrom} (h1 : s1.log = s.log)
    (h2 : s1.status = s.status) : LogStep s (s1.sent t ok k) := by
  cases k
  · exact LogStep.ret h1 h2 trivial
  · exact .inl ⟨h1, h2⟩
  · exact LogStep.ret h1 h2 trivial
  · exact .inl ⟨h1, h2⟩

theorem Step.log {conf : Conf} {s s' : Algo C} (h : Step conf s s') : LogStep s s' := by
  cases h
  case call t ht hp op hk =>
    exact .inr ⟨_, rfl, fun _ => rfl, hp, by rw [go_pc, if_pos rfl]⟩
  case in5 t ht k hp c e =>
    exact .inr ⟨_, rfl, fun _ => rfl, t, k, hp, by rw [go_pc, if_pos rfl]⟩
  case iterOk t ht hp c => exact .inr ⟨_, rfl, fun _ => rfl, hp, by rw [go_pc, if_pos rfl]⟩
  case iterErr t ht hp e => exact .inr ⟨_, rfl, fun _ => rfl, hp, by rw [go_pc, if_pos rfl]⟩
  case iterPanic t ht hp e => exact .inr ⟨_, rfl, fun _ => rfl, hp, by rw [go_pc, if_pos rfl]⟩
  case in3Created t ht k hp hv => exact .inr ⟨_, rfl, (fun h => by cases h), rfl, .inl ⟨t, k, hp, rfl⟩⟩
  case in3 t ht k hp hv => exact .inr ⟨_, rfl, (fun h => by cases h), rfl, .inl ⟨t, k, hp, rfl⟩⟩
  case in8 t ht k hp => exact .inr ⟨_, rfl, (fun h => by cases h), rfl, .inr (.inl ⟨t, k, hp, rfl⟩)⟩
  case in8Err t ht k e hp =>
    exact .inr ⟨_, rfl, (fun h => by cases h), rfl, .inr (.inr (.inl ⟨t, k, e, hp, rfl⟩))⟩
  case it0Ready t ht e hp hs hv =>
    exact .inr ⟨_, rfl, (fun h => by cases h), rfl, .inr (.inr (.inr (.inl ⟨hs, hv, t, e, hp, rfl⟩)))⟩
  case r2 t ht st hp hs =>
    exact .inr ⟨_, rfl, (fun h => by cases h), rfl, .inr (.inr (.inr (.inr (.inl ⟨hs, t, .inl hp⟩))))⟩
  case r10 t ht st hp hs =>
    exact .inr ⟨_, rfl, (fun h => by cases h), rfl, .inr (.inr (.inr (.inr (.inl ⟨hs, t, .inr hp⟩))))⟩
  case r13 t ht hp hs =>
    exact .inr ⟨_, rfl, (fun h => by cases h), rfl,
      .inr (.inr (.inr (.inr (.inr (.inl ⟨hs, t, hp, rfl⟩)))))⟩
  case r15 t ht e hp hs =>
    exact .inr ⟨_, rfl, (fun h => by cases h), rfl,
      .inr (.inr (.inr (.inr (.inr (.inr (.inl ⟨hs, t, e, .inl hp, rfl⟩))))))⟩
  case c0Panic t ht e hp hs =>
    exact .inr ⟨_, rfl, (fun h => by cases h), rfl,
      .inr (.inr (.inr (.inr (.inr (.inr (.inl ⟨hs, t, e, .inr hp, rfl⟩))))))⟩
  case c4 t ht hp j hj st k hq =>
    exact .inr ⟨_, rfl, (fun h => by cases h), rfl,
      .inr (.inr (.inr (.inr (.inr (.inr (.inr ⟨t, j, k, hp, hq⟩))))))⟩
  case rdStatus t ht hp hs => exact LogStep.ret rfl rfl ⟨hp, rfl, hs⟩
  case rdCentroids t ht hp hs => exact LogStep.ret rfl rfl ⟨hp, rfl, hs⟩
  case rdFigures t ht hp hs => exact LogStep.ret rfl rfl ⟨hp, rfl, rfl, hs⟩
  case rdConf t ht hp hs => exact LogStep.ret rfl rfl hp
  case pl2Disable t ht hp i hi =>
    exact .inr ⟨_, rfl, fun _ => rfl, ⟨t, hp, hi⟩, List.mem_cons_self ..⟩
  case ti0Fire t ht hp hd =>
    exact .inr ⟨_, rfl, fun _ => rfl, hp, hd, by rw [go_pc, if_pos rfl]; rintro ⟨⟩⟩
  case nl0 t ht hp j hj st p hq => exact .inr ⟨_, rfl, fun _ => rfl, t, j, p, hp, hq⟩
  all_goals first
    | exact .inl ⟨rfl, rfl⟩
    | exact LogStep.ret rfl rfl trivial
    | exact LogStep.sent rfl rfl
    | exact .inr ⟨_, rfl, fun _ => rfl, ‹_›⟩
    | exact .inr ⟨_, rfl, fun _ => rfl, _, ‹_›⟩
    | exact .inr ⟨_, rfl, fun _ => rfl, _, _, ‹_›⟩
    | exact .inr ⟨_, rfl, fun _ => rfl, _, ‹_›, rfl⟩
    | exact .inr ⟨_, rfl, fun _ => rfl, _, ‹_›, ‹_›⟩
    | exact .inr ⟨_, rfl, fun _ => rfl, ‹_›, ‹_›⟩
    | exact .inr ⟨_, rfl, fun _ => rfl, ‹_›, rfl, rfl, ‹_›⟩
    | exact .inr ⟨_, rfl, fun _ => rfl, trivial⟩

end Algo
end Distclus
