import Verif.Spec.CtrlSource
import Verif.Spec.Streaming
/-!
# The streaming implementation behind the controller

`Streamed space i0 l st`: the record `l` (last event first) is that of a controller whose implementation is
`streaming.Impl`, initially `i0`, used by one goroutine at a time, and the observer has noted `st`.  An `Iterate`
takes the oldest waiting element, if there is one, at some moment between its call and its return: pushes may
happen before and after (streaming/impl.go:61-84).
-/
namespace Distclus
open Ctrl
namespace Spec
variable {E F R : Type} [Zero F] [One F] [Neg F] [LT F] [DecidableLT F] [BEq F] [Div F]

/-- Where the current `Iterate` is: there is none, it has not received yet, it has received an element or found
the channel empty. -/
inductive Hold (E : Type) where
  | idle
  | called
  | took (e : Option E)

/-- The notes: the implementation (without the effects of the current `Iterate` but with its element gone from the
channel), the elements accepted by `Push`, and the current `Iterate`. -/
structure StreamNotes (E F R : Type) where
  impl : StreamImpl E F R
  pushed : List E
  hold : Hold E

/-- The `select` of `Iterate`. -/
def StreamNotes.Take (st st' : StreamNotes E F R) : Prop :=
  st.hold = .called ∧
  ((st.impl.c = [] ∧ st' = { st with hold := .took none }) ∨
   ∃ e q, st.impl.c = e :: q ∧ st' = { st with impl := { st.impl with c := q }, hold := .took (some e) })

/-- One event. -/
def StreamNotes.Event (space : Space E F) (st : StreamNotes E F R) : Event (List E) → StreamNotes E F R → Prop
  | .implPushed, st' => ∃ e i, st.impl.push e = (i, false) ∧ st' = { st with impl := i, pushed := st.pushed ++ [e] }
  | .initRet c e, st' => st.hold = .idle ∧ c = st.impl.init.2 ∧ (e = none ↔ c ≠ none) ∧ e ≠ some .alreadyCreated ∧
      st' = { st with impl := st.impl.init.1 }
  | .iterCall _ _ _, st' => st.hold = .idle ∧ st' = { st with hold := .called }
  | .iterNil _, st' => st.hold = .took none ∧ st' = { st with hold := .idle }
  | .iterOk _ c, st' => ∃ e t i, st.hold = .took (some e) ∧ st.impl.process space t e = some i ∧ c = i.clust ∧
      st' = { st with impl := i, hold := .idle }
  | .iterErr _ _, _ => False
  | .iterPanic _ _, st' => ∃ e t, st.hold = .took (some e) ∧ st.impl.process space t e = none ∧
      st' = { st with hold := .idle }
  | _, st' => st' = st

/-- A record. -/
def Streamed (space : Space E F) (i0 : StreamImpl E F R) : List (Event (List E)) → StreamNotes E F R → Prop
  | [], st => st = ⟨i0, [], .idle⟩
  | e :: l, st' => ∃ st st1, Streamed space i0 l st ∧ (st1 = st ∨ st.Take st1) ∧ st1.Event space e st'

/-- The clusterings returned by the implementation, the first one first. -/
def produced {C : Type} : List (Event C) → List C
  | [] => []
  | .initRet (some c) _ :: l => produced l ++ [c]
  | .iterOk _ c :: l => produced l ++ [c]
  | _ :: l => produced l

/-- The clusterings among the results of calls. -/
def clusterings : List (StreamRes E F) → List (List E)
  | [] => []
  | .init (some c) :: rs => c :: clusterings rs
  | .iterate (some c) _ :: rs => c :: clusterings rs
  | _ :: rs => clusterings rs

end Spec
end Distclus
