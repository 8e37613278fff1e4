import Verif.Spec.CtrlTidy
import Verif.Spec.Buffer
import Verif.Model.Finish
/-!
# An implementation with a buffer

k-means and its relatives keep the data in a `DataBuffer`: `Push` pushes the element, staged if
`Status().Alive()`; `Init` stores the staged elements and initialises the centroids on the stored data;
`Iterate` computes centroids from those of the controller and from the stored data, then stores the staged
elements (kmeans/impl.go:20-36).  `Buffered ini step b0 l st`: the record `l` (last event first) is that of
such an implementation with initial buffer `b0`, and the observer has noted `st`.
-/
namespace Distclus
open Ctrl
namespace Spec
variable {E C : Type}

/-- The buffer, the elements pushed, the buffer when `Init` last returned and the elements pushed since. -/
structure Notes (E : Type) where
  buf : DataBuffer E
  pushed : List E
  base : DataBuffer E
  since : List E

/-- One event after the record `l`. -/
def Notes.Next (ini : List E → C → Prop) (step : List E → C → Option C) (l : List (Event C)) (st : Notes E) :
    Event C → Notes E → Prop
  | .implPushed, st' => ∃ e b, st.buf.push e (current l).alive = some b ∧
      st' = { st with buf := b, pushed := st.pushed ++ [e], since := st.since ++ [e] }
  | .initRet c e, st' => (e = none → ∃ c0, c = some c0 ∧ ini st.buf.apply.data c0) ∧
      st' = { st with buf := st.buf.apply, base := st.buf.apply, since := [] }
  | .iterOk r c, st' => (∃ c0, given r l = some (some c0) ∧ step st.buf.data c0 = some c) ∧
      st' = { st with buf := st.buf.apply }
  | _, st' => st' = st

/-- A record. -/
def Buffered (ini : List E → C → Prop) (step : List E → C → Option C) (b0 : DataBuffer E) :
    List (Event C) → Notes E → Prop
  | [], st => st = ⟨b0, [], b0, []⟩
  | e :: l, st' => ∃ st, Buffered ini step b0 l st ∧ st.Next ini step l e st'

/-- The buffer of the notes with the elements pushed since the last `Init` stored. -/
def Notes.full (st : Notes E) : DataBuffer E := { st.base with pipe := st.since }.apply

/-- The stored data when the iteration of rank `n` since the last `Init` starts: the first one does not see
the elements pushed since. -/
def Notes.seen (st : Notes E) (n : Nat) : List E := if n = 0 then st.base.data else st.full.data

/-- What a buffer of this size (unbounded if it is not positive) keeps of the elements stored one after
the other. -/
def window (size : Int) (l : List E) : List E := if 0 < size then lastN size.toNat l else l

end Spec
end Distclus
