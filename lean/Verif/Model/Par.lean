import Verif.Model.Basic
/-!
# `core.Par` (core/util.go)
-/

namespace Distclus

/-- The arguments of one `go launch(start, end, i)` (core/util.go:27). -/
structure Chunk where
  start : Nat
  stop : Nat
  rank : Nat
deriving DecidableEq, Repr

/-- The `for i := 0; i < degree; i++` loop of `Par` (core/util.go:19-29).  `n` is the number of
remaining iterations, i.e. `degree - i`. -/
def parLoop (size degree remainder : Nat) : (n i offset start : Nat) → List Chunk
  | 0, _, _, _ => []
  | n + 1, i, offset, start =>
    let offset := if i = degree - remainder then offset + 1 else offset
    let stop := start + offset
    let stop := if stop > size then size else stop
    ⟨start, stop, i⟩ :: parLoop size degree remainder n (i + 1) offset stop

/-- `core.Par` (core/util.go:9-31): the launched goroutines, in launching order.
`none` is a panic: `size / degree` for `degree = 0` (line 11), `wg.Add(degree)` for `degree < 0`
(line 13). -/
def par (size : Nat) (degree : Int) : Option (List Chunk) :=
  if degree ≤ 0 then none
  else
    let d := degree.toNat
    some (parLoop size d (size % d) d 0 (size / d) 0)

/-- Interleavings of several sequences of atomic actions: at each step the scheduler picks any
goroutine that is not done and runs its next action (goroutines launched by core/util.go:27 and
joined by `wg.Wait()` line 30). -/
inductive Interleave {α : Type} : List (List α) → List α → Prop
  | done {ls : List (List α)} : (∀ l ∈ ls, l = []) → Interleave ls []
  | step {ls : List (List α)} {i : Nat} {a : α} {rest out : List α} :
      ls[i]? = some (a :: rest) → Interleave (ls.set i rest) out → Interleave ls (a :: out)

end Distclus
