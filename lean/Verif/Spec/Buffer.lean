import Verif.Model.Buffer
/-!
# Specification of the buffer: what was stored and what is staged, as plain lists
-/
namespace Distclus.Spec

/-- The log of a buffer: everything stored so far in storing order, everything staged and not yet
stored in staging order, everything pushed by the clients in pushing order. -/
structure BufLog (E : Type) where
  stored : List E
  staged : List E
  pushed : List E

variable {E : Type}

/-- Effect of an event on the log: a push to a buffer that is not running is stored at once, a push
to a running one is staged; a turn of `Apply` stores the oldest staged element. -/
def BufLog.step (l : BufLog E) : BufOp E → BufLog E
  | .push e true => { l with staged := l.staged ++ [e], pushed := l.pushed ++ [e] }
  | .push e false => { l with stored := l.stored ++ [e], pushed := l.pushed ++ [e] }
  | .applyNext => match l.staged with
    | [] => l
    | e :: r => { l with stored := l.stored ++ [e], staged := r }

/-- The log of a history starting with the initial data. -/
def BufLog.run (l : BufLog E) (ops : List (BufOp E)) : BufLog E := ops.foldl BufLog.step l

/-- The log at creation. -/
def BufLog.init (data : List E) : BufLog E := ⟨data, [], data⟩

/-- The `n` last elements of a list (all of them if there are fewer). -/
def lastN (n : Nat) (l : List E) : List E := l.drop (l.length - n)

end Distclus.Spec
