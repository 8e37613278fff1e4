import Verif.Model.Basic
/-!
# `core.DataBuffer` (core/buffer.go)

The pipe is a buffered channel of capacity 2000, a FIFO queue.  A blocked send is `none`.
`Apply` is a sequence of `applyNext` steps, so that histories may interleave staging pushes with a
running `Apply`.  Slices are values here; their aliasing is in `Model/BufferHeap.lean`.
-/
namespace Distclus

/-- `pipeSize` (core/buffer.go:21). -/
def pipeSize : Nat := 2000

/-- `bufferSizeStrategy`: `fixedSizeStrategy` (core/buffer.go:97-100) or `infiniteSizeStrategy`
(core/buffer.go:119-120). -/
inductive Strategy where
  | fixed (size position : Nat)
  | infinite
deriving DecidableEq, Repr

/-- `push` of the strategies (core/buffer.go:102-116, 122-124). -/
def Strategy.push {E : Type} : Strategy → List E → E → Strategy × List E
  | .fixed size position, data, e =>
    let position := if position = size then 0 else position
    let data := if position < data.length then data.set position e else data ++ [e]
    (.fixed size (position + 1), data)
  | .infinite, data, e => (.infinite, data ++ [e])

/-- `DataBuffer` (core/buffer.go:14-18). -/
structure DataBuffer (E : Type) where
  pipe : List E
  data : List E
  strategy : Strategy
deriving DecidableEq, Repr

variable {E : Type}

/-- `NewDataBuffer` (core/buffer.go:25-51).  In the fixed cases `size > 0`, hence `size.toNat`. -/
def newDataBuffer (data : List E) (size : Int) : DataBuffer E :=
  if size > data.length then
    { pipe := [], data := data, strategy := .fixed size.toNat data.length }
  else if size > 0 then
    { pipe := [], data := data.drop (data.length - size.toNat),
      strategy := .fixed size.toNat size.toNat }
  else
    { pipe := [], data := data, strategy := .infinite }

/-- Storing an element (core/buffer.go:58, 83). -/
def DataBuffer.store (b : DataBuffer E) (e : E) : DataBuffer E :=
  let (s, d) := b.strategy.push b.data e
  { b with strategy := s, data := d }

/-- `Push` (core/buffer.go:54-61). `none`: the caller blocks on a full pipe. -/
def DataBuffer.push (b : DataBuffer E) (e : E) (running : Bool) : Option (DataBuffer E) :=
  if running then
    if b.pipe.length < pipeSize then some { b with pipe := b.pipe ++ [e] } else none
  else some (b.store e)

/-- `applyNext` (core/buffer.go:77-89); the pipe is never closed. -/
def DataBuffer.applyNext (b : DataBuffer E) : DataBuffer E × Bool :=
  match b.pipe with
  | e :: rest => ({ b with pipe := rest }.store e, true)
  | [] => (b, false)

/-- The loop of `Apply` (core/buffer.go:69-73), with the number of turns bounded by the number of
staged elements (`apply_done` in `Proof/Buffer.lean` shows the loop is over by then). -/
def DataBuffer.applyLoop : Nat → DataBuffer E → DataBuffer E
  | 0, b => b
  | n + 1, b =>
    match b.applyNext with
    | (b', true) => applyLoop n b'
    | (b', false) => b'

/-- `Apply` (core/buffer.go:69-73) when nobody pushes meanwhile. -/
def DataBuffer.apply (b : DataBuffer E) : DataBuffer E := applyLoop b.pipe.length b

/-- The events of a history of a buffer: a push with its `running` argument, one turn of the loop of
`Apply`. -/
inductive BufOp (E : Type) where
  | push (e : E) (running : Bool)
  | applyNext

/-- One event; `none` when the push blocks. -/
def DataBuffer.step (b : DataBuffer E) : BufOp E → Option (DataBuffer E)
  | .push e r => b.push e r
  | .applyNext => some b.applyNext.1

/-- A history. -/
def DataBuffer.run (b : DataBuffer E) : List (BufOp E) → Option (DataBuffer E)
  | [] => some b
  | o :: os => match b.step o with
    | none => none
    | some b' => b'.run os

end Distclus
