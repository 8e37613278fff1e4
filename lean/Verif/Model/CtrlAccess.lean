import Verif.Model.Ctrl
/-!
# Which goroutine reads and writes which field of the `Algo` object, under which locks

The model of the controller (`Verif.Model.Ctrl`) assumes sequentially consistent memory, which Go grants
to programs without data races.  Here is the table of the accesses to the shared fields, by program
counter.  The fields `conf`, `impl`, `space` and `statusChannel` are never written after `NewAlgo`
(core/algo.go:40-58) and are left out, and so are the data of the implementation.
-/
namespace Distclus
namespace Ctrl

/-- The shared variables: fields of `Algo` (core/algo.go:18-37), and the content of the map
`runtimeFigures` (`map`). `counters` are `newData`, `pushedData`, `iterations`, `duration` and
`lastDataTime`; `figures` is the field `runtimeFigures` itself. -/
inductive Loc where
  | status | centroids | counters | figures | map | ack | notif | timeout
deriving DecidableEq, Repr

/-- The locks: `statusMutex`, and `modelMutex` for reading and for writing. -/
inductive Lock where
  | status | modelR | modelW
deriving DecidableEq, Repr

/-- An access, and the locks held when it is made. -/
structure Access where
  loc : Loc
  write : Bool
  locks : List Lock
deriving DecidableEq, Repr

/-- The accesses a goroutine is about to make at a given program counter, when the value of the status
is `v`. -/
def accesses {C : Type} (conf : Conf) (v : ClustStatus) : PC C → List Access
  -- core/model.go:49-53, 14-18, 28-32
  | .rdStatus => [⟨.status, false, [.status]⟩]
  | .rdCentroids => [⟨.centroids, false, [.modelR]⟩]
  | .rdFigures => [⟨.figures, false, [.modelR]⟩]
  -- core/ctrl.go:23 (Status() by the implementation), 26-27, 29-34 and 314-316, 39
  | .pu0 => [⟨.status, false, [.status]⟩]
  | .pu3 => [⟨.counters, true, [.modelW]⟩]
  | .pu4 => [⟨.status, false, [.status, .modelW]⟩, ⟨.counters, true, [.modelW]⟩,
      ⟨.figures, false, [.modelW]⟩, ⟨.map, true, [.modelW]⟩]
  | .pu5 => [⟨.counters, false, [.modelR]⟩]
  -- 67; 70-75; 79-80; 83; 87; 90 or 92; each followed by the read of notifChannel (core/algo.go:69)
  | .in0 => [⟨.status, false, [.status]⟩]
  | .in2 _ => [⟨.counters, true, [.status, .modelW]⟩, ⟨.figures, true, [.status, .modelW]⟩,
      ⟨.map, true, [.status, .modelW]⟩]
  | .in3 _ => [⟨.status, true, [.status]⟩, ⟨.notif, decide (v = .created), [.status]⟩]
  | .in4 _ => [⟨.notif, false, [.status]⟩]
  | .in7 _ _ _ => [⟨.centroids, true, [.status, .modelW]⟩]
  | .in8 _ _ => [⟨.status, true, [.status]⟩]
  | .in9 _ _ => [⟨.notif, false, [.status]⟩]
  -- 103; 120-121; 125
  | .pl0 => [⟨.status, false, [.status]⟩]
  | .pl2 => [⟨.timeout, false, []⟩]
  | .pl3 => if conf.timeout then [⟨.timeout, true, []⟩] else []
  -- 137
  | .pa0 => [⟨.status, false, [.status]⟩]
  -- 178, 180; 187
  | .it0 _ => [⟨.status, decide (v = .ready), [.status]⟩]
  | .it1 _ => [⟨.notif, false, [.status]⟩]
  | .it3 => [⟨.status, false, []⟩]
  -- core/algo.go:82
  | .sd2 _ => [⟨.ack, false, []⟩]
  -- core/ctrl.go:157; core/timeout.go:74; core/timeout.go:85
  | .wa0 _ _ => [⟨.status, false, [.status]⟩]
  | .wa2 c _ => if c then [] else [⟨.status, false, [.status]⟩]
  | .wa3 => [⟨.status, false, [.status]⟩]
  -- core/ctrl.go:243, 247
  | .r0 => [⟨.ack, true, []⟩, ⟨.centroids, false, []⟩]
  -- core/algo.go:63-65, 69, 76
  | .r2 _ => [⟨.status, true, [.status]⟩]
  | .r3 _ => [⟨.notif, false, []⟩]
  | .r4 _ => [⟨.ack, false, []⟩]
  -- core/ctrl.go:269; core/finish.go:63-68
  | .r6 => [⟨.status, false, []⟩]
  | .r7 => if conf.iter = 0 ∧ conf.iterPerData = 0 then []
      else [⟨.figures, false, [.modelR]⟩, ⟨.map, false, []⟩]
  -- core/ctrl.go:282
  | .r9 => [⟨.status, false, []⟩, ⟨.figures, false, []⟩, ⟨.centroids, false, []⟩]
  | .r10 _ => [⟨.status, true, [.status]⟩]
  | .r11 _ => [⟨.notif, false, []⟩]
  -- 289-292, 323-326
  | .rS' _ => [⟨.counters, true, [.modelW]⟩, ⟨.centroids, true, [.modelW]⟩,
      ⟨.figures, true, [.modelW]⟩, ⟨.map, true, [.modelW]⟩]
  -- 305, 306, 309
  | .r12 => [⟨.status, false, []⟩]
  | .r13 => [⟨.status, true, [.status]⟩]
  | .r14 => [⟨.notif, false, []⟩]
  | .r15 _ => [⟨.status, true, [.status]⟩]
  | .r16 _ => [⟨.notif, false, []⟩]
  -- 213; 221-222; 228; 235; 237
  | .c0 (some _) => [⟨.status, true, [.status]⟩]
  | .c1 _ => [⟨.notif, false, [.status]⟩]
  | .c3 _ => [⟨.counters, true, [.status, .modelW]⟩, ⟨.figures, false, [.status, .modelW]⟩,
      ⟨.map, true, [.status, .modelW]⟩]
  | .c4 none => [⟨.status, true, [.status]⟩]
  | .c5 _ => [⟨.notif, false, [.status]⟩]
  | .c6 => [⟨.ack, false, [.status]⟩]
  | .c7 => [⟨.ack, false, [.status]⟩]
  -- core/algo.go:97
  | .nl0 => [⟨.notif, false, []⟩]
  | _ => []

end Ctrl
end Distclus
