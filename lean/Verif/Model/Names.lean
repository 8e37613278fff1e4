import Verif.Model.Finish
/-!
# Names of the statuses (core/status.go:16-25), `strings.ToLower`

`unicode.ToLower` is an arbitrary function on characters: what the theorems need of it is a
hypothesis of theirs.
-/
namespace Distclus

/-- `strings.ToLower`, where `lower` is `unicode.ToLower`: it is applied to each character. -/
def stringsToLower (lower : Char → Char) (name : String) : String :=
  String.ofList (name.toList.map lower)

/-- The value of a `ClustStatus` (core/status.go:7-14). -/
def ClustStatus.toInt : ClustStatus → Int
  | .created => 0
  | .initializing => 1
  | .ready => 2
  | .running => 3
  | .idle => 4
  | .finished => 5

/-- `names` (core/status.go:16-20). -/
def statusNames : List String :=
  ["Created", "Initializing", "Ready", "Running", "Idle", "Finished"]

/-- `ClustStatus.String` (core/status.go:23-25) on any `int64`; `none` is the index panic. -/
def statusString (v : Int) : Option String :=
  if v < 0 then none else statusNames[v.toNat]?

end Distclus
