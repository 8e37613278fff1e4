import Verif.Model.ParPanic
import Verif.Model.Dtw
/-!
# The space of series given to the algorithms
-/
namespace Distclus

/-- `dtw.Space` (dtw/series.go:8-50) as a `core.Space` (core/space.go:7-12) whose operations may panic: `Dist` (22-26),
`Combine` (29-33), `Copy` (42-50). -/
def dtwP {P F : Type} [Top F] [Add F] [LE F] [DecidableLE F] [Zero F] (sp : DtwSpace P F) : PSpace (List P) F :=
  ⟨sp.dist, sp.combine, fun a => some (sp.copy a)⟩

end Distclus
