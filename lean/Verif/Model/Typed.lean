import Verif.Model.ParPanic
/-!
# Elements of any type (core/space.go:4, `type Elemt interface{}`)

`Push`, `Predict` and the data given to the constructors accept values of any type.  The spaces assert the type of the
elements they are given before anything else: euclid/vectors.go:20-21, 37-38, 58, cosinus/cosinus.go:25-26,
dtw/series.go:36-37, 43; an assertion which fails panics.
-/
namespace Distclus
variable {E F : Type}

/-- A space on elements of any type: `some e` is a value of the type the space expects, `none` any other value,
`nil` among them. -/
def typedP (sp : PSpace E F) : PSpace (Option E) F where
  dist
    | some a, some b => sp.dist a b
    | _, _ => none
  combine
    | some a, w, some b, v => (sp.combine a w b v).map some
    | _, _, _, _ => none
  copy
    | some a => (sp.copy a).map some
    | none => none

end Distclus
