import Verif.Model.Ctrl
/-!
# The skeleton of an implementation (template/impl.go)

`template.Impl` has no field and `NewImpl` (15-17) drops the data; its methods return their zero results.
`C` is the type of a clustering which is not nil.
-/
namespace Distclus
namespace Template
variable {C : Type}

/-- `Init` (template/impl.go:20-22): nil, nil. -/
def init : Option C × Option Err := (none, none)

/-- `Iterate` (template/impl.go:26-28): no clustering, no error; the runtime figures, nil, are dropped. -/
def iterate : Option C × Option Err := (none, none)

/-- `Push` (template/impl.go:31-33). -/
def push : Option Err := none

end Template
end Distclus
