import Verif.Spec.Route

/-! Specification vocabulary for the debug build of interlocking routes. -/

namespace Soro.Route

/-- all station routes have fewer nodes than `node::idx` can count -/
def Small (infra : List SRoute) : Prop := ∀ r ∈ infra, r.nodes.length < INVALID_IDX

end Soro.Route
