import Verif.Model.RouteDebug

/-! Specification vocabulary for the construction of station routes in a build with assertions. -/

namespace Soro.RouteDebug.Spec
open Soro.Infra Soro.Route Soro.RouteTable

/-- the elements to leave out exist and can be left out; `at` and `utl::verify` throw in every build otherwise -/
def Leaves (el : Nat → Elem) (rp : Nat → Option Nat) (r : Src) : Prop :=
  ∀ o ∈ r.route.omitted, ∃ e, rp o.1 = some e ∧ (el e).ty.isDirected = true

/-- every position that is left out is met exactly once: the path has the element, and the file does not name it twice -/
def EachOnce (rp : Nat → Option Nat) (r : Src) : Prop :=
  (∀ o ∈ r.route.omitted, ∀ e, rp o.1 = some e → (e, 0) ∈ r.nodes) ∧
  r.route.omitted.Pairwise fun a b => rp a.1 ≠ rp b.1

/-- every limit has its element on the path -/
def LimitsOn (r : Src) : Prop := ∀ l ∈ r.limits, ∃ n ∈ r.nodes, n.1 = l.element

/-- no two routes of a station have the same name -/
def NamesDiffer (rs : List Src) : Prop := rs.Pairwise fun a b => a.station = b.station → a.name ≠ b.name

/-- the routes that pass all assertions -/
def Accepted (rp : Nat → Option Nat) (rs : List Src) : Prop :=
  NamesDiffer rs ∧ ∀ r ∈ rs, LimitsOn r ∧ EachOnce rp r

end Soro.RouteDebug.Spec
