import Verif.Model.InfraServer
import Verif.Spec.Layout
import Verif.Spec.Utls
import Mathlib.Data.List.Forall2

/-! Specification vocabulary for requests about an infrastructure. -/

namespace Soro.InfraServer
open Layout Utls Utls.Spec

/-- a text of digits, as accepted by the routes of the server (`\d+`), with its value -/
def Digits (param : List Char) (n : Nat) : Prop := param ≠ [] ∧ (∀ c ∈ param, c.isDigit = true) ∧ value param = n

/-- an infrastructure in which all references are in range -/
structure Consistent (I : Infra) : Prop where
  stationIds : ∀ (i : Nat) (s : Station), I.stations[i]? = some s → s.id = i
  fullNames : I.fullNames.length = I.stations.length
  stationIrs : I.stationToIrs.length = I.stations.length
  positions : I.positions.length = I.elements.length
  elementIds : ∀ (i : Nat) (e : Elem), I.elements[i]? = some e → e.id = i
  ofStations : ∀ s ∈ I.stations, (∀ e ∈ s.elements, e < I.elements.length) ∧ ∀ r ∈ s.routes, r.nodes ≠ []
  ofStationRoutes : ∀ r ∈ I.stationRoutes, r.station < I.stations.length ∧ ∀ e ∈ r.nodes, e < I.elements.length
  ofRoutes : ∀ r ∈ I.routes, ∀ e ∈ r.elements, e < I.elements.length

/-- `ps` are the positions of the elements, in their order -/
def Positions (I : Infra) (es : List Nat) (ps : List Gps) : Prop :=
  List.Forall₂ (fun (e : Nat) (p : Gps) => I.positions[e]? = some p) es ps

/-- the object has this name -/
inductive HasName (I : Infra) : Kind → Nat → List Char → Prop
  | ds100 (i : Nat) (s : Station) : I.stations[i]? = some s → HasName I .station i s.ds100
  | full (i : Nat) (s : Station) (name : List Char) :
      I.stations[i]? = some s → I.fullNames[i]? = some name → HasName I .station i name
  | elementId (e : Elem) : e ∈ I.elements → HasName I .element e.id (leftPad e.id)
  | signal (e : Elem) (name : List Char) : e ∈ I.elements → e.data = .signal name → HasName I .element e.id name
  | switch (e : Elem) (name : List Char) : e ∈ I.elements → e.data = .switch name → HasName I .element e.id name
  | halt (e : Elem) (name extern operational : List Char) : e ∈ I.elements → e.data = .halt name extern operational →
      name ≠ [] → HasName I .element e.id name
  | extern (e : Elem) (name extern operational : List Char) : e ∈ I.elements → e.data = .halt name extern operational →
      extern ≠ [] → HasName I .element e.id extern
  | operational (e : Elem) (name extern operational : List Char) : e ∈ I.elements → e.data = .halt name extern operational →
      operational ≠ [] → HasName I .element e.id operational
  | stationRoute (r : SRoute) : r ∈ I.stationRoutes → HasName I .stationRoute r.id r.name
  | route (r : IRoute) : r ∈ I.routes → HasName I .route r.id (leftPad r.id)

/-- the elements of an object -/
inductive PlacedAt (I : Infra) : Kind → Nat → List Nat → Prop
  | station (i : Nat) (s : Station) : I.stations[i]? = some s → PlacedAt I .station i s.elements
  | element (e : Elem) : e ∈ I.elements → PlacedAt I .element e.id [e.id]
  | stationRoute (r : SRoute) : r ∈ I.stationRoutes → PlacedAt I .stationRoute r.id r.nodes
  | route (r : IRoute) : r ∈ I.routes → PlacedAt I .route r.id r.elements

/-- the type written with an object: that of the element, otherwise none -/
def typeOf (I : Infra) : Kind → Nat → List Char
  | .element, id => ((I.elements[id]?).map Elem.type).getD []
  | _, _ => []

/-- every halt has both identifiers or none -/
def BothIdentifiers (I : Infra) : Prop :=
  ∀ e ∈ I.elements, ∀ name extern operational, e.data = .halt name extern operational → (extern = [] ↔ operational = [])

end Soro.InfraServer
