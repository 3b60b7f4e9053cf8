import Verif.Model.WebClient
import Verif.Spec.OrderingJson

/-! Specification vocabulary for the web client. -/

namespace Soro.WebClient
open OrderingJson

variable {ν κ : Type}

/-- the sidebar receives its answers in the order of its requests -/
def InOrder (evs : List (Event ν)) : Prop := ∀ k, .side k ∈ evs → k = 0

/-- the infrastructure chosen last -/
def LastInfra (evs : List (Event ν)) (i : Option ν) : Prop :=
  ∃ pre post, evs = pre ++ .act (.infra i) :: post ∧ ∀ j, .act (.infra j) ∉ post

/-- the timetable chosen last, after the last choice of an infrastructure -/
def LastTimetable (evs : List (Event ν)) (t : Option ν) : Prop :=
  ∃ pre post, evs = pre ++ .act (.timetable t) :: post ∧ (∀ j, .act (.infra j) ∉ post) ∧ ∀ u, .act (.timetable u) ∉ post

/-- the user has chosen no interval since the last choice of a timetable -/
def NoRangeSince (evs : List (Event ν)) : Prop :=
  ∃ pre post t, evs = pre ++ .act (.timetable t) :: post ∧ ∀ r, .act (.range r) ∉ post

/-- the user waits until everything is answered, and the server knows the timetables -/
def Patient (srv : Server ν) : State ν → List (Event ν) → Prop
  | _, [] => True
  | s, e :: evs =>
    (match e with
      | .act _ | .mount => s.side.asked = [] ∧ s.view.asked = []
      | .side _ => ∀ i t, .interval i t ∈ s.side.asked → (srv.interval i t).isSome
      | .view _ => True) ∧ Patient srv (s.step srv e) evs

/-- the graph of a document; no graph without a document -/
def graphOf : Option Doc → Graph
  | none => .empty
  | some d => ⟨d.nodes, d.edges⟩

/-- all answered -/
def Settled (s : State ν) : Prop := s.side.asked = [] ∧ s.view.asked = []

/-- the controls that are checked on map `m` after `evs`: those checked last, and those of the beginning or of the last reset that
were not unchecked since -/
inductive Checked (init : List κ) (m : Nat) (c : κ) : List (LegendEvent κ) → Prop
  | initially : c ∈ init → Checked init m c []
  | reset (evs) : c ∈ init → Checked init m c (evs ++ [.reset m])
  | check (evs) : Checked init m c (evs ++ [.check m c])
  | other (evs) (e : LegendEvent κ) : Checked init m c evs → (∀ d, e = .uncheck m d → d ≠ c) → e ≠ .reset m →
      Checked init m c (evs ++ [e])

/-- nothing is checked on a map between a reset and the next unchecking on this map; `fresh`: the maps for which this holds now -/
def Careful : (Nat → Bool) → List (LegendEvent κ) → Prop
  | _, [] => True
  | atReset, .check m _ :: evs => atReset m = false ∧ Careful atReset evs
  | atReset, .uncheck m _ :: evs => Careful (fun j => if j = m then false else atReset j) evs
  | atReset, .reset m :: evs => Careful (fun j => if j = m then true else atReset j) evs

end Soro.WebClient
