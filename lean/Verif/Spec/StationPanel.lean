import Verif.Model.StationPanel

/-! What the user did, independent of the state of the client. -/

namespace Soro.StationPanel

/-- the infrastructure chosen last -/
def lastInfra (es : List Event) : Option Nat :=
  (es.filterMap fun e => match e with | .infra n => some n | _ => none).getLast?.join

/-- the station clicked last -/
def lastClick (es : List Event) : Option Nat :=
  (es.filterMap fun e => match e with | .click i => some i | _ => none).getLast?

/-- no infrastructure is chosen after a station was clicked -/
def OneInfra (es : List Event) : Prop := ∀ a b i, es = a ++ .click i :: b → ∀ n, .infra n ∉ b

/-- requests succeed, and are answered in the order in which they are sent -/
def InOrder (es : List Event) : Prop := ∀ e ∈ es, (∀ k, e = .answer k → k = 0) ∧ ∀ k, e ≠ .fail k

/-- the panel is on the screen -/
def State.onScreen (s : State) : Prop := s.visible = true ∧ s.overlay = .station ∧ s.panel ≠ none

end Soro.StationPanel
