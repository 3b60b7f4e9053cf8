import Verif.Model.Tabs

/-
What is expected of the tabs, independent of how indexes are given to them.
-/

namespace Soro.Tabs.Spec

variable {κ : Type}

/-- Every tab has an index of its own, under which the component of its kind is shown. -/
def ShowsOwn (tabs : List (κ × Nat)) (shown : Nat → Option κ) : Prop :=
  (tabs.map (·.2)).Nodup ∧ ∀ t ∈ tabs, shown t.2 = some t.1

mutual
/-- tabs of a layout from left to right -/
def leaves : Item κ → List (κ × Option Nat)
  | .tab k r => [(k, r)]
  | .group c => leavesIn c
/-- tabs of a list of items from left to right -/
def leavesIn : List (Item κ) → List (κ × Option Nat)
  | [] => []
  | i :: l => leaves i ++ leavesIn l
end

/-- The layout consists of these tabs, in any arrangement. -/
def IsLayoutOf (content : List (Item κ)) (tabs : List (κ × Nat)) : Prop :=
  (leavesIn content).Perm (tabs.map fun t => (t.1, some t.2))

/-- States of the client over any number of sessions: each session starts with a layout of the tabs that the one before ended
with. -/
inductive Reach (first : κ) : State κ → Prop where
  | first {s} : start first none = some s → Reach first s
  | act {s s'} (a : Act κ) : Reach first s → s.step a = some s' → Reach first s'
  | restart {s s'} (content : List (Item κ)) : Reach first s → IsLayoutOf content s.tabs →
      start first (some content) = some s' → Reach first s'

/-- States of the adapter if layouts are loaded at any time. -/
inductive Loads : State κ → Prop where
  | init : Loads State.init
  | act {s s'} (a : Act κ) : Loads s → s.step a = some s' → Loads s'
  | load {s s'} (content : List (Item κ)) (tabs : List (κ × Nat)) : Loads s → IsLayoutOf content tabs →
      (tabs.map (·.2)).Nodup → s.load true content = some s' → Loads s'
  | plain {s s'} (content : List (Item κ)) : Loads s → (∀ t ∈ leavesIn content, t.2 = none) →
      s.load false content = some s' → Loads s'

/-- States of the adapter if no layout is loaded that was saved. -/
inductive Plain : State κ → Prop where
  | init : Plain State.init
  | act {s s'} (a : Act κ) : Plain s → s.step a = some s' → Plain s'
  | plain {s s'} (content : List (Item κ)) : Plain s → (∀ t ∈ leavesIn content, t.2 = none) →
      s.load false content = some s' → Plain s'

end Soro.Tabs.Spec
