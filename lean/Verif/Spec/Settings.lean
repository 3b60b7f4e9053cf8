import Verif.Model.Settings

/-
What is expected of the settings, as functions of what the user and the operating system did.
-/

namespace Soro.Settings.Spec

/-- the preference chosen last -/
def preferred : List Event → Pref
  | [] => .os
  | evs => (evs.filterMap fun | .prefer p => some p | _ => none).getLast?.getD .os

/-- the colour chosen last -/
def chosen (evs : List Event) : Option String := (evs.filterMap fun | .colour c => some c | _ => none).getLast?

/-- the theme of the operating system -/
def systemTheme (first : Theme) (evs : List Event) : Theme :=
  (evs.filterMap fun | .system t => some t | _ => none).getLast?.getD first

/-- the theme that the preference stands for -/
def wanted (p : Pref) (system : Theme) : Theme :=
  match p with
  | .dark => .dark
  | .light => .light
  | .os => system

end Soro.Settings.Spec
