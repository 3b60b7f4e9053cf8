import Verif.Model.Debug

/-! Specification vocabulary for debug builds. -/

namespace Soro
namespace Dbg

/-- The debug build does what the release build does: no assertion throws, and both return the same value. -/
def SameAs {α : Type} (debug : Dbg α) (release : Option α) : Prop := ∃ a, release = some a ∧ debug = .ok a

/-- The debug build is stopped by one of its assertions. -/
def Stops {α : Type} (debug : Dbg α) : Prop := ∃ line, debug = .error (.assertion line)

end Dbg
end Soro
