import Verif.Model.CalendarDebug

/-! Specification vocabulary for the debug build of calendars. -/

namespace Soro

/-- neither end of the range of the calendar is the missing date -/
def Bitfield.Dated (b : Bitfield) : Prop := b.first < NODAY ∧ b.last < NODAY

end Soro
