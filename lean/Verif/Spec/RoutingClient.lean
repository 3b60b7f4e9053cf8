import Verif.Spec.Routing
import Verif.Spec.InfraServer
import Verif.Spec.OrderingJson

/-! Specification vocabulary for the requests of the web client. -/

namespace Soro.Routing.Spec
open Utls.Spec

/-- the names in a call are names of the server -/
def CallOk : Call → Prop
  | .infrastructures => True
  | .boundingBox i | .stations i | .station i _ | .stationRoute i _ | .interlockingRoute i _ | .element i _ | .timetables i => IsName i
  | .search i q => IsName i ∧ IsName q
  | .timetable i t | .ordering i t _ _ _ => IsName i ∧ IsName t

/-- `ps` are the name of an infrastructure and a numeral for `n` -/
def NameAndNumber (i : List Char) (n : Nat) (ps : List (List Char)) : Prop := ∃ p, ps = [i, p] ∧ InfraServer.Digits p n

/-- the handler and the parameters meant by a call -/
def Meant : Call → Handler → List (List Char) → Prop
  | .infrastructures, h, ps => h = .names ∧ ps = []
  | .boundingBox i, h, ps => h = .boundingBox ∧ ps = [i]
  | .stations i, h, ps => h = .stations ∧ ps = [i]
  | .station i n, h, ps => h = .station ∧ NameAndNumber i n ps
  | .stationRoute i n, h, ps => h = .stationRoute ∧ NameAndNumber i n ps
  | .interlockingRoute i n, h, ps => h = .interlockingRoute ∧ NameAndNumber i n ps
  | .element i n, h, ps => h = .element ∧ NameAndNumber i n ps
  | .search i q, h, ps => h = .search ∧ ps = [i, q]
  | .timetables i, h, ps => h = .timetables ∧ ps = [i]
  | .timetable i t, h, ps => h = .timetable ∧ ps = [i, t]
  | .ordering i t a b ns, h, ps => h = .ordering ∧ ∃ p q l, ps = [i, t, p, q, l] ∧ InfraServer.Digits p a ∧ InfraServer.Digits q b ∧
      ((∀ n ∈ ns, n < 2 ^ 32) → OrderingJson.Lists l ns)

end Soro.Routing.Spec
