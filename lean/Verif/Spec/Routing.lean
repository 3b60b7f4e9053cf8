import Verif.Model.Routing

/-! Specification vocabulary for the routes of the server. -/

namespace Soro.Routing.Spec

/-- letters, digits, underscores and hyphens, at least one -/
def IsName (s : List Char) : Prop := s ≠ [] ∧ ∀ c ∈ s, c.isAlphanum = true ∨ c = '_' ∨ c = '-'

/-- digits, at least one -/
def IsNumber (s : List Char) : Prop := s ≠ [] ∧ ∀ c ∈ s, c.isDigit = true

/-- numbers separated by commas; the first one may be missing -/
inductive IsList : List Char → Prop
  | nil : IsList []
  | one (s : List Char) : IsNumber s → IsList s
  | more (s t : List Char) : IsList s → IsNumber t → IsList (s ++ ',' :: t)

/-- the resources of the server -/
inductive Resource where
  | names
  | tile (infra z x y : List Char)
  | boundingBox (infra : List Char)
  | stations (infra : List Char)
  | station (infra id : List Char)
  | stationRoute (infra id : List Char)
  | interlockingRoute (infra id : List Char)
  | exclusionSet (infra id : List Char)
  | element (infra id : List Char)
  | search (infra query : List Char)
  | timetables (infra : List Char)
  | timetable (infra name : List Char)
  | ordering (infra name start stop trains : List Char)

/-- names are names and numbers are numbers -/
def Resource.Ok : Resource → Prop
  | .names => True
  | .tile i z x y => IsName i ∧ IsNumber z ∧ IsNumber x ∧ IsNumber y
  | .boundingBox i | .stations i | .timetables i => IsName i
  | .station i n | .stationRoute i n | .interlockingRoute i n | .exclusionSet i n | .element i n => IsName i ∧ IsNumber n
  | .search i q => IsName i ∧ IsName q
  | .timetable i t => IsName i ∧ IsName t
  | .ordering i t a b ns => IsName i ∧ IsName t ∧ IsNumber a ∧ IsNumber b ∧ IsList ns

/-- who answers -/
def Resource.handler : Resource → Handler
  | .names => .names
  | .tile .. => .tile
  | .boundingBox .. => .boundingBox
  | .stations .. => .stations
  | .station .. => .station
  | .stationRoute .. => .stationRoute
  | .interlockingRoute .. => .interlockingRoute
  | .exclusionSet .. => .exclusionSet
  | .element .. => .element
  | .search .. => .search
  | .timetables .. => .timetables
  | .timetable .. => .timetable
  | .ordering .. => .ordering

/-- what the handler reads as `path_params_` -/
def Resource.params : Resource → List (List Char)
  | .names => []
  | .tile i z x y => [i, z, x, y]
  | .boundingBox i | .stations i | .timetables i => [i]
  | .station i n | .stationRoute i n | .interlockingRoute i n | .exclusionSet i n | .element i n => [i, n]
  | .search i q => [i, q]
  | .timetable i t => [i, t]
  | .ordering i t a b ns => [i, t, a, b, ns]

/-- the address of a resource of an infrastructure -/
def under (i : List Char) (s : String) : List Char := "/infrastructure/".toList ++ i ++ s.toList

/-- the addresses in the comments of soro_server.cc:25-115 -/
def Resource.url : Resource → List Char
  | .names => "/infrastructures/".toList
  | .tile i z x y => under i "/tiles/" ++ z ++ '/' :: x ++ '/' :: y ++ ".mvt".toList
  | .boundingBox i => under i "/bounding_box/"
  | .stations i => under i "/stations/"
  | .station i n => under i "/station/" ++ n
  | .stationRoute i n => under i "/station_route/" ++ n
  | .interlockingRoute i n => under i "/interlocking_route/" ++ n
  | .exclusionSet i n => under i "/exclusion_sets/" ++ n
  | .element i n => under i "/element/" ++ n
  | .search i q => under i "/search/" ++ q
  | .timetables i => under i "/timetables/"
  | .timetable i t => under i "/timetable/" ++ t
  | .ordering i t a b ns =>
    under i "/timetable/" ++ t ++ "/ordering?from=".toList ++ a ++ "&to=".toList ++ b ++ "&trainIds=".toList ++ ns

/-- the address, or the address without or with a slash at the end -/
inductive Slashes : Resource → List Char → Prop
  | same (r : Resource) : Slashes r r.url
  | names : Slashes .names "/infrastructures".toList
  | boundingBox (i : List Char) : Slashes (.boundingBox i) (under i "/bounding_box")
  | timetables (i : List Char) : Slashes (.timetables i) (under i "/timetables")
  | timetable (i t : List Char) : Slashes (.timetable i t) (under i "/timetable/" ++ t ++ ['/'])

/-- tiles: any character before `mvt`, and something after it -/
inductive TileText : Resource → List Char → Prop
  | mk (i z x y : List Char) (c : Char) (rest : List Char) :
      TileText (.tile i z x y) (under i "/tiles/" ++ z ++ '/' :: x ++ '/' :: y ++ c :: "mvt".toList ++ rest)

end Soro.Routing.Spec
