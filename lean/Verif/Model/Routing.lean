/-
Model of the routes of the server, `web/server/src/soro_server.cc:14-135`, and of the paths requested by the web client,
`web/client/src/util/SoroClient.ts:133-242`.

A path is a list of characters (the target of the request, with its query). Regular expressions are lists of items, matched by
backtracking, a group takes as much as possible first. Contract of `net::query_router`: the routes are tried in the order in
which they were added, the path is matched from its beginning, and the texts of the groups become `path_params_`; whether the
whole path has to match or a beginning of it suffices is a parameter. Methods other than GET, percent encoding and the answers
of the handlers (see `InfraServer`, `OrderingJson`) are left out.
-/

namespace Soro.Routing

/-- a part of a regular expression: a character, `.`, a group `(…+)` over a class of characters, `c?`, the group
`(\d*(?:,\d+)*)`, `$` -/
inductive Item where
  | lit (c : Char)
  | any
  | plus (p : Char → Bool)
  | opt (c : Char)
  | ids
  | fin

/-- `[a-zA-Z0-9_-]` -/
def isName (c : Char) : Bool :=
  ('a' ≤ c && c ≤ 'z') || ('A' ≤ c && c ≤ 'Z') || ('0' ≤ c && c ≤ '9') || c == '_' || c == '-'

/-- `\d` and `[0-9]` -/
def isDigit (c : Char) : Bool := '0' ≤ c && c ≤ '9'

/-- whether the whole text matches `\d*(?:,\d+)*`; `ok`: it may end or go on with a comma here -/
def isIds (ok : Bool) : List Char → Bool
  | [] => ok
  | c :: s => if isDigit c then isIds true s else if c = ',' then ok && isIds false s else false

/-- the numbers from `n` down to 0 -/
def down : Nat → List Nat
  | 0 => [0]
  | n + 1 => (n + 1) :: down n

/-- matches the beginning of a text; the texts of the groups -/
def matchItems : List Item → List Char → Option (List (List Char))
  | [], _ => some []
  | .lit c :: is, s =>
    match s with
    | [] => none
    | d :: s => if c = d then matchItems is s else none
  | .any :: is, s =>
    match s with
    | [] => none
    | _ :: s => matchItems is s
  | .plus p :: is, s =>
    (down (s.takeWhile p).length).findSome? fun k =>
      if k = 0 then none else (matchItems is (s.drop k)).map fun cs => s.take k :: cs
  | .opt c :: is, s =>
    match s with
    | [] => matchItems is []
    | d :: s =>
      match (if c = d then matchItems is s else none) with
      | some cs => some cs
      | none => matchItems is (d :: s)
  | .ids :: is, s =>
    (down s.length).findSome? fun k =>
      if isIds true (s.take k) then (matchItems is (s.drop k)).map fun cs => s.take k :: cs else none
  | .fin :: is, s =>
    match s with
    | [] => matchItems is []
    | _ :: _ => none

/-- the functions that answer; `file`: a static file -/
inductive Handler where
  | names | tile | boundingBox | stations | station | stationRoute | interlockingRoute | exclusionSet | element | search
  | timetables | timetable | ordering | file
deriving DecidableEq, Repr

/-- literal text -/
def text (s : String) : List Item := s.toList.map .lit

/-- `/infrastructure\/([a-zA-Z0-9_-]+)` and what follows -/
def ofInfra (is : List Item) : List Item := text "/infrastructure/" ++ .plus isName :: is

/-- soro_server.cc:25-123, in the order of the calls of `route`; the last route, `.*`, is in `dispatch` -/
def routes : List (Handler × List Item) :=
  [(.names, text "/infrastructures" ++ [.opt '/', .fin]),
   (.tile, ofInfra (text "/tiles/" ++ .plus isDigit :: text "/" ++ .plus isDigit :: text "/" ++ .plus isDigit ::
     .any :: text "mvt")),
   (.boundingBox, ofInfra (text "/bounding_box" ++ [.opt '/', .fin])),
   (.stations, ofInfra (text "/stations/" ++ [.fin])),
   (.station, ofInfra (text "/station/" ++ [.plus isDigit, .fin])),
   (.stationRoute, ofInfra (text "/station_route/" ++ [.plus isDigit, .fin])),
   (.interlockingRoute, ofInfra (text "/interlocking_route/" ++ [.plus isDigit, .fin])),
   (.exclusionSet, ofInfra (text "/exclusion_sets/" ++ [.plus isDigit, .fin])),
   (.element, ofInfra (text "/element/" ++ [.plus isDigit, .fin])),
   (.search, ofInfra (text "/search/" ++ [.plus isName, .fin])),
   (.timetables, ofInfra (text "/timetables" ++ [.opt '/', .fin])),
   (.timetable, ofInfra (text "/timetable/" ++ [.plus isName, .opt '/', .fin])),
   (.ordering, ofInfra (text "/timetable/" ++ .plus isName :: text "/ordering?from=" ++ .plus isDigit :: text "&to=" ++
     .plus isDigit :: text "&trainIds=" ++ [.ids, .fin]))]

/-- the first of the routes that matches; `full`: the whole path has to match -/
def firstMatch (full : Bool) (path : List Char) : List (Handler × List Item) → Option (Handler × List (List Char))
  | [] => none
  | (h, is) :: rs =>
    match matchItems (if full then is ++ [.fin] else is) path with
    | some cs => some (h, cs)
    | none => firstMatch full path rs

/-- who answers a request, with the parameters; soro_server.cc:125-134: if nothing matches, a static file is served -/
def dispatch (full : Bool) (path : List Char) : Handler × List (List Char) := (firstMatch full path routes).getD (.file, [])

/-! ### the client -/

/-- a number in a path -/
def dec (n : Nat) : List Char := Nat.toDigits 10 n

/-- `toString` of an array of numbers -/
def csv : List Nat → List Char
  | [] => []
  | [n] => dec n
  | n :: m :: ns => dec n ++ ',' :: csv (m :: ns)

/-- what the client asks for (SoroClient.ts:110-120, 97-104) -/
inductive Call where
  | infrastructures
  | boundingBox (infra : List Char)
  | stations (infra : List Char)
  | station (infra : List Char) (id : Nat)
  | stationRoute (infra : List Char) (id : Nat)
  | interlockingRoute (infra : List Char) (id : Nat)
  | element (infra : List Char) (id : Nat)
  | search (infra query : List Char)
  | timetables (infra : List Char)
  | timetable (infra name : List Char)
  | ordering (infra name : List Char) (start stop : Nat) (trains : List Nat)
deriving DecidableEq, Repr

/-- SoroClient.ts:133-242: the path that is requested -/
def Call.path : Call → List Char
  | .infrastructures => "/infrastructures".toList
  | .boundingBox i => "/infrastructure/".toList ++ i ++ "/bounding_box".toList
  | .stations i => "/infrastructure/".toList ++ i ++ "/stations".toList
  | .station i n => "/infrastructure/".toList ++ i ++ "/station/".toList ++ dec n
  | .stationRoute i n => "/infrastructure/".toList ++ i ++ "/station_route/".toList ++ dec n
  | .interlockingRoute i n => "/infrastructure/".toList ++ i ++ "/interlocking_route/".toList ++ dec n
  | .element i n => "/infrastructure/".toList ++ i ++ "/element/".toList ++ dec n
  | .search i q => "/infrastructure/".toList ++ i ++ "/search/".toList ++ q
  | .timetables i => "/infrastructure/".toList ++ i ++ "/timetables".toList
  | .timetable i t => "/infrastructure/".toList ++ i ++ "/timetable/".toList ++ t
  | .ordering i t a b ns =>
    "/infrastructure/".toList ++ i ++ "/timetable/".toList ++ t ++ "/ordering?".toList ++ "from=".toList ++ dec a ++
      "&to=".toList ++ dec b ++ "&trainIds=".toList ++ csv ns

end Soro.Routing
