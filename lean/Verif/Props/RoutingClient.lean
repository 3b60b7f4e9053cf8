import Verif.Spec.RoutingClient
import Verif.Props.Routing
import Verif.Props.InfraServer
import Verif.Props.OrderingJson

/-! Property C187: what the web client asks for is answered by the handler meant. -/

namespace Soro.Routing
open Spec Utls.Spec

theorem dec_digits (n : Nat) : InfraServer.Digits (dec n) n :=
  ⟨Utls.toDigits_ne_nil n, fun _ hc => Nat.isDigit_of_mem_toDigits (by omega) (by omega) hc, Utls.value_toDigits n⟩

theorem dec_number (n : Nat) : IsNumber (dec n) := ⟨(dec_digits n).1, (dec_digits n).2.1⟩

theorem csv_ne_nil (n : Nat) (ns : List Nat) : csv (n :: ns) ≠ [] := by
  cases ns with
  | nil => exact (dec_digits n).1
  | cons m ns => simp [csv]

theorem csv_lists (ns : List Nat) (h : ∀ n ∈ ns, n < 2 ^ 32) : OrderingJson.Lists (csv ns) ns := by
  induction ns with
  | nil => exact .none
  | cons n ns ih =>
    have hn : OrderingJson.IsNumber (dec n) n :=
      ⟨(dec_digits n).1, (dec_digits n).2.1, (dec_digits n).2.2, h n (List.mem_cons_self ..)⟩
    cases ns with
    | nil => exact .one _ _ hn
    | cons m ns => exact .more _ _ _ _ hn (csv_ne_nil m ns) (ih fun k hk => h k (List.mem_cons_of_mem _ hk))

theorem isList_csv (n : Nat) (ns : List Nat) (s : List Char) (hs : IsList s) : IsList (s ++ ',' :: csv (n :: ns)) := by
  induction ns generalizing n s with
  | nil => exact .more _ _ hs (dec_number n)
  | cons m ns ih =>
    have := ih m (s ++ ',' :: dec n) (.more _ _ hs (dec_number n))
    simpa [csv] using this

theorem csv_isList (ns : List Nat) : IsList (csv ns) := by
  match ns with
  | [] => exact .nil
  | [n] => exact .one _ (dec_number n)
  | n :: m :: ns => exact isList_csv m ns (dec n) (.one _ (dec_number n))

theorem assocC (p t o f a u b v n : List Char) :
    p ++ t ++ o ++ f ++ a ++ u ++ b ++ v ++ n = p ++ t ++ (o ++ f) ++ a ++ u ++ b ++ v ++ n := by
  simp only [List.append_assoc]

/-- C187 except for the list of stations and for queries with other characters: every request of the client about well named
infrastructures and timetables is answered by the handler meant, with the names as parameters and numerals for the numbers. The
list of stations is missing, see `C187_stations_negation`. -/
theorem C187_calls_partial (full : Bool) (c : Call) (ok : CallOk c) (hs : ∀ i, c ≠ .stations i) :
    Meant c (dispatch full c.path).1 (dispatch full c.path).2 := by
  have go : ∀ (r : Resource) (path : List Char), r.Ok → Slashes r path → dispatch full path = (r.handler, r.params) :=
    fun r path h1 h2 => C186_reaches full r h1 path h2
  cases c with
  | infrastructures =>
    rw [go .names (Call.path .infrastructures) trivial .names]
    exact ⟨rfl, rfl⟩
  | boundingBox i =>
    rw [go (.boundingBox i) (Call.path (.boundingBox i)) ok (.boundingBox i)]
    exact ⟨rfl, rfl⟩
  | stations i => exact absurd rfl (hs i)
  | station i n =>
    rw [go (.station i (dec n)) (Call.path (.station i n)) ⟨ok, dec_number n⟩ (.same _)]
    exact ⟨rfl, _, rfl, dec_digits n⟩
  | stationRoute i n =>
    rw [go (.stationRoute i (dec n)) (Call.path (.stationRoute i n)) ⟨ok, dec_number n⟩ (.same _)]
    exact ⟨rfl, _, rfl, dec_digits n⟩
  | interlockingRoute i n =>
    rw [go (.interlockingRoute i (dec n)) (Call.path (.interlockingRoute i n)) ⟨ok, dec_number n⟩ (.same _)]
    exact ⟨rfl, _, rfl, dec_digits n⟩
  | element i n =>
    rw [go (.element i (dec n)) (Call.path (.element i n)) ⟨ok, dec_number n⟩ (.same _)]
    exact ⟨rfl, _, rfl, dec_digits n⟩
  | search i q =>
    rw [go (.search i q) (Call.path (.search i q)) ok (.same _)]
    exact ⟨rfl, rfl⟩
  | timetables i =>
    rw [go (.timetables i) (Call.path (.timetables i)) ok (.timetables i)]
    exact ⟨rfl, rfl⟩
  | timetable i t =>
    rw [go (.timetable i t) (Call.path (.timetable i t)) ok (.same _)]
    exact ⟨rfl, rfl⟩
  | ordering i t a b ns =>
    have e : Call.path (.ordering i t a b ns) = (Resource.ordering i t (dec a) (dec b) (csv ns)).url := assocC _ _ _ _ _ _ _ _ _
    rw [e, go (.ordering i t (dec a) (dec b) (csv ns)) _ ⟨ok.1, ok.2, dec_number a, dec_number b, csv_isList ns⟩ (.same _)]
    exact ⟨rfl, _, _, _, rfl, dec_digits a, dec_digits b, csv_lists ns⟩

/-- C187, for stations with their answer: asking for the station with a number gives the station with this number, or "not found"
if there is none. -/
theorem C187_station (full : Bool) {I : InfraServer.Infra} (hc : InfraServer.Consistent I) (hs : I.stations.length < 2 ^ 32)
    (i : List Char) (hi : IsName i) (n : Nat) :
    ∃ p, dispatch full (Call.station i n).path = (.station, [i, p]) ∧
      (∀ s, I.stations[n]? = some s → ∃ d, InfraServer.serveStation (some I) p = some (.ok d) ∧ d.id = n ∧ d.ds100 = s.ds100) ∧
      (I.stations[n]? = none → InfraServer.serveStation (some I) p = some .notFound) := by
  obtain ⟨h1, p, h2, h3⟩ := C187_calls_partial full (.station i n) hi (fun _ h => nomatch h)
  refine ⟨p, Prod.ext h1 h2, fun s hn => ?_, (Soro.C135_station hc hs h3).2⟩
  obtain ⟨d, irs, h4, _, h5, h6, _⟩ := (Soro.C135_station hc hs h3).1 s hn
  exact ⟨d, h4, h5, h6⟩

/-- C187, for ordering graphs: the server reads the interval and the trains that the client asks for; without trains it reads the
empty list. -/
theorem C187_ordering (full : Bool) (i t : List Char) (hi : IsName i) (ht : IsName t) (a b : Nat) (ns : List Nat) (hab : a ≤ b)
    (hb : b < 2 ^ 32) (hns : ∀ n ∈ ns, n < 2 ^ 32) :
    ∃ p q l, dispatch full (Call.ordering i t a b ns).path = (.ordering, [i, t, p, q, l]) ∧
      OrderingJson.paramsToFilter p q l = some ⟨a, b, ns⟩ := by
  obtain ⟨h1, p, q, l, h2, h3, h4, h5⟩ := C187_calls_partial full (.ordering i t a b ns) ⟨hi, ht⟩ (fun _ h => nomatch h)
  refine ⟨p, q, l, Prod.ext h1 h2, (Soro.C130_parameters _ _ _ _).2 ⟨a, b, ?_, ?_, hab, rfl, rfl, h5 hns⟩⟩
  · exact ⟨h3.1, h3.2.1, h3.2.2, by omega⟩
  · exact ⟨h4.1, h4.2.1, h4.2.2, hb⟩

/-- C187 is false for the list of stations: the client asks for it without the slash that the route demands, so that the server
looks for a file instead, for every infrastructure. -/
theorem C187_stations_negation (full : Bool) (i : List Char) (hi : IsName i) :
    dispatch full (Call.stations i).path = (.file, []) := by
  change dispatch full (under i "/stations") = _
  rw [under_eq', dispatch_under (t := "/stations".toList) hi ⟨_, rfl⟩]
  have : firstMatch full "/stations".toList tails = none := by cases full <;> decide
  rw [this]
  rfl

theorem not_all {is : List Item} {q : List Char} (hf : ∀ u ds, Parsed is u ds → u = []) (c : Char) (hc : c ∈ q)
    (hb : isName c = false) : matchItems (.plus isName :: is) q = none := by
  cases h : matchItems (.plus isName :: is) q with
  | none => rfl
  | some cs =>
    obtain ⟨w, u, ds, _, h2, rfl, _, h3⟩ := match_parsed _ _ _ h
    rw [hf u ds h3, List.append_nil] at hc
    rw [h2 c hc] at hb
    cases hb

/-- C187 is false for searches: a query with a character other than letters, digits, `_` and `-`, for example a blank, an umlaut
or `%`, is not searched for, for every infrastructure. -/
theorem C187_search_negation (full : Bool) (i : List Char) (hi : IsName i) (q : List Char) (c : Char) (hc : c ∈ q)
    (hb : ¬ (c.isAlphanum = true ∨ c = '_' ∨ c = '-')) : dispatch full (Call.search i q).path = (.file, []) := by
  have hb' : isName c = false := by
    cases h : isName c with
    | false => rfl
    | true => exact absurd ((isName_iff c).1 h) hb
  change dispatch full (under i "/search/" ++ q) = _
  rw [under_eq, dispatch_under (t := "/search/".toList ++ q) hi ⟨_, rfl⟩]
  have : firstMatch full ("/search/".toList ++ q) tails = none := by
    simp only [tails, text]
    iterate 8 rw [first_skip]
    · rw [first_none]
      · iterate 3 rw [first_skip]
        · rfl
        all_goals decide
      · exact not_all (fun u ds h => h.1) c hc hb'
      · exact not_all (is := [.fin, .fin]) (fun u ds h => h.1) c hc hb'
    all_goals decide
  rw [this]
  rfl

example : CallOk (.ordering "de_iss".toList "tt-1".toList 10 1654 [7, 12]) ∧
    (Call.ordering "de_iss".toList "tt-1".toList 10 1654 [7, 12]).path =
      "/infrastructure/de_iss/timetable/tt-1/ordering?from=10&to=1654&trainIds=7,12".toList :=
  ⟨⟨⟨by decide, by decide⟩, ⟨by decide, by decide⟩⟩, by decide⟩
example : IsName "de_iss".toList := ⟨by decide, by decide⟩
example : ' ' ∈ "AA B".toList ∧ ¬ (' '.isAlphanum = true ∨ ' ' = '_' ∨ ' ' = '-') := by decide

end Soro.Routing
