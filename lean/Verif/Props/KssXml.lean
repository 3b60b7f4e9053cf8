import Verif.Proof.KssXml
import Verif.Props.ServiceDays
import Verif.Props.TrainSeries
import Verif.Props.Transform

/-
Properties C164 to C166: the trains read from the documents of a timetable are those the documents describe; the times of accepted
trains; the infrastructure version of a timetable.
-/

namespace Soro.KssXml
open Utls Utls.Spec TypeNames ParseFp IssElement IssFiles TrainSeries Soro.Train Transform Dates Dates.Spec ServiceDays.Spec

/-! ### C164: trains are read as the documents describe them -/

/-- every station route of the stations has its stop positions -/
def StopsKnown (d : Data) : Prop :=
  ∀ n routes m sr, d.stations n = some routes → routes m = some sr → ∃ s, d.infra.stops[sr]? = some s

theorem known_stops {d : Data} (hd : StopsKnown d) {ds : List SaidStop} {ss : List Stop} (h : List.Forall₂ (Is d.stations) ds ss)
    (bi bo : Bool) : ∀ p ∈ (Sequence.seq ⟨ss, bi, bo⟩).points, ∃ s, d.infra.stops[p.sr]? = some s := by
  intro p hp
  obtain ⟨s, hs, rfl⟩ := List.mem_map.1 hp
  clear hp
  dsimp only at hs
  induction h with
  | nil => cases hs
  | cons h1 _ ih =>
    rcases List.mem_cons.1 hs with rfl | hs
    · obtain ⟨routes, a, b⟩ := h1.sr
      exact hd _ _ _ _ a b
    · exact ih hs

/-- C164: a train is accepted iff all its points and vehicles are known, it has none of the defects of C68, and its points can be
translated to a path; it then has the number, services, points with their times, vehicles, weight in kilograms, length in metres
and speed in metres per second of the document. -/
theorem C164_accepted {x : Xml} {s : SaidTrain} (h : SaysTrain x s) (d : Data) (hd : StopsKnown d) (fuel : Nat) (t : KTrain) :
    constructionTrain d fuel x = .ok t ↔
      ∃ ss, List.Forall₂ (Is d.stations) s.stops ss ∧ List.Forall₂ (Found d.series) s.units t.physics.vehicles ∧
        (∀ e k, ¬ Kss.Defect d.infra s.ctc s.freight ⟨ss.map Stop.point, s.breakIn, s.breakOut⟩ e k) ∧
        transform d.infra d.ilk ⟨ss, s.breakIn, s.breakOut⟩ s.freight fuel = .ok t.path t.stops ∧
        ServiceDays.parseElems s.services = some t.days ∧ t.number = (s.main, s.sub) ∧
        t.physics.weight = some (1000 * s.tons) ∧ t.physics.length = some s.metres ∧ t.physics.maxSpeed = some (s.kmh / (18 / 5)) ∧
        t.physics.ctc = s.ctc ∧ t.physics.freight = s.freight ∧ t.breakIn = s.breakIn ∧ t.breakOut = s.breakOut := by
  obtain ⟨h1, h2, h3⟩ := train_says h d fuel
  constructor
  · intro ht
    cases hb : ServiceDays.parseElems s.services with
    | none => rw [h2 hb] at ht; cases ht
    | some days =>
      by_cases hs : ∃ ss, List.Forall₂ (Is d.stations) s.stops ss
      · by_cases hu : ∃ vs, List.Forall₂ (Found d.series) s.units vs
        · obtain ⟨ss, hs⟩ := hs
          obtain ⟨vs, hu⟩ := hu
          rw [h1 days ss vs hb hs hu, finish] at ht
          cases hsup : Kss.isSupported d.infra s.ctc s.freight (Sequence.seq ⟨ss, s.breakIn, s.breakOut⟩) with
          | ok u =>
            rw [hsup] at ht
            have hdef := (Kss.C68_supported _ _ _ _ (known_stops hd hs s.breakIn s.breakOut)).1.1 hsup
            cases htr : transform d.infra d.ilk ⟨ss, s.breakIn, s.breakOut⟩ s.freight fuel with
            | ok path ss' =>
              rw [htr] at ht
              cases ht
              exact ⟨ss, hs, hu, hdef, htr, rfl, rfl, rfl, rfl, rfl, rfl, rfl, rfl, rfl⟩
            | _ => rw [htr] at ht; cases ht
          | _ => rw [hsup] at ht; cases ht
        · obtain ⟨e, he⟩ := h3 days hb (.inr hu)
          rw [he] at ht; cases ht
      · obtain ⟨e, he⟩ := h3 days hb (.inl hs)
        rw [he] at ht; cases ht
  · rintro ⟨ss, a1, a2, a3, a4, a5, a6, a7, a8, a9, a10, a11, a12, a13⟩
    have hsup := (Kss.C68_supported _ _ _ _ (known_stops hd a1 s.breakIn s.breakOut)).1.2 a3
    rw [h1 _ _ _ a5 a1 a2, finish, hsup]
    dsimp only
    rw [a4]
    obtain ⟨n, days, ⟨vs, w, l, m, c, f⟩, bi, bo, path, st⟩ := t
    dsimp only at a6 a7 a8 a9 a10 a11 a12 a13
    rw [a6, a7, a8, a9, a10, a11, a12, a13]

theorem forall₂_mem_right {α β : Type} {R : α → β → Prop} {as : List α} {bs : List β} (h : List.Forall₂ R as bs) {b : β} (hb : b ∈ bs) :
    ∃ a ∈ as, R a b := by
  induction h with
  | nil => cases hb
  | @cons a b' _ _ h1 _ ih =>
    rcases List.mem_cons.1 hb with rfl | hb
    · exact ⟨a, .head _, h1⟩
    · obtain ⟨a', m, r⟩ := ih hb
      exact ⟨a', .tail _ m, r⟩

/-- C164: every stop of an accepted train is one of the document, with its station route, kind, times and duration. -/
theorem C164_stops {x : Xml} {s : SaidTrain} (h : SaysTrain x s) (d : Data) (hd : StopsKnown d) (fuel : Nat) (t : KTrain)
    (ht : constructionTrain d fuel x = .ok t) : ∀ p ∈ t.stops, ∃ q ∈ s.stops, Is d.stations q p := by
  obtain ⟨ss, a1, -, -, a4, -⟩ := (C164_accepted h d hd fuel t).1 ht
  intro p hp
  exact forall₂_mem_right a1 (transform_mem a4 p hp)

/-- C164: no exception for a train that is written as described. -/
theorem C164_no_exception {x : Xml} {s : SaidTrain} (h : SaysTrain x s) (d : Data) (hd : StopsKnown d) (fuel : Nat) :
    constructionTrain d fuel x ≠ .throws := by
  obtain ⟨h1, h2, h3⟩ := train_says h d fuel
  cases hb : ServiceDays.parseElems s.services with
  | none => rw [h2 hb]; exact nofun
  | some days =>
    by_cases hs : ∃ ss, List.Forall₂ (Is d.stations) s.stops ss
    · by_cases hu : ∃ vs, List.Forall₂ (Found d.series) s.units vs
      · obtain ⟨ss, hs⟩ := hs
        obtain ⟨vs, hu⟩ := hu
        rw [h1 days ss vs hb hs hu, finish]
        rcases Kss.isSupported_spec d.infra s.ctc s.freight _ (known_stops hd hs s.breakIn s.breakOut) with ⟨e, -⟩ | ⟨_, _, e, -⟩
        · rw [e]
          dsimp only
          cases transform d.infra d.ilk ⟨ss, s.breakIn, s.breakOut⟩ s.freight fuel <;> exact nofun
        · rw [e]; exact nofun
      · obtain ⟨e, he⟩ := h3 days hb (.inr hu)
        rw [he]; exact nofun
    · obtain ⟨e, he⟩ := h3 days hb (.inl hs)
      rw [he]; exact nofun

/-- C164: an accepted train runs on the dates that the services of the document name (conditions of C162). -/
theorem C164_dates {x : Xml} {s : SaidTrain} (h : SaysTrain x s) (d : Data) (hd : StopsKnown d) (fuel : Nat) (t : KTrain)
    (ht : constructionTrain d fuel x = .ok t) {w : Ymd} (hw : Valid w) (hend : Before (later 511 w) ⟨2106, 2, 7⟩)
    (ms sp : List ServiceDays.Elem) (hs : s.services = ms ++ sp) (hp : ∀ e ∈ ms ++ sp, Proper w e) (hne : ms ≠ [])
    (hms : ∀ e ∈ ms, isMask e = true) (hsp : ∀ e ∈ sp, isMask e = false) :
    ∀ z, Valid z → (RunsOn t.days (toDays z) ↔ Served s.services z) := by
  obtain ⟨ss, -, -, -, -, a5, -⟩ := (C164_accepted h d hd fuel t).1 ht
  obtain ⟨b, h1, -, -, -, h2⟩ := C162_calendar_partial hw hend ms sp hp hne hms hsp
  rw [hs, h1] at a5
  cases a5
  rw [hs]
  exact h2

theorem firstUsable_exists {ds : List Described} {n : Nat} (h : ∃ d ∈ ds, d.id = n ∧ d.Usable) : ∃ d, FirstUsable ds n d := by
  induction ds with
  | nil => obtain ⟨d, hd, -⟩ := h; cases hd
  | cons a ds ih =>
    by_cases ha : a.id = n ∧ a.Usable
    · exact ⟨a, [], ds, rfl, ha.1, ha.2, by simp⟩
    · obtain ⟨d, hd, h1, h2⟩ := h
      have hd' : d ∈ ds := by
        rcases List.mem_cons.1 hd with rfl | hd
        · exact absurd ⟨h1, h2⟩ ha
        · exact hd
      obtain ⟨d', pre, post, e, q1, q2, q3⟩ := ih ⟨d, hd', h1, h2⟩
      refine ⟨d', a :: pre, post, by rw [e]; rfl, q1, q2, ?_⟩
      intro p hp
      rcases List.mem_cons.1 hp with rfl | hp
      · by_cases hi : p.id = n
        · exact .inr fun hu => ha ⟨hi, hu⟩
        · exact .inl hi
      · exact q3 p hp

theorem units_plain {x : Xml} {s : SaidTrain} (h : SaysTrain x s) : ∀ u ∈ s.units, '\x00' ∉ u.series ∧ '\x00' ∉ u.owner := by
  obtain ⟨-, -, -, ⟨c, ks, -, -, h1, -⟩⟩ := h
  intro u hu
  obtain ⟨k, -, q⟩ := forall₂_mem_right h1 hu
  obtain ⟨_, _, _, _, _, _, _, _, _, _, q8, q9⟩ := q
  exact ⟨q8, q9⟩

/-- C164: the vehicles of an accepted train are those that the core data describe for its traction units (conditions of C150). -/
theorem C164_vehicles {docs : List Xml} {cs : List DescribedSeries} (hc : SaysAllSeries docs cs)
    (hcd : (cs.map fun s => (s.nr, s.company)).Nodup) (hcn : ∀ s ∈ cs, '-' ∉ s.nr) :
    ∃ dv m, coreData (docs.map some) none (fun _ => none) = some (dv, m) ∧
      ∀ (x : Xml) (s : SaidTrain) (d : Data) (fuel : Nat) (t : KTrain), SaysTrain x s → StopsKnown d → d.series = m →
        constructionTrain d fuel x = .ok t → (∀ u ∈ s.units, '-' ∉ u.series) →
        List.Forall₂ (fun u v => ∃ q ∈ cs, q.nr = u.series ∧ q.company = u.owner ∧ ∃ e, FirstUsable q.variants u.variant e ∧ Matches e v)
          s.units t.physics.vehicles := by
  obtain ⟨dv, m, h1, h2⟩ := C150_lookup_partial hc hcd hcn
  refine ⟨dv, m, h1, fun x s d fuel t hx hd hm ht hu => ?_⟩
  subst hm
  obtain ⟨ss, -, a2, -⟩ := (C164_accepted hx d hd fuel t).1 ht
  have hpl := units_plain hx
  have key : ∀ (u : SaidUnit) (v : Vehicle), u ∈ s.units → Found d.series u v →
      ∃ q ∈ cs, q.nr = u.series ∧ q.company = u.owner ∧ ∃ e, FirstUsable q.variants u.variant e ∧ Matches e v := by
    rintro u v hm ⟨r, f1, f2⟩
    obtain ⟨p1, p2⟩ := hpl u hm
    have hg : getTractionVehicle d.series (view u.series) (view u.owner) u.variant = some (some v) := by
      rw [getTractionVehicle, dataText_shows (v := view u.series) ⟨[], rfl⟩ p1, dataText_shows (v := view u.owner) ⟨[], rfl⟩ p2]
      simp only [Option.bind_some]
      rw [f1]
      simp [f2]
    obtain ⟨b1, b2⟩ := h2 (view u.series) (view u.owner) u.series u.owner u.variant ⟨⟨[], rfl⟩, p1, rfl⟩ ⟨⟨[], rfl⟩, p2, rfl⟩ (hu u hm)
    by_cases hq : ∃ q ∈ cs, q.nr = u.series ∧ q.company = u.owner
    · obtain ⟨q, q1, q2, q3⟩ := hq
      obtain ⟨b3, b4⟩ := b1 q q1 q2 q3
      by_cases he : ∃ e ∈ q.variants, e.id = u.variant ∧ e.Usable
      · obtain ⟨e, he⟩ := firstUsable_exists he
        obtain ⟨v', g1, g2⟩ := b3 e he
        rw [hg] at g1
        cases g1
        exact ⟨q, q1, q2, q3, e, he, g2⟩
      · rw [b4 fun e e1 e2 e3 => he ⟨e, e1, e2, e3⟩] at hg
        cases hg
    · rw [b2 fun q q1 q2 q3 => hq ⟨q, q1, q2, q3⟩] at hg
      cases hg
  generalize s.units = us at a2 key
  generalize t.physics.vehicles = vs at a2
  clear hpl hu ht
  induction a2 with
  | nil => exact .nil
  | cons h3 _ ih => exact .cons (key _ _ (.head _) h3) (ih fun u v hm => key u v (.tail _ hm))

theorem first_of_child {x k : Xml} {n : Text} (h : child (some x) n = some k) : First x n k := by
  rw [child, Option.bind_some, List.find?_eq_some_iff_append] at h
  obtain ⟨h1, pre, post, h2, h3⟩ := h
  exact ⟨pre, post, h2, by simpa using h1, fun p hp => by simpa using h3 p hp⟩

theorem lacks_of_child {x : Xml} {n : Text} (h : child (some x) n = none) : Lacks x n := by
  rw [child, Option.bind_some, List.find?_eq_none] at h
  exact fun k hk => by simpa using h k hk

theorem membersAt_kids (ns : List Text) (x : Xml) : MembersAt x ns (kids (ns.foldl child (some x))) := by
  induction ns generalizing x with
  | nil => rfl
  | cons n ns ih =>
    rw [List.foldl_cons]
    cases h : child (some x) n with
    | none => exact .inr ⟨lacks_of_child h, by rw [foldl_child_none]; rfl⟩
    | some k => exact .inl ⟨k, first_of_child h, ih k⟩

theorem members_kids (x : Xml) (n : Text) : Members x n (kids (child (some x) n)) := by
  cases h : child (some x) n with
  | none => exact .inr ⟨lacks_of_child h, rfl⟩
  | some k => exact .inl ⟨k, first_of_child h, rfl⟩

theorem hasAttr_attr {x : Xml} {n v : Text} (hv : v ≠ []) (h : attr (some x) n = v) : HasAttr x n v := by
  rw [attr, Option.bind_some] at h
  cases hf : x.attrs.find? fun a => a.1 == n with
  | none => rw [hf] at h; exact absurd h.symm hv
  | some a =>
    rw [hf] at h
    rw [List.find?_eq_some_iff_append] at hf
    obtain ⟨h1, pre, post, h2, h3⟩ := hf
    obtain ⟨a1, a2⟩ := a
    have e1 : a1 = n := by simpa using h1
    have e2 : a2 = v := by simpa using h
    subst e1; subst e2
    exact ⟨pre, post, h2, fun p hp => by simpa using h3 p hp⟩

theorem parseFile_mem {α β : Type} {f : α → Kss.Res β} {xs : List (Bool × List α)} {ts : List β} {es : List Kss.KErr}
    (h : Kss.parseFile f xs = .ok (ts, es)) : ∀ t ∈ ts, ∃ p ∈ xs, p.1 = true ∧ ∃ y ∈ p.2, f y = .ok t := by
  induction xs generalizing ts es with
  | nil => cases h; intro t ht; cases ht
  | cons p xs ih =>
    obtain ⟨r, ys⟩ := p
    rw [Kss.parseFile] at h
    cases hp : Kss.parseTrain f r ys with
    | throws => rw [hp] at h; cases h
    | undef => rw [hp] at h; cases h
    | err e =>
      rw [hp] at h
      dsimp only at h
      cases hr : Kss.parseFile f xs with
      | ok q =>
        rw [hr] at h
        cases h
        intro t ht
        obtain ⟨p, h1, h2⟩ := ih hr t ht
        exact ⟨p, .tail _ h1, h2⟩
      | _ => rw [hr] at h; cases h
    | ok bs =>
      rw [hp] at h
      dsimp only at h
      cases hr : Kss.parseFile f xs with
      | ok q =>
        rw [hr] at h
        cases h
        intro t ht
        rcases List.mem_append.1 ht with ht | ht
        · rw [Kss.parseTrain] at hp
          split at hp
          · rename_i hrel
            refine ⟨(r, ys), .head _, hrel, ?_⟩
            have hm := (Kss.each_ok f ys bs).1 hp
            obtain ⟨k, hk, rfl⟩ := List.getElem_of_mem ht
            have : (.ok bs[k] : Kss.Res β) ∈ ys.map f := by
              rw [hm]
              exact List.mem_map.2 ⟨_, List.getElem_mem hk, rfl⟩
            obtain ⟨y, hy, e⟩ := List.mem_map.1 this
            exact ⟨y, hy, e⟩
          · cases hp
        · obtain ⟨p, h1, h2⟩ := ih hr t ht
          exact ⟨p, .tail _ h1, h2⟩
      | _ => rw [hr] at h; cases h

/-- C164: the trains of a document are construction trains of its released trains. -/
theorem C164_document (d : Data) (fuel : Nat) (x : Xml) (ts : List KTrain) (es : List Kss.KErr)
    (h : parseDocument d fuel x = .ok (ts, es)) : ∀ t ∈ ts, ∃ y, ReleasedIn x y ∧ constructionTrain d fuel y = .ok t := by
  intro t ht
  obtain ⟨p, hp, h1, y, hy, h2⟩ := parseFile_mem h t ht
  obtain ⟨k, hk, rfl⟩ := List.mem_map.1 hp
  obtain ⟨hk1, hk2⟩ := List.mem_filter.1 hk
  rw [trainOf] at h1 hy
  obtain ⟨hy1, hy2⟩ := List.mem_filter.1 hy
  exact ⟨y, ⟨_, k, _, membersAt_kids ["KSS".toList, "railml".toList, "timetable".toList] x, hk1, by simpa using hk2,
    hasAttr_attr (by decide) (by simpa using h1), members_kids k _, hy1, by simpa using hy2⟩, h2⟩

theorem trainOf_says {k : Xml} {e : Bool × List Xml} (h : SaysEntry k e) : trainOf k = e := by
  obtain ⟨h1, cs, h2, h3⟩ := h
  obtain ⟨r, ys⟩ := e
  dsimp only at h1 h3
  rw [trainOf, kids_members h2, filter_beq, h3]
  congr 1
  cases r with
  | true => simpa using attr_has (h1.1 rfl)
  | false =>
    simp only [beq_eq_false_iff_ne]
    intro he
    cases h1.2 (hasAttr_attr (by decide) he)

/-- C164: all released trains of a document are read whose construction trains are accepted, in order; the others count as errors. -/
theorem C164_complete (d : Data) (fuel : Nat) (x : Xml) (ks : List Xml) (es : List (Bool × List Xml)) (out : List (List KTrain ⊕ Kss.KErr))
    (hk : MembersAt x ["KSS".toList, "railml".toList, "timetable".toList] ks)
    (he : List.Forall₂ SaysEntry (ks.filter fun k => k.name = "train".toList) es) (hlen : out.length = es.length)
    (h : ∀ (k : Nat) (e : Bool × List Xml) (o : List KTrain ⊕ Kss.KErr), es[k]? = some e → out[k]? = some o →
      match o with
      | .inl ts => Kss.Accepts (constructionTrain d fuel) e ts
      | .inr err => Kss.Rejects (constructionTrain d fuel) e err) :
    parseDocument d fuel x = .ok ((out.filterMap Sum.getLeft?).flatten, out.filterMap Sum.getRight?) := by
  have hk := kids_membersAt hk
  simp only [List.foldl_cons, List.foldl_nil] at hk
  have hm : (ks.filter fun k => k.name = "train".toList).map trainOf = es := by
    generalize (ks.filter fun k => decide (k.name = "train".toList)) = l at he
    clear h hlen
    induction he with
    | nil => rfl
    | cons h1 _ ih => rw [List.map_cons, trainOf_says h1, ih]
  rw [parseDocument, hk, filter_beq, hm]
  refine Kss.C88_complete _ es out hlen fun k e o h1 h2 => ?_
  have := h k e o h1 h2
  cases o <;> exact this

/-! An accepted train: over three stations, with a vehicle of the core data. -/

def exTime (n t : String) : Xml := .node n.toList [] [] [leaf "time" t]
def exPoint (st : String) (more : List Xml) : Xml := .node "sequenceServicePoint".toList [] [] (leaf "servicePoint" st :: leaf "trackSystem" "1" :: more)
def exHalt : Xml := .node "stopMode".toList [("Schluessel".toList, ['4'])] [] []
def exUnit : Xml := .node "tractionUnit".toList [] [] [.node "tractionUnitDesignSeries".toList [] []
  [.node "designSeries".toList [("Nr".toList, "NX".toList)] "101".toList [], leaf "variante" "3"]]
def exMask : Xml := .node "service".toList [("startDate".toList, d28), ("endDate".toList, d02), ("bitMask".toList, ['1', '0', '1'])] [] []
def exSpecial : Xml := .node "service".toList [] [] [.node "special".toList [("date".toList, d02), ("type".toList, "exclude".toList)] [] []]
def exServices : Xml := .node "services".toList [] [] [exMask, exSpecial]

def exConstruction (points : List Xml) : Xml := .node "constructionTrain".toList [] [] [
  .node "trainNumber".toList [] [] [leaf "mainNumber" "12", leaf "subNumber" "3"], exServices,
  .node "sequence".toList [] [] [leaf "breakin" "false", leaf "breakout" "false", .node "sequenceServicePoints".toList [] [] points],
  .node "characteristic".toList [] [] [leaf "totalWeight" "80", leaf "totalLength" "200", leaf "maxVelocity" "160",
    leaf "trainProtection" "false", leaf "relevantStopPositionMode" "P", .node "tractionUnits".toList [] [] [exUnit]]]

def exSaid (stops : List SaidStop) : SaidTrain :=
  ⟨12, 3, exMasks ++ exSpecials, stops, false, false, [⟨"101".toList, "NX".toList, 3⟩], 80, 200, 160, false, false⟩

theorem exInt' (s : String) (h : s.toList ≠ [] ∧ s.toList.all Char.isDigit = true) {q : Rat} (hq : (value s.toList : Rat) = q) :
    Decimal ['.'] s.toList q :=
  ⟨false, s.toList, [], h.1, List.all_eq_true.1 h.2, by simp [AllDigits], .inl ⟨rfl, by simp⟩, by simp [value, hq]⟩

theorem exWrites (s : String) (n : Nat) (h : s.toList ≠ [] ∧ s.toList.all Char.isDigit = true) (hv : value s.toList = n) :
    Writes s.toList n := ⟨h.1, List.all_eq_true.1 h.2, hv⟩

theorem exText {x : Xml} (n s : String) (pre post : List Xml) (h : x.kids = pre ++ leaf n s :: post)
    (hp : pre.all (fun p => p.name != n.toList) = true) : SaysText x n.toList s.toList :=
  .inl ⟨_, exFirst pre post h rfl hp, rfl⟩

theorem exLacks {x : Xml} {n : Text} (h : x.kids.all (fun p => p.name != n) = true) : Lacks x n :=
  fun k hk => by simpa using List.all_eq_true.1 h k hk

theorem exConstruction_says {points : List Xml} {stops : List SaidStop} (h : List.Forall₂ SaysStop points stops) :
    SaysTrain (exConstruction points) (exSaid stops) := by
  refine ⟨⟨_, exFirst [] _ rfl rfl rfl, ⟨_, exText "mainNumber" "12" [] _ rfl rfl, exWrites _ _ (by decide) rfl, by show 12 < 2 ^ 32; decide⟩,
      ⟨_, exText "subNumber" "3" [leaf "mainNumber" "12"] [] rfl rfl, exWrites _ _ (by decide) rfl, by show 3 < 2 ^ 16; decide⟩⟩,
    ⟨_, .inl ⟨exServices, exFirst [_] _ rfl rfl rfl, rfl⟩, ?_⟩,
    ⟨_, points, exFirst [_, _] _ rfl rfl rfl, .inl ⟨_, exFirst [_, _] [] rfl rfl rfl, rfl⟩, h,
      ⟨_, exText "breakin" "false" [] _ rfl rfl, by show false = true ↔ _; decide⟩, ⟨_, exText "breakout" "false" [leaf "breakin" "false"] _ rfl rfl, by show false = true ↔ _; decide⟩⟩,
    ⟨_, [exUnit], exFirst [_, _, _] [] rfl rfl rfl, .inl ⟨_, exFirst [_, _, _, _, _] [] rfl rfl rfl, rfl⟩, .cons ?_ .nil,
      ⟨_, exFirst [] _ rfl rfl rfl, exInt' "80" (by decide) (by show ((value "80".toList : Nat) : Rat) = 80; decide +kernel)⟩,
      ⟨_, exFirst [_] _ rfl rfl rfl, exInt' "200" (by decide) (by show ((value "200".toList : Nat) : Rat) = 200; decide +kernel)⟩,
      ⟨_, exFirst [_, _] _ rfl rfl rfl, exInt' "160" (by decide) (by show ((value "160".toList : Nat) : Rat) = 160; decide +kernel)⟩,
      ⟨_, .inl ⟨_, exFirst [_, _, _] _ rfl rfl rfl, rfl⟩, by show false = true ↔ _; decide⟩,
      ⟨_, .inl ⟨_, exFirst [_, _, _, _] _ rfl rfl rfl, rfl⟩, by show false = true ↔ _; decide⟩⟩⟩
  · have h1 : SaysService exMask (.mask d28 d02 ['1', '0', '1']) :=
      ⟨⟨[], _, rfl, by simp⟩, ⟨[_], _, rfl, by decide⟩, ⟨[_, _], _, rfl, by decide⟩⟩
    have h2 : SaysService exSpecial (.special d02 "exclude".toList) :=
      ⟨(by intro a ha; cases ha), _, exFirst [] [] rfl rfl rfl, ⟨[], _, rfl, by simp⟩, ⟨[_], _, rfl, by decide⟩⟩
    exact .cons h1 (.cons h2 .nil)
  · exact ⟨_, _, _, exFirst [] [] rfl rfl rfl, exFirst [] _ rfl rfl rfl, rfl, ⟨[], [], rfl, by simp⟩,
      exText "variante" "3" [_] [] rfl rfl, exWrites _ _ (by decide) rfl, by decide, by decide, by decide⟩

/-- the stations A, B and C have one route each -/
def exStations : Stations := fun n =>
  if n = ['A'] then some fun m => if m = ['1'] then some 0 else none
  else if n = ['B'] then some fun m => if m = ['1'] then some 1 else none
  else if n = ['C'] then some fun m => if m = ['1'] then some 2 else none
  else none

def exData (m : Text → Option Series) : Data := ⟨planInfra, ilkOf planInfra planRoutes, exStations, m⟩

theorem exData_known (m : Text → Option Series) : StopsKnown (exData m) := by
  intro n routes k sr h1 h2
  have h1' : exStations n = some routes := h1
  have h2' : sr < planInfra.stops.length := by
    unfold exStations at h1'
    split at h1'
    · cases h1'; dsimp only at h2; split at h2 <;> cases h2; decide
    · split at h1'
      · cases h1'; dsimp only at h2; split at h2 <;> cases h2; decide
      · split at h1'
        · cases h1'; dsimp only at h2; split at h2 <;> cases h2; decide
        · cases h1'
  exact ⟨_, List.getElem?_eq_getElem h2'⟩

/-- the vehicles of core data with the series 101 of two owners -/
theorem exCoreMap : ∃ (m : Text → Option Series) (v : Vehicle), Found m ⟨"101".toList, "NX".toList, 3⟩ v ∧ Matches (exDescribed 50) v ∧
    ∃ dv, coreData ([exCore [exSeries "101" "DB", exSeries "101" "NX"] []].map some) none (fun _ => none) = some (dv, m) := by
  obtain ⟨dv, m, h1, h2⟩ := C150_lookup_partial (exCore_says "101" "DB" "101" "NX") (by decide) (by decide)
  have hu : FirstUsable (exDescribedSeries "101" "NX").variants 3 (exDescribed 50) := by
    refine ⟨[_], [], rfl, rfl, exUsable.1, ?_⟩
    simp only [List.mem_singleton]
    rintro p rfl
    exact .inr exUsable.2
  obtain ⟨v, h3, h4⟩ := ((h2 (view "101".toList) (view "NX".toList) "101".toList "NX".toList 3 ⟨⟨[], rfl⟩, by decide, rfl⟩
    ⟨⟨[], rfl⟩, by decide, rfl⟩ (by decide)).1 _ (.tail _ (.head _)) rfl rfl).1 _ hu
  refine ⟨m, v, ?_, h4, dv, h1⟩
  rw [getTractionVehicle, dataText_shows (v := view "101".toList) ⟨[], rfl⟩ (by decide), dataText_shows (v := view "NX".toList) ⟨[], rfl⟩ (by decide)] at h3
  simp only [Option.bind_some] at h3
  obtain ⟨s, h5, h6⟩ := Option.bind_eq_some_iff.1 (Option.some.inj h3)
  exact ⟨s, h5, h6⟩

theorem exTime_says {x : Xml} (n t : String) (pre post : List Xml) (h : x.kids = pre ++ exTime n t :: post)
    (hp : pre.all (fun p => p.name != n.toList) = true) {sec : Nat} (ht : Clock t.toList sec) : SaysTime x n.toList (some sec) :=
  ⟨_, _, sec, exFirst pre post h rfl hp, exText "time" t [] [] rfl rfl, ht, .inl ⟨exLacks rfl, rfl⟩⟩

theorem ten : Clock "10:00:00".toList 36000 := ⟨1, 0, 0, 0, 0, 0, [], by decide, rfl⟩
theorem twenty_past_ten : Clock "10:20:00".toList 37200 := ⟨1, 0, 2, 0, 0, 0, [], by decide, rfl⟩
theorem eleven : Clock "11:00:00".toList 39600 := ⟨1, 1, 0, 0, 0, 0, [], by decide, rfl⟩
theorem nine : Clock "09:00:00".toList 32400 := ⟨0, 9, 0, 0, 0, 0, [], by decide, rfl⟩

theorem exHalt_says {x : Xml} (pre post : List Xml) (h : x.kids = pre ++ exHalt :: post)
    (hp : pre.all (fun p => p.name != "stopMode".toList) = true) : SaysMode x .passenger :=
  .inr ⟨_, '4', exFirst pre post h rfl hp, ⟨[], [], rfl, by simp⟩, .inr (.inr ⟨rfl, rfl⟩)⟩

def exMiddle : Xml := exPoint "B" [exTime "departure" "10:20:00"]
def exSaidMiddle : SaidStop := ⟨['B'], ['1'], .transit, none, some 37200, 0⟩
def exStopMiddle : Stop := ⟨.transit, 4294967295, 37200, 0, 1⟩

theorem exMiddle_says : SaysStop exMiddle exSaidMiddle ∧ Is exStations exSaidMiddle exStopMiddle :=
  ⟨⟨exText "servicePoint" "B" [] _ rfl rfl, exText "trackSystem" "1" [leaf "servicePoint" "B"] _ rfl rfl, .inl ⟨exLacks rfl, rfl⟩, exLacks rfl,
    exTime_says "departure" "10:20:00" [_, _] [] rfl rfl twenty_past_ten, .inl ⟨exLacks rfl, rfl⟩⟩,
   ⟨_, rfl, rfl⟩, rfl, .inr ⟨rfl, rfl⟩, .inl rfl, rfl⟩

/-- the first halt with a departure at ten -/
theorem exStart_says : SaysStop (exPoint "A" [exHalt, exTime "departure" "10:00:00"]) ⟨['A'], ['1'], .passenger, none, some 36000, 0⟩ ∧
    Is exStations ⟨['A'], ['1'], .passenger, none, some 36000, 0⟩ ⟨.passenger, 4294967295, 36000, 0, 0⟩ :=
  ⟨⟨exText "servicePoint" "A" [] _ rfl rfl, exText "trackSystem" "1" [leaf "servicePoint" "A"] _ rfl rfl, exHalt_says [_, _] [_] rfl rfl,
    exLacks rfl, exTime_says "departure" "10:00:00" [_, _, _] [] rfl rfl ten, .inl ⟨exLacks rfl, rfl⟩⟩,
   ⟨_, rfl, rfl⟩, rfl, .inr ⟨rfl, rfl⟩, .inl rfl, rfl⟩

/-- the first halt without a departure -/
theorem exSilent_says : SaysStop (exPoint "A" [exHalt]) ⟨['A'], ['1'], .passenger, none, none, 0⟩ ∧
    Is exStations ⟨['A'], ['1'], .passenger, none, none, 0⟩ ⟨.passenger, 4294967295, 4294967295, 0, 0⟩ :=
  ⟨⟨exText "servicePoint" "A" [] _ rfl rfl, exText "trackSystem" "1" [leaf "servicePoint" "A"] _ rfl rfl, exHalt_says [_, _] [] rfl rfl,
    exLacks rfl, exLacks rfl, .inl ⟨exLacks rfl, rfl⟩⟩,
   ⟨_, rfl, rfl⟩, rfl, .inr ⟨rfl, rfl⟩, .inr ⟨rfl, rfl⟩, rfl⟩

/-- the last halt with an arrival -/
theorem exEnd_says (t : String) {sec : Nat} (h : Clock t.toList sec) :
    SaysStop (exPoint "C" [exHalt, exTime "arrival" t]) ⟨['C'], ['1'], .passenger, some sec, none, 0⟩ ∧
    Is exStations ⟨['C'], ['1'], .passenger, some sec, none, 0⟩ ⟨.passenger, sec, 4294967295, 0, 2⟩ :=
  ⟨⟨exText "servicePoint" "C" [] _ rfl rfl, exText "trackSystem" "1" [leaf "servicePoint" "C"] _ rfl rfl, exHalt_says [_, _] [_] rfl rfl,
    exTime_says "arrival" t [_, _, _] [] rfl rfl h, exLacks rfl, .inl ⟨exLacks rfl, rfl⟩⟩,
   ⟨_, rfl, rfl⟩, rfl, .inl rfl, .inr ⟨rfl, rfl⟩, rfl⟩

/-- the last day of February only -/
def exDays : Bitfield := ⟨19051, 19053, 1⟩

theorem exDays_read : ServiceDays.parseElems (exMasks ++ exSpecials) = some exDays := by decide +kernel

/-- the train that is read -/
def exRead (v : Vehicle) (path : List Nat) (stops : List Stop) : KTrain :=
  ⟨(12, 3), exDays, ⟨[v], some (1000 * 80), some 200, some (160 / (18 / 5)), false, false⟩, false, false, path, stops⟩

theorem exAccepted {points : List Xml} {stops : List SaidStop} {ss sts : List Stop} {path : List Nat} {m : Text → Option Series} {v : Vehicle}
    (hp : List.Forall₂ SaysStop points stops) (hi : List.Forall₂ (Is exStations) stops ss)
    (hv : Found m ⟨"101".toList, "NX".toList, 3⟩ v)
    (hs : Kss.isSupported planInfra false false ⟨ss.map Stop.point, false, false⟩ = .ok ())
    (ht : transform planInfra (ilkOf planInfra planRoutes) ⟨ss, false, false⟩ false 4 = .ok path sts) :
    constructionTrain (exData m) 4 (exConstruction points) = .ok (exRead v path sts) := by
  refine (C164_accepted (exConstruction_says hp) (exData m) (exData_known m) 4 (exRead v path sts)).2 ⟨ss, hi, .cons hv .nil, ?_, ht,
    exDays_read, rfl, rfl, rfl, rfl, rfl, rfl, rfl, rfl⟩
  exact (Kss.C68_supported _ _ _ _ (known_stops (exData_known m) hi false false)).1.1 hs

/-- a train from ten to eleven -/
def exPoints : List Xml := [exPoint "A" [exHalt, exTime "departure" "10:00:00"], exMiddle, exPoint "C" [exHalt, exTime "arrival" "11:00:00"]]
def exStops : List Stop := [⟨.passenger, 4294967295, 36000, 0, 0⟩, exStopMiddle, ⟨.passenger, 39600, 4294967295, 0, 2⟩]

theorem exPoints_say : ∃ stops, List.Forall₂ SaysStop exPoints stops ∧ List.Forall₂ (Is exStations) stops exStops :=
  ⟨_, .cons exStart_says.1 (.cons exMiddle_says.1 (.cons (exEnd_says _ eleven).1 .nil)),
    .cons exStart_says.2 (.cons exMiddle_says.2 (.cons (exEnd_says _ eleven).2 .nil))⟩

theorem exTransform : transform planInfra (ilkOf planInfra planRoutes) ⟨exStops, false, false⟩ false 4 = .ok [0, 2, 3] exStops := by
  decide +kernel

example : ∃ m v s, SaysTrain (exConstruction exPoints) s ∧ StopsKnown (exData m) ∧
    constructionTrain (exData m) 4 (exConstruction exPoints) = .ok (exRead v [0, 2, 3] exStops) ∧ Matches (exDescribed 50) v := by
  obtain ⟨m, v, h1, h2, -⟩ := exCoreMap
  obtain ⟨stops, h3, h4⟩ := exPoints_say
  exact ⟨m, v, _, exConstruction_says h3, exData_known m, exAccepted h3 h4 h1 (by decide) exTransform, h2⟩

/-- the services of the example meet the conditions of `C164_dates` -/
example (stops : List SaidStop) : ∀ z, Valid z → (RunsOn exDays (toDays z) ↔ Served (exSaid stops).services z) := by
  obtain ⟨m, v, h1, h2, -⟩ := exCoreMap
  obtain ⟨stops, h3, h4⟩ := exPoints_say
  exact C164_dates (exConstruction_says h3) (exData m) (exData_known m) 4 _ (exAccepted h3 h4 h1 (by decide) exTransform)
    (w := ⟨2022, 2, 28⟩) (by decide) (by unfold Before; decide +kernel) exMasks exSpecials rfl exElems_proper (by simp [exMasks])
    (by decide) (by decide)

def exDocument (status : String) (header : List Xml) (points : List Xml) : Xml := .node [] [] [] [.node "KSS".toList [] [] (header ++
  [.node "railml".toList [] [] [.node "timetable".toList [] [] [.node "train".toList [("trainStatus".toList, status.toList)] []
    [.node "fineConstruction".toList [] [] [exConstruction points]]]]])]

theorem exDocument_parse (d : Data) (fuel : Nat) (header : List Xml) (hh : header.all (fun k => k.name != "railml".toList) = true) (points : List Xml)
    (t : KTrain) (h : constructionTrain d fuel (exConstruction points) = .ok t) :
    parseDocument d fuel (exDocument "freig" header points) = .ok ([t], []) := by
  have h1 : child (some (.node "KSS".toList [] [] (header ++
      [.node "railml".toList [] [] [.node "timetable".toList [] [] [.node "train".toList [("trainStatus".toList, "freig".toList)] []
        [.node "fineConstruction".toList [] [] [exConstruction points]]]]]))) "railml".toList =
      some (.node "railml".toList [] [] [.node "timetable".toList [] [] [.node "train".toList [("trainStatus".toList, "freig".toList)] []
        [.node "fineConstruction".toList [] [] [exConstruction points]]]]) := child_first (exFirst header [] rfl rfl hh)
  have h0 : child (some (exDocument "freig" header points)) "KSS".toList = some (.node "KSS".toList [] [] (header ++
      [.node "railml".toList [] [] [.node "timetable".toList [] [] [.node "train".toList [("trainStatus".toList, "freig".toList)] []
        [.node "fineConstruction".toList [] [] [exConstruction points]]]]])) := rfl
  rw [parseDocument, h0, h1]
  show Kss.parseFile (constructionTrain d fuel) [(true, [exConstruction points])] = _
  simp only [Kss.parseFile, Kss.parseTrain, Kss.each, h, if_true]
  rfl

example : ∃ m t, parseDocument (exData m) 4 (exDocument "freig" [] exPoints) = .ok ([t], []) ∧ t.stops = exStops := by
  obtain ⟨m, v, h1, h2, -⟩ := exCoreMap
  obtain ⟨stops, h3, h4⟩ := exPoints_say
  exact ⟨m, _, exDocument_parse _ _ [] rfl _ _ (exAccepted h3 h4 h1 (by decide) exTransform), rfl⟩

/-- a released train and one that is worked on -/
example : ∃ m t ks, MembersAt (exDocument "freig" [] exPoints) ["KSS".toList, "railml".toList, "timetable".toList] ks ∧
    List.Forall₂ SaysEntry (ks.filter fun k => k.name = "train".toList) [(true, [exConstruction exPoints])] ∧
    Kss.Accepts (constructionTrain (exData m) 4) (true, [exConstruction exPoints]) [t] ∧
    SaysEntry (.node "train".toList [("trainStatus".toList, "bearb".toList)] [] []) (false, []) := by
  obtain ⟨m, v, h1, h2, -⟩ := exCoreMap
  obtain ⟨stops, h3, h4⟩ := exPoints_say
  refine ⟨m, exRead v [0, 2, 3] exStops, _, membersAt_kids _ _, .cons ⟨⟨fun _ => ⟨[], [], rfl, by simp⟩, fun _ => rfl⟩, _, members_kids _ _, rfl⟩ .nil,
    ⟨rfl, ?_⟩, ⟨⟨nofun, ?_⟩, [], .inr ⟨exLacks rfl, rfl⟩, rfl⟩⟩
  · show [constructionTrain (exData m) 4 (exConstruction exPoints)] = _
    rw [exAccepted h3 h4 h1 (by decide) exTransform]
    rfl
  · rintro ⟨pre, post, h5, -⟩
    have : ("trainStatus".toList, "freig".toList) ∈ [("trainStatus".toList, "bearb".toList)] := by
      show _ ∈ Xml.attrs (.node "train".toList [("trainStatus".toList, "bearb".toList)] [] [])
      rw [h5]; simp
    exact absurd this (by decide)

/-! ### C165: the times of accepted trains -/

/-- C165, full statement: an accepted train departs at its first stop and arrives, not earlier, at its last one. -/
def C165_full : Prop := ∀ (x : Xml) (s : SaidTrain) (d : Data) (fuel : Nat) (t : KTrain), SaysTrain x s → StopsKnown d →
  constructionTrain d fuel x = .ok t → ∃ a b, firstDeparture t = some a ∧ lastArrival t = some b ∧ a ≤ b ∧ b < 2 ^ 32 - 1

/-- C165 fails: a train whose first halt has no departure is accepted, and leaves one second before midnight, on the day before the one on which it runs. -/
theorem C165_no_departure_negation : (∃ (x : Xml) (s : SaidTrain) (d : Data) (t : KTrain), SaysTrain x s ∧ StopsKnown d ∧
    constructionTrain d 4 x = .ok t ∧ s.stops.head?.map SaidStop.departure = some none ∧
    ∀ midnight, 0 < midnight → midnight < 2 ^ 32 → departs t midnight = some (midnight - 1)) ∧ ¬ C165_full := by
  obtain ⟨m, v, h1, -⟩ := exCoreMap
  have h2 := List.Forall₂.cons exSilent_says.1 (.cons exMiddle_says.1 (.cons (exEnd_says _ eleven).1 .nil))
  have h3 := List.Forall₂.cons exSilent_says.2 (.cons exMiddle_says.2 (.cons (exEnd_says _ eleven).2 .nil))
  have h4 : transform planInfra (ilkOf planInfra planRoutes) ⟨[⟨.passenger, 4294967295, 4294967295, 0, 0⟩, exStopMiddle,
      ⟨.passenger, 39600, 4294967295, 0, 2⟩], false, false⟩ false 4 = .ok [0, 2, 3] [⟨.passenger, 4294967295, 4294967295, 0, 0⟩, exStopMiddle,
      ⟨.passenger, 39600, 4294967295, 0, 2⟩] := by decide +kernel
  have h5 := exAccepted h2 h3 h1 (by decide) h4
  refine ⟨⟨_, _, exData m, _, exConstruction_says h2, exData_known m, h5, rfl, ?_⟩, ?_⟩
  · intro mid h6 h7
    show some (relToAbs mid 4294967295) = _
    have e : relToAbs mid 4294967295 = mid - 1 := by unfold relToAbs; omega
    rw [e]
  · intro hf
    obtain ⟨a, b, e1, e2, e3, e4⟩ := hf _ _ _ _ _ (exConstruction_says h2) (exData_known m) h5
    cases e1; cases e2
    exact absurd e3 (by decide)

/-- C165 fails: a train that arrives at nine and departs at ten is accepted. -/
theorem C165_backwards_negation : ∃ (x : Xml) (s : SaidTrain) (d : Data) (t : KTrain), SaysTrain x s ∧ StopsKnown d ∧
    constructionTrain d 4 x = .ok t ∧ firstDeparture t = some 36000 ∧ lastArrival t = some 32400 := by
  obtain ⟨m, v, h1, -⟩ := exCoreMap
  have h2 := List.Forall₂.cons exStart_says.1 (.cons exMiddle_says.1 (.cons (exEnd_says _ nine).1 .nil))
  have h3 := List.Forall₂.cons exStart_says.2 (.cons exMiddle_says.2 (.cons (exEnd_says _ nine).2 .nil))
  have h4 : transform planInfra (ilkOf planInfra planRoutes) ⟨[⟨.passenger, 4294967295, 36000, 0, 0⟩, exStopMiddle,
      ⟨.passenger, 32400, 4294967295, 0, 2⟩], false, false⟩ false 4 = .ok [0, 2, 3] [⟨.passenger, 4294967295, 36000, 0, 0⟩, exStopMiddle,
      ⟨.passenger, 32400, 4294967295, 0, 2⟩] := by decide +kernel
  exact ⟨_, _, exData m, _, exConstruction_says h2, exData_known m, exAccepted h2 h3 h1 (by decide) h4, rfl, rfl⟩

theorem idxOf_of_nodup {l : List Nat} (hn : l.Nodup) {k a : Nat} (h : l[k]? = some a) : l.idxOf a = k := by
  obtain ⟨hk, rfl⟩ := List.getElem?_eq_some_iff.1 h
  exact List.Nodup.idxOf_getElem hn k hk

theorem known_srs {st : Stations} {ds : List SaidStop} {ss : List Stop} {srs : List Nat} (h : List.Forall₂ (Is st) ds ss)
    (h' : List.Forall₂ (Known st) ds srs) : srs = ss.map Stop.sr := by
  induction h generalizing srs with
  | nil => cases h'; rfl
  | cons h1 _ ih =>
    cases h' with
    | cons h2 h3 =>
      obtain ⟨r, q1, q2⟩ := h1.sr
      obtain ⟨r', q3, q4⟩ := h2
      rw [q1] at q3; cases q3
      rw [q2] at q4
      rw [ih h3, ← Option.some.inj q4]
      rfl

/-- the path does not leave the planned station routes and runs over none of them twice: the conditions of C85 -/
structure Follows (d : Data) (srs path : List Nat) : Prop where
  built : ∃ nodeCount routes, Built d.infra nodeCount routes d.ilk ∧ ∀ r ∈ routes, Route.Spec.Valid d.infra.routes r
  stays : Transform.Spec.Stays d.infra d.ilk srs path
  enters : ∀ a r, path.head? = some a → d.ilk.routes[a]? = some r → r.srs.length < 2 ^ 64 ∧ Transform.Spec.Enters r.srs srs
  once : srs.Nodup
  merged : (Transform.Spec.merged d.ilk path).Nodup

/-- C165: the stops of the accepted train come in the order of the document. Conditions of C85; the paths excluded there are missing. -/
theorem C165_order_partial {x : Xml} {s : SaidTrain} (h : SaysTrain x s) (d : Data) (hd : StopsKnown d) (fuel : Nat) (t : KTrain)
    (ht : constructionTrain d fuel x = .ok t) (hsz : s.stops.length < 2 ^ 64) (srs : List Nat)
    (hsr : List.Forall₂ (Known d.stations) s.stops srs) (hf : Follows d srs t.path)
    (hin : ∀ (p : SPoint) (idx : Nat), p.sr ∈ srs → Train.Spec.StandsAt d.infra s.freight p idx →
      ∃ r, d.infra.routes[p.sr]? = some r ∧ idx < r.nodes.length)
    (R : SaidStop → SaidStop → Prop) (hR : s.stops.Pairwise R) :
    t.stops.Pairwise fun a b => a = b ∨ ∃ p q, Is d.stations p a ∧ Is d.stations q b ∧ R p q := by
  obtain ⟨ss, a1, -, -, a4, -⟩ := (C164_accepted h d hd fuel t).1 ht
  have hs := known_srs a1 hsr
  have hlen := a1.length_eq
  have hpl : (Sequence.seq ⟨ss, s.breakIn, s.breakOut⟩).points.map (·.sr) = srs := by
    rw [hs, Sequence.seq, List.map_map]; rfl
  obtain ⟨n, routes, b1, b2⟩ := hf.built
  have htr := transform_seen d.infra d.ilk ⟨ss, s.breakIn, s.breakOut⟩ s.freight fuel
  rw [a4] at htr
  obtain ⟨-, hpw⟩ := C85_points_partial d.infra n routes d.ilk b1 _ s.freight fuel _ _ htr
    (by simp only [Sequence.seq, List.length_map]; omega) (by rw [StopSeq.plan, hpl]; exact hf.stays)
    (by rw [StopSeq.plan, hpl]; exact hf.enters) (by rw [hpl]; exact hf.once) hf.merged
    (fun p hp idx hi => hin p idx (by rw [← hpl]; exact List.mem_map.2 ⟨p, hp, rfl⟩) hi) b2
  rw [hpl, List.pairwise_map] at hpw
  refine List.Pairwise.imp_of_mem ?_ hpw
  intro a b ha hb hle
  obtain ⟨i, hi, rfl⟩ := List.getElem_of_mem (transform_mem a4 a ha)
  obtain ⟨j, hj, rfl⟩ := List.getElem_of_mem (transform_mem a4 b hb)
  dsimp only at hi hj hle ⊢
  have idx : ∀ k (hk : k < ss.length), srs.idxOf (ss[k]).point.sr = k := by
    intro k hk
    refine idxOf_of_nodup hf.once ?_
    rw [hs, List.getElem?_map, List.getElem?_eq_getElem hk]
    rfl
  rw [idx i hi, idx j hj] at hle
  rcases Nat.eq_or_lt_of_le hle with rfl | hlt
  · exact .inl rfl
  · refine .inr ⟨s.stops[i]'(by omega), s.stops[j]'(by omega), ?_, ?_, List.pairwise_iff_getElem.1 hR i j _ _ hlt⟩
    · exact List.Forall₂.get a1 (by omega) hi
    · exact List.Forall₂.get a1 (by omega) hj

/-- C165: if the times of the document increase, so do those of the accepted train: of two of its stops, the earlier one departs
before the later one arrives. Missing: stops without times and documents with decreasing times (the negations above), and
the paths excluded by C85. -/
theorem C165_increasing_partial {x : Xml} {s : SaidTrain} (h : SaysTrain x s) (d : Data) (hd : StopsKnown d) (fuel : Nat) (t : KTrain)
    (ht : constructionTrain d fuel x = .ok t) (hsz : s.stops.length < 2 ^ 64) (srs : List Nat)
    (hsr : List.Forall₂ (Known d.stations) s.stops srs) (hf : Follows d srs t.path)
    (hin : ∀ (p : SPoint) (idx : Nat), p.sr ∈ srs → Train.Spec.StandsAt d.infra s.freight p idx →
      ∃ r, d.infra.routes[p.sr]? = some r ∧ idx < r.nodes.length)
    (hord : s.stops.Pairwise fun a b => ∀ p q, a.departure = some p → b.arrival = some q → p ≤ q) :
    (t.stops.Pairwise fun a b => a = b ∨ (a.departure ≠ 2 ^ 32 - 1 → b.arrival ≠ 2 ^ 32 - 1 → a.departure ≤ b.arrival)) ∧
    ∀ p q, firstDeparture t = some p → lastArrival t = some q → p ≠ 2 ^ 32 - 1 → q ≠ 2 ^ 32 - 1 →
      t.stops.head? ≠ t.stops.getLast? → p ≤ q := by
  have key : t.stops.Pairwise fun a b => a = b ∨ (a.departure ≠ 2 ^ 32 - 1 → b.arrival ≠ 2 ^ 32 - 1 → a.departure ≤ b.arrival) := by
    refine (C165_order_partial h d hd fuel t ht hsz srs hsr hf hin _ hord).imp ?_
    rintro a b (rfl | ⟨p, q, h1, h2, hle⟩)
    · exact .inl rfl
    · refine .inr fun n1 n2 => ?_
      rcases h1.departure with e3 | ⟨-, e3⟩
      · rcases h2.arrival with e4 | ⟨-, e4⟩
        · exact hle _ _ e3 e4
        · exact absurd e4 n2
      · exact absurd e3 n1
  refine ⟨key, fun p q hp hq n1 n2 hne => ?_⟩
  rw [firstDeparture, Option.map_eq_some_iff] at hp
  rw [lastArrival, Option.map_eq_some_iff] at hq
  obtain ⟨a, ha, rfl⟩ := hp
  obtain ⟨b, hb, rfl⟩ := hq
  rw [ha, hb] at hne
  match hl : t.stops, ha with
  | _ :: rest, rfl =>
    rw [hl] at key hb
    have hm : b ∈ rest := by
      rcases List.mem_cons.1 (List.mem_of_getLast? hb) with rfl | hm
      · exact absurd rfl hne
      · exact hm
    rcases (List.pairwise_cons.1 key).1 b hm with rfl | hk
    · exact absurd rfl hne
    · exact hk n1 n2

theorem exFollows (m : Text → Option Series) : Follows (exData m) [0, 1, 2] [0, 2, 3] :=
  ⟨⟨40, planRoutes, planBuilt, plan_valid⟩, plan_stays, plan_enters, by decide, by show (Transform.Spec.merged (ilkOf planInfra planRoutes) [0, 2, 3]).Nodup; decide +kernel⟩

example : ∃ m s t, SaysTrain (exConstruction exPoints) s ∧ constructionTrain (exData m) 4 (exConstruction exPoints) = .ok t ∧
    List.Forall₂ (Known exStations) s.stops [0, 1, 2] ∧ Follows (exData m) [0, 1, 2] t.path ∧
    (∀ (p : SPoint) (idx : Nat), p.sr ∈ [0, 1, 2] → Train.Spec.StandsAt planInfra s.freight p idx →
      ∃ r, planInfra.routes[p.sr]? = some r ∧ idx < r.nodes.length) ∧
    (s.stops.Pairwise fun a b => ∀ p q, a.departure = some p → b.arrival = some q → p ≤ q) ∧
    firstDeparture t = some 36000 ∧ lastArrival t = some 39600 ∧ t.stops.head? ≠ t.stops.getLast? := by
  obtain ⟨m, v, h1, h2, -⟩ := exCoreMap
  have h3 := List.Forall₂.cons exStart_says.1 (.cons exMiddle_says.1 (.cons (exEnd_says _ eleven).1 .nil))
  have h4 := List.Forall₂.cons exStart_says.2 (.cons exMiddle_says.2 (.cons (exEnd_says _ eleven).2 .nil))
  refine ⟨m, _, _, exConstruction_says h3, exAccepted h3 h4 h1 (by decide) exTransform,
    .cons exStart_says.2.sr (.cons exMiddle_says.2.sr (.cons (exEnd_says _ eleven).2.sr .nil)), exFollows m, ?_, ?_, rfl, rfl,
    by show exStops.head? ≠ exStops.getLast?; decide⟩
  · rintro ⟨ty, dep, sr⟩ idx hp hi
    rw [← nodeIdx_iff] at hi
    simp only [List.mem_cons, List.not_mem_nil, or_false] at hp
    rcases hp with rfl | rfl | rfl <;> cases ty <;> cases dep <;> cases hi <;> exact ⟨_, rfl, by decide⟩
  · simp only [exSaid, exSaidMiddle, List.pairwise_cons, List.mem_cons, List.not_mem_nil, or_false]
    refine ⟨?_, ?_, by simp, .nil⟩
    · rintro b (rfl | rfl) p q hp hq
      · cases hq
      · cases hp; cases hq; decide
    · rintro b rfl p q hp hq
      cases hp; cases hq; decide

/-! ### C166: the infrastructure version of a timetable -/

theorem versionOf_says {x : Xml} {v : Text × Nat} (h : SaysVersion x v) : versionOf x = v := by
  obtain ⟨a, b, c, h1, h2, h3, h4, h5⟩ := h
  rw [versionOf, child_first h1, child_first h2, child_first h3]
  rw [childText_says h4, nat_says (b := 4) h5]

/-- C166: a timetable is accepted only if the first entry of its directory was made for this version of the infrastructure; for
another version the mismatch is reported. -/
theorem C166_first_entry (d : Data) (version : Text × Nat) (fuel : Nat) (n : Text) (x : Xml) (rest : Dir) (w : Text × Nat)
    (hw : SaysVersion x w) (hk : ∃ e ∈ (n, Entry.file (some x)) :: rest, isKssFile e = true) :
    (parseTimetable d version fuel ((n, .file (some x)) :: rest) = .mismatch ↔ w ≠ version) := by
  rw [parseTimetable, if_pos (by rw [isKssTimetable, List.any_eq_true]; exact hk), requiredVersion]
  rw [versionOf_says hw]
  dsimp only
  by_cases h : w = version
  · rw [if_neg (by simp [h])]
    simp only [h, ne_eq, not_true_eq_false, iff_false]
    split <;> exact nofun
  · rw [if_pos h]
    simp [h]

/-- C166: if all entries of the directory are timetable files for one version, the timetable is refused with a mismatch iff this is
not the version of the infrastructure, in whatever order the directory lists them. Missing: directories with other entries or with
files for several versions (the negations below). -/
theorem C166_same_partial (d : Data) (version : Text × Nat) (fuel : Nat) (dir : Dir) (w : Text × Nat) (hne : dir ≠ [])
    (h : ∀ e ∈ dir, isKssFile e = true ∧ ∃ x, e.2 = .file (some x) ∧ SaysVersion x w) :
    parseTimetable d version fuel dir = .mismatch ↔ w ≠ version := by
  match dir, hne with
  | (n, c) :: rest, _ =>
    obtain ⟨h1, x, h2, h3⟩ := h (n, c) (.head _)
    dsimp only at h2
    subst h2
    exact C166_first_entry d version fuel n x rest w h3 ⟨_, .head _, h1⟩

def exHeader (nr : String) : List Xml := [.node "header".toList [] [] [.node "spurplanVersionDescription".toList [] []
  [leaf "name" "net", leaf "number" nr]]]

theorem exHeader_says (nr : String) (h : nr.toList ≠ [] ∧ nr.toList.all Char.isDigit = true) {n : Nat} (hv : value nr.toList = n) (hn : n < 2 ^ 32) :
    SaysVersion (exDocument "freig" (exHeader nr) exPoints) ("net".toList, n) :=
  ⟨_, _, _, exFirst [] [] rfl rfl rfl, exFirst [] _ rfl rfl rfl, exFirst [] [] rfl rfl rfl, exText "name" "net" [] _ rfl rfl,
    ⟨_, exText "number" nr [leaf "name" "net"] [] rfl rfl, exWrites _ _ h hv, hn⟩⟩

/-- a file of a timetable made for this version number -/
def exFile (name nr : String) : Text × Entry := (name.toList, .file (some (exDocument "freig" (exHeader nr) exPoints)))

example : (∀ e ∈ [exFile "KSS-1.xml" "7", exFile "KSS-2.xml" "7"], isKssFile e = true ∧ ∃ x, e.2 = .file (some x) ∧
    SaysVersion x ("net".toList, 7)) := by
  intro e he
  simp only [List.mem_cons, List.not_mem_nil, or_false] at he
  rcases he with rfl | rfl
  · exact ⟨by decide, _, rfl, exHeader_says "7" (by decide) rfl (by decide)⟩
  · exact ⟨by decide, _, rfl, exHeader_says "7" (by decide) rfl (by decide)⟩

/-- C166, full statement: the trains of files made for another version of the infrastructure are not read. -/
def C166_full : Prop := ∀ (d : Data) (version : Text × Nat) (fuel : Nat) (dir : Dir) (ts : List (Nat × KTrain)),
  parseTimetable d version fuel dir = .ok ts → ∀ e ∈ dir, isKssFile e = true → ∀ x w, e.2 = .file (some x) → SaysVersion x w → w = version

/-- C166 fails: only the first entry of the directory is looked at. With a file for version 7 and one for version 8, the trains of both
are read for an infrastructure of version 7, and if the directory lists them the other way round the timetable is refused. -/
theorem C166_mixed_negation : (∃ (d : Data) (a b : Text × Entry) (t u : KTrain), isKssFile a = true ∧ isKssFile b = true ∧
    (∃ x, a.2 = .file (some x) ∧ SaysVersion x ("net".toList, 7)) ∧ (∃ x, b.2 = .file (some x) ∧ SaysVersion x ("net".toList, 8)) ∧
    parseTimetable d ("net".toList, 7) 4 [a, b] = .ok [(0, t), (1, u)] ∧ parseTimetable d ("net".toList, 7) 4 [b, a] = .mismatch) ∧
    ¬ C166_full := by
  obtain ⟨m, v, h1, h2, -⟩ := exCoreMap
  obtain ⟨stops, h3, h4⟩ := exPoints_say
  have hd := fun nr => exDocument_parse _ _ (exHeader nr) rfl _ _ (exAccepted h3 h4 h1 (by decide) exTransform)
  have s7 := exHeader_says "7" (by decide) (n := 7) rfl (by decide)
  have s8 := exHeader_says "8" (by decide) (n := 8) rfl (by decide)
  have hp : parseTimetable (exData m) ("net".toList, 7) 4 [exFile "KSS-1.xml" "7", exFile "KSS-2.xml" "8"] =
      .ok [(0, exRead v [0, 2, 3] exStops), (1, exRead v [0, 2, 3] exStops)] := by
    rw [parseTimetable, if_pos (by decide)]
    have : requiredVersion [exFile "KSS-1.xml" "7", exFile "KSS-2.xml" "8"] = some ("net".toList, 7) := by
      rw [exFile, requiredVersion, versionOf_says s7]
    rw [this]
    dsimp only
    rw [if_neg (by simp)]
    have : documents [exFile "KSS-1.xml" "7", exFile "KSS-2.xml" "8"] =
        [some (exDocument "freig" (exHeader "7") exPoints), some (exDocument "freig" (exHeader "8") exPoints)] := by
      rw [documents, List.filter_cons_of_pos (by decide), List.filter_cons_of_pos (by decide)]
      rfl
    rw [this]
    simp only [Kss.each, parseLoaded, hd]
    rfl
  refine ⟨⟨exData m, exFile "KSS-1.xml" "7", exFile "KSS-2.xml" "8", _, _, by decide, by decide, ⟨_, rfl, s7⟩, ⟨_, rfl, s8⟩, hp, ?_⟩, ?_⟩
  · exact (C166_first_entry _ _ _ _ _ _ _ s8 ⟨exFile "KSS-2.xml" "8", .head _, by decide⟩).2 (by decide)
  · intro hf
    have := hf _ _ _ _ _ hp (exFile "KSS-2.xml" "8") (.tail _ (.head _)) (by decide) _ _ rfl s8
    exact absurd this (by decide)

/-- C166 fails: another file or a directory that is listed first makes a timetable for the version of the infrastructure unusable. -/
theorem C166_other_entry_negation : ∃ (d : Data) (e : Text × Entry), isKssFile e = true ∧
    (∃ x, e.2 = .file (some x) ∧ SaysVersion x ("net".toList, 7)) ∧
    parseTimetable d ("net".toList, 7) 4 [("notes.xml".toList, .file (some (.node [] [] [] [leaf "notes" ""]))), e] = .mismatch ∧
    parseTimetable d ("net".toList, 7) 4 [("old".toList, .dir), e] = .throws ∧
    ∃ t, parseTimetable d ("net".toList, 7) 4 [e] = .ok [(0, t)] := by
  obtain ⟨m, v, h1, h2, -⟩ := exCoreMap
  obtain ⟨stops, h3, h4⟩ := exPoints_say
  have hd := exDocument_parse _ _ (exHeader "7") rfl _ _ (exAccepted h3 h4 h1 (by decide) exTransform)
  have s7 := exHeader_says "7" (by decide) (n := 7) rfl (by decide)
  refine ⟨exData m, exFile "KSS-1.xml" "7", by decide, ⟨_, rfl, s7⟩, ?_, ?_, exRead v [0, 2, 3] exStops, ?_⟩
  · rw [parseTimetable, if_pos (by decide), requiredVersion]
    have : versionOf (.node [] [] [] [leaf "notes" ""]) ≠ ("net".toList, 7) := by decide
    dsimp only
    rw [if_pos this]
  · rw [parseTimetable, if_pos (by decide)]
    rfl
  · rw [parseTimetable, if_pos (by decide)]
    have : requiredVersion [exFile "KSS-1.xml" "7"] = some ("net".toList, 7) := by rw [exFile, requiredVersion, versionOf_says s7]
    rw [this]
    dsimp only
    rw [if_neg (by simp)]
    have : documents [exFile "KSS-1.xml" "7"] = [some (exDocument "freig" (exHeader "7") exPoints)] := by
      rw [documents, List.filter_cons_of_pos (by decide)]
      rfl
    rw [this]
    simp only [Kss.each, parseLoaded, hd]
    rfl

end Soro.KssXml
