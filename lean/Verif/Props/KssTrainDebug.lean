import Verif.Proof.KssTrainDebug

/-! C182: reading a construction train in a build with assertions. -/

namespace Soro.KssXml
open Dbg Utls Utls.Spec TypeNames ParseFp IssElement IssFiles TrainSeries Train Transform Kss

/-- C182: whatever a document contains, a build with assertions that reads a train to the end gets the result of a build without. -/
theorem C182_same (d : Data) (fuel : Nat) (x : Xml) (r : Kss.Res KTrain) (h : constructionTrainD d fuel x = .ok r) :
    constructionTrain d fuel x = r := by
  simp only [constructionTrainD, bind_ok] at h
  obtain ⟨n, h1, days, h2, s, h3, h⟩ := h
  rw [constructionTrain, show services _ = some days from parseElemsD_sound h2, sequenceD_sound h3, trainNumberD_sound h1]
  cases s with
  | err e => cases h; rfl
  | throws => cases h; rfl
  | undef => cases h
  | ok s =>
    simp only [bind_ok] at h ⊢
    obtain ⟨p, h4, h⟩ := h
    rw [characteristicD_sound h4]
    cases p with
    | err e => cases h; rfl
    | throws => cases h; rfl
    | undef => cases h
    | ok p =>
      simp only at h ⊢
      cases hs : Kss.isSupported d.infra p.ctc p.freight s.seq with
      | err e => rw [hs] at h; cases h; rfl
      | throws => rw [hs] at h; cases h; rfl
      | undef => rw [hs] at h; cases h
      | ok u =>
        rw [hs] at h
        simp only [bind_ok] at h ⊢
        obtain ⟨o, h5, h⟩ := h
        rw [transformD_sound h5]
        cases o <;> first | (cases h; rfl) | cases h

/-- C182: a train that is written as described, with full times, services that the assertions accept and no times where none can be
taken, is refused with the same error as without assertions. A train that is accepted without assertions is accepted with them iff as
many points are kept on its path as points are planned; otherwise the build is stopped. -/
theorem C182_read {x : Xml} {t : SaidTrain} (h : SaysTrain x t) (hl : AllFull x) (d : Data) (hd : StopsKnown d) (fuel : Nat)
    (hs : SameAs (parseElemsD t.services) (ServiceDays.parseElems t.services)) (hm : ∀ s ∈ t.stops, ¬ Unmeasured d s) :
    (∀ e, constructionTrain d fuel x = .err e → constructionTrainD d fuel x = .ok (.err e)) ∧
    ∀ k, constructionTrain d fuel x = .ok k →
      ((t.stops.filter fun s => decide s.Planned).length = k.stops.length → constructionTrainD d fuel x = .ok (.ok k)) ∧
      ((t.stops.filter fun s => decide s.Planned).length ≠ k.stops.length → Dbg.Stops (constructionTrainD d fuel x)) := by
  obtain ⟨p1, p2, p3, p4⟩ := says_parts h d
  obtain ⟨-, -, ⟨q, ks, q1, q2, q3, q4, q5⟩, -⟩ := h
  obtain ⟨days, e1, e2⟩ := hs
  have hseq : sequenceD d (child (some x) "sequence".toList) = .ok (sequence d.stations (child (some x) "sequence".toList)) := by
    rw [sequenceD, sequence, child_first q1, kids_members q2, eachD_same (f := stop d.stations), ok_bind]
    · cases each (stop d.stations) ks <;> rfl
    · intro a ha
      obtain ⟨s, h1, h2⟩ := forall₂_mem_left q3 ha
      exact (stopD_says h2 (hl q ks q1 q2 a ha) d hd).1 (hm s h1)
  have hst : ∀ s, sequence d.stations (child (some x) "sequence".toList) = .ok s →
      s.seq.points.countP (·.isMeasurable) = (t.stops.filter fun s => decide s.Planned).length := by
    intro s hs
    rw [sequence, child_first q1, kids_members q2] at hs
    rcases stops_say q3 d.stations with ⟨ss, g1, g2⟩ | ⟨e, g1, -⟩
    · rw [g1] at hs; cases hs
      exact planned_points q3 g2 _ _
    · rw [g1] at hs; cases hs
  rw [constructionTrain, constructionTrainD, p1, ok_bind, p2, e2, ok_bind, p3, e1, hseq, ok_bind]
  simp only
  cases hq : sequence d.stations (child (some x) "sequence".toList) with
  | err e => exact ⟨fun e' he => (by cases he; rfl), fun k hk => (by cases hk)⟩
  | throws => exact ⟨fun e he => (by cases he), fun k hk => (by cases hk)⟩
  | undef => exact ⟨fun e he => (by cases he), fun k hk => (by cases hk)⟩
  | ok s =>
    simp only
    rw [p4, ok_bind]
    cases characteristic d.series (child (some x) "characteristic".toList) with
    | err e => exact ⟨fun e' he => (by cases he; rfl), fun k hk => (by cases hk)⟩
    | throws => exact ⟨fun e he => (by cases he), fun k hk => (by cases hk)⟩
    | undef => exact ⟨fun e he => (by cases he), fun k hk => (by cases hk)⟩
    | ok p =>
      simp only
      cases Kss.isSupported d.infra p.ctc p.freight s.seq with
      | err e => exact ⟨fun e' he => (by cases he; rfl), fun k hk => (by cases hk)⟩
      | throws => exact ⟨fun e he => (by cases he), fun k hk => (by cases hk)⟩
      | undef => exact ⟨fun e he => (by cases he), fun k hk => (by cases hk)⟩
      | ok u =>
        simp only
        rw [transformD]
        cases transform d.infra d.ilk s p.freight fuel with
        | err e => exact ⟨fun e' he => (by cases he; rfl), fun k hk => (by cases hk)⟩
        | undef => exact ⟨fun e he => (by cases he), fun k hk => (by cases hk)⟩
        | running => exact ⟨fun e he => (by cases he), fun k hk => (by cases hk)⟩
        | ok path ss =>
          refine ⟨fun e he => (by cases he), fun k hk => ?_⟩
          cases hk
          simp only
          rw [hst s hq]
          constructor
          · intro hc; rw [check_pos hc]; rfl
          · intro hc; rw [check_neg hc]; exact ⟨_, rfl⟩

/-- C182: a train that has a time for passing a route without a node where times are taken stops a build with assertions, if all its
points are known. -/
theorem C182_checkpoint {x : Xml} {t : SaidTrain} (h : SaysTrain x t) (hl : AllFull x) (d : Data) (hd : StopsKnown d) (fuel : Nat)
    (hs : SameAs (parseElemsD t.services) (ServiceDays.parseElems t.services)) (hk : ∀ s ∈ t.stops, ∃ sr, Known d.stations s sr)
    (hm : ∃ s ∈ t.stops, Unmeasured d s) : Dbg.Stops (constructionTrainD d fuel x) := by
  obtain ⟨p1, p2, p3, p4⟩ := says_parts h d
  obtain ⟨-, -, ⟨q, ks, q1, q2, q3, q4, q5⟩, -⟩ := h
  obtain ⟨days, e1, e2⟩ := hs
  have hE : Dbg.Stops (eachD (stopD d) ks) := by
    apply eachD_stops
    · intro a ha
      obtain ⟨s, h1, h2⟩ := forall₂_mem_left q3 ha
      have h3 := stopD_says h2 (hl q ks q1 q2 a ha) d hd
      by_cases hu : Unmeasured d s
      · exact .inr (h3.2 hu)
      · obtain ⟨sr, hsr⟩ := hk s h1
        obtain ⟨st, h4, -⟩ := (stop_says h2 d.stations).1 sr hsr
        exact .inl ⟨st, by rw [h3.1 hu, h4]⟩
    · obtain ⟨s, h1, hu⟩ := hm
      obtain ⟨a, ha, h2⟩ := forall₂_mem_right q3 h1
      exact ⟨a, ha, (stopD_says h2 (hl q ks q1 q2 a ha) d hd).2 hu⟩
  obtain ⟨l, hl'⟩ := hE
  refine ⟨l, ?_⟩
  rw [constructionTrainD, p1, ok_bind, p2, e2, ok_bind, sequenceD, child_first q1, kids_members q2, hl']
  rfl

/-! The train of C164 with full times. -/

def exFull (b : String) : List Xml := [exPoint "A" [exHalt, exTime "departure" "10:00:00.00"], exPoint b [exTime "departure" "10:20:00.00"],
  exPoint "C" [exHalt, exTime "arrival" "11:00:00.00"]]

def exFullSaid (b : String) : List SaidStop := [⟨['A'], ['1'], .passenger, none, some 36000, 0⟩, ⟨b.toList, ['1'], .transit, none, some 37200, 0⟩,
  ⟨['C'], ['1'], .passenger, some 39600, none, 0⟩]

theorem exFull_says (b : String) : List.Forall₂ SaysStop (exFull b) (exFullSaid b) :=
  .cons ⟨exText "servicePoint" "A" [] _ rfl rfl, exText "trackSystem" "1" [leaf "servicePoint" "A"] _ rfl rfl, exHalt_says [_, _] [_] rfl rfl,
    exLacks rfl, exTime_says "departure" "10:00:00.00" [_, _, _] [] rfl rfl ⟨1, 0, 0, 0, 0, 0, ['.', '0', '0'], by decide, rfl⟩, .inl ⟨exLacks rfl, rfl⟩⟩
  (.cons ⟨exText "servicePoint" b [] _ rfl rfl, exText "trackSystem" "1" [leaf "servicePoint" b] _ rfl rfl, .inl ⟨exLacks rfl, rfl⟩,
    exLacks rfl, exTime_says "departure" "10:20:00.00" [_, _] [] rfl rfl ⟨1, 0, 2, 0, 0, 0, ['.', '0', '0'], by decide, rfl⟩, .inl ⟨exLacks rfl, rfl⟩⟩
  (.cons ⟨exText "servicePoint" "C" [] _ rfl rfl, exText "trackSystem" "1" [leaf "servicePoint" "C"] _ rfl rfl, exHalt_says [_, _] [_] rfl rfl,
    exTime_says "arrival" "11:00:00.00" [_, _, _] [] rfl rfl ⟨1, 1, 0, 0, 0, 0, ['.', '0', '0'], by decide, rfl⟩, exLacks rfl, .inl ⟨exLacks rfl, rfl⟩⟩ .nil))

theorem exFull_full (b : String) : AllFull (exConstruction (exFull b)) := by
  intro s ks h1 h2 k hk
  have e1 := child_first h1
  have e2 := kids_members h2
  rw [← e1] at e2
  have e3 : ks = exFull b := by rw [← e2]; rfl
  subst e3
  have key : ∀ n, n = "arrival".toList ∨ n = "departure".toList → ∀ c, child (some k) n = some c → (childText (some c) "time".toList).length = 11 := by
    simp only [exFull, List.mem_cons, List.not_mem_nil, or_false] at hk
    rcases hk with rfl | rfl | rfl <;> rintro n (rfl | rfl) c hc <;> cases hc <;> rfl
  intro n hn c t h3 h4
  rw [← childText_says h4]
  exact key n hn c (child_first h3)

theorem exServices_same : SameAs (parseElemsD (exMasks ++ exSpecials)) (ServiceDays.parseElems (exMasks ++ exSpecials)) := by
  have h : (parseElemsD (exMasks ++ exSpecials)).toOption.isSome = true := by decide +kernel
  cases e : parseElemsD (exMasks ++ exSpecials) with
  | error f => rw [e] at h; cases h
  | ok b => exact ⟨b, parseElemsD_sound e, rfl⟩

theorem exFull_is : List.Forall₂ (Is exStations) (exFullSaid "B") exStops :=
  .cons exStart_says.2 (.cons exMiddle_says.2 (.cons (exEnd_says _ eleven).2 .nil))

theorem exFull_measured (m : Text → Option Series) : ∀ s ∈ exFullSaid "B", ¬ Unmeasured (exData m) s := by
  rintro s hs ⟨h1, -, sr, r, ⟨routes, h2, h3⟩, h4, h5⟩
  simp only [exFullSaid, List.mem_cons, List.not_mem_nil, or_false] at hs
  rcases hs with rfl | rfl | rfl
  · cases h1
  · cases h2
    cases h3
    cases h4
    cases h5
  · cases h1

/-- all hypotheses of `C182_read` hold for a train over three stations, which is read with and without assertions -/
example : ∃ m k, constructionTrain (exData m) 4 (exConstruction (exFull "B")) = .ok k ∧ k.stops = exStops ∧
    constructionTrainD (exData m) 4 (exConstruction (exFull "B")) = .ok (.ok k) := by
  obtain ⟨m, v, h1, -⟩ := exCoreMap
  have h := exAccepted (exFull_says "B") exFull_is h1 (by decide) exTransform
  exact ⟨m, _, h, rfl, ((C182_read (exConstruction_says (exFull_says "B")) (exFull_full "B") (exData m) (exData_known m) 4 exServices_same
    (exFull_measured m)).2 _ h).1 (by show ((exFullSaid "B").filter fun s => decide s.Planned).length = exStops.length; decide)⟩

/-- all hypotheses of `C182_checkpoint` hold for a train that passes the station `A`, whose route has no such node -/
example (m : Text → Option Series) : Dbg.Stops (constructionTrainD (exData m) 4 (exConstruction (exFull "A"))) := by
  refine C182_checkpoint (exConstruction_says (exFull_says "A")) (exFull_full "A") (exData m) (exData_known m) 4 exServices_same ?_ ?_
  · intro s hs
    simp only [exSaid, exFullSaid, List.mem_cons, List.not_mem_nil, or_false] at hs
    rcases hs with rfl | rfl | rfl
    · exact ⟨0, _, rfl, rfl⟩
    · exact ⟨0, _, rfl, rfl⟩
    · exact ⟨2, _, rfl, rfl⟩
  · exact ⟨_, .tail _ (.head _), rfl, nofun, 0, _, ⟨_, rfl, rfl⟩, rfl, rfl⟩

/-- the hypothesis of `C182_same` holds for documents with errors as well: here a station is unknown -/
example (m : Text → Option Series) : constructionTrainD (exData m) 4 (exConstruction (exFull "X")) = .ok (.err .stationNotFound) := by
  have hm : ∀ s ∈ exFullSaid "X", ¬ Unmeasured (exData m) s := by
    rintro s hs ⟨h1, -, sr, r, ⟨routes, h2, h3⟩, -⟩
    simp only [exFullSaid, List.mem_cons, List.not_mem_nil, or_false] at hs
    rcases hs with rfl | rfl | rfl
    · cases h1
    · cases h2
    · cases h1
  refine (C182_read (exConstruction_says (exFull_says "X")) (exFull_full "X") (exData m) (exData_known m) 4 exServices_same hm).1 _ ?_
  rw [constructionTrain, (says_parts (exConstruction_says (exFull_says "X")) (exData m)).2.2.1, show ServiceDays.parseElems (exSaid (exFullSaid "X")).services = some exDays from exDays_read]
  rfl

/-- the data of the second example of C85, where a checkpoint stands on two routes -/
def exTwice (m : Text → Option Series) : Data := ⟨twiceInfra, ilkOf twiceInfra twiceRoutes, exStations, m⟩

/-- C182: a train that gets a point twice, as in C85, is accepted without assertions and stops a build with them. -/
theorem C182_twice : ∃ (d : Data) (x : Xml) (t : SaidTrain) (k : KTrain), SaysTrain x t ∧ AllFull x ∧ StopsKnown d ∧
    (∀ s ∈ t.stops, ¬ Unmeasured d s) ∧ t.stops.Nodup ∧ constructionTrain d 4 x = .ok k ∧ k.stops.length = t.stops.length + 1 ∧
    Dbg.Stops (constructionTrainD d 4 x) := by
  obtain ⟨m, v, h1, -⟩ := exCoreMap
  have hk : StopsKnown (exTwice m) := by
    intro n routes k sr q1 q2
    obtain ⟨s, hs⟩ := exData_known m n routes k sr q1 q2
    have hlt : sr < 3 := (List.getElem?_eq_some_iff.1 hs).1
    exact ⟨_, List.getElem?_eq_getElem (l := twiceInfra.stops) hlt⟩
  have hu : ∀ s ∈ exFullSaid "B", ¬ Unmeasured (exTwice m) s := by
    rintro s hs ⟨h1, -, sr, r, ⟨routes, h2, h3⟩, h4, h5⟩
    simp only [exFullSaid, List.mem_cons, List.not_mem_nil, or_false] at hs
    rcases hs with rfl | rfl | rfl
    · cases h1
    · cases h2; cases h3; cases h4; cases h5
    · cases h1
  have ht : transform twiceInfra (ilkOf twiceInfra twiceRoutes) ⟨exStops, false, false⟩ false 4 =
      .ok [0, 2, 3] [⟨.passenger, 4294967295, 36000, 0, 0⟩, exStopMiddle, exStopMiddle, ⟨.passenger, 39600, 4294967295, 0, 2⟩] := by
    decide +kernel
  have hs := exConstruction_says (exFull_says "B")
  have hr : constructionTrain (exTwice m) 4 (exConstruction (exFull "B")) = .ok (exRead v [0, 2, 3]
      [⟨.passenger, 4294967295, 36000, 0, 0⟩, exStopMiddle, exStopMiddle, ⟨.passenger, 39600, 4294967295, 0, 2⟩]) := by
    refine (C164_accepted hs (exTwice m) hk 4 _).2 ⟨exStops, exFull_is, .cons h1 .nil, ?_, ht, exDays_read, rfl, rfl, rfl, rfl, rfl, rfl, rfl, rfl⟩
    exact (Kss.C68_supported _ _ _ _ (known_stops hk exFull_is false false)).1.1
      (by show Kss.isSupported twiceInfra false false ⟨exStops.map Stop.point, false, false⟩ = _; decide)
  exact ⟨exTwice m, _, _, _, hs, exFull_full "B", hk, hu, by show (exFullSaid "B").Nodup; simp [exFullSaid], hr, rfl,
    ((C182_read hs (exFull_full "B") (exTwice m) hk 4 exServices_same hu).2 _ hr).2
      (by show ((exFullSaid "B").filter fun s => decide s.Planned).length ≠ 4; decide)⟩

end Soro.KssXml
