import Verif.Props.KssTextDebug
import Verif.Props.KssDebug
import Verif.Props.KssXml
import Verif.Spec.KssTrainDebug

/-! Lemmas about construction trains in a build with assertions. -/

namespace Soro.Bitfield
open Dbg Kss

theorem distD_sound {a b : Int} {n : Nat} (h : distD a b = .ok n) : n = dist a b ∧ a ≤ b := by
  unfold distD at h
  simp only [bind_ok, check_ok] at h
  obtain ⟨-, -, -, -, -, h1, h2⟩ := h
  cases h2
  exact ⟨rfl, h1⟩

theorem setD_sound {b r : Bitfield} {d : Int} {v : Bool} (h : b.setD d v = .ok r) : b.set d v = some r := by
  unfold setD at h
  simp only [bind_ok, check_ok] at h
  obtain ⟨b', hb, n, h1, -, -, i, h2, h3⟩ := h
  have hw : b' = if d < b.first then { b with bits := b.bits <<< dist d b.first, first := d }
      else if d ≤ b.last then b else { b with last := d } := by
    unfold widenD at hb
    split at hb
    · rename_i hlt
      simp only [bind_ok] at hb
      obtain ⟨m, hm, hb⟩ := hb
      cases hb
      rw [if_pos hlt, (distD_sound hm).1]
    · rename_i hlt
      rw [if_neg hlt]
      split at hb
      · rename_i hle; cases hb; rw [if_pos hle]
      · rename_i hle; cases hb; rw [if_neg hle]
  unfold getIdxD at h2
  simp only [bind_ok, check_ok] at h2
  obtain ⟨-, -, h2⟩ := h2
  have hi := (distD_sound h2).1
  unfold set
  rw [← hw]
  simp only
  rw [← hi]
  split at h3
  · rename_i hlt; cases h3; rw [if_pos hlt]
  · cases h3

theorem unionD_sound {a o r : Bitfield} (h : a.unionD o = .ok r) : a.union o = r := by
  unfold unionD at h
  simp only [bind_ok] at h
  obtain ⟨-, -, -, -, h⟩ := h
  split at h
  · simp only [bind_ok] at h
    obtain ⟨-, -, h⟩ := h
    cases h; rfl
  · simp only [bind_ok] at h
    obtain ⟨-, -, h⟩ := h
    cases h; rfl

theorem makeD_sound {f l : Int} {m : List Char} {r : Bitfield} (h : makeD f l m = .ok r) : make f l m = some r := by
  unfold makeD at h
  simp only [bind_ok] at h
  obtain ⟨-, -, -, -, -, -, h⟩ := h
  cases hm : make f l m with
  | none => rw [hm] at h; cases h
  | some b => rw [hm] at h; cases h; rfl

end Soro.Bitfield

namespace Soro.Kss
open Dbg Utls Dates ServiceDays

theorem parseDateD_sound {s : List Char} {x : Ymd} (h : parseDateD s = .ok x) : parseDate s = some x := by
  by_cases hs : ∃ x, Dates.Spec.NumbersOf s x ∧ Dates.Spec.Valid x
  · obtain ⟨y, h1, h2⟩ := hs
    obtain ⟨z, h3, h4⟩ := (C174_date s).1 y h1 h2
    rw [h] at h4; cases h4
    exact h3
  · obtain ⟨l, hl⟩ := (C174_date s).2 hs
    rw [hl] at h; cases h

theorem maskD_sound {a a' : Acc} {f l : Int} {m : List Char} (h : maskD a f l m = .ok a') : step a.bf (.mask f l m) = some a'.bf := by
  unfold maskD at h
  simp only [bind_ok] at h
  obtain ⟨-, -, -, -, bf, h1, b, h2, h3⟩ := h
  cases h3
  rw [step, Bitfield.makeD_sound h1, Option.map_some]
  unfold joinD at h2
  split at h2
  · rename_i hok; rw [if_pos hok, Bitfield.unionD_sound h2]
  · rename_i hok; cases h2; rw [if_neg hok]

theorem specialD_sound {a a' : Acc} {d : Int} {k : Kind} (h : specialD a d k = .ok a') : step a.bf (.special d k) = some a'.bf := by
  cases k with
  | incl =>
    simp only [specialD, bind_ok] at h
    obtain ⟨b, h1, h2⟩ := h
    cases h2
    rw [step, Bitfield.setD_sound h1]
  | excl =>
    simp only [specialD, bind_ok] at h
    obtain ⟨b, h1, h2⟩ := h
    cases h2
    rw [step, Bitfield.setD_sound h1]
  | other => cases h; rfl

theorem elemD_sound {a a' : Acc} {e : Elem} (h : elemD a e = .ok a') : ∃ s, readElem e = some s ∧ step a.bf s = some a'.bf := by
  cases e with
  | mask s e m =>
    simp only [elemD, bind_ok] at h
    obtain ⟨x, h1, y, h2, h3⟩ := h
    exact ⟨_, by rw [readElem, parseDateD_sound h1, parseDateD_sound h2]; rfl, maskD_sound h3⟩
  | special d ty =>
    simp only [elemD, bind_ok] at h
    obtain ⟨-, -, x, h2, h3⟩ := h
    exact ⟨_, by rw [readElem, parseDateD_sound h2]; rfl, specialD_sound h3⟩

theorem elemsD_sound {es : List Elem} : ∀ {a a' : Acc}, elemsD a es = .ok a' → ∃ ss, es.mapM readElem = some ss ∧ services a.bf ss = some a'.bf := by
  induction es with
  | nil => intro a a' h; cases h; exact ⟨[], rfl, rfl⟩
  | cons e es ih =>
    intro a a' h
    simp only [elemsD, bind_ok] at h
    obtain ⟨b, h1, h2⟩ := h
    obtain ⟨s, q1, q2⟩ := elemD_sound h1
    obtain ⟨ss, q3, q4⟩ := ih h2
    refine ⟨s :: ss, ?_, ?_⟩
    · rw [List.mapM_cons, q1, q3]; rfl
    · rw [services, q2, Option.bind_some, q4]

theorem parseElemsD_sound {es : List Elem} {b : Bitfield} (h : parseElemsD es = .ok b) : parseElems es = some b := by
  unfold parseElemsD at h
  simp only [bind_ok] at h
  obtain ⟨-, -, a, h1, h2⟩ := h
  unfold finishD at h2
  simp only [bind_ok] at h2
  obtain ⟨-, -, -, -, h2⟩ := h2
  cases h2
  obtain ⟨ss, q1, q2⟩ := elemsD_sound h1
  rw [parseElems, q1, Option.bind_some, parseServices, q2]

theorem parseIntD_sound {t : IntTy} {s : List Char} {v : Int} (h : parseIntD t s = .ok v) : parseInt t s = v := by
  obtain ⟨h1, h2⟩ := (parseIntD_ok t s v).1 h
  exact ((C180_int t s).1 v h1 h2).2

theorem parseFpD_sound {s : List Char} {o : Option Rat} (h : ParseFp.parseFpD false s = .ok o) : ParseFp.parseFp false s = o := by
  obtain ⟨q, rfl, hq⟩ := (parseFpD_ok s o).1 h
  exact ((ParseFp.C180_fp false s).1 q hq).2

theorem parseTimeOffsetD_sound {s : List Char} {l : Bool} {n : Nat} (h : parseTimeOffsetD s l = .ok n) : parseTimeOffset s l = some n := by
  by_cases hs : ∃ sec, TimeText s sec
  · obtain ⟨sec, hs⟩ := hs
    obtain ⟨h1, h2⟩ := (C181_time s l).1 sec hs
    rw [h] at h1; cases h1
    exact h2
  · obtain ⟨k, hk⟩ := (C181_time s l).2 hs
    rw [hk] at h; cases h

end Soro.Kss

namespace Soro.KssXml
open Dbg Utls Utls.Spec TypeNames ParseFp IssElement IssFiles TrainSeries Train Transform Kss

theorem timeOfD_sound {x : Option Xml} {n : Nat} (h : timeOfD x = .ok n) : timeOf x = some n := by
  cases x with
  | none => cases h; rfl
  | some x => exact parseTimeOffsetD_sound h

theorem minStopOfD_sound {x : Option Xml} {n : Nat} (h : minStopOfD x = .ok n) : minStopOf x = .ok n := by
  cases x with
  | none => cases h; rfl
  | some x => exact (C181_duration x.text n).2 h

theorem stopD_sound {d : Data} {x : Xml} {r : Res Stop} (h : stopD d x = .ok r) : stop d.stations x = r := by
  unfold stopD at h
  unfold stop
  cases h1 : d.stations (childText (some x) "servicePoint".toList) with
  | none => rw [h1] at h; cases h; rfl
  | some routes =>
    rw [h1] at h
    simp only at h ⊢
    cases h2 : routes (childText (some x) "trackSystem".toList) with
    | none => rw [h2] at h; cases h; rfl
    | some sr =>
      rw [h2] at h
      simp only [bind_ok] at h ⊢
      obtain ⟨arr, ha, dep, hd, h⟩ := h
      rw [timeOfD_sound ha, timeOfD_sound hd]
      cases hm : modeOf (child (some x) "stopMode".toList) with
      | none => rw [hm] at h; cases h; rfl
      | some ty =>
        rw [hm] at h
        simp only [bind_ok] at h ⊢
        obtain ⟨m, h3, h⟩ := h
        rw [minStopOfD_sound h3]
        split at h
        · simp only [bind_ok] at h
          obtain ⟨-, -, -, -, h⟩ := h
          cases h; rfl
        · cases h; rfl

theorem eachD_sound {α β : Type} {fD : α → Dbg (Res β)} {f : α → Res β} (hf : ∀ a r, fD a = .ok r → f a = r) {as : List α} :
    ∀ {r : Res (List β)}, eachD fD as = .ok r → each f as = r := by
  induction as with
  | nil => intro r h; cases h; rfl
  | cons a as ih =>
    intro r h
    simp only [eachD, bind_ok] at h
    obtain ⟨x, h1, h⟩ := h
    rw [each, hf a x h1]
    cases x with
    | ok b =>
      simp only [bind_ok] at h
      obtain ⟨y, h2, h⟩ := h
      rw [ih h2]
      cases y <;> (cases h; rfl)
    | err e => cases h; rfl
    | throws => cases h; rfl
    | undef => cases h; rfl

theorem sequenceD_sound {d : Data} {x : Option Xml} {r : Res Sequence} (h : sequenceD d x = .ok r) : sequence d.stations x = r := by
  simp only [sequenceD, bind_ok] at h
  obtain ⟨y, h1, h⟩ := h
  rw [sequence, eachD_sound (fun a r => stopD_sound) h1]
  cases y <;> (cases h; rfl)

theorem vehicleD_sound {rs : Text → Option Series} {x : Xml} {r : Res Vehicle} (h : vehicleD rs x = .ok r) : vehicle rs x = r := by
  unfold vehicleD at h
  simp only [bind_ok] at h
  obtain ⟨v, h1, o, h2, h⟩ := h
  unfold vehicle
  simp only
  rw [parseIntD_sound h1]
  generalize getTractionVehicle rs _ _ _ = q at h2
  cases q with
  | none => cases h2
  | some o' =>
    cases h2
    cases o <;> (cases h; rfl)

theorem characteristicD_sound {rs : Text → Option Series} {x : Option Xml} {r : Res Physics} (h : characteristicD rs x = .ok r) :
    characteristic rs x = r := by
  simp only [characteristicD, bind_ok] at h
  obtain ⟨y, h1, h⟩ := h
  rw [characteristic, eachD_sound (fun a r => vehicleD_sound) h1]
  cases y with
  | ok vs =>
    simp only [bind_ok] at h
    obtain ⟨l, hl, w, hw, s, hs, h⟩ := h
    cases h
    rw [parseFpD_sound hl, parseFpD_sound hw, parseFpD_sound hs]
  | err e => cases h; rfl
  | throws => cases h; rfl
  | undef => cases h; rfl

theorem trainNumberD_sound {x : Option Xml} {n : Nat × Nat} (h : trainNumberD x = .ok n) : trainNumber x = n := by
  simp only [trainNumberD, bind_ok] at h
  obtain ⟨a, h1, b, h2, h⟩ := h
  cases h
  rw [trainNumber, parseIntD_sound h1, parseIntD_sound h2]

theorem transformD_sound {i : Infra} {k : Ilk} {s : Sequence} {freight : Bool} {fuel : Nat} {o : Outcome}
    (h : transformD i k s freight fuel = .ok o) : transform i k s freight fuel = o := by
  unfold transformD at h
  cases ht : transform i k s freight fuel with
  | undef => rw [ht] at h; cases h
  | ok path ss =>
    rw [ht] at h
    simp only [bind_ok] at h
    obtain ⟨-, -, h⟩ := h
    cases h; rfl
  | err e => rw [ht] at h; cases h; rfl
  | running => rw [ht] at h; cases h; rfl

/-! ### documents that are written as described -/

theorem clock_time {s : Text} {sec : Nat} (h : Clock s sec) (hl : s.length = 11) : TimeText s sec := by
  obtain ⟨h1, h2, m1, m2, s1, s2, rest, rfl, rfl⟩ := h
  match rest, hl with
  | [c, d, e], _ => exact ⟨h1, h2, m1, m2, s1, s2, ':', ':', c, d, e, rfl, rfl⟩

theorem time_small {x : Xml} {n : Text} {t : Nat} (h : SaysTime x n (some t)) : t ≠ NEVER := by
  obtain ⟨k, s, sec, -, -, ⟨h1, h2, m1, m2, s1, s2, rest, -, rfl⟩, h4⟩ := h
  have : t < 500000 := by
    rcases h4 with ⟨-, rfl⟩ | ⟨-, rfl⟩ <;> omega
  unfold NEVER
  omega

theorem timeOfD_says {x : Xml} {n : Text} {t : Option Nat} (h : SaysTime x n t)
    (hl : ∀ k s, First x n k → SaysText k "time".toList s → s.length = 11) :
    ∃ v, timeOfD (child (some x) n) = .ok v ∧ timeOf (child (some x) n) = some v ∧ Timed v t := by
  obtain ⟨v, h1, h2⟩ := timeOf_says h
  refine ⟨v, ?_, h1, h2⟩
  cases t with
  | none =>
    rw [child_lacks h] at h1 ⊢
    cases h1; rfl
  | some t =>
    obtain ⟨k, s, sec, q1, q2, q3, q4⟩ := h
    rw [child_first q1] at h1 ⊢
    rw [timeOf, childText_says q2] at h1
    rw [timeOfD, childText_says q2]
    obtain ⟨e1, e2⟩ := (C181_time s (child (some k) "nightLeap".toList).isSome).1 sec (clock_time q3 (hl k s q1 q2))
    rw [e2] at h1; cases h1
    exact e1

theorem minStopOfD_says {x : Xml} {d : Nat} (h : SaysMinStop x d) : minStopOfD (child (some x) "minStopTime".toList) = .ok d := by
  rcases h with ⟨h, rfl⟩ | ⟨k, fs, h1, h2, rfl, h3⟩
  · rw [child_lacks h]; rfl
  · rw [child_first h1, minStopOfD, h2, C181_fields fs h3]

/-- one point: as in a release build, or stopped because times cannot be taken -/
theorem stopD_says {x : Xml} {s : SaidStop} (h : SaysStop x s) (hl : FullTimes x) (d : Data) (hd : StopsKnown d) :
    (¬ Unmeasured d s → stopD d x = .ok (stop d.stations x)) ∧ (Unmeasured d s → Dbg.Stops (stopD d x)) := by
  obtain ⟨h1, h2, h3, h4, h5, h6⟩ := h
  obtain ⟨a, ha, ha', -⟩ := timeOfD_says h4 (hl _ (.inl rfl))
  obtain ⟨b, hb, hb', tb⟩ := timeOfD_says h5 (hl _ (.inr rfl))
  have hdep : b ≠ NEVER ↔ s.departure ≠ none := by
    rcases tb with tb | ⟨tb, rfl⟩
    · rw [tb] at h5 ⊢
      simp [time_small h5]
    · rw [tb]; simp [NEVER]
  have hstop : stop d.stations x = match d.stations s.station with
      | none => .err .stationNotFound
      | some routes => match routes s.route with
        | none => .err .stationRouteNotFound
        | some sr => .ok ⟨s.ty, a, b, s.minStop, sr⟩ := by
    rw [stop, childText_says h1, childText_says h2, ha', hb', modeOf_says h3, minStopOf_says h6]
    cases d.stations s.station with
    | none => rfl
    | some routes =>
      simp only
      cases routes s.route <;> rfl
  have hstopD : stopD d x = match d.stations s.station with
      | none => .ok (.err .stationNotFound)
      | some routes => match routes s.route with
        | none => .ok (.err .stationRouteNotFound)
        | some sr => if s.ty = .transit ∧ b ≠ NEVER then (do
            let r ← lift d.infra.stops[sr]?
            check 279 (r.checkpoint.isSome = true)
            return .ok ⟨s.ty, a, b, s.minStop, sr⟩)
          else .ok (.ok ⟨s.ty, a, b, s.minStop, sr⟩) := by
    rw [stopD, childText_says h1, childText_says h2]
    cases d.stations s.station with
    | none => rfl
    | some routes =>
      simp only
      cases routes s.route with
      | none => rfl
      | some sr =>
        simp only
        rw [ha, ok_bind, hb, ok_bind, modeOf_says h3]
        simp only
        rw [minStopOfD_says h6, ok_bind]
        rfl
  rw [hstop, hstopD]
  constructor
  · intro hu
    cases e1 : d.stations s.station with
    | none => rfl
    | some routes =>
      simp only
      cases e2 : routes s.route with
      | none => rfl
      | some sr =>
        simp only
        obtain ⟨r, hr⟩ := hd _ _ _ _ e1 e2
        by_cases hc : s.ty = .transit ∧ b ≠ NEVER
        · have hcp : r.checkpoint.isSome = true := by
            cases hcp : r.checkpoint with
            | some _ => rfl
            | none => exact absurd ⟨hc.1, hdep.1 hc.2, sr, r, ⟨routes, e1, e2⟩, hr, hcp⟩ hu
          rw [if_pos hc, hr]
          show (check 279 _ >>= _) = _
          rw [check_pos hcp]; rfl
        · rw [if_neg hc]
  · rintro ⟨q1, q2, sr, r, ⟨routes, e1, e2⟩, hr, hcp⟩
    rw [e1]
    simp only
    rw [e2]
    simp only
    rw [if_pos ⟨q1, hdep.2 q2⟩, hr]
    have hn : ¬ r.checkpoint.isSome = true := by rw [hcp]; simp
    refine ⟨279, ?_⟩
    show (check 279 _ >>= _) = _
    rw [check_neg hn]; rfl

theorem eachD_same {α β : Type} {fD : α → Dbg (Res β)} {f : α → Res β} {as : List α} (h : ∀ a ∈ as, fD a = .ok (f a)) :
    eachD fD as = .ok (each f as) := by
  induction as with
  | nil => rfl
  | cons a as ih =>
    rw [eachD, each, h a (by simp), ok_bind]
    cases f a with
    | ok b =>
      simp only
      rw [ih (fun x hx => h x (by simp [hx])), ok_bind]
      cases each f as <;> rfl
    | err e => rfl
    | throws => rfl
    | undef => rfl

theorem eachD_stops {α β : Type} {fD : α → Dbg (Res β)} {as : List α} (h : ∀ a ∈ as, (∃ b, fD a = .ok (.ok b)) ∨ Dbg.Stops (fD a))
    (hs : ∃ a ∈ as, Dbg.Stops (fD a)) : Dbg.Stops (eachD fD as) := by
  induction as with
  | nil => obtain ⟨a, ha, -⟩ := hs; cases ha
  | cons a as ih =>
    rw [eachD]
    rcases h a (by simp) with ⟨b, hb⟩ | ⟨l, hl⟩
    · obtain ⟨c, hc, hcs⟩ := hs
      rw [hb, ok_bind]
      simp only
      rcases List.mem_cons.1 hc with rfl | hc
      · obtain ⟨l, hl⟩ := hcs
        rw [hb] at hl; cases hl
      · obtain ⟨l, hl⟩ := ih (fun x hx => h x (by simp [hx])) ⟨c, hc, hcs⟩
        rw [hl]; exact ⟨l, rfl⟩
    · rw [hl]; exact ⟨l, rfl⟩

theorem parseIntD_writes {b : Nat} {s : Text} {n : Nat} (h : Writes s n) (hn : n < 2 ^ (8 * b)) : parseIntD ⟨false, b⟩ s = .ok n := by
  obtain ⟨h1, h2, rfl⟩ := h
  exact (parseIntD_nat b s _).2 ⟨_, rfl, .inl ⟨h1, h2, rfl⟩, hn⟩

theorem vehicleD_says {x : Xml} {u : SaidUnit} (h : SaysUnit x u) (m : Text → Option Series) : vehicleD m x = .ok (vehicle m x) := by
  obtain ⟨s, k, ds, h1, h2, h3, h4, h5, h6, h7, h8, h9⟩ := h
  unfold vehicleD vehicle
  simp only
  rw [child_first h1, childText_says h5, parseIntD_writes (b := 4) h6 h7, ok_bind, parseInt_writes (b := 4) h6 h7, childText_first h2,
    child_first h2, h3, attr_has h4, Int.toNat_natCast, getTractionVehicle, dataText_shows (v := view u.series) ⟨[], rfl⟩ h8,
    dataText_shows (v := view u.owner) ⟨[], rfl⟩ h9]
  simp only [Option.bind_some]
  cases (m (u.series ++ '-' :: u.owner)).bind fun s => s.variants u.variant <;> rfl

theorem decimalD_says {x : Xml} {n : Text} {q : Rat} (h : SaysDecimal x n q) : parseFpD false (childText (some x) n) = .ok (some q) := by
  obtain ⟨k, h1, h2⟩ := h
  rw [childText_first h1]
  exact (parseFpD_ok _ _).2 ⟨q, rfl, decimal_floating h2⟩

theorem timed_never {x : Xml} {n : Text} {o : Option Nat} {v : Nat} (h : SaysTime x n o) (ht : Timed v o) : v ≠ NEVER ↔ o ≠ none := by
  rcases ht with rfl | ⟨rfl, rfl⟩
  · simp [time_small h]
  · simp [NEVER]

theorem planned_points {ks : List Xml} {ds : List SaidStop} {ss : List Stop} {st : Stations} (h : List.Forall₂ SaysStop ks ds)
    (h' : List.Forall₂ (Is st) ds ss) (bi bo : Bool) :
    (Sequence.seq ⟨ss, bi, bo⟩).points.countP (·.isMeasurable) = (ds.filter fun s => decide s.Planned).length := by
  rw [← List.countP_eq_length_filter]
  show (ss.map Stop.point).countP _ = _
  induction h generalizing ss with
  | nil => cases h'; rfl
  | @cons x d ks ds h1 _ ih =>
    cases h' with
    | @cons _ s _ ss h2 h3 =>
      rw [List.map_cons, List.countP_cons, List.countP_cons, ih h3]
      congr 1
      have hd := timed_never h1.2.2.2.2.1 h2.departure
      have : s.point.isMeasurable = true ↔ d.Planned := by
        unfold SaidStop.Planned
        rw [← hd, ← h2.ty]
        simp only [SPoint.isMeasurable, SPoint.hasTransitTime, SPoint.isHalt, Stop.point]
        by_cases e1 : s.ty = .transit <;> by_cases e2 : s.departure = NEVER <;> simp [e1, e2]
      simp [this]

theorem forall₂_mem_left {α β : Type} {R : α → β → Prop} {as : List α} {bs : List β} (h : List.Forall₂ R as bs) {a : α} (ha : a ∈ as) :
    ∃ b ∈ bs, R a b := by
  induction h with
  | nil => cases ha
  | cons h1 _ ih =>
    rcases List.mem_cons.1 ha with rfl | ha
    · exact ⟨_, by simp, h1⟩
    · obtain ⟨b, hb, h2⟩ := ih ha
      exact ⟨b, by simp [hb], h2⟩

theorem says_parts {x : Xml} {t : SaidTrain} (h : SaysTrain x t) (d : Data) :
    trainNumberD (child (some x) "trainNumber".toList) = .ok (trainNumber (child (some x) "trainNumber".toList)) ∧
    servicesD (child (some x) "services".toList) = parseElemsD t.services ∧
    services (child (some x) "services".toList) = ServiceDays.parseElems t.services ∧
    characteristicD d.series (child (some x) "characteristic".toList) = .ok (characteristic d.series (child (some x) "characteristic".toList)) := by
  obtain ⟨⟨kn, n1, ⟨m1, a1, a2, a3⟩, ⟨m2, b1, b2, b3⟩⟩, ⟨kss, s1, s2⟩, -, ⟨c, us, c1, c2, c3, c4, c5, c6, c7, c8⟩⟩ := h
  have hser : ((kids (child (some x) "services".toList)).filter fun k => k.name == "service".toList).map service = t.services := by
    rw [kids_members s1, filter_beq]
    clear s1
    generalize (kss.filter fun k => decide (k.name = "service".toList)) = l at s2
    generalize t.services = l' at s2
    induction s2 with
    | nil => rfl
    | cons h _ ih => rw [List.map_cons, service_says h, ih]
  refine ⟨?_, by rw [servicesD, hser], by rw [services, hser], ?_⟩
  · rw [trainNumberD, trainNumber, child_first n1, childText_says a1, childText_says b1, parseIntD_writes (b := 4) a2 a3,
      parseIntD_writes (b := 2) b2 b3, parseInt_writes (b := 4) a2 a3, parseInt_writes (b := 2) b2 b3]
    rfl
  · have hu : eachD (vehicleD d.series) us = .ok (each (vehicle d.series) us) := by
      apply eachD_same
      intro a ha
      obtain ⟨u, -, hu⟩ := forall₂_mem_left c3 ha
      exact vehicleD_says hu d.series
    rw [characteristicD, characteristic, child_first c1, kids_members c2, hu, ok_bind]
    cases each (vehicle d.series) us with
    | ok vs =>
      simp only
      rw [decimalD_says c5, ok_bind, decimalD_says c4, ok_bind, decimalD_says c6, ok_bind, decimal_says c4, decimal_says c5, decimal_says c6]
      rfl
    | err e => rfl
    | throws => rfl
    | undef => rfl

end Soro.KssXml
