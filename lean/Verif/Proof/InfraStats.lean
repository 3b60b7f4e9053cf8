import Verif.Spec.InfraStats
import Verif.Props.Border
import Mathlib.Data.Finset.Card
import Mathlib.Data.Finset.Dedup
import Mathlib.Algebra.BigOperators.Group.Finset.Basic
import Mathlib.Algebra.Order.BigOperators.Group.Finset
import Mathlib.Algebra.BigOperators.Group.Finset.Sigma
import Mathlib.Algebra.Group.Action.Defs

/-! Lemmas about the statistics of rail plans. -/

namespace Soro.InfraStats
open TypeNames IssElement IssFiles Spec

/-! ### counting -/

/-- number of nodes of a type -/
def cnt (xs : List Xml) (t : Ty) : Nat := xs.countP fun x => decide (getType x.name = t)

theorem foldNode (xs : List Xml) (n : Ty → Nat) (t : Ty) :
    xs.foldl countNode n t = n t + if t = .invalid then 0 else cnt xs t := by
  induction xs generalizing n with
  | nil => simp [cnt]
  | cons x xs ih =>
    rw [List.foldl_cons, ih, countNode, cnt, cnt, List.countP_cons]
    by_cases hi : getType x.name = .invalid
    · by_cases ht : t = .invalid
      · simp [hi, ht]
      · have : ¬ Ty.invalid = t := fun h => ht h.symm
        simp [hi, ht, this]
    · by_cases ht : t = getType x.name
      · have : ¬ t = .invalid := by rw [ht]; exact hi
        simp [ht, hi]; omega
      · have : ¬ getType x.name = t := fun h => ht h.symm
        simp [ht, hi, this]

theorem foldSection (ss : List Xml) (is : Stats) :
    (ss.foldl countSection is).sections = is.sections + ss.length ∧ (ss.foldl countSection is).stations = is.stations ∧
    ∀ t, (ss.foldl countSection is).number t = is.number t + if t = .invalid then 0 else cnt (ss.flatMap nodes) t := by
  induction ss generalizing is with
  | nil => simp [cnt]
  | cons s ss ih =>
    obtain ⟨h1, h2, h3⟩ := ih (countSection is s)
    rw [List.foldl_cons]
    refine ⟨by rw [h1]; simp [countSection]; omega, by rw [h2]; rfl, fun t => ?_⟩
    have h4 : (countSection is s).number t = is.number t + if t = .invalid then 0 else cnt (nodes s) t := foldNode _ _ _
    rw [h3, h4, List.flatMap_cons, cnt, cnt, cnt, List.countP_append]
    by_cases ht : t = .invalid
    · simp [ht]
    · simp only [if_neg ht]; omega

theorem foldStation (ds : List Xml) (is : Stats) :
    (ds.foldl countStation is).sections = is.sections + (ds.flatMap sections).length ∧
    (ds.foldl countStation is).stations = is.stations + ds.length ∧
    ∀ t, (ds.foldl countStation is).number t =
      is.number t + if t = .invalid then 0 else cnt ((ds.flatMap sections).flatMap nodes) t := by
  induction ds generalizing is with
  | nil => simp [cnt]
  | cons d ds ih =>
    obtain ⟨h1, h2, h3⟩ := ih (countStation is d)
    obtain ⟨h4, h5, h6⟩ := foldSection (sections d) { is with stations := is.stations + 1 }
    rw [List.foldl_cons]
    refine ⟨by rw [h1, countStation, h4]; simp; omega, by rw [h2, countStation, h5]; simp; omega, fun t => ?_⟩
    rw [h3, countStation, h6, List.flatMap_cons, List.flatMap_append, cnt, cnt, cnt, List.countP_append]
    by_cases ht : t = .invalid
    · simp [ht]
    · simp only [if_neg ht]; omega

/-- number of stations -/
def stationCount (files : List (Option Xml)) : Nat := ((files.flatMap Option.toList).flatMap stations).length

theorem countFiles_spec (files : List (Option Xml)) (is : Stats) (ss : List Xml) (h : allSections files = some ss) :
    ∃ r, countFiles files is = some r ∧ r.sections = is.sections + ss.length ∧
      r.stations = is.stations + stationCount files ∧
      ∀ t, r.number t = is.number t + if t = .invalid then 0 else cnt (ss.flatMap nodes) t := by
  induction files generalizing is ss with
  | nil =>
    simp only [allSections, Option.some.injEq] at h
    subst h
    exact ⟨is, rfl, rfl, rfl, by simp [cnt]⟩
  | cons d ds ih =>
    cases d with
    | none => simp [allSections] at h
    | some d =>
      simp only [allSections, Option.map_eq_some_iff] at h
      obtain ⟨ss', hs, rfl⟩ := h
      obtain ⟨r, h1, h2, h3, h4⟩ := ih ((stations d).foldl countStation is) ss' hs
      obtain ⟨h5, h6, h7⟩ := foldStation (stations d) is
      refine ⟨r, h1, by rw [h2, h5]; simp; omega, by rw [h3, h6]; simp [stationCount]; omega, fun t => ?_⟩
      rw [h4, h7, List.flatMap_append, cnt, cnt, cnt, List.countP_append]
      by_cases ht : t = .invalid
      · simp [ht]
      · simp only [if_neg ht]; omega

theorem countFiles_none (files : List (Option Xml)) (is : Stats) (h : allSections files = none) : countFiles files is = none := by
  induction files generalizing is with
  | nil => simp [allSections] at h
  | cons d ds ih =>
    cases d with
    | none => rfl
    | some d =>
      simp only [allSections, Option.map_eq_none_iff] at h
      exact ih _ h

/-! ### creating -/

def touches : Req → Nat → Prop
  | .fin _ id m, i => i = id ∨ i = m
  | .track _ id, i => i = id
  | .gap, i => i = 2 ^ 64 - 1

theorem step_touch (p : Plan) (r : Req) (i : Nat) : (p.step r).idOf i ≠ none ↔ p.idOf i ≠ none ∨ touches r i := by
  cases r with
  | fin t id m =>
    unfold Plan.step touches
    cases hm : p.idOf m with
    | some e =>
      by_cases hid : id = m
      · subst hid
        simp only [hm, if_pos]
        constructor
        · exact .inl
        · rintro (h | h)
          · exact h
          · have : i = id := by simpa using h
            rw [this, hm]; simp
      · simp only [hm, if_neg hid]
        by_cases hi : i = id
        · simp [hi]
        · simp only [if_neg hi]
          constructor
          · exact .inl
          · rintro (h | h | h)
            · exact h
            · exact absurd h hi
            · rw [h, hm]; simp
    | none =>
      by_cases hid : id = m
      · subst hid
        simp only [hm, if_pos, Plan.create]
        by_cases hi : i = id <;> simp [hi]
      · simp only [hm, if_neg hid, Plan.create]
        by_cases hi : i = id
        · simp [hi]
        · by_cases hi' : i = m <;> simp [hi, hi']
  | track t id =>
    unfold Plan.step touches Plan.create
    by_cases hi : i = id <;> simp [hi]
  | gap =>
    unfold Plan.step touches Plan.create
    dsimp only
    by_cases hi : i = 2 ^ 64 - 1
    · simp [hi]
    · simp only [if_neg hi]
      exact ⟨.inl, fun h => h.resolve_right hi⟩

theorem fin_some {p : Plan} {m e : Nat} (h : p.idOf m = some e) (t : Ty) (i : Nat) : (p.step (.fin t i m)).types = p.types := by
  unfold Plan.step
  simp only [h]
  by_cases hi : i = m <;> simp [hi]

theorem fin_none {p : Plan} {m : Nat} (h : p.idOf m = none) (t : Ty) (i : Nat) : (p.step (.fin t i m)).types = p.types ++ [t] := by
  unfold Plan.step
  simp only [h]
  by_cases hi : i = m <;> simp [hi, Plan.create]

theorem run_touch (rs : List Req) (p : Plan) (i : Nat) :
    (rs.foldl Plan.step p).idOf i ≠ none ↔ p.idOf i ≠ none ∨ ∃ r ∈ rs, touches r i := by
  induction rs generalizing p with
  | nil => simp
  | cons r rs ih =>
    rw [List.foldl_cons, ih, step_touch]
    simp [or_assoc]

/-- main nodes of the ends of a type -/
def mains (t : Ty) (rs : List Req) : List Nat :=
  rs.filterMap fun
    | .fin u _ m => if u = t then some m else none
    | _ => none

/-- number of track elements of a type -/
def tracks (t : Ty) (rs : List Req) : Nat :=
  rs.countP fun
    | .track u _ => decide (u = t)
    | _ => false

/-- requests that fit together -/
structure ReqsFit (rs : List Req) : Prop where
  own : ∀ t i m, Req.fin t i m ∈ rs → ∀ r ∈ rs, touches r m → ∃ t' i', r = .fin t' i' m
  ty : ∀ t i m t' i', Req.fin t i m ∈ rs → Req.fin t' i' m ∈ rs → t = t'

theorem mem_mains (t : Ty) (rs : List Req) (m : Nat) : m ∈ mains t rs ↔ ∃ i, Req.fin t i m ∈ rs := by
  unfold mains
  rw [List.mem_filterMap]
  constructor
  · rintro ⟨r, hr, h⟩
    cases r with
    | fin u i m' =>
      by_cases hu : u = t
      · simp only [if_pos hu, Option.some.injEq] at h
        exact ⟨i, by rw [← h, ← hu]; exact hr⟩
      · simp [hu] at h
    | track u i => cases h
    | gap => cases h
  · rintro ⟨i, hi⟩
    exact ⟨_, hi, by simp⟩

theorem run_count (rs rest : List Req) (hf : ReqsFit (rs ++ rest)) (t : Ty) (ht : t ≠ .meta') :
    ((rs.foldl Plan.step ⟨[], fun _ => none⟩).types.count t) = tracks t rs + (mains t rs).toFinset.card := by
  induction rs using List.reverseRecOn generalizing rest with
  | nil => simp [tracks, mains]
  | append_singleton rs r ih =>
    have ih := ih (r :: rest) (by simpa using hf)
    rw [List.foldl_append, List.foldl_cons, List.foldl_nil]
    have htr : tracks t (rs ++ [r]) = tracks t rs + tracks t [r] := by simp [tracks, List.countP_append]
    have hma : mains t (rs ++ [r]) = mains t rs ++ mains t [r] := by simp [mains, List.filterMap_append]
    rw [htr, hma]
    cases r with
    | track u i =>
      simp only [Plan.step, Plan.create, List.count_append, ih]
      by_cases hu : u = t
      · simp [tracks, mains, hu]; omega
      · have : ¬ t = u := fun h => hu h.symm
        simp [tracks, mains, hu, List.count_singleton]
    | gap =>
      simp only [Plan.step, Plan.create, List.count_append, ih]
      have : ¬ Ty.meta' = t := fun h => ht h.symm
      simp [tracks, mains, List.count_singleton, this]
    | fin u i m =>
      have hmem : Req.fin u i m ∈ rs ++ [.fin u i m] ++ rest := by simp
      have hsome : (rs.foldl Plan.step ⟨[], fun _ => none⟩).idOf m ≠ none ↔ m ∈ mains u rs := by
        rw [run_touch, mem_mains]
        constructor
        · rintro (h | ⟨r, hr, h⟩)
          · exact absurd rfl h
          · obtain ⟨t', i', rfl⟩ := hf.own u i m hmem r (by simp [hr]) h
            have := hf.ty u i m t' i' hmem (by simp [hr])
            exact ⟨i', by rw [this]; exact hr⟩
        · rintro ⟨i', hi'⟩
          exact .inr ⟨_, hi', .inr rfl⟩
      have htr0 : tracks t [.fin u i m] = 0 := by simp [tracks]
      rw [htr0]
      have hma0 : mains t [.fin u i m] = if u = t then [m] else [] := by
        by_cases hu : u = t <;> simp [mains, hu]
      rw [hma0]
      cases hm : (rs.foldl Plan.step ⟨[], fun _ => none⟩).idOf m with
      | some e =>
        have hin := hsome.1 (by rw [hm]; simp)
        rw [fin_some hm, ih]
        by_cases hu : u = t
        · subst hu
          rw [if_pos rfl, List.toFinset_append]
          have : (mains u rs).toFinset ∪ [m].toFinset = (mains u rs).toFinset := by
            apply Finset.union_eq_left.2
            intro x hx
            simp only [List.toFinset_cons, List.toFinset_nil, insert_empty_eq, Finset.mem_singleton] at hx
            rw [hx]; simpa using hin
          rw [this]
          omega
        · rw [if_neg hu, List.append_nil]
          omega
      | none =>
        have hin : m ∉ mains u rs := fun h => hsome.2 h hm
        rw [fin_none hm, List.count_append, ih]
        by_cases hu : u = t
        · subst hu
          rw [if_pos rfl, List.toFinset_append, Finset.card_union_of_disjoint]
          · simp; omega
          · rw [Finset.disjoint_right]
            intro x hx
            simp only [List.toFinset_cons, List.toFinset_nil, insert_empty_eq, Finset.mem_singleton] at hx
            rw [hx]; simpa using hin
        · rw [if_neg hu, List.append_nil]
          have : ¬ t = u := fun h => hu h.symm
          simp [List.count_singleton, hu]

/-! ### requests of a rail plan -/

/-- id of a node that has one -/
def idN (x : Xml) : Nat := (rpId x).getD 0
/-- main id of a node that has one -/
def mainN (x : Xml) : Nat := (mainId x).getD 0

def finR (x : Xml) : Req := .fin (getType x.name) (idN x) (mainN x)
def trackR (x : Xml) : Req := .track (getType x.name) (idN x)

theorem finReq_eq {x : Xml} {i m : Nat} (hi : rpId x = some i) (hm : mainId x = some m) : finReq x = some (finR x) := by
  simp [finReq, finR, idN, mainN, hi, hm]

theorem allSome_track (xs : List Xml) (h : ∀ x ∈ xs, ∃ i, rpId x = some i) : allSome trackReq xs = some (xs.map trackR) := by
  induction xs with
  | nil => rfl
  | cons x xs ih =>
    obtain ⟨i, hi⟩ := h x (by simp)
    have h1 : trackReq x = some (trackR x) := by simp [trackReq, trackR, idN, hi]
    rw [allSome, h1, ih fun y hy => h y (by simp [hy])]
    rfl

/-- the requests of a section -/
def reqs (s : Xml) : List Req :=
  (endNodes s).map finR ++ ((inDirection true (trackNodes s)).map trackR ++
    (if (inDirection true (trackNodes s)).isEmpty then [.gap] else []) ++
    (((inDirection false (trackNodes s)).filter fun x => isDirected (getType x.name)).map trackR ++
      if (inDirection false (trackNodes s)).isEmpty then [.gap] else []))

theorem mem_trackNodes {s x : Xml} (h : x ∈ trackNodes s) :
    x ∈ nodes s ∧ getType x.name ≠ .invalid ∧ isTrackElement (getType x.name) = true := by
  unfold trackNodes at h
  rw [List.mem_filter] at h
  refine ⟨h.1, ?_, ?_⟩
  · intro e; simp [e] at h
  · have := h.2
    revert this
    cases isTrackElement (getType x.name) <;> simp

theorem mem_known {s x : Xml} : x ∈ known s ↔ x ∈ nodes s ∧ getType x.name ≠ .invalid := by
  simp [known, List.mem_filter]

theorem endNodes_eq {s a b : Xml} {mid : List Xml} (h : nodes s = a :: mid ++ [b]) : endNodes s = [a, b] := by
  have h1 : (nodes s).head? = some a := by rw [h]; rfl
  have h2 : (nodes s).getLast? = some b := by rw [h, List.getLast?_append]; rfl
  simp [endNodes, h1, h2]

theorem end_known {s x : Xml} (hs : SectionFit s) (h : x ∈ endNodes s) :
    x ∈ known s ∧ isTrackElement (getType x.name) = false := by
  obtain ⟨a, mid, b, h1, h2, _⟩ := hs
  rw [endNodes_eq h1] at h
  have : x = a ∨ x = b := by simpa using h
  obtain ⟨h3, h4⟩ := h2 x this
  refine ⟨mem_known.2 ⟨?_, h3⟩, h4⟩
  rw [h1]
  rcases this with rfl | rfl <;> simp

theorem requests_eq {s : Xml} (hs : SectionFit s) (hid : ∀ x ∈ known s, ∃ i, rpId x = some i)
    (hm : ∀ x ∈ endNodes s, ∃ m, mainId x = some m) : requests s = some (reqs s) := by
  obtain ⟨a, mid, b, h1, _⟩ := id hs
  have he := endNodes_eq h1
  have h2 : (nodes s).head? = some a := by rw [h1]; rfl
  have h3 : (nodes s).getLast? = some b := by rw [h1, List.getLast?_append]; rfl
  have ha : a ∈ endNodes s := by rw [he]; simp
  have hb : b ∈ endNodes s := by rw [he]; simp
  obtain ⟨ia, hia⟩ := hid a (end_known hs ha).1
  obtain ⟨ib, hib⟩ := hid b (end_known hs hb).1
  obtain ⟨ma, hma⟩ := hm a ha
  obtain ⟨mb, hmb⟩ := hm b hb
  have htr : ∀ x ∈ trackNodes s, ∃ i, rpId x = some i := fun x hx => by
    obtain ⟨h4, h5, _⟩ := mem_trackNodes hx
    exact hid x (mem_known.2 ⟨h4, h5⟩)
  have hup := allSome_track (inDirection true (trackNodes s)) fun x hx => htr x (List.mem_of_mem_filter hx)
  have hdn := allSome_track ((inDirection false (trackNodes s)).filter fun x => isDirected (getType x.name))
    fun x hx => htr x (List.mem_of_mem_filter (List.mem_of_mem_filter hx))
  unfold requests
  rw [h2, h3]
  simp only [finReq_eq hia hma, finReq_eq hib hmb, hup, hdn, Option.bind_eq_bind, Option.bind_some, Option.pure_def]
  rw [reqs, he]
  simp

theorem mem_reqs {s : Xml} {r : Req} (h : r ∈ reqs s) :
    (∃ x ∈ endNodes s, r = finR x) ∨ (∃ x ∈ trackNodes s, r = trackR x) ∨ r = .gap := by
  unfold reqs at h
  rw [List.mem_append, List.mem_append, List.mem_append, List.mem_append] at h
  rcases h with h | (h | h) | h | h
  · obtain ⟨x, hx, rfl⟩ := List.mem_map.1 h; exact .inl ⟨x, hx, rfl⟩
  · obtain ⟨x, hx, rfl⟩ := List.mem_map.1 h; exact .inr (.inl ⟨x, List.mem_of_mem_filter hx, rfl⟩)
  · split at h
    · exact .inr (.inr (by simpa using h))
    · cases h
  · obtain ⟨x, hx, rfl⟩ := List.mem_map.1 h
    exact .inr (.inl ⟨x, List.mem_of_mem_filter (List.mem_of_mem_filter hx), rfl⟩)
  · split at h
    · exact .inr (.inr (by simpa using h))
    · cases h

theorem tracks_append (t : Ty) (a b : List Req) : tracks t (a ++ b) = tracks t a + tracks t b := by
  simp [tracks, List.countP_append]

theorem mains_append (t : Ty) (a b : List Req) : mains t (a ++ b) = mains t a ++ mains t b := by
  simp [mains, List.filterMap_append]

theorem tracks_map_track (t : Ty) (xs : List Xml) : tracks t (xs.map trackR) = cnt xs t := by
  unfold tracks cnt
  rw [List.countP_map]
  rfl

theorem tracks_map_fin (t : Ty) (xs : List Xml) : tracks t (xs.map finR) = 0 := by
  unfold tracks
  rw [List.countP_map]
  simp [Function.comp_def, finR]

theorem tracks_gap (t : Ty) (b : Bool) : tracks t (if b then [.gap] else []) = 0 := by cases b <;> simp [tracks]

theorem mains_gap (t : Ty) (b : Bool) : mains t (if b then [.gap] else []) = [] := by cases b <;> simp [mains]

theorem mains_map_track (t : Ty) (xs : List Xml) : mains t (xs.map trackR) = [] := by
  simp [mains, trackR, List.filterMap_map, Function.comp_def]

theorem mains_map_fin (t : Ty) (xs : List Xml) :
    mains t (xs.map finR) = (xs.filter fun x => decide (getType x.name = t)).map mainN := by
  induction xs with
  | nil => rfl
  | cons x xs ih =>
    rw [List.map_cons, ← List.singleton_append, mains_append, ih, List.filter_cons]
    by_cases h : getType x.name = t <;> simp [mains, finR, h]

theorem cnt_directions (xs : List Xml) (t : Ty) :
    cnt (inDirection true xs) t + cnt ((inDirection false xs).filter fun x => isDirected (getType x.name)) t = cnt xs t := by
  induction xs with
  | nil => rfl
  | cons x xs ih =>
    simp only [cnt, inDirection, List.filter_cons] at *
    by_cases hd : isDirected (getType x.name) = true
    · cases hr : hasRisingName x.name
      · simp only [hd, hr, List.countP_cons, Bool.true_and, bne_self_eq_false, Bool.not_false, if_true,
          show (!(false != true)) = false from rfl]
        simp only [List.filter_cons, hd, if_true, List.countP_cons, Bool.false_eq_true, if_false]
        omega
      · simp only [hd, hr, List.countP_cons, Bool.true_and, bne_self_eq_false, Bool.not_false, if_true,
          show (!(true != false)) = false from rfl, Bool.false_eq_true, if_false]
        omega
    · simp only [hd, Bool.false_and, Bool.not_false, if_true, List.filter_cons, Bool.false_eq_true, if_false, List.countP_cons]
      omega

theorem cnt_append (a b : List Xml) (t : Ty) : cnt (a ++ b) t = cnt a t + cnt b t := by simp [cnt, List.countP_append]

theorem cnt_track {s : Xml} {t : Ty} (ht : isTrackElement t = true) (hi : t ≠ .invalid) : cnt (trackNodes s) t = cnt (nodes s) t := by
  unfold cnt trackNodes
  rw [List.countP_filter]
  apply List.countP_congr
  intro x _
  simp only [Bool.and_eq_true, decide_eq_true_eq]
  constructor
  · exact fun h => h.1
  · intro h
    refine ⟨h, ?_⟩
    rw [h, ht]
    simp [hi]

theorem cnt_track_zero {s : Xml} {t : Ty} (ht : isTrackElement t = false) : cnt (trackNodes s) t = 0 := by
  unfold cnt
  rw [List.countP_eq_zero]
  intro x hx
  have := (mem_trackNodes hx).2.2
  simp only [decide_eq_true_eq]
  intro h
  rw [h, ht] at this
  cases this

theorem cnt_ends {s : Xml} (hs : SectionFit s) {t : Ty} (ht : isTrackElement t = false) (hi : t ≠ .invalid) :
    cnt (endNodes s) t = cnt (nodes s) t := by
  obtain ⟨a, mid, b, h1, h2, h3⟩ := hs
  rw [endNodes_eq h1, h1]
  have hmid : cnt mid t = 0 := by
    unfold cnt
    rw [List.countP_eq_zero]
    intro x hx
    simp only [decide_eq_true_eq]
    intro h
    rcases h3 x hx with h4 | h4
    · exact hi (by rw [← h, h4])
    · rw [h, ht] at h4; cases h4
  rw [show a :: mid ++ [b] = [a] ++ (mid ++ [b]) by rfl, show [a, b] = [a] ++ [b] by rfl, cnt_append, cnt_append, cnt_append, hmid]
  omega

theorem tracks_reqs (s : Xml) (t : Ty) : tracks t (reqs s) = cnt (trackNodes s) t := by
  unfold reqs
  rw [tracks_append, tracks_append, tracks_append, tracks_append, tracks_map_fin, tracks_map_track, tracks_map_track, tracks_gap,
    tracks_gap, ← cnt_directions (trackNodes s)]
  omega

theorem mains_reqs (s : Xml) (t : Ty) :
    mains t (reqs s) = ((endNodes s).filter fun x => decide (getType x.name = t)).map mainN := by
  unfold reqs
  rw [mains_append, mains_append, mains_append, mains_append, mains_map_fin, mains_map_track, mains_map_track, mains_gap, mains_gap]
  simp

theorem allSome_requests (ss : List Xml) (h : ∀ s ∈ ss, requests s = some (reqs s)) : allSome requests ss = some (ss.map reqs) := by
  induction ss with
  | nil => rfl
  | cons s ss ih => rw [allSome, h s (by simp), ih fun x hx => h x (by simp [hx])]; rfl

theorem tracks_flat (ss : List Xml) (t : Ty) : tracks t (ss.flatMap reqs) = (ss.map fun s => cnt (trackNodes s) t).sum := by
  induction ss with
  | nil => simp [tracks]
  | cons s ss ih => rw [List.flatMap_cons, tracks_append, tracks_reqs, ih]; simp

theorem cnt_flat (ss : List Xml) (f : Xml → List Xml) (t : Ty) : cnt (ss.flatMap f) t = (ss.map fun s => cnt (f s) t).sum := by
  induction ss with
  | nil => simp [cnt]
  | cons s ss ih => rw [List.flatMap_cons, cnt_append, ih]; simp

theorem mains_flat (ss : List Xml) (t : Ty) :
    mains t (ss.flatMap reqs) = ((ss.flatMap endNodes).filter fun x => decide (getType x.name = t)).map mainN := by
  induction ss with
  | nil => simp [mains]
  | cons s ss ih => rw [List.flatMap_cons, mains_append, mains_reqs, ih, List.flatMap_cons]; simp

theorem fit_reqs {ss : List Xml} (h : PlanFit ss) : ReqsFit (ss.flatMap reqs) := by
  have hkn : ∀ x ∈ ss.flatMap endNodes, x ∈ ss.flatMap known ∧ isTrackElement (getType x.name) = false := by
    intro x hx
    obtain ⟨s, hs, hx⟩ := List.mem_flatMap.1 hx
    obtain ⟨h1, h2⟩ := end_known (h.sec s hs) hx
    exact ⟨List.mem_flatMap.2 ⟨s, hs, h1⟩, h2⟩
  have inj : ∀ x ∈ ss.flatMap known, ∀ y ∈ ss.flatMap known, rpId x = rpId y → x = y :=
    fun x hx y hy e => List.inj_on_of_nodup_map h.uniq hx hy e
  have hid : ∀ x ∈ ss.flatMap known, rpId x = some (idN x) ∧ idN x < 2 ^ 64 - 1 := by
    intro x hx
    obtain ⟨i, hi, hlt⟩ := h.id x hx
    simp [idN, hi, hlt]
  have hmem : ∀ r ∈ ss.flatMap reqs, (∃ x ∈ ss.flatMap endNodes, r = finR x) ∨
      (∃ x ∈ ss.flatMap known, isTrackElement (getType x.name) = true ∧ r = trackR x) ∨ r = .gap := by
    intro r hr
    obtain ⟨s, hs, hr⟩ := List.mem_flatMap.1 hr
    rcases mem_reqs hr with ⟨x, hx, rfl⟩ | ⟨x, hx, rfl⟩ | rfl
    · exact .inl ⟨x, List.mem_flatMap.2 ⟨s, hs, hx⟩, rfl⟩
    · obtain ⟨h1, h2, h3⟩ := mem_trackNodes hx
      exact .inr (.inl ⟨x, List.mem_flatMap.2 ⟨s, hs, mem_known.2 ⟨h1, h2⟩⟩, h3, rfl⟩)
    · exact .inr (.inr rfl)
  -- the main node of an end
  have hmain : ∀ t i m, Req.fin t i m ∈ ss.flatMap reqs → ∃ y ∈ ss.flatMap endNodes, idN y = m ∧ mainN y = m ∧ getType y.name = t := by
    intro t i m hr
    rcases hmem _ hr with ⟨x, hx, he⟩ | ⟨x, _, _, he⟩ | he
    · simp only [finR, Req.fin.injEq] at he
      obtain ⟨y, hy, h1, h2, h3⟩ := h.main x hx
      refine ⟨y, hy, ?_, ?_, by rw [h3, he.1]⟩
      · rw [he.2.2, mainN, h1]; rfl
      · rw [he.2.2, mainN, mainN, h1, h2]
    · cases he
    · cases he
  constructor
  · intro t i m hr r hr' htouch
    obtain ⟨y, hy, h1, h2, h3⟩ := hmain t i m hr
    obtain ⟨hyk, hyt⟩ := hkn y hy
    rcases hmem r hr' with ⟨x, hx, rfl⟩ | ⟨x, hx, hxt, rfl⟩ | rfl
    · rcases htouch with he | he
      · have : x = y := inj x (hkn x hx).1 y hyk (by rw [(hid x (hkn x hx).1).1, (hid y hyk).1, h1, he])
        refine ⟨getType y.name, idN y, ?_⟩
        rw [finR, this, h2]
      · refine ⟨getType x.name, idN x, ?_⟩
        rw [finR, ← he]
    · have he : m = idN x := htouch
      have : x = y := inj x hx y hyk (by rw [(hid x hx).1, (hid y hyk).1, h1, he])
      rw [this, hyt] at hxt; cases hxt
    · have he : m = 2 ^ 64 - 1 := htouch
      have := (hid y hyk).2
      rw [h1, he] at this
      exact absurd this (Nat.lt_irrefl _)
  · intro t i m t' i' hr hr'
    obtain ⟨y, hy, h1, _, h3⟩ := hmain t i m hr
    obtain ⟨z, hz, h4, _, h6⟩ := hmain t' i' m hr'
    have : y = z := inj y (hkn y hy).1 z (hkn z hz).1 (by
      rw [(hid y (hkn y hy).1).1, (hid z (hkn z hz).1).1, h1, h4])
    rw [← h3, ← h6, this]

theorem mains_multiple {ss : List Xml} (h : PlanFit ss) (t : Ty) :
    (mains t (ss.flatMap reqs)).length = (mains t (ss.flatMap reqs)).toFinset.card * ends t := by
  have hfit := fit_reqs h
  rw [← List.sum_toFinset_count_eq_length, ← smul_eq_mul, ← Finset.sum_const]
  apply Finset.sum_congr rfl
  intro m hm
  rw [List.mem_toFinset] at hm
  obtain ⟨i, hi⟩ := (mem_mains _ _ _).1 hm
  rw [mains_flat] at hm ⊢
  obtain ⟨x, hx, rfl⟩ := List.mem_map.1 hm
  rw [List.mem_filter, decide_eq_true_eq] at hx
  have hsome : ∀ y ∈ ss.flatMap endNodes, mainId y = some (mainN y) := by
    intro y hy
    obtain ⟨z, hz, h1, _⟩ := h.main y hy
    obtain ⟨s, hs, hz'⟩ := List.mem_flatMap.1 hz
    obtain ⟨j, hj, _⟩ := h.id z (List.mem_flatMap.2 ⟨s, hs, (end_known (h.sec s hs) hz').1⟩)
    simp [mainN, h1, hj]
  rw [← hx.2, ← h.share x hx.1, List.count, List.countP_map, List.countP_filter, ← List.countP_eq_length_filter]
  apply List.countP_congr
  intro y hy
  have hfy : Req.fin (getType y.name) (idN y) (mainN y) ∈ ss.flatMap reqs := by
    obtain ⟨s, hs, hy'⟩ := List.mem_flatMap.1 hy
    refine List.mem_flatMap.2 ⟨s, hs, ?_⟩
    unfold reqs
    exact List.mem_append_left _ (List.mem_map.2 ⟨y, hy', rfl⟩)
  simp only [Function.comp_apply, Bool.and_eq_true, beq_iff_eq, decide_eq_true_eq, hsome y hy, hsome x hx.1, Option.some.injEq]
  constructor
  · exact fun h => h.1
  · intro e
    refine ⟨e, ?_⟩
    rw [e] at hfy
    rw [hfit.ty _ _ _ _ _ hfy hi, hx.2]

/-! ### sections between borders -/

open Infra in
theorem border_sections {all : List Border} (h : BordersFit all) :
    ∃ secs, borderSecs all all [] = some secs ∧ 2 * secs.length = all.length := by
  obtain ⟨secs, h1, h2, h3⟩ := borderSecs_ok h all [] fun _ h => h
  refine ⟨secs, h1, ?_⟩
  have hinj : ∀ a ∈ all, ∀ b ∈ all, a.elem = b.elem → a = b := fun a ha b hb e => List.inj_on_of_nodup_map h.elem ha hb e
  have hnd : all.Nodup := List.Nodup.of_map _ h.elem
  -- double counting
  have hcount : ∀ (ss : List BorderSec) (l : List Border),
      (l.map fun f => (ss.filter fun s => decide (f.elem ∈ s.rising)).length).sum =
      (ss.map fun s => (l.filter fun f => decide (f.elem ∈ s.rising)).length).sum := by
    intro ss l
    induction l with
    | nil => simp
    | cons f l ih =>
      rw [List.map_cons, List.sum_cons, ih]
      clear ih
      induction ss with
      | nil => simp
      | cons s ss ih =>
        simp only [List.filter_cons, List.map_cons, List.sum_cons] at ih ⊢
        by_cases hf : f.elem ∈ s.rising
        · simp only [hf, decide_true, if_true, List.length_cons]; omega
        · simp only [hf, decide_false, Bool.false_eq_true, if_false]; omega
  have hl : (all.map fun f => (secs.filter fun s => decide (f.elem ∈ s.rising)).length).sum = all.length := by
    have : all.map (fun f => (secs.filter fun s => decide (f.elem ∈ s.rising)).length) = all.map fun _ => 1 :=
      List.map_congr_left fun f hf => by rw [h3 f hf]; simp
    rw [this]; simp
  have hr : (secs.map fun s => (all.filter fun f => decide (f.elem ∈ s.rising)).length).sum = 2 * secs.length := by
    have : secs.map (fun s => (all.filter fun f => decide (f.elem ∈ s.rising)).length) = secs.map fun _ => 2 := by
      apply List.map_congr_left
      intro s hs
      obtain ⟨f, hf, t, ht, c, _, rfl⟩ := h2 s hs
      have hne : f ≠ t := by
        rintro rfl
        exact h.ne f hf c.1
      have hmem : ∀ g ∈ all, (g.elem ∈ (if f.low then (⟨f.line, [t.elem, f.elem], [f.elem, t.elem]⟩ : BorderSec)
          else ⟨f.line, [f.elem, t.elem], [t.elem, f.elem]⟩).rising ↔ g = f ∨ g = t) := by
        intro g hg
        have e1 : g.elem = f.elem ↔ g = f := ⟨hinj g hg f hf, fun e => by rw [e]⟩
        have e2 : g.elem = t.elem ↔ g = t := ⟨hinj g hg t ht, fun e => by rw [e]⟩
        cases f.low
        · simp [e1, e2]
        · simp [e1, e2, or_comm]
      have hp : (all.filter fun g => decide (g.elem ∈ (if f.low then (⟨f.line, [t.elem, f.elem], [f.elem, t.elem]⟩ : BorderSec)
          else ⟨f.line, [f.elem, t.elem], [t.elem, f.elem]⟩).rising)).Perm [f, t] := by
        rw [List.perm_ext_iff_of_nodup (hnd.filter _) (by simp [hne])]
        intro g
        rw [List.mem_filter, decide_eq_true_eq]
        constructor
        · rintro ⟨hg, hm⟩
          simpa using (hmem g hg).1 hm
        · intro hm
          have : g = f ∨ g = t := by simpa using hm
          have hg : g ∈ all := by rcases this with rfl | rfl <;> assumption
          exact ⟨hg, (hmem g hg).2 this⟩
      rw [hp.length_eq]; rfl
    rw [this]; simp; omega
  rw [← hr, ← hcount, hl]

end Soro.InfraStats
