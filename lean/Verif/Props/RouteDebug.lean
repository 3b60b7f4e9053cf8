import Verif.Proof.RouteDebug
import Verif.Props.RouteTable

/-! Properties C183 and C184: the assertions of the construction of station routes and of the segments of lines. -/

namespace Soro.RouteDebug
open Soro.Infra Soro.Route Soro.RouteBuild Soro.RouteTable Dbg Spec

/-- C183. Station routes are constructed by the debug build as by the release build if no two routes of a station have the same
name, every extra speed limit has its element on the path of its route, and every element to leave out is on that path and
named once. In all other cases the debug build is stopped by an assertion. The routes are numbered from 0 (`C128_ids`), no path
has a node twice, and the elements to leave out are known and directed. -/
theorem C183_construction (el : Nat → Elem) (rp : Nat → Option Nat) (num : Node → Nat) (sort : List PNode → List Spl → List Spl)
    (hsort : ∀ path ls, SortedBy path ls (sort path ls)) (rs : List Src) (hid : ∀ (i : Nat) r, rs[i]? = some r → r.id = i)
    (hn : ∀ r ∈ rs, r.nodes.Nodup) (hl : ∀ r ∈ rs, Leaves el rp r) :
    (Accepted rp rs → SameAs (buildD el rp num sort rs) (build el rp num sort rs)) ∧
    (¬ Accepted rp rs → Dbg.Stops (buildD el rp num sort rs)) := by
  obtain ⟨h1, h2⟩ := buildD_from (num := num) hsort rs ([], fun _ => []) hl hn (by simpa using hid)
  exact ⟨fun h => h1 ⟨h, fun _ _ => rfl⟩, fun h => h2 fun h' => h h'.1⟩

/-- C183. What the release build constructs without any of these conditions: if all limits have their element on the path, it
succeeds. A name that is given twice stands for the last route with it, and what is left out are the positions of the path
with a named element; names of elements elsewhere have no effect. -/
theorem C183_release (el : Nat → Elem) (rp : Nat → Option Nat) (num : Node → Nat) (sort : List PNode → List Spl → List Spl)
    (rs : List Src) (hl : ∀ r ∈ rs, Leaves el rp r) :
    ((∃ out, build el rp num sort rs = some out) ↔ ∀ r ∈ rs, LimitsOn r) ∧
    ∀ out, build el rp num sort rs = some out →
      out.1.length = rs.length ∧
      (∀ (i : Nat) (r : Src) (b : Built), rs[i]? = some r → out.1[i]? = some b → ∀ k, k ∈ b.omitted ↔
        ∃ o ∈ r.route.omitted, ∃ e, rp o.1 = some e ∧ r.nodes[k]? = some (e, 0)) ∧
      ∀ (i : Nat) (r : Src), rs[i]? = some r → (∀ (j : Nat) (r' : Src), i < j → rs[j]? = some r' → r'.station = r.station →
        r'.name ≠ r.name) → find r.name (out.2 r.station) = some r.id := by
  constructor
  · constructor
    · rintro ⟨out, h⟩ r hr
      obtain ⟨-, bs, -, h3⟩ := build_from rs _ out h
      have hm : ((omittedNodes el rp r.route).bind fun om =>
        (assignNodes (pathOf num r.nodes) r.limits).map fun ls =>
          (⟨omittedAt el om r.nodes, sort (pathOf num r.nodes) ls⟩ : Built)) ∈ bs.map some := by
        rw [h3]; exact List.mem_map.2 ⟨r, hr, rfl⟩
      obtain ⟨b, -, hb⟩ := List.mem_map.1 hm
      obtain ⟨om, -, hb⟩ := Option.bind_eq_some_iff.1 hb.symm
      obtain ⟨ls, hls, -⟩ := Option.map_eq_some_iff.1 hb
      exact (limitsOn_iff num r).2 ⟨ls, hls⟩
    · intro h
      unfold build
      generalize (([], fun _ => []) : State) = st
      induction rs generalizing st with
      | nil => exact ⟨st, rfl⟩
      | cons r rs ih =>
        obtain ⟨ls, hls⟩ := (limitsOn_iff num r).1 (h r List.mem_cons_self)
        rw [List.foldlM_cons]
        unfold step
        rw [omittedNodes_eq el rp r (hl r List.mem_cons_self), Option.bind_some, hls, Option.map_some]
        exact ih (fun r' hr => hl r' (List.mem_cons_of_mem _ hr)) (fun r' hr => h r' (List.mem_cons_of_mem _ hr)) _
  · intro out h
    obtain ⟨h1, bs, h2, h3⟩ := build_from rs _ out h
    rw [List.nil_append] at h2
    refine ⟨?_, ?_, ?_⟩
    · rw [h2]; simpa using congrArg List.length h3
    · intro i r b hr hb k
      have hat := congrArg (fun l => l[i]?) h3
      rw [← h2] at hat
      simp only [List.getElem?_map, hb, hr, Option.map_some, Option.some.injEq] at hat
      have hle := hl r (List.mem_of_getElem? hr)
      rw [omittedNodes_eq el rp r hle, Option.bind_some] at hat
      obtain ⟨ls, -, rfl⟩ := Option.map_eq_some_iff.1 hat.symm
      dsimp only
      unfold omittedAt
      rw [mem_omittedLoop]
      constructor
      · rintro ⟨j, n, hj, rfl, -, hom⟩
        rw [List.getElem?_range (by
          have := (List.getElem?_eq_some_iff.1 hj).1
          simpa using this)] at hj
        cases hj
        rw [Nat.zero_add]
        cases hnk : r.nodes[j]? with
        | none => rw [hnk] at hom; cases hom
        | some m =>
          rw [hnk] at hom
          simp only [Option.any_some, List.contains_iff_mem, List.mem_map] at hom
          obtain ⟨o, ho, rfl⟩ := hom
          obtain ⟨e, he, -⟩ := hle o ho
          exact ⟨o, ho, e, he, by rw [he]; rfl⟩
      · rintro ⟨o, ho, e, he, hnk⟩
        have hlt := (List.getElem?_eq_some_iff.1 hnk).1
        obtain ⟨e', he', hd⟩ := hle o ho
        rw [he] at he'; cases he'
        refine ⟨k, k, List.getElem?_range hlt, by omega, ?_, ?_⟩
        · rw [hnk]; exact track_of_directed hd
        · rw [hnk]
          simp only [Option.any_some, List.contains_iff_mem, List.mem_map]
          exact ⟨o, ho, by rw [he]; rfl⟩
    · intro i r hr hlast
      rw [h1, nameLoop_find]
      cases hf : lastNamed (rs.map (Src.inter num)) r.station r.name with
      | none =>
        exact absurd ⟨rfl, rfl⟩ ((lastNamed_none _ _ _).1 hf (r.inter num) (List.mem_map.2 ⟨r, List.mem_of_getElem? hr, rfl⟩))
      | some x =>
        dsimp only
        obtain ⟨pre, post, he, hx, hp⟩ := (lastNamed_some _ _ _ _).1 hf
        have hx' : (rs.map (Src.inter num))[pre.length]? = some x := by rw [he]; simp
        rw [List.getElem?_map] at hx'
        obtain ⟨r', hr', rfl⟩ := Option.map_eq_some_iff.1 hx'
        rcases Nat.lt_trichotomy i pre.length with hlt | heq | hgt
        · exact absurd hx.2 (hlast pre.length r' hlt hr' hx.1)
        · rw [← heq, hr] at hr'; cases hr'; rfl
        · have hi : (rs.map (Src.inter num))[i]? = some (r.inter num) := by rw [List.getElem?_map, hr]; rfl
          rw [he, List.getElem?_append_right (by omega)] at hi
          obtain ⟨d, hd⟩ : ∃ d, i - pre.length = d + 1 := ⟨i - pre.length - 1, by omega⟩
          rw [hd, List.getElem?_cons_succ] at hi
          exact absurd ⟨rfl, rfl⟩ (hp _ (List.mem_of_getElem? hi))

/-! ### examples -/

/-- three main signals and a switch -/
def exEl (i : Nat) : Elem :=
  ⟨if i = 3 then .simpleSwitch else .mainSignal, true, fun _ => none, fun _ => false, fun _ => 0, false, false⟩
def exRp (i : Nat) : Option Nat := if i < 10 then some i else none
def exSort (path : List PNode) (ls : List Spl) : List Spl := ls.mergeSort fun a b => decide (posOf path a ≤ posOf path b)

theorem exSort_sorts (path : List PNode) (ls : List Spl) : SortedBy path ls (exSort path ls) := by
  refine ⟨(List.mergeSort_perm _ _).symm, ?_⟩
  refine (List.pairwise_mergeSort (fun a b c => by simp; omega) (fun a b => by simp; omega) ls).imp ?_
  intro a b h
  simpa using h

def exA : Src := ⟨0, 7, 0, [(0, 0), (3, 0), (1, 0), (2, 0)], ⟨0, 2, [], [(1, .mainSignal)]⟩, [⟨2, 0, 0⟩, ⟨1, 1, 0⟩]⟩
def exB : Src := ⟨1, 8, 0, [(2, 0), (4, 0)], ⟨2, 4, [], []⟩, []⟩

example : (∀ (i : Nat) r, [exA, exB][i]? = some r → r.id = i) ∧ (∀ r ∈ [exA, exB], r.nodes.Nodup) ∧
    (∀ r ∈ [exA, exB], Leaves exEl exRp r) ∧ Accepted exRp [exA, exB] := by
  refine ⟨?_, ?_, ?_, ?_⟩
  · intro i r h
    match i with
    | 0 => cases h; rfl
    | 1 => cases h; rfl
    | i + 2 => simp at h
  · simp [exA, exB]
  · simp [exA, exB, Leaves, exRp, exEl]; decide
  · simp [Accepted, NamesDiffer, LimitsOn, EachOnce, exA, exB, exRp]

/-- a second route with the name of the first, and routes that leave out an element that is elsewhere or named twice -/
example : ¬ Accepted exRp [exA, { exB with name := 7 }] ∧
    ¬ Accepted exRp [{ exA with route := ⟨0, 2, [], [(4, .mainSignal)]⟩ }] ∧
    ¬ Accepted exRp [{ exA with route := ⟨0, 2, [], [(1, .mainSignal), (1, .mainSignal)]⟩ }] := by
  refine ⟨?_, ?_, ?_⟩ <;> simp [Accepted, NamesDiffer, LimitsOn, EachOnce, exA, exB, exRp]

/-! ### C184: segments of lines -/

/-- C184. On a line whose segments are ordered by their start, let `s` be the last segment that starts at or before a position
between the start of the line and its end. Both builds return `s` if the position is on `s`. If it is in a gap behind `s`, the
debug build is stopped by an assertion, and the release build returns `s` although the position is not on it. -/
theorem C184_inside (l : List Segment) (km : Rat) (f b : Segment) (hf : l.head? = some f) (hb : l.getLast? = some b)
    (ho : l.Pairwise fun a b => a.frm ≤ b.frm) (h1 : f.frm ≤ km) (h2 : km ≤ b.to) :
    ∃ (i : Nat) (s : Segment), l[i]? = some s ∧ s.frm ≤ km ∧ (∀ (j : Nat) (t : Segment), i < j → l[j]? = some t → km < t.frm) ∧
      getSegment l km = some s ∧
      (km ≤ s.to → SameAs (getSegmentD l km) (getSegment l km)) ∧
      (s.to < km → Dbg.Stops (getSegmentD l km)) := by
  obtain ⟨k, hk, ka, kb⟩ := exists_border l km ho
  have h0 : l[0]? = some f := by rw [← List.head?_eq_getElem?]; exact hf
  have hkpos : 0 < k := by
    by_contra hc
    exact kb 0 f (by omega) h0 h1
  have hlt : k - 1 < l.length := by omega
  have hfr := ka _ _ (by omega) (List.getElem?_eq_getElem hlt)
  have hg : getSegment l km = some l[k - 1] := by
    rw [getSegment, hf, hb]
    dsimp only
    rw [if_neg (not_lt.2 h1), if_neg (not_lt.2 h2), lowerBound_spec _ l k hk (by simpa using ka) (by simpa using kb) _ _ _ (le_refl _)
      (Nat.zero_le _) (by omega) (by omega)]
    simp only [Option.bind_some]
    rw [if_neg (by omega), List.getElem?_eq_getElem hlt]
  have hd := getSegmentD_inside l km f b hf hb h1 h2 _ hg
  refine ⟨k - 1, l[k - 1], List.getElem?_eq_getElem hlt, hfr, fun j t hj ht => not_le.1 (kb j t (by omega) ht), hg,
    fun h => ⟨_, hg, ?_⟩, fun h => ⟨31, ?_⟩⟩
  · rw [hd, if_pos ⟨hfr, h⟩]
  · rw [hd, if_neg fun hc => absurd hc.2 (not_le.2 h)]

/-- C184. On a line of adjoining segments no position is stopped by an assertion, wherever it is. -/
theorem C184_adjoining (l : List Segment) (km : Rat) (hne : l ≠ []) (ha : Infra.Spec.Adjoining l) :
    SameAs (getSegmentD l km) (getSegment l km) := by
  obtain ⟨f, hf⟩ : ∃ f, l.head? = some f := by
    cases l with
    | nil => exact absurd rfl hne
    | cons a l => exact ⟨a, rfl⟩
  obtain ⟨b, hb⟩ : ∃ b, l.getLast? = some b := by
    cases h : l.getLast? with
    | none => exact absurd (List.getLast?_eq_none_iff.1 h) hne
    | some b => exact ⟨b, rfl⟩
  rcases lt_or_ge km f.frm with h1 | h1
  · refine ⟨f, (C45_outside l km f b hf hb).1 h1, ?_⟩
    unfold getSegmentD
    rw [check_pos hne, ok_bind, hf, hb]
    exact if_pos h1
  · rcases lt_or_ge b.to km with h2 | h2
    · refine ⟨b, (C45_outside l km f b hf hb).2 h1 h2, ?_⟩
      unfold getSegmentD
      rw [check_pos hne, ok_bind, hf, hb]
      dsimp only
      rw [if_neg (not_lt.2 h1), if_pos h2]; rfl
    · obtain ⟨i, s, hs, -, g1, g2, -⟩ := C45_contains l km f b hf hb ha h1 h2
      exact ⟨s, hs, by rw [getSegmentD_inside l km f b hf hb h1 h2 s hs, if_pos ⟨g1, g2⟩]⟩

/-- C184. Before and behind the line both builds return its first or last segment, also with gaps; a line without segments is
stopped by an assertion, where the release build reads from an empty vector. -/
theorem C184_outside (l : List Segment) (km : Rat) :
    (∀ f b, l.head? = some f → l.getLast? = some b → (km < f.frm ∨ b.to < km) →
      SameAs (getSegmentD l km) (getSegment l km)) ∧
    (l = [] → Dbg.Stops (getSegmentD l km) ∧ getSegment l km = none) := by
  constructor
  · intro f b hf hb h
    have hne : l ≠ [] := by rintro rfl; cases hf
    unfold getSegmentD
    rw [check_pos hne, ok_bind, hf, hb]
    dsimp only
    by_cases h1 : km < f.frm
    · exact ⟨f, (C45_outside l km f b hf hb).1 h1, if_pos h1⟩
    · have h2 : b.to < km := h.resolve_left h1
      exact ⟨b, (C45_outside l km f b hf hb).2 (not_lt.1 h1) h2, by rw [if_neg h1, if_pos h2]; rfl⟩
  · rintro rfl
    exact ⟨⟨8, rfl⟩, rfl⟩

/-- a line with a gap between 2 and 3 -/
def exLine : List Segment := [⟨0, 2, 7⟩, ⟨3, 5, 9⟩]

example : exLine.head? = some ⟨0, 2, 7⟩ ∧ exLine.getLast? = some ⟨3, 5, 9⟩ ∧ (exLine.Pairwise fun a b => a.frm ≤ b.frm) ∧
    getSegmentD exLine 1 = .ok ⟨0, 2, 7⟩ ∧ getSegmentD exLine (5 / 2) = .error (.assertion 31) ∧
    getSegment exLine (5 / 2) = some ⟨0, 2, 7⟩ := by
  refine ⟨rfl, rfl, by decide +kernel, ?_, ?_, ?_⟩ <;> decide +kernel

end Soro.RouteDebug
