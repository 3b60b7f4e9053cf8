import Verif.Proof.ExclElements
import Verif.Props.Exclusion

/-
C104: the exclusion elements of a route.
-/

namespace Soro.Infra.Props

open Soro.Infra Soro.Infra.Spec

/-- C104 if there is a track element for its direction on every leg: the exclusion elements of a route are exactly those
driven over, whatever direction they are for. Missing: legs without such an element (see the negations). -/
theorem C104_exact_partial (sections : List Section) (ids : Nat → List Nat) (legs : List Leg) (route : List Item)
    (h : Drives sections ids legs route) (hvis : ∀ g ∈ legs, ∃ e ∈ g.range, Facing g.up e = true)
    (hone : ∀ g a b, legs = [g] → g.range.head? = some a → g.range.getLast? = some b →
      a.ty.isTrack = true ∨ b.ty.isTrack = true ∨ g.up = true) :
    ∃ r, exclusionElements sections ids route = some r ∧ r.Pairwise (· < ·) ∧
      ∀ x, x ∈ r ↔ ∃ g ∈ legs, ∃ e ∈ g.range, Conflicting e.ty ∧ e.id = x := by
  obtain ⟨g0, e0, hg0, he0, hr0, hd0⟩ := h.first
  obtain ⟨gz, ez, hgz, hez, hrz, hdz⟩ := h.last
  have hused := usedSections_eq h hvis
  unfold exclusionElements
  rw [hused, hr0, hrz]
  simp only [Option.bind_some]
  obtain ⟨s0, pre0, post0, hs0, hp0, ho0, -, hpost0⟩ := h.parts 0 g0 (by rw [← hg0, List.head?_eq_getElem?])
  have hzi : legs[legs.length - 1]? = some gz := by rw [← hgz, List.getLast?_eq_getElem?]
  obtain ⟨sz, prez, postz, hsz, hpz, hoz, hprez, -⟩ := h.parts (legs.length - 1) gz hzi
  have hh : (legs.map Leg.sec).head? = some g0.sec := by rw [List.head?_map, hg0]; rfl
  have hl : (legs.map Leg.sec).getLast? = some gz.sec := by rw [List.getLast?_map, hgz]; rfl
  rw [hh, hl]
  simp only [Option.bind_some]
  rw [hs0, hsz]
  simp only [Option.bind_some, List.length_map]
  by_cases h1 : legs.length = 1
  · rw [if_pos h1]
    obtain ⟨g, rfl⟩ := List.length_eq_one_iff.mp h1
    simp only [List.head?_cons, Option.some.injEq] at hg0
    simp only [List.getLast?_singleton, Option.some.injEq] at hgz
    subst hg0
    subst hgz
    have hdir : routeDirection e0 ez = g.up := by
      unfold routeDirection
      by_cases ha : e0.ty.isTrack = true
      · rw [if_pos ha, hd0 ha]
      · rw [if_neg ha]
        by_cases hb : ez.ty.isTrack = true
        · rw [if_pos hb, hdz hb]
        · rw [if_neg hb]
          rcases hone g e0 ez rfl he0 hez with h | h | h
          · exact absurd h ha
          · exact absurd h hb
          · exact h.symm
    refine ⟨Algo.eraseDup (collect g.range), ?_, Algo.eraseDup_lt _, fun x => ?_⟩
    · unfold exclusionOne
      rw [hdir, fromTo_part (hp0.nodup g.up) ho0 he0 hez]
      rfl
    · rw [Algo.mem_eraseDup, mem_collect]
      simp
  · rw [if_neg h1]
    have hlen : 2 ≤ legs.length := by
      cases legs with
      | nil => cases hg0
      | cons => simp at h1 ⊢; exact Nat.one_le_iff_ne_zero.mpr (by simpa using h1)
    obtain rfl := hpost0 (by omega)
    obtain rfl := hprez (by omega)
    rw [List.append_nil] at ho0
    rw [List.nil_append] at hoz
    -- the shape of the legs
    obtain ⟨mid, hmid⟩ : ∃ mid, legs = g0 :: mid ++ [gz] := by
      cases legs with
      | nil => cases hg0
      | cons g rest =>
        simp only [List.head?_cons, Option.some.injEq] at hg0
        subst hg0
        rcases List.eq_nil_or_concat rest with rfl | ⟨mid, y, rfl⟩
        · simp at hlen
        · refine ⟨mid, ?_⟩
          have : y = gz := by simpa [List.getLast?_cons] using hgz
          rw [this]
          simp
    have hmem0 : g0 ∈ legs := by rw [hmid]; simp
    have hmemz : gz ∈ legs := by rw [hmid]; simp
    have hft : ∀ g ∈ legs, ∃ t ∈ g.range, t.ty.isTrack = true := by
      intro g hg
      obtain ⟨t, ht, hf⟩ := hvis g hg
      simp only [Facing, Bool.and_eq_true] at hf
      exact ⟨t, ht, hf.1⟩
    obtain ⟨m, hm1, hm2⟩ := exclusionMiddle_spec (sections := sections) mid (by
      intro g hg
      obtain ⟨i, hi, rfl⟩ := List.mem_iff_getElem.mp hg
      have hget : legs[i + 1]? = some mid[i] := by
        rw [hmid, List.cons_append, List.getElem?_cons_succ, List.getElem?_append_left hi, List.getElem?_eq_getElem hi]
      obtain ⟨s, pre, post, h1, h2, h3, h4, h5⟩ := h.parts (i + 1) _ hget
      refine ⟨s, h1, h2, ?_⟩
      rw [h3, h4 (by omega), h5 (by rw [hmid]; simp; omega)]
      simp)
    have hmidmap : (legs.map Leg.sec).tail.dropLast = mid.map Leg.sec := by
      rw [hmid]
      simp
    rw [hmidmap, hm1]
    simp only [Option.bind_some]
    obtain ⟨z, hz1, hz2⟩ : ∃ z, exclusionLast sz ez = some z ∧ ∀ x, x ∈ z ↔ ∃ e ∈ gz.range, Conflicting e.ty ∧ e.id = x := by
      unfold exclusionLast
      by_cases ht : ez.ty.isTrack = true
      · rw [if_pos ht, hdz ht, to_part (hpz.nodup gz.up) hoz hez]
        exact ⟨_, rfl, fun x => mem_collect _ x⟩
      · rw [if_neg ht]
        obtain ⟨t, ht1, ht2⟩ := hft gz hmemz
        have hw := whole_of_last hpz hoz hez (by simpa using ht) ht1 ht2
        refine ⟨_, rfl, fun x => ?_⟩
        rw [mem_collect]
        simp only [mem_orders hpz gz.up, hw]
    have hf : ∀ x, x ∈ exclusionFirst s0 e0 ↔ ∃ e ∈ g0.range, Conflicting e.ty ∧ e.id = x := by
      intro x
      unfold exclusionFirst
      by_cases ht : e0.ty.isTrack = true
      · rw [if_pos ht, hd0 ht, since_part (hp0.nodup g0.up) ho0 he0]
        exact mem_collect _ x
      · rw [if_neg ht]
        obtain ⟨t, ht1, ht2⟩ := hft g0 hmem0
        have hw := whole_of_head hp0 ho0 he0 (by simpa using ht) ht1 ht2
        rw [mem_collect]
        simp only [mem_orders hp0 g0.up, hw]
    rw [hz1]
    refine ⟨_, rfl, Algo.eraseDup_lt _, fun x => ?_⟩
    rw [Algo.mem_eraseDup, List.mem_append, List.mem_append, hf, hm2, hz2, hmid]
    constructor
    · rintro ((h | ⟨g, hg, h⟩) | h)
      · exact ⟨g0, by simp, h⟩
      · exact ⟨g, by simp [hg], h⟩
      · exact ⟨gz, by simp, h⟩
    · rintro ⟨g, hg, h⟩
      simp only [List.cons_append, List.mem_cons, List.mem_append, List.not_mem_nil, or_false] at hg
      rcases hg with rfl | hg | rfl
      · exact Or.inl (Or.inl h)
      · exact Or.inl (Or.inr ⟨g, hg, h⟩)
      · exact Or.inr h

/-- C104: two routes that drive over the same switch, crossing, signal or halt exclude each other, unless one starts where the
other one ends. -/
theorem C104_conflict_partial (sections : List Section) (ids : Nat → List Nat) (legs₁ legs₂ : List Leg) (route₁ route₂ : List Item)
    (h₁ : Drives sections ids legs₁ route₁) (hv₁ : ∀ g ∈ legs₁, ∃ e ∈ g.range, Facing g.up e = true)
    (h₂ : Drives sections ids legs₂ route₂) (hv₂ : ∀ g ∈ legs₂, ∃ e ∈ g.range, Facing g.up e = true)
    (ho₁ : 2 ≤ legs₁.length) (ho₂ : 2 ≤ legs₂.length) (e : Item) (he : Conflicting e.ty)
    (he₁ : ∃ g ∈ legs₁, e ∈ g.range) (he₂ : ∃ g ∈ legs₂, e ∈ g.range)
    (closed : List (List Nat)) (u v : Nat) (hu : closed[u]? = exclusionElements sections ids route₁)
    (hv : closed[v]? = exclusionElements sections ids route₂) (firstNode lastNode : Nat → Nat)
    (hn₁ : firstNode v ≠ lastNode u) (hn₂ : lastNode v ≠ firstNode u) : Excluded closed firstNode lastNode u v := by
  obtain ⟨r₁, a1, -, a2⟩ := C104_exact_partial sections ids legs₁ route₁ h₁ hv₁ (by
    intro g _ _ hl
    rw [hl] at ho₁
    simp at ho₁)
  obtain ⟨r₂, b1, -, b2⟩ := C104_exact_partial sections ids legs₂ route₂ h₂ hv₂ (by
    intro g _ _ hl
    rw [hl] at ho₂
    simp at ho₂)
  obtain ⟨g₁, hg₁, hm₁⟩ := he₁
  obtain ⟨g₂, hg₂, hm₂⟩ := he₂
  exact ⟨⟨e.id, r₁, r₂, hu.trans a1, hv.trans b1, (a2 _).mpr ⟨g₁, hg₁, e, hm₁, he, rfl⟩, (b2 _).mpr ⟨g₂, hg₂, e, hm₂, he, rfl⟩⟩,
    hn₁, hn₂⟩

/-! ### Examples -/

/-- bumper - signals in both directions - switch, driven along from the signal -/
def exA : Item := ⟨0, .bumper, false, 0⟩
def exM : Item := ⟨1, .mainSignal, true, 1⟩
def exN : Item := ⟨2, .mainSignal, false, 2⟩
def exS : Item := ⟨3, .simpleSwitch, false, 3⟩
def exH : Item := ⟨4, .halt, true, 4⟩
def exO : Item := ⟨5, .mainSignal, true, 5⟩
def exB : Item := ⟨6, .border, false, 6⟩

def exSections : List Section :=
  [Section.build exA exS [exM, exN] [exN, exM], Section.build exS exB [exH, exO] [exO, exH]]

def exIds : Nat → List Nat := fun i => if i = 1 ∨ i = 2 then [0] else if i = 4 ∨ i = 5 then [1] else [0, 1]

def exLegs : List Leg := [⟨0, true, [exM, exN, exS]⟩, ⟨1, true, [exS, exH, exO]⟩]

theorem proper_build (a z : Item) (r f : List Item) (ha : a.ty.isTrack = false) (hz : z.ty.isTrack = false)
    (hr : ∀ e ∈ r, e.ty.isTrack = true) (hf : ∀ e, e ∈ r ↔ e ∈ f) (h1 : (a :: r ++ [z]).Nodup) (h2 : (z :: f ++ [a]).Nodup) :
    Proper (Section.build a z r f) where
  shape up := by
    cases up with
    | true => exact ⟨a, r, z, rfl, ha, hz, hr⟩
    | false => exact ⟨z, f, a, rfl, hz, ha, fun e he => hr e ((hf e).mpr he)⟩
  nodup up := by
    cases up with
    | true => exact h1
    | false => exact h2
  same e := by
    simp only [Section.build, List.cons_append, List.mem_cons, List.mem_append, List.not_mem_nil, or_false, hf e]
    tauto

theorem exDrives : Drives exSections exIds exLegs [exM, exS, exH, exO] where
  parts k g hk := by
    have hA : Proper (Section.build exA exS [exM, exN] [exN, exM]) :=
      proper_build _ _ _ _ rfl rfl (by decide) (by intro e; simp; tauto) (by decide +kernel) (by decide +kernel)
    have hB : Proper (Section.build exS exB [exH, exO] [exO, exH]) :=
      proper_build _ _ _ _ rfl rfl (by decide) (by intro e; simp; tauto) (by decide +kernel) (by decide +kernel)
    match k with
    | 0 =>
      obtain rfl : g = ⟨0, true, [exM, exN, exS]⟩ := by simpa [exLegs] using hk.symm
      exact ⟨_, [exA], [], rfl, hA, rfl, by simp, by simp⟩
    | 1 =>
      obtain rfl : g = ⟨1, true, [exS, exH, exO]⟩ := by simpa [exLegs] using hk.symm
      exact ⟨_, [], [exB], rfl, hB, rfl, by simp, by simp [exLegs]⟩
    | k + 2 => simp [exLegs] at hk
  ids g hg e he ht := by
    have hg' : g = ⟨0, true, [exM, exN, exS]⟩ ∨ g = ⟨1, true, [exS, exH, exO]⟩ := by simpa [exLegs] using hg
    rcases hg' with rfl | rfl
    · have he' : e = exM ∨ e = exN ∨ e = exS := by simpa using he
      rcases he' with rfl | rfl | rfl
      · rfl
      · rfl
      · cases ht
    · have he' : e = exS ∨ e = exH ∨ e = exO := by simpa using he
      rcases he' with rfl | rfl | rfl
      · cases ht
      · rfl
      · rfl
  tracks := by decide +kernel
  apart := by simp [exLegs]
  first := ⟨_, _, rfl, rfl, rfl, fun _ => rfl⟩
  last := ⟨_, _, rfl, rfl, rfl, fun _ => rfl⟩

example : Drives exSections exIds exLegs [exM, exS, exH, exO] ∧ (∀ g ∈ exLegs, ∃ e ∈ g.range, Facing g.up e = true) ∧
    2 ≤ exLegs.length ∧ exclusionElements exSections exIds [exM, exS, exH, exO] = some [1, 2, 3, 4, 5] := by
  refine ⟨exDrives, ?_, by decide, by decide +kernel⟩
  intro g hg
  have hg' : g = ⟨0, true, [exM, exN, exS]⟩ ∨ g = ⟨1, true, [exS, exH, exO]⟩ := by simpa [exLegs] using hg
  rcases hg' with rfl | rfl
  · exact ⟨exM, by simp, rfl⟩
  · exact ⟨exH, by simp, rfl⟩

/-- C104 fails if a route passes two sections without track elements one after the other: the switch between them is missing. -/
theorem C104_missing_negation :
    ∃ (sections : List Section) (ids : Nat → List Nat) (legs : List Leg) (route : List Item) (r : List Nat),
      Drives sections ids legs route ∧ exclusionElements sections ids route = some r ∧
      ∃ g ∈ legs, ∃ e ∈ g.range, e.ty = .simpleSwitch ∧ e ∈ route ∧ e.id ∉ r := by
  let m : Item := ⟨1, .mainSignal, true, 1⟩
  let s1 : Item := ⟨2, .simpleSwitch, false, 2⟩
  let s2 : Item := ⟨3, .simpleSwitch, false, 3⟩
  let s3 : Item := ⟨4, .simpleSwitch, false, 4⟩
  let n : Item := ⟨5, .mainSignal, true, 5⟩
  let a : Item := ⟨0, .bumper, false, 0⟩
  let b : Item := ⟨6, .border, false, 6⟩
  let ids : Nat → List Nat := fun i => if i = 1 then [0] else if i = 5 then [3] else []
  let sections := [Section.build a s1 [m] [m], Section.build s1 s2 [] [], Section.build s2 s3 [] [], Section.build s3 b [n] [n]]
  let legs : List Leg := [⟨0, true, [m, s1]⟩, ⟨1, true, [s1, s2]⟩, ⟨2, true, [s2, s3]⟩, ⟨3, true, [s3, n]⟩]
  refine ⟨sections, ids, legs, [m, s1, s2, s3, n], [1, 2, 4, 5], ?_, by decide +kernel,
    ⟨1, true, [s1, s2]⟩, by simp [legs], s2, by simp, rfl, by simp, by decide⟩
  have hA : Proper (Section.build a s1 [m] [m]) :=
    proper_build _ _ _ _ rfl rfl (by decide) (by intro e; rfl) (by decide +kernel) (by decide +kernel)
  have hB : Proper (Section.build s1 s2 [] []) :=
    proper_build _ _ _ _ rfl rfl (by decide) (by intro e; rfl) (by decide +kernel) (by decide +kernel)
  have hC : Proper (Section.build s2 s3 [] []) :=
    proper_build _ _ _ _ rfl rfl (by decide) (by intro e; rfl) (by decide +kernel) (by decide +kernel)
  have hD : Proper (Section.build s3 b [n] [n]) :=
    proper_build _ _ _ _ rfl rfl (by decide) (by intro e; rfl) (by decide +kernel) (by decide +kernel)
  refine ⟨?_, ?_, by decide +kernel, by simp [legs], ⟨_, _, rfl, rfl, rfl, fun _ => rfl⟩, ⟨_, _, rfl, rfl, rfl, fun _ => rfl⟩⟩
  · intro k g hk
    match k with
    | 0 =>
      obtain rfl : g = ⟨0, true, [m, s1]⟩ := by simpa [legs] using hk.symm
      exact ⟨_, [a], [], rfl, hA, rfl, by simp, by simp⟩
    | 1 =>
      obtain rfl : g = ⟨1, true, [s1, s2]⟩ := by simpa [legs] using hk.symm
      exact ⟨_, [], [], rfl, hB, rfl, by simp, by simp⟩
    | 2 =>
      obtain rfl : g = ⟨2, true, [s2, s3]⟩ := by simpa [legs] using hk.symm
      exact ⟨_, [], [], rfl, hC, rfl, by simp, by simp⟩
    | 3 =>
      obtain rfl : g = ⟨3, true, [s3, n]⟩ := by simpa [legs] using hk.symm
      exact ⟨_, [], [b], rfl, hD, rfl, by simp, by simp [legs]⟩
    | k + 4 => simp [legs] at hk
  · intro g hg e he ht
    have hg' : g = ⟨0, true, [m, s1]⟩ ∨ g = ⟨1, true, [s1, s2]⟩ ∨ g = ⟨2, true, [s2, s3]⟩ ∨ g = ⟨3, true, [s3, n]⟩ := by
      simpa [legs] using hg
    rcases hg' with rfl | rfl | rfl | rfl
    · have he' : e = m ∨ e = s1 := by simpa using he
      rcases he' with rfl | rfl
      · rfl
      · cases ht
    · have he' : e = s1 ∨ e = s2 := by simpa using he
      rcases he' with rfl | rfl <;> cases ht
    · have he' : e = s2 ∨ e = s3 := by simpa using he
      rcases he' with rfl | rfl <;> cases ht
    · have he' : e = s3 ∨ e = n := by simpa using he
      rcases he' with rfl | rfl
      · cases ht
      · rfl

/-- C104 fails for a route from a bumper along a section without track elements: with track elements in one more section only, the
bumper is searched there, and the span has a negative size. -/
theorem C104_out_of_bounds_negation :
    ∃ (sections : List Section) (ids : Nat → List Nat) (legs : List Leg) (route : List Item),
      Drives sections ids legs route ∧ exclusionElements sections ids route = none ∧ ∃ e ∈ route, e.ty.isTrack = true := by
  let a : Item := ⟨0, .bumper, false, 0⟩
  let s1 : Item := ⟨1, .simpleSwitch, false, 1⟩
  let m : Item := ⟨2, .mainSignal, true, 2⟩
  let n : Item := ⟨3, .mainSignal, false, 3⟩
  let b : Item := ⟨4, .border, false, 4⟩
  let ids : Nat → List Nat := fun i => if i = 2 ∨ i = 3 then [1] else []
  let sections := [Section.build a s1 [] [], Section.build s1 b [m, n] [n, m]]
  let legs : List Leg := [⟨0, true, [a, s1]⟩, ⟨1, true, [s1, m]⟩]
  refine ⟨sections, ids, legs, [a, s1, m], ?_, by decide +kernel, m, by simp, rfl⟩
  have hA : Proper (Section.build a s1 [] []) :=
    proper_build _ _ _ _ rfl rfl (by decide) (by intro e; rfl) (by decide +kernel) (by decide +kernel)
  have hB : Proper (Section.build s1 b [m, n] [n, m]) :=
    proper_build _ _ _ _ rfl rfl (by decide) (by intro e; simp; tauto) (by decide +kernel) (by decide +kernel)
  refine ⟨?_, ?_, by decide +kernel, by simp [legs], ⟨_, _, rfl, rfl, rfl, fun h => by cases h⟩, ⟨_, _, rfl, rfl, rfl, fun _ => rfl⟩⟩
  · intro k g hk
    match k with
    | 0 =>
      obtain rfl : g = ⟨0, true, [a, s1]⟩ := by simpa [legs] using hk.symm
      exact ⟨_, [], [], rfl, hA, rfl, by simp, by simp⟩
    | 1 =>
      obtain rfl : g = ⟨1, true, [s1, m]⟩ := by simpa [legs] using hk.symm
      exact ⟨_, [], [n, b], rfl, hB, rfl, by simp, by simp [legs]⟩
    | k + 2 => simp [legs] at hk
  · intro g hg e he ht
    have hg' : g = ⟨0, true, [a, s1]⟩ ∨ g = ⟨1, true, [s1, m]⟩ := by
      simpa [legs] using hg
    rcases hg' with rfl | rfl
    · have he' : e = a ∨ e = s1 := by simpa using he
      rcases he' with rfl | rfl <;> cases ht
    · have he' : e = s1 ∨ e = m := by simpa using he
      rcases he' with rfl | rfl
      · cases ht
      · rfl

end Soro.Infra.Props
