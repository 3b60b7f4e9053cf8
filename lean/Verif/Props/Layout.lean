import Verif.Proof.Layout

/-! Properties C112 to C115: where track elements, stations and bounding boxes are placed. -/

namespace Soro
open Layout

/-! ### C112: track elements -/

/-- a layout with one section: elements 0 and 1 are its ends, 10 to 12 are track elements -/
def C112_isTrack (e : Nat) : Bool := decide (10 ≤ e)
def C112_layout (e : Nat) : Pos := if e = 0 then ⟨6, 0⟩ else if e = 1 then ⟨0, 12⟩ else ⟨1000, 1000⟩

theorem C112_sections : Sections C112_isTrack [[0, 10, 11, 12, 1]] := by
  refine ⟨?_, by decide⟩
  intro sec hs
  simp only [List.mem_singleton] at hs
  subst hs
  exact ⟨0, 1, rfl, rfl, rfl, rfl⟩

/-- C112. The layout gives the k-th track element of a section (counted from 0) the point that divides the way from the
first to the last element of the section in the ratio k : size + 1 - k, in whatever direction the section runs; all
other elements stay where the rail plan puts them. -/
theorem C112_on_the_line (isTrack : Nat → Bool) (secs : List (List Nat)) (hs : Sections isTrack secs) (l : Nat → Pos) :
    ∃ l', trackCoords isTrack secs l = some l' ∧
      (∀ e, isTrack e = false → l' e = l e) ∧
      (∀ e, e ∉ secs.flatten → l' e = l e) ∧
      ∀ pre e post a b, pre ++ e :: post ∈ secs → (pre ++ e :: post).head? = some a →
        (pre ++ e :: post).getLast? = some b → isTrack e = true →
        l' e = between (l a) (l b) ((pre.countP isTrack : Rat) / ((pre ++ e :: post).length + 1)) := by
  obtain ⟨l', h⟩ := trackCoords_ok (isTrack := isTrack) secs (by
    intro sec hsec
    obtain ⟨a, _, h, _⟩ := hs.ends sec hsec
    rintro rfl; cases h) l
  refine ⟨l', h, fun e he => trackCoords_other _ _ _ h e (Or.inl he), fun e he => trackCoords_other _ _ _ h e (Or.inr he),
    ?_⟩
  intro pre e post a b hsec ha hb he
  exact trackCoords_at secs hs l l' h pre post e a b hsec ha hb he

example : ((trackCoords C112_isTrack [[0, 10, 11, 12, 1]] C112_layout).map fun l => [l 0, l 10, l 11, l 12, l 1]) =
    some [⟨6, 0⟩, ⟨6, 0⟩, ⟨5, 2⟩, ⟨4, 4⟩, ⟨0, 12⟩] := by decide +kernel

/-- C112. Along a section the track elements are placed in their order, one strictly after the other on the way from its
first to its last element, and all before the last element. So they have different positions if the ends do. -/
theorem C112_in_order (isTrack : Nat → Bool) (secs : List (List Nat)) (hs : Sections isTrack secs) (l l' : Nat → Pos)
    (h : trackCoords isTrack secs l = some l') (pre mid post : List Nat) (e f a b : Nat)
    (hsec : pre ++ e :: mid ++ f :: post ∈ secs) (ha : (pre ++ e :: mid ++ f :: post).head? = some a)
    (hb : (pre ++ e :: mid ++ f :: post).getLast? = some b) (he : isTrack e = true) (hf : isTrack f = true) :
    (∃ p q, 0 ≤ p ∧ p < q ∧ q < 1 ∧ l' e = between (l' a) (l' b) p ∧ l' f = between (l' a) (l' b) q) ∧
      (l' a ≠ l' b → l' e ≠ l' f ∧ l' f ≠ l' b) := by
  have hab : l' a = l a ∧ l' b = l b := by
    obtain ⟨a', b', e1, e2, ta, tb⟩ := hs.ends _ hsec
    rw [ha, Option.some.injEq] at e1
    rw [hb, Option.some.injEq] at e2
    subst e1 e2
    exact ⟨trackCoords_other _ _ _ h _ (Or.inl ta), trackCoords_other _ _ _ h _ (Or.inl tb)⟩
  have h1 := trackCoords_at secs hs l l' h pre (mid ++ f :: post) e a b (by simpa using hsec) (by simpa using ha)
    (by simpa using hb) he
  have h2 := trackCoords_at secs hs l l' h (pre ++ e :: mid) post f a b hsec ha hb hf
  rw [hab.1, hab.2]
  have hpos : (0 : Rat) < ((pre ++ e :: mid ++ f :: post).length + 1) := by positivity
  have hlen : (pre ++ e :: (mid ++ f :: post)).length = (pre ++ e :: mid ++ f :: post).length := by simp
  rw [hlen] at h1
  have hcnt : (pre ++ e :: mid).countP isTrack = pre.countP isTrack + 1 + mid.countP isTrack := by
    rw [List.countP_append, List.countP_cons_of_pos he]; omega
  have hp0 : (0 : Rat) ≤ (pre.countP isTrack : Rat) / ((pre ++ e :: mid ++ f :: post).length + 1) := by positivity
  have hpq : (pre.countP isTrack : Rat) / ((pre ++ e :: mid ++ f :: post).length + 1) <
      ((pre ++ e :: mid).countP isTrack : Rat) / ((pre ++ e :: mid ++ f :: post).length + 1) := by
    rw [hcnt]
    apply div_lt_div_of_pos_right _ hpos
    push_cast
    have : (0 : Rat) ≤ (mid.countP isTrack : Rat) := by positivity
    linarith
  have hq1 : ((pre ++ e :: mid).countP isTrack : Rat) / ((pre ++ e :: mid ++ f :: post).length + 1) < 1 := by
    rw [div_lt_one hpos]
    have hle : (pre ++ e :: mid).countP isTrack ≤ (pre ++ e :: mid ++ f :: post).length := by
      refine (List.countP_le_length (p := isTrack) (l := pre ++ e :: mid)).trans ?_
      simp only [List.length_append, List.length_cons]; omega
    have hle' : ((pre ++ e :: mid).countP isTrack : Rat) ≤ ((pre ++ e :: mid ++ f :: post).length : Rat) := by
      exact_mod_cast hle
    linarith
  refine ⟨⟨_, _, hp0, hpq, hq1, h1, h2⟩, ?_⟩
  intro hne
  have inj : ∀ p q, between (l a) (l b) p = between (l a) (l b) q → p = q := by
    intro p q hpq'
    unfold between at hpq'
    injection hpq' with hx hy
    by_cases hxx : (l a).x = (l b).x
    · have hyy : (l a).y ≠ (l b).y := by
        intro hyy
        apply hne
        cases hla : l a; cases hlb : l b
        rw [hla, hlb] at hxx hyy
        simp only at hxx hyy
        rw [hxx, hyy]
      have : ((l b).y - (l a).y) * p = ((l b).y - (l a).y) * q := by linarith
      exact mul_left_cancel₀ (sub_ne_zero.2 (Ne.symm hyy)) this
    · have : ((l b).x - (l a).x) * p = ((l b).x - (l a).x) * q := by linarith
      exact mul_left_cancel₀ (sub_ne_zero.2 (Ne.symm hxx)) this
  constructor
  · intro heq
    rw [h1, h2] at heq
    exact absurd (inj _ _ heq) (ne_of_lt hpq)
  · intro heq
    have hb1 : l b = between (l a) (l b) 1 := by
      unfold between
      simp
    rw [h2] at heq
    have := inj _ 1 (heq.trans hb1)
    exact absurd this (ne_of_lt hq1)

example : Sections C112_isTrack [([0] : List Nat) ++ 10 :: [11] ++ 12 :: [1]] ∧
    C112_layout 0 ≠ C112_layout 1 := ⟨C112_sections, by decide +kernel⟩

/-- C112 fails in one place: the elements are counted from 0, so the first track element of every section gets the very
position of the first element of the section, whatever the section looks like. -/
theorem C112_first_coincides_negation (isTrack : Nat → Bool) (secs : List (List Nat)) (hs : Sections isTrack secs)
    (l l' : Nat → Pos) (h : trackCoords isTrack secs l = some l') (pre post : List Nat) (e a : Nat)
    (hsec : pre ++ e :: post ∈ secs) (ha : (pre ++ e :: post).head? = some a) (he : isTrack e = true)
    (hfirst : ∀ x ∈ pre, isTrack x = false) : e ≠ a ∧ l' e = l' a := by
  obtain ⟨a', b, e1, e2, ta, tb⟩ := hs.ends _ hsec
  rw [ha, Option.some.injEq] at e1
  subst e1
  refine ⟨fun heq => ?_, ?_⟩
  · rw [heq, ta] at he; cases he
  rw [trackCoords_at secs hs l l' h pre post e a b hsec ha e2 he, trackCoords_other _ _ _ h a (Or.inl ta)]
  have : pre.countP isTrack = 0 := by
    rw [List.countP_eq_zero]; intro x hx; rw [hfirst x hx]; simp
  rw [this]
  unfold between
  simp

example : Sections C112_isTrack [([0] : List Nat) ++ 10 :: [11, 12, 1]] ∧ C112_isTrack 10 = true := ⟨C112_sections, rfl⟩

/-! ### C113: coordinates of a station -/

/-- C113. Every station is moved as a whole so that its coordinates are not negative and the least ones are zero. The
distances between its elements stay as they are, and so do elements that belong to no station. -/
theorem C113_adjusted (M : Rat) (sts : List (List Nat)) (hn : sts.flatten.Nodup) (l : Nat → Pos)
    (hM : ∀ e ∈ sts.flatten, (l e).x ≤ M ∧ (l e).y ≤ M) :
    (∀ els ∈ sts,
      (∀ e ∈ els, 0 ≤ (adjust M sts l e).x ∧ 0 ≤ (adjust M sts l e).y) ∧
      (els ≠ [] → (∃ e ∈ els, (adjust M sts l e).x = 0) ∧ (∃ e ∈ els, (adjust M sts l e).y = 0)) ∧
      ∀ e ∈ els, ∀ f ∈ els, (adjust M sts l e).x - (adjust M sts l f).x = (l e).x - (l f).x ∧
        (adjust M sts l e).y - (adjust M sts l f).y = (l e).y - (l f).y) ∧
      ∀ e, e ∉ sts.flatten → adjust M sts l e = l e := by
  refine ⟨?_, fun e he => adjust_other _ _ _ _ he⟩
  intro els hels
  have hM' : ∀ e ∈ els, (l e).x ≤ M ∧ (l e).y ≤ M := fun e he => hM e (List.mem_flatten.2 ⟨els, hels, he⟩)
  refine ⟨?_, ?_, ?_⟩
  · intro e he
    obtain ⟨h1, _, _⟩ := minCoords_spec M l els (List.ne_nil_of_mem he) hM'
    rw [adjust_at M sts hn l els hels e he]
    have := h1 e he
    exact ⟨by simp only; linarith, by simp only; linarith⟩
  · intro hne
    obtain ⟨_, ⟨e, he, h2⟩, f, hf, h3⟩ := minCoords_spec M l els hne hM'
    refine ⟨⟨e, he, ?_⟩, f, hf, ?_⟩
    · rw [adjust_at M sts hn l els hels e he]; simp [h2]
    · rw [adjust_at M sts hn l els hels f hf]; simp [h3]
  · intro e he f hf
    rw [adjust_at M sts hn l els hels e he, adjust_at M sts hn l els hels f hf]
    exact ⟨by simp only; ring, by simp only; ring⟩

example : ([[1, 2], [3]] : List (List Nat)).flatten.Nodup ∧
    [adjust 1000 [[1, 2], [3]] (fun e => ⟨e + 2, 7 - 2 * e⟩) 1, adjust 1000 [[1, 2], [3]] (fun e => ⟨e + 2, 7 - 2 * e⟩) 2,
      adjust 1000 [[1, 2], [3]] (fun e => ⟨e + 2, 7 - 2 * e⟩) 3] = [⟨0, 2⟩, ⟨1, 0⟩, ⟨0, 0⟩] := by
  constructor
  · decide
  · decide +kernel

/-- C113, C112. The layout as a whole: it is made for every infrastructure; every station begins at zero; elements of a station
that are no track elements have the distances of the rail plan; a track element of a section that belongs to one station lies on
the line between the ends of the section. -/
theorem C113_whole (M : Rat) (isTrack : Nat → Bool) (secs sts : List (List Nat)) (hs : Sections isTrack secs)
    (hn : sts.flatten.Nodup) (l : Nat → Pos) (hM : ∀ e, (l e).x ≤ M ∧ (l e).y ≤ M) :
    ∃ l', finishLayout M isTrack secs sts l = some l' ∧
      ∀ els ∈ sts,
        (∀ e ∈ els, 0 ≤ (l' e).x ∧ 0 ≤ (l' e).y) ∧
        (els ≠ [] → (∃ e ∈ els, (l' e).x = 0) ∧ ∃ e ∈ els, (l' e).y = 0) ∧
        (∀ e ∈ els, ∀ f ∈ els, isTrack e = false → isTrack f = false →
          (l' e).x - (l' f).x = (l e).x - (l f).x ∧ (l' e).y - (l' f).y = (l e).y - (l f).y) ∧
        ∀ pre e post a b, pre ++ e :: post ∈ secs → (pre ++ e :: post).head? = some a →
          (pre ++ e :: post).getLast? = some b → isTrack e = true → e ∈ els → a ∈ els → b ∈ els →
          l' e = between (l' a) (l' b) ((pre.countP isTrack : Rat) / ((pre ++ e :: post).length + 1)) := by
  obtain ⟨m, h, h1, h2, h3⟩ := C112_on_the_line isTrack secs hs l
  have hm : ∀ e, (m e).x ≤ M ∧ (m e).y ≤ M := by
    intro e
    by_cases he : isTrack e = true
    · by_cases hf : e ∈ secs.flatten
      · obtain ⟨sec, hsec, hes⟩ := List.mem_flatten.1 hf
        obtain ⟨pre, post, rfl⟩ := List.append_of_mem hes
        obtain ⟨a, b, ea, eb, _, _⟩ := hs.ends _ hsec
        rw [h3 pre e post a b hsec ea eb he]
        have hpos : (0 : Rat) < ((pre ++ e :: post).length + 1) := by positivity
        have q0 : (0 : Rat) ≤ (pre.countP isTrack : Rat) / ((pre ++ e :: post).length + 1) := by positivity
        have q1 : (pre.countP isTrack : Rat) / ((pre ++ e :: post).length + 1) ≤ 1 := by
          rw [div_le_one hpos]
          have hle : pre.countP isTrack ≤ (pre ++ e :: post).length := by
            refine (List.countP_le_length (p := isTrack) (l := pre)).trans ?_
            simp only [List.length_append, List.length_cons]; omega
          have hle' : (pre.countP isTrack : Rat) ≤ ((pre ++ e :: post).length : Rat) := by exact_mod_cast hle
          linarith
        revert q0 q1
        generalize (pre.countP isTrack : Rat) / ((pre ++ e :: post).length + 1) = q
        intro q0 q1
        have key : ∀ u v : Rat, u ≤ M → v ≤ M → u + (v - u) * q ≤ M := by
          intro u v hu hv
          have e1 : (M - u) * (1 - q) ≥ 0 := mul_nonneg (by linarith) (by linarith)
          have e2 : (M - v) * q ≥ 0 := mul_nonneg (by linarith) q0
          have e3 : M - (u + (v - u) * q) = (M - u) * (1 - q) + (M - v) * q := by ring
          linarith
        exact ⟨key _ _ (hM a).1 (hM b).1, key _ _ (hM a).2 (hM b).2⟩
      · rw [h2 e hf]; exact hM e
    · rw [h1 e (by simpa using he)]; exact hM e
  obtain ⟨hadj, -⟩ := C113_adjusted M sts hn m fun e _ => hm e
  refine ⟨adjust M sts m, by simp [finishLayout, h], ?_⟩
  intro els hels
  obtain ⟨k1, k2, k3⟩ := hadj els hels
  refine ⟨k1, k2, ?_, ?_⟩
  · intro e he f hf te tf
    rw [← h1 e te, ← h1 f tf]
    exact k3 e he f hf
  · intro pre e post a b hsec ea eb he hee hea heb
    obtain ⟨a', b', e1, e2, ta, tb⟩ := hs.ends _ hsec
    rw [ea, Option.some.injEq] at e1
    rw [eb, Option.some.injEq] at e2
    subst e1 e2
    have hp := h3 pre e post a b hsec ea eb he
    rw [← h1 a ta, ← h1 b tb] at hp
    rw [adjust_at M sts hn m els hels e hee, adjust_at M sts hn m els hels a hea, adjust_at M sts hn m els hels b heb, hp]
    unfold between
    simp only [Pos.mk.injEq]
    exact ⟨by ring, by ring⟩

example : Sections C112_isTrack [[0, 10, 11, 12, 1]] ∧ ([[0, 1, 10, 11, 12]] : List (List Nat)).flatten.Nodup ∧
    (∀ e, (C112_layout e).x ≤ 1000 ∧ (C112_layout e).y ≤ 1000) ∧
    ((finishLayout 1000 C112_isTrack [[0, 10, 11, 12, 1]] [[0, 1, 10, 11, 12]] C112_layout).map fun l => [l 0, l 11, l 1]) =
      some [⟨6, 0⟩, ⟨5, 2⟩, ⟨0, 12⟩] := by
  refine ⟨C112_sections, by decide, ?_, by decide +kernel⟩
  intro e
  unfold C112_layout
  split
  · exact ⟨by decide +kernel, by decide +kernel⟩
  · split
    · exact ⟨by decide +kernel, by decide +kernel⟩
    · exact ⟨by decide +kernel, by decide +kernel⟩

/-- C113. The centre of a station is the middle of the smallest box around its adjusted elements: no element is farther
from it than the centre is from the origin, and on all four sides of the box there is an element. -/
theorem C113_center (M : Rat) (sts : List (List Nat)) (hn : sts.flatten.Nodup) (l : Nat → Pos)
    (hM : ∀ e ∈ sts.flatten, (l e).x ≤ M ∧ (l e).y ≤ M) (els : List Nat) (hels : els ∈ sts) (hne : els ≠ []) :
    let l' := adjust M sts l
    let c := stationCenter l' els
    (∀ e ∈ els, |(l' e).x - c.x| ≤ c.x ∧ |(l' e).y - c.y| ≤ c.y) ∧
      (∃ e ∈ els, (l' e).x - c.x = -c.x) ∧ (∃ e ∈ els, (l' e).x - c.x = c.x) ∧
      (∃ e ∈ els, (l' e).y - c.y = -c.y) ∧ (∃ e ∈ els, (l' e).y - c.y = c.y) := by
  obtain ⟨h, _⟩ := C113_adjusted M sts hn l hM
  obtain ⟨h1, h2, _⟩ := h els hels
  obtain ⟨⟨ex, hex, hx0⟩, ey, hey, hy0⟩ := h2 hne
  simp only
  generalize adjust M sts l = l' at h1 hx0 hy0
  have ecx : 2 * (stationCenter l' els).x = (els.map fun e => (l' e).x).foldl max 0 := by
    unfold stationCenter; simp only; rw [foldl_max_x]; ring
  have ecy : 2 * (stationCenter l' els).y = (els.map fun e => (l' e).y).foldl max 0 := by
    unfold stationCenter; simp only; rw [foldl_max_y]; ring
  obtain ⟨x1, x2, x3⟩ := foldl_max_spec (els.map fun e => (l' e).x) 0
  obtain ⟨y1, y2, y3⟩ := foldl_max_spec (els.map fun e => (l' e).y) 0
  rw [← ecx] at x1 x2 x3
  rw [← ecy] at y1 y2 y3
  refine ⟨?_, ⟨ex, hex, by linarith⟩, ?_, ⟨ey, hey, by linarith⟩, ?_⟩
  · intro e he
    have := h1 e he
    have hx := x2 _ (List.mem_map.2 ⟨e, he, rfl⟩)
    have hy := y2 _ (List.mem_map.2 ⟨e, he, rfl⟩)
    rw [abs_le, abs_le]
    exact ⟨⟨by linarith, by linarith⟩, by linarith, by linarith⟩
  · rcases x3 with h | h
    · have := x2 _ (List.mem_map.2 ⟨ex, hex, rfl⟩)
      exact ⟨ex, hex, by linarith⟩
    · obtain ⟨e, he, h⟩ := List.mem_map.1 h
      exact ⟨e, he, by linarith⟩
  · rcases y3 with h | h
    · have := y2 _ (List.mem_map.2 ⟨ey, hey, rfl⟩)
      exact ⟨ey, hey, by linarith⟩
    · obtain ⟨e, he, h⟩ := List.mem_map.1 h
      exact ⟨e, he, by linarith⟩

example : stationCenter (adjust 1000 [[1, 2], [3]] (fun e => ⟨e + 2, 7 - 2 * e⟩)) [1, 2] = ⟨1 / 2, 1⟩ := by
  decide +kernel

/-! ### C114: coordinates of stations without coordinates -/

/-- stations 0, 4 and 5 have coordinates; 0 - 1 - 2 - 4 and 2 - 3 and 3 - 5 are neighbours, 6 is alone, 7 only knows 4 -/
def C114_net : Net where
  count := 8
  borders := fun s => match s with
    | 0 => [1] | 1 => [2, 0, 2] | 2 => [1, 3, 4, 1] | 3 => [2, 5] | 4 => [2, 7] | 5 => [3] | 6 => [] | _ => [4]
  addr := fun s => 100 - s

def C114_given (s : Nat) : Gps :=
  if s = 0 then ⟨8, 50⟩ else if s = 4 then ⟨10, 52⟩ else if s = 5 then ⟨9, 49⟩ else .invalid

theorem C114_closed : C114_net.Closed := by
  have h : ∀ s : Fin 8, ∀ t ∈ C114_net.borders s, t < 8 := by decide
  intro s hs
  exact h ⟨s, hs⟩

/-- C114. For a station without coordinates the search finds exactly the stations with coordinates that are reached
over stations without coordinates only, each of them once and with the least number of borders to it. -/
theorem C114_neighbours (N : Net) (hN : N.Closed) (given : Nat → Gps) (s : Nat) (hs : s < N.count)
    (hk : ¬ Known given s) :
    ∃ nds, neighboursWithCoords N given s = some nds ∧ (nds.map Prod.fst).Nodup ∧
      ∀ t d, (t, d) ∈ nds ↔ Nearest N.borders (Known given) s t d := by
  obtain ⟨nds, h1, h2⟩ := neighboursWithCoords_spec N hN given s hs hk
  exact ⟨nds, h1, h2.once, h2.all⟩

example : neighboursWithCoords C114_net C114_given 1 = some [(0, 1), (4, 2), (5, 3)] ∧
    ¬ Known C114_given 1 := by
  constructor
  · decide +kernel
  · rintro ⟨h, _⟩
    have : C114_given 1 = ⟨-361, -361⟩ := rfl
    rw [this] at h
    simp only at h
    linarith

/-- C114. Interpolating the station coordinates terminates after at most two rounds, although `work_to_do` only
remembers the last station of a round. Given coordinates are kept. A station without coordinates gets the mean of the
stations with coordinates around it, nearer ones counting more; if there is only one, it is put to its left, a tenth of
a degree per border; if there is none, it gets a fixed place. -/
theorem C114_placed (N : Net) (hN : N.Closed) (given : Nat → Gps) (fuel : Nat) (hf : 2 ≤ fuel) :
    ∃ c, interpolateAll N fuel given = some c ∧ ∀ s, s < N.count →
      (Known given s → c s = given s) ∧
      (¬ Known given s → ∃ nds, Around N given s nds ∧
        (nds = [] → c s = ⟨8, 47⟩) ∧
        (∀ t d, nds = [(t, d)] → (c s).lon = (given t).lon - d / 10 ∧ (c s).lat = (given t).lat) ∧
        (2 ≤ nds.length → Mean N given s nds (c s))) := by
  obtain ⟨c, h1, h2⟩ := interpolateAll_spec N hN given fuel hf
  refine ⟨c, h1, ?_⟩
  intro s hs
  have hp := h2 s hs
  unfold Placed at hp
  constructor
  · intro hk
    rw [if_pos ((valid_iff _ _).2 hk)] at hp
    exact hp
  · intro hk
    rw [if_neg (fun h => hk ((valid_iff _ _).1 h))] at hp
    obtain ⟨nds, ha, hm⟩ := hp
    refine ⟨nds, ha, ?_, ?_, ?_⟩
    · rintro rfl; exact hm
    · rintro t d rfl
      simp only at hm
      rw [hm]
      exact ⟨by simp only; ring, rfl⟩
    · intro hl
      match nds, hl with
      | _ :: _ :: _, _ => exact hm

example : ((interpolateAll C114_net 2 C114_given).map fun c => (List.range 8).map c) =
    some [⟨8, 50⟩, ⟨(8 * 3 + 10 * 2 + 9 * 1) / 6, (50 * 3 + 52 * 2 + 49) / 6⟩,
      ⟨(10 * 2 + 8 + 9) / 4, (52 * 2 + 50 + 49) / 4⟩, ⟨(9 * 3 + 10 * 2 + 8) / 6, (49 * 3 + 52 * 2 + 50) / 6⟩, ⟨10, 52⟩,
      ⟨9, 49⟩, ⟨8, 47⟩, ⟨99 / 10, 52⟩] := by decide +kernel

/-- C114. An interpolated station lies within the longitudes and latitudes of the stations around it. -/
theorem C114_within (N : Net) (hN : N.Closed) (given : Nat → Gps) (fuel : Nat) (hf : 2 ≤ fuel) (c : Nat → Gps)
    (h : interpolateAll N fuel given = some c) (s : Nat) (hs : s < N.count) (hk : ¬ Known given s) (t1 t2 d1 d2 : Nat)
    (hne : t1 ≠ t2) (h1 : Nearest N.borders (Known given) s t1 d1) (h2 : Nearest N.borders (Known given) s t2 d2)
    (b : Box) (hb : ∀ t d, Nearest N.borders (Known given) s t d → b.Has (given t)) : b.Has (c s) := by
  obtain ⟨c', e1, e2⟩ := C114_placed N hN given fuel hf
  rw [h, Option.some.injEq] at e1
  subst e1
  obtain ⟨nds, ha, _, _, hm⟩ := (e2 s hs).2 hk
  have hl : 2 ≤ nds.length := by
    have m1 := (ha.all t1 d1).2 h1
    have m2 := (ha.all t2 d2).2 h2
    match nds, m1, m2 with
    | [], m1, _ => cases m1
    | [x], m1, m2 =>
      simp only [List.mem_singleton] at m1 m2
      rw [← m2, Prod.mk.injEq] at m1
      exact absurd m1.1 hne
    | _ :: _ :: _, _, _ => simp
  have hbn : ∀ nd ∈ nds, b.Has (given nd.1) := fun nd hnd => hb nd.1 nd.2 ((ha.all nd.1 nd.2).1 hnd)
  obtain ⟨k1, k2⟩ := (hm hl).between
  have r1 := k1 b.sw.lon b.ne.lon (fun nd hnd => ⟨(hbn nd hnd).1, (hbn nd hnd).2.1⟩)
  have r2 := k2 b.sw.lat b.ne.lat (fun nd hnd => ⟨(hbn nd hnd).2.2.1, (hbn nd hnd).2.2.2⟩)
  exact ⟨r1.1, r1.2, r2.1, r2.2⟩

example : Nearest C114_net.borders (Known C114_given) 2 4 1 := by
  refine ⟨by decide, ?_, .one (by decide), fun d' h => via_pos h⟩
  exact (valid_iff _ _).1 (by decide +kernel)

/-- C114. In the end every station has coordinates, provided that the given ones are on the globe and no station is more
than 1800 borders away from the only station with coordinates next to it. -/
theorem C114_all_valid (N : Net) (hN : N.Closed) (given : Nat → Gps) (fuel : Nat) (hf : 2 ≤ fuel) (c : Nat → Gps)
    (h : interpolateAll N fuel given = some c)
    (hglobe : ∀ s, s < N.count → Known given s → -180 ≤ (given s).lon)
    (hfar : ∀ s t d, s < N.count → Nearest N.borders (Known given) s t d → t < N.count ∧ d ≤ 1800) :
    ∀ s, s < N.count → Known c s := by
  obtain ⟨c', e1, e2⟩ := C114_placed N hN given fuel hf
  rw [h, Option.some.injEq] at e1
  subst e1
  intro s hs
  by_cases hk : Known given s
  · have := (e2 s hs).1 hk
    unfold Known at hk ⊢
    rw [this]; exact hk
  · obtain ⟨nds, ha, h0, h1, h2⟩ := (e2 s hs).2 hk
    match nds, ha, h0, h1, h2 with
    | [], _, h0, _, _ =>
      unfold Known
      rw [h0 rfl]
      norm_num
    | [(t, d)], ha, _, h1, _ =>
      have hn := (ha.all t d).1 (by simp)
      obtain ⟨ht, hd⟩ := hfar s t d hs hn
      have hg := hglobe t ht hn.2.1
      obtain ⟨k1, k2⟩ := h1 t d rfl
      obtain ⟨b1, b2, b3, b4⟩ := hn.2.1
      have hd0 : (0 : Rat) ≤ d := by positivity
      have hd1 : (d : Rat) ≤ 1800 := by exact_mod_cast hd
      unfold Known
      rw [k1, k2]
      refine ⟨by linarith, by linarith, b3, b4⟩
    | x :: y :: nds, ha, _, _, h2 =>
      exact (valid_iff c s).1 ((h2 (by simp)).valid ha)

example : (interpolateAll C114_net 2 C114_given).isSome = true ∧ C114_net.Closed := ⟨by decide +kernel, C114_closed⟩

/-- C114. The placement does not keep stations apart: two stations that are equally far from the only station with coordinates get the
same place. -/
theorem C114_same_place : ∃ (N : Net) (given c : Nat → Gps), N.Closed ∧ interpolateAll N 2 given = some c ∧
    1 < N.count ∧ 2 < N.count ∧ c 1 = c 2 := by
  refine ⟨⟨3, fun s => if s = 0 then [1, 2] else [0], id⟩, fun s => if s = 0 then ⟨8, 50⟩ else .invalid, ?_⟩
  have hc : Net.Closed ⟨3, fun s => if s = 0 then [1, 2] else [0], id⟩ := by
    intro s hs t ht
    simp only at ht ⊢
    split at ht
    · simp at ht; omega
    · simp at ht; omega
  obtain ⟨c, h, _⟩ := C114_placed _ hc (fun s => if s = 0 then ⟨8, 50⟩ else .invalid) 2 (by omega)
  refine ⟨c, hc, h, by decide, by decide, ?_⟩
  have h12 : (interpolateAll ⟨3, fun s => if s = 0 then [1, 2] else [0], id⟩ 2
      (fun s => if s = 0 then ⟨8, 50⟩ else .invalid)).map (fun c => decide (c 1 = c 2)) = some true := by decide +kernel
  rw [h] at h12
  simpa using h12

/-! ### C115: bounding boxes -/

/-- C115. The bounding box of points on the globe contains every one of them, and no smaller box does. -/
theorem C115_smallest (ps : List Gps) (hne : ps ≠ [])
    (hps : ∀ p ∈ ps, -361 ≤ p.lon ∧ p.lon ≤ 361 ∧ -361 ≤ p.lat ∧ p.lat ≤ 361) :
    (∀ p ∈ ps, (boundingBox ps).Has p) ∧
      ∀ b : Box, (∀ p ∈ ps, b.Has p) → b.Has (boundingBox ps).sw ∧ b.Has (boundingBox ps).ne := by
  unfold boundingBox
  rw [grow_fold]
  obtain ⟨a1, a2, a3⟩ := foldl_min_spec (ps.map Gps.lon) 361
  obtain ⟨b1, b2, b3⟩ := foldl_min_spec (ps.map Gps.lat) 361
  obtain ⟨c1, c2, c3⟩ := foldl_max_spec (ps.map Gps.lon) (-361)
  obtain ⟨d1, d2, d3⟩ := foldl_max_spec (ps.map Gps.lat) (-361)
  obtain ⟨p0, hp0⟩ := List.exists_mem_of_ne_nil _ hne
  have q0 := hps p0 hp0
  have attain : ∀ (f : Gps → Rat) (v : Rat), (v = f p0 ∨ v ∈ ps.map f) → ∃ p ∈ ps, v = f p := by
    intro f v h
    rcases h with h | h
    · exact ⟨p0, hp0, h⟩
    · obtain ⟨p, hp, h⟩ := List.mem_map.1 h
      exact ⟨p, hp, h.symm⟩
  have ma := a2 _ (List.mem_map.2 ⟨p0, hp0, rfl⟩)
  have mb := b2 _ (List.mem_map.2 ⟨p0, hp0, rfl⟩)
  have mc := c2 _ (List.mem_map.2 ⟨p0, hp0, rfl⟩)
  have md := d2 _ (List.mem_map.2 ⟨p0, hp0, rfl⟩)
  obtain ⟨pa, hpa, ea⟩ := attain Gps.lon _ (a3.imp (fun h => by linarith) id)
  obtain ⟨pb, hpb, eb⟩ := attain Gps.lat _ (b3.imp (fun h => by linarith) id)
  obtain ⟨pc, hpc, ec⟩ := attain Gps.lon _ (c3.imp (fun h => by linarith) id)
  obtain ⟨pd, hpd, ed⟩ := attain Gps.lat _ (d3.imp (fun h => by linarith) id)
  constructor
  · intro p hp
    exact ⟨a2 _ (List.mem_map.2 ⟨p, hp, rfl⟩), c2 _ (List.mem_map.2 ⟨p, hp, rfl⟩), b2 _ (List.mem_map.2 ⟨p, hp, rfl⟩),
      d2 _ (List.mem_map.2 ⟨p, hp, rfl⟩)⟩
  · intro b hb
    have ha' := hb pa hpa
    have hb' := hb pb hpb
    have hc' := hb pc hpc
    have hd' := hb pd hpd
    unfold Box.Has at *
    simp only at *
    rw [ea, eb, ec, ed]
    exact ⟨⟨ha'.1, ha'.2.1, hb'.2.2.1, hb'.2.2.2⟩, hc'.1, hc'.2.1, hd'.2.2.1, hd'.2.2.2⟩

example : boundingBox [⟨8, 50⟩, ⟨7, 51⟩, ⟨9, 49⟩] = ⟨⟨7, 49⟩, ⟨9, 51⟩⟩ := by decide +kernel

/-- C115. A single point without valid coordinates spoils the box: its south west corner is no valid point, however many
valid points there are. -/
theorem C115_invalid_point (ps : List Gps) (h : Gps.invalid ∈ ps) : (boundingBox ps).sw.valid = false := by
  unfold boundingBox
  rw [grow_fold]
  obtain ⟨_, b2, _⟩ := foldl_min_spec (ps.map Gps.lat) 361
  have hb : (ps.map Gps.lat).foldl min 361 ≤ -361 := b2 (-361) (List.mem_map.2 ⟨.invalid, h, rfl⟩)
  rw [Bool.eq_false_iff]
  intro hv
  have hk := (valid_iff (fun _ => ⟨(ps.map Gps.lon).foldl min 361, (ps.map Gps.lat).foldl min 361⟩) 0).1 hv
  have := hk.2.2.1
  simp only at this
  linarith

example : (boundingBox [⟨8, 50⟩, .invalid, ⟨9, 49⟩]).sw.valid = false := by decide +kernel

/-- C115. The bounding box of no points is inside out: it contains no point at all. -/
theorem C115_empty (p : Gps) : ¬ (boundingBox []).Has p := by
  rintro ⟨h1, h2, _⟩
  have e1 : (boundingBox []).sw.lon = 361 := rfl
  have e2 : (boundingBox []).ne.lon = -361 := rfl
  rw [e1] at h1
  rw [e2] at h2
  linarith

end Soro
