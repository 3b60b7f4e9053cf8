import Verif.Proof.PathLength
import Verif.Props.Network

/-! C106: lengths of sections and paths, see `Model/PathLength.lean` and `Spec/PathLength.lean`. -/

namespace Soro.Infra

section
variable {g0 : Graph} {xs : List SecIn} {bs : List (Nat × Bool × Nat)}

/-- **C106** In a network the kilometrage of a section element towards the first or last track element of a section is that of the point
where the section starts or ends. -/
theorem C106_point (v : ValidNet g0 xs bs) (km : Kms) {o : SecOut} (ho : o ∈ (parseAll xs g0).2) (b : Bool) (a : Nat)
    (ha : (o.towards b).getLast? = some a ∨ (o.towards (!b)).head? = some a) :
    getKm (netGraph g0 xs bs).el km (o.x.elem b) a = km (o.x.elem b) (o.x.pt b) :=
  (netCtx v).getKm_point km ho ha

/-- **C106** The path over sections, where each starts at the element where the one before ended or at a border of the same kilometrage,
is as long as the sections together, if the kilometrages of each section rise or fall along it. -/
theorem C106_path (v : ValidNet g0 xs bs) (km : Kms) (ps : List (SecOut × Bool)) (hne : ps ≠ []) (hs : ∀ p ∈ ps, p.1 ∈ (parseAll xs g0).2)
    (hc : Connected (netGraph g0 xs bs).el km ps) (hm : ∀ p ∈ ps, Monotone (p.1.kms km p.2)) :
    lengthFromElements (netGraph g0 xs bs).el km (pathElems ps) = some (ps.map fun p => p.1.len km).sum := by
  have h := (netCtx v).len_path km ps hs hc
  have e : ps.map (fun p => travel (p.1.kms km p.2)) = ps.map fun p => p.1.len km :=
    List.map_congr_left fun p hp => travel_section (hm p hp)
  rw [e] at h
  cases ps with
  | nil => exact absurd rfl hne
  | cons p l =>
    obtain ⟨o, b⟩ := p
    obtain ⟨t, ht⟩ := pathElems_head o b l
    rw [← h, ht, lengthFromElements, lengthLoop_eq, zero_add]

/-- **C106** The stored length of a section is the length of the path over it in either direction. -/
theorem C106_section (v : ValidNet g0 xs bs) (km : Kms) {o : SecOut} (ho : o ∈ (parseAll xs g0).2) (b : Bool) (hm : Monotone (o.kms km b)) :
    lengthFromElements (netGraph g0 xs bs).el km (o.x.elem (!b) :: (o.towards b ++ [o.x.elem b])) = some (sectionLength km o.x) := by
  have h := C106_path v km [(o, b)] (by simp) (by simpa using ho) trivial (by simpa using hm)
  have e : sectionLength km o.x = o.len km := by
    unfold sectionLength SecOut.len
    rw [absR_eq]
    rfl
  rw [e]
  simpa [pathElems] using h

/-- **C106** A section is never longer than the path over it. -/
theorem C106_lower (v : ValidNet g0 xs bs) (km : Kms) {o : SecOut} (ho : o ∈ (parseAll xs g0).2) (b : Bool) :
    ∃ d, lengthFromElements (netGraph g0 xs bs).el km (o.x.elem (!b) :: (o.towards b ++ [o.x.elem b])) = some d ∧ sectionLength km o.x ≤ d := by
  refine ⟨_, rfl, ?_⟩
  rw [lengthLoop_eq, zero_add, (netCtx v).len_section km ho b]
  have e : o.kms km b = km (o.x.elem (!b)) (o.x.pt (!b)) :: ((o.towards b).map (fun i => km i .only) ++ [km (o.x.elem b) (o.x.pt b)]) := by
    simp [SecOut.kms]
  rw [e]
  have tri : ∀ (l : List Rat) (a c : Rat), |a - c| ≤ travel (a :: (l ++ [c])) := by
    intro l
    induction l with
    | nil => intro a c; simp [travel]
    | cons x l ih =>
      intro a c
      rw [List.cons_append, travel]
      have := ih x c
      have := abs_sub_le a x c
      linarith
  have := tri ((o.towards b).map (fun i => km i .only)) (km (o.x.elem (!b)) (o.x.pt (!b))) (km (o.x.elem b) (o.x.pt b))
  refine le_trans (le_of_eq ?_) this
  unfold sectionLength
  rw [absR_eq]
  cases b
  · rfl
  · exact abs_sub_comm _ _
end

/-- **C106** The length of a path is the length up to any of its elements and that from there on, and does not depend on the direction. -/
theorem C106_split (el : Nat → Elem) (km : Kms) (l r : List Nat) (x : Nat) :
    lengthFromElements el km (l ++ x :: r) = (lengthFromElements el km (l ++ [x])).bind fun d =>
      (lengthFromElements el km (x :: r)).map fun d' => d + d' := by
  have e : ∀ (l r : List Nat) (x : Nat), lengthFromElements el km (l ++ x :: r) = some (len el km (l ++ x :: r)) := by
    intro l r x
    cases l with
    | nil => simp [lengthFromElements, lengthLoop_eq]
    | cons a l => simp [lengthFromElements, lengthLoop_eq]
  rw [e l r x, e l [] x, ← List.nil_append (x :: r), e [] r x, List.nil_append, len_append]
  rfl

theorem C106_reverse (el : Nat → Elem) (km : Kms) (l : List Nat) : lengthFromElements el km l.reverse = lengthFromElements el km l := by
  have e : ∀ l : List Nat, l ≠ [] → lengthFromElements el km l = some (len el km l) := by
    intro l h
    cases l with
    | nil => exact absurd rfl h
    | cons a l => simp [lengthFromElements, lengthLoop_eq]
  have r : ∀ l : List Nat, len el km l.reverse = len el km l := by
    intro l
    induction l with
    | nil => rfl
    | cons a l ih =>
      cases l with
      | nil => rfl
      | cons b l =>
        rw [List.reverse_cons, List.reverse_cons, List.append_assoc, List.singleton_append, len_append, ← List.reverse_cons, ih]
        simp only [len]
        rw [abs_sub_comm, add_zero, add_comm]
  by_cases h : l = []
  · rw [h]; rfl
  · rw [e l h, e _ (by simpa using h), r]

/-- **C106** The distances the intervals of a run are cut at never fall, and the distance at each node is the length of the path up to it. -/
theorem C106_distances (el : Nat → Elem) (km : Kms) (a : Nat) (l : List Nat) :
    (0 :: distances el km a 0 l).Pairwise (· ≤ ·) ∧
    ∀ n : Nat, n < l.length → (distances el km a 0 l)[n]? = lengthFromElements el km (a :: l.take (n + 1)) := by
  refine ⟨distances_mono el km l a 0, fun n hn => ?_⟩
  rw [distances_eq, if_pos hn, lengthFromElements, lengthLoop_eq]

/-- **C107** fails: `get_path_length_from_sections` reads past the end of every path. -/
theorem C107_end_negation (el : Nat → Elem) (km : Kms) (l : List Nat) : lengthFromSections el km none l.length l = none := by
  match l with
  | [] => rfl
  | [_] => rfl
  | x :: y :: l => exact sectionsLoop_none el km _ _ _ _ _ _ _ (by simp) (by simp)

/-- **C107** (partial: if reading past the end yields any element and does no harm) For a path over whole sections
`get_path_length_from_sections` yields the sum of their lengths. -/
theorem C107_sections_partial {g0 : Graph} {xs : List SecIn} {bs : List (Nat × Bool × Nat)} (v : ValidNet g0 xs bs) (km : Kms) (past : Nat)
    (ps : List (SecOut × Bool)) (hne : ps ≠ []) (hs : ∀ p ∈ ps, p.1 ∈ (parseAll xs g0).2) (hc : Connected (netGraph g0 xs bs).el km ps) :
    lengthFromSections (netGraph g0 xs bs).el km (some past) (pathElems ps).length (pathElems ps) = some (some (ps.map fun p => p.1.len km).sum) := by
  cases ps with
  | nil => exact absurd rfl hne
  | cons p ps =>
    obtain ⟨o, b⟩ := p
    obtain ⟨t, ht⟩ := pathElems_head o b ps
    cases t with
    | nil =>
      cases ps with
      | nil => simp [pathElems] at ht
      | cons q ps =>
        obtain ⟨q1, q2⟩ := q
        obtain ⟨t, ht'⟩ := pathElems_head q1 q2 ps
        rw [pathElems, ht'] at ht
        simp at ht
    | cons y l =>
      rw [ht, lengthFromSections]
      simp only [List.head?_cons, Option.some_or, Option.bind_some]
      rw [(netCtx v).sections km past ps o b _ 0 y l hs hc ht (by simp), zero_add]

/-- **C107** fails also for paths that end with a track element, even if reading past the end does no harm: the length depends on the element
read. -/
theorem C107_track_negation : ∃ (g0 : Graph) (xs : List SecIn) (bs : List (Nat × Bool × Nat)) (km : Kms) (l : List Nat), ValidNet g0 xs bs ∧
    lengthFromElements (netGraph g0 xs bs).el km l = some 1 ∧
    lengthFromSections (netGraph g0 xs bs).el km (some 0) l.length l = some (some 0) ∧
    lengthFromSections (netGraph g0 xs bs).el km (some 1) l.length l = some (some 4) :=
  ⟨exGraph exTys, exSecs, exBorders, fun i _ => if i = 0 then 5 else if i = 1 then 9 else 6, [0, 9], exNet,
    by decide +kernel, by decide +kernel, by decide +kernel⟩

/-! ### examples -/

/-- kilometrages of the network of `Props/Network.lean`: the sections from 0 to 1 and on the left from 1 to 2 -/
def exKm : Kms := fun i p => match i, p with
  | 0, _ => 5 | 1, .start => 9 | 1, .stem => 10 | 1, .branch => 11 | 2, .startLeft => 20
  | 9, _ => 6 | 10, _ => 7 | 11, _ => 8 | 12, _ => 7 | 13, _ => 10 | 14, _ => 20 | _, _ => 0

/-- the path over the first two sections: 4 from the bumper 0 to the start of the switch 1, 10 from its stem to the cross 2 -/
example : ((parseAll exSecs (exGraph exTys)).2.take 2).map (fun o => (o.up, o.kms exKm false)) =
    [([9, 10, 11], [5, 6, 7, 8, 9]), ([13], [10, 10, 20])] ∧
    lengthFromElements (netGraph (exGraph exTys) exSecs exBorders).el exKm [0, 9, 10, 11, 1, 13, 2] = some 14 := by
  decide +kernel

/-- the hypotheses of `C106_path` -/
example : ∃ ps : List (SecOut × Bool), ps.length = 2 ∧ (∀ p ∈ ps, p.1 ∈ (parseAll exSecs (exGraph exTys)).2) ∧
    pathElems ps = [0, 9, 10, 11, 1, 13, 2] ∧
    Connected (netGraph (exGraph exTys) exSecs exBorders).el exKm ps ∧ ∀ p ∈ ps, Monotone (p.1.kms exKm p.2) := by
  refine ⟨((parseAll exSecs (exGraph exTys)).2.take 2).map fun o => (o, false), by decide +kernel, ?_, by decide +kernel, ?_, ?_⟩
  · intro p hp
    obtain ⟨o, ho, rfl⟩ := List.mem_map.1 hp
    exact List.mem_of_mem_take ho
  · exact ⟨Or.inl (by decide +kernel), trivial⟩
  · intro p hp
    obtain ⟨o, ho, rfl⟩ := List.mem_map.1 hp
    left
    have : ∀ l ∈ ((parseAll exSecs (exGraph exTys)).2.take 2).map (fun o => o.kms exKm false), l.Pairwise (· ≤ ·) := by decide +kernel
    exact this _ (List.mem_map_of_mem ho)

end Soro.Infra
