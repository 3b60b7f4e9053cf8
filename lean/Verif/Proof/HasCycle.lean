import Verif.Model.HasCycle
import Verif.Proof.Cycle

/-! Proofs about `utls::has_cycle`. -/

namespace Soro.HasCycle

variable {nbrs : Nat → List Nat}

/-- finished nodes are closed under successors and on no cycle -/
def Done (nbrs : Nat → List Nat) (F : List Nat) : Prop :=
  ∀ x ∈ F, (∀ y ∈ nbrs x, y ∈ F) ∧ ¬ ReachPlus nbrs x x

theorem Done.reach {F : List Nat} (h : Done nbrs F) {x y : Nat} (hx : x ∈ F) (hr : ReachPlus nbrs x y) : y ∈ F :=
  hr.closed (· ∈ F) (fun y hy => (h x hx).1 y hy) (fun z hz y hy => (h z hz).1 y hy)

/-- the state of the search: `S` are the nodes visited but not finished (the call stack) -/
structure Inv (nbrs : Nat → List Nat) (n : Nat) (S : List Nat) (s : DState) : Prop where
  done : Done nbrs s.finished
  vis : ∀ x, x ∈ s.visited ↔ x ∈ s.finished ∨ x ∈ S
  disj : ∀ x ∈ S, x ∉ s.finished
  nodup : s.visited.Nodup
  range : ∀ x ∈ s.visited, x < n

/-- what a call guarantees -/
def Post (nbrs : Nat → List Nat) (n : Nat) (S : List Nat) (ms : List Nat) (s : DState) : Option (Bool × DState) → Prop
  | none => False
  | some (true, _) => ∃ i, i < n ∧ ReachPlus nbrs i i
  | some (false, s') => Inv nbrs n S s' ∧ (∀ m ∈ ms, m ∈ s'.finished) ∧ (∀ x ∈ s.finished, x ∈ s'.finished) ∧
      s.visited.length ≤ s'.visited.length

theorem impl_spec (n : Nat) (hn : ∀ x, x < n → ∀ y ∈ nbrs x, y < n) (fuel : Nat) :
    (∀ (S : List Nat) (m : Nat) (s : DState), Inv nbrs n S s → m < n → (∀ x ∈ S, ReachPlus nbrs x m) →
      n < s.visited.length + fuel → Post nbrs n S [m] s (impl nbrs fuel m s)) ∧
    (∀ (S : List Nat) (ms : List Nat) (s : DState), Inv nbrs n S s → (∀ m ∈ ms, m < n) →
      (∀ x ∈ S, ∀ m ∈ ms, ReachPlus nbrs x m) →
      n < s.visited.length + fuel → Post nbrs n S ms s (implAll nbrs fuel ms s)) := by
  have step : ∀ fuel, (∀ (S : List Nat) (m : Nat) (s : DState), Inv nbrs n S s → m < n → (∀ x ∈ S, ReachPlus nbrs x m) →
      n < s.visited.length + fuel → Post nbrs n S [m] s (impl nbrs fuel m s)) →
      ∀ (S : List Nat) (ms : List Nat) (s : DState), Inv nbrs n S s → (∀ m ∈ ms, m < n) →
      (∀ x ∈ S, ∀ m ∈ ms, ReachPlus nbrs x m) →
      n < s.visited.length + fuel → Post nbrs n S ms s (implAll nbrs fuel ms s) := by
    intro fuel himpl S ms
    induction ms with
    | nil =>
      intro s hi _ _ _
      rw [implAll]
      exact ⟨hi, by simp, fun _ h => h, Nat.le_refl _⟩
    | cons m ms ih =>
      intro s hi hms hS hf
      have h1 := himpl S m s hi (hms m (by simp)) (fun x hx => hS x hx m (by simp)) hf
      rw [implAll]
      match hr : impl nbrs fuel m s with
      | none => rw [hr] at h1; exact h1
      | some (true, s') => rw [hr] at h1; exact h1
      | some (false, s') =>
        rw [hr] at h1
        obtain ⟨h2, h3, h4, h5⟩ := h1
        have h6 := ih s' h2 (fun m hm => hms m (by simp [hm])) (fun x hx m hm => hS x hx m (by simp [hm])) (by omega)
        dsimp only
        match hr' : implAll nbrs fuel ms s' with
        | none => rw [hr'] at h6; exact h6
        | some (true, s'') => rw [hr'] at h6; exact h6
        | some (false, s'') =>
          rw [hr'] at h6
          obtain ⟨h7, h8, h9, h10⟩ := h6
          refine ⟨h7, fun x hx => ?_, fun x hx => h9 x (h4 x hx), by omega⟩
          rcases List.mem_cons.1 hx with rfl | hx
          · exact h9 x (h3 x (by simp))
          · exact h8 x hx
  induction fuel with
  | zero =>
    have : ∀ (S : List Nat) (m : Nat) (s : DState), Inv nbrs n S s → m < n → (∀ x ∈ S, ReachPlus nbrs x m) →
      n < s.visited.length + 0 → Post nbrs n S [m] s (impl nbrs 0 m s) := by
      intro S m s hi _ _ hf
      have := OGraph.nodup_length_le s.visited n hi.nodup hi.range
      omega
    exact ⟨this, step 0 this⟩
  | succ fuel ih =>
    have : ∀ (S : List Nat) (m : Nat) (s : DState), Inv nbrs n S s → m < n → (∀ x ∈ S, ReachPlus nbrs x m) →
      n < s.visited.length + (fuel + 1) → Post nbrs n S [m] s (impl nbrs (fuel + 1) m s) := by
      intro S m s hi hm hS hf
      rw [impl]
      by_cases hfin : m ∈ s.finished
      · rw [if_pos hfin]
        exact ⟨hi, by simpa using hfin, fun _ h => h, Nat.le_refl _⟩
      · rw [if_neg hfin]
        by_cases hvis : m ∈ s.visited
        · rw [if_pos hvis]
          rcases (hi.vis m).1 hvis with h | h
          · exact absurd h hfin
          · exact ⟨m, hm, hS m h⟩
        · rw [if_neg hvis]
          have hi' : Inv nbrs n (m :: S) { s with visited := m :: s.visited } := by
            refine ⟨hi.done, fun x => ?_, fun x hx => ?_, List.nodup_cons.2 ⟨hvis, hi.nodup⟩, fun x hx => ?_⟩
            · simp only [List.mem_cons, hi.vis x]
              constructor
              · rintro (h | h | h)
                · exact Or.inr (Or.inl h)
                · exact Or.inl h
                · exact Or.inr (Or.inr h)
              · rintro (h | h | h)
                · exact Or.inr (Or.inl h)
                · exact Or.inl h
                · exact Or.inr (Or.inr h)
            · rcases List.mem_cons.1 hx with rfl | hx
              · exact hfin
              · exact hi.disj x hx
            · rcases List.mem_cons.1 hx with rfl | hx
              · exact hm
              · exact hi.range x hx
          have h1 := ih.2 (m :: S) (nbrs m) _ hi' (hn m hm) (by
            intro x hx y hy
            rcases List.mem_cons.1 hx with rfl | hx
            · exact ReachPlus.single hy
            · exact (hS x hx).trans (ReachPlus.single hy)) (by simp only [List.length_cons]; omega)
          match hr : implAll nbrs fuel (nbrs m) { s with visited := m :: s.visited } with
          | none => rw [hr] at h1; exact h1
          | some (true, s') => rw [hr] at h1; exact h1
          | some (false, s') =>
            rw [hr] at h1
            obtain ⟨h2, h3, h4, h5⟩ := h1
            have hmf : m ∉ s'.finished := h2.disj m (by simp)
            refine ⟨⟨?_, fun x => ?_, fun x hx => ?_, h2.nodup, h2.range⟩, by simp, fun x hx => by simp [h4 x hx], ?_⟩
            · intro x hx
              rcases List.mem_cons.1 hx with rfl | hx
              · refine ⟨fun y hy => by simp [h3 y hy], fun hc => ?_⟩
                have : x ∈ s'.finished := hc.closed (· ∈ s'.finished) (fun y hy => h3 y hy)
                  (fun z hz y hy => (h2.done z hz).1 y hy)
                exact hmf this
              · exact ⟨fun y hy => by simp [(h2.done x hx).1 y hy], (h2.done x hx).2⟩
            · simp only [h2.vis x, List.mem_cons]
              constructor
              · rintro (h | h | h)
                · exact Or.inl (Or.inr h)
                · exact Or.inl (Or.inl h)
                · exact Or.inr h
              · rintro ((h | h) | h)
                · exact Or.inr (Or.inl h)
                · exact Or.inl h
                · exact Or.inr (Or.inr h)
            · intro h
              rcases List.mem_cons.1 h with rfl | h
              · exact hvis ((hi.vis x).2 (Or.inr hx))
              · exact h2.disj x (by simp [hx]) h
            · simp only [List.length_cons] at h5; dsimp only; omega
    exact ⟨this, step _ this⟩

end Soro.HasCycle
