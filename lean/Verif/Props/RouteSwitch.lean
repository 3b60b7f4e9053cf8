import Verif.Spec.RouteSwitch

/-
C207: the switch of a route is on exactly when the route is highlighted.
-/

namespace Soro.RouteSwitch

/-- everything is about one infrastructure -/
structure Inv (i : Nat) (s : State) : Prop where
  infra : s.infra = some i
  shown : ∀ q ∈ s.shown, q.1 = i
  asked : ∀ q ∈ s.asked, q.1 = i

/-- routes of switches that are on are highlighted or asked for -/
def On (ok : Nat → Nat → Bool) (i : Nat) (s : State) : Prop :=
  ∀ r, ok i r = true → s.switches r = some true → (i, r) ∈ s.shown ∨ (i, r) ∈ s.asked

/-- routes of switches that are off are neither -/
def Off (i : Nat) (s : State) : Prop := ∀ r, s.switches r = some false → (i, r) ∉ s.shown ∧ (i, r) ∉ s.asked

theorem mem_eraseIdx_of_ne {l : List (Nat × Nat)} {k : Nat} {q x : Nat × Nat} (hk : l[k]? = some q) (hx : x ∈ l) (hne : x ≠ q) :
    x ∈ l.eraseIdx k := by
  obtain ⟨j, hj, rfl⟩ := List.mem_iff_getElem.1 hx
  rw [List.mem_eraseIdx_iff_getElem]
  refine ⟨j, hj, ?_, rfl⟩
  rintro rfl
  rw [List.getElem?_eq_getElem hj] at hk
  exact hne (Option.some.inj hk)

theorem initially_iff {i : Nat} {s : State} (h : Inv i s) (r : Nat) : s.isInitiallyChecked r = true ↔ (i, r) ∈ s.shown := by
  unfold State.isInitiallyChecked
  rw [List.any_eq_true]
  constructor
  · rintro ⟨q, hq, hr⟩
    have h1 := h.shown q hq
    have h2 : q.2 = r := by simpa using hr
    rw [← h1, ← h2]
    exact hq
  · intro hq
    exact ⟨_, hq, by simp⟩

theorem step_inv (ok : Nat → Nat → Bool) {i : Nat} {s : State} (h : Inv i s) (e : Event) (he : ∀ j, e ≠ .infra j) :
    Inv i (s.step ok e) := by
  cases e with
  | infra j => exact absurd rfl (he j)
  | panel ids => exact ⟨h.infra, h.shown, h.asked⟩
  | toggle r =>
    show Inv i (s.toggle r)
    unfold State.toggle
    cases hs : s.switches r with
    | none => exact h
    | some b =>
      cases b with
      | false =>
        simp only [Bool.not_false, if_true, State.add, h.infra]
        refine ⟨rfl, h.shown, ?_⟩
        intro q hq
        rcases List.mem_append.1 hq with hq | hq
        · exact h.asked q hq
        · rw [List.mem_singleton.1 hq]
      | true =>
        simp only [Bool.not_true, Bool.false_eq_true, if_false, State.delete]
        exact ⟨h.infra, fun q hq => h.shown q (List.mem_filter.1 hq).1, h.asked⟩
  | answer k =>
    show Inv i (s.answer ok k)
    unfold State.answer
    cases hk : s.asked[k]? with
    | none => exact h
    | some q =>
      refine ⟨h.infra, ?_, fun x hx => h.asked x (List.mem_of_mem_eraseIdx hx)⟩
      intro x hx
      by_cases ho : ok q.1 q.2 = true
      · simp only [ho, if_true, List.mem_append, List.mem_singleton] at hx
        rcases hx with hx | rfl
        · exact h.shown x hx
        · exact h.asked x (List.mem_of_getElem? hk)
      · simp only [ho, Bool.false_eq_true, if_false] at hx
        exact h.shown x hx

theorem step_on (ok : Nat → Nat → Bool) {i : Nat} {s : State} (h : Inv i s) (hon : On ok i s) (e : Event) (he : ∀ j, e ≠ .infra j) :
    On ok i (s.step ok e) := by
  cases e with
  | infra j => exact absurd rfl (he j)
  | panel ids =>
    intro r hr hs
    simp only [State.step, State.panel] at hs ⊢
    split at hs
    · cases hb : s.switches r with
      | none =>
        rw [hb] at hs
        exact .inl ((initially_iff h r).1 (by simpa using hs))
      | some b =>
        rw [hb] at hs
        exact hon r hr (by rw [hb]; simpa using hs)
    · cases hs
  | toggle q =>
    show On ok i (s.toggle q)
    unfold State.toggle
    cases hb : s.switches q with
    | none => exact hon
    | some b =>
      cases b with
      | false =>
        simp only [Bool.not_false, if_true, State.add, h.infra]
        intro r hr hs
        simp only at hs ⊢
        by_cases hq : r = q
        · subst hq
          exact .inr (by simp)
        · rw [if_neg hq] at hs
          rcases hon r hr hs with h1 | h1
          · exact .inl h1
          · exact .inr (List.mem_append_left _ h1)
      | true =>
        simp only [Bool.not_true, Bool.false_eq_true, if_false, State.delete]
        intro r hr hs
        simp only at hs ⊢
        by_cases hq : r = q
        · subst hq
          simp at hs
        · rw [if_neg hq] at hs
          rcases hon r hr hs with h1 | h1
          · exact .inl (List.mem_filter.2 ⟨h1, by simpa using hq⟩)
          · exact .inr h1
  | answer k =>
    show On ok i (s.answer ok k)
    unfold State.answer
    cases hk : s.asked[k]? with
    | none => exact hon
    | some q =>
      intro r hr hs
      simp only at hs ⊢
      rcases hon r hr hs with h1 | h1
      · left
        split
        · exact List.mem_append_left _ h1
        · exact h1
      · by_cases hq : (i, r) = q
        · left
          rw [if_pos (by rw [← hq]; exact hr)]
          exact List.mem_append_right _ (by simp [hq])
        · exact .inr (mem_eraseIdx_of_ne hk h1 hq)

theorem step_off (ok : Nat → Nat → Bool) {i : Nat} {s : State} (h : Inv i s) (hoff : Off i s) (e : Event) (he : ∀ j, e ≠ .infra j)
    (hp : e.Patient s) : Off i (s.step ok e) := by
  cases e with
  | infra j => exact absurd rfl (he j)
  | panel ids =>
    intro r hs
    simp only [State.step, State.panel] at hs ⊢
    split at hs
    · rename_i hm
      cases hb : s.switches r with
      | none =>
        rw [hb] at hs
        have hf : s.isInitiallyChecked r = false := by simpa using hs
        refine ⟨fun hc => ?_, fun hc => hp r hm hb _ hc rfl⟩
        rw [(initially_iff h r).2 hc] at hf
        cases hf
      | some b =>
        rw [hb] at hs
        exact hoff r (by rw [hb]; simpa using hs)
    · cases hs
  | toggle q =>
    show Off i (s.toggle q)
    unfold State.toggle
    cases hb : s.switches q with
    | none => exact hoff
    | some b =>
      cases b with
      | false =>
        simp only [Bool.not_false, if_true, State.add, h.infra]
        intro r hs
        simp only at hs ⊢
        by_cases hq : r = q
        · subst hq
          simp at hs
        · rw [if_neg hq] at hs
          refine ⟨(hoff r hs).1, fun hc => ?_⟩
          rcases List.mem_append.1 hc with hc | hc
          · exact (hoff r hs).2 hc
          · simp only [List.mem_singleton, Prod.mk.injEq] at hc
            exact hq hc.2
      | true =>
        simp only [Bool.not_true, Bool.false_eq_true, if_false, State.delete]
        intro r hs
        simp only at hs ⊢
        by_cases hq : r = q
        · subst hq
          refine ⟨fun hc => ?_, fun hc => hp _ hc rfl⟩
          have := (List.mem_filter.1 hc).2
          simp at this
        · rw [if_neg hq] at hs
          exact ⟨fun hc => (hoff r hs).1 (List.mem_filter.1 hc).1, (hoff r hs).2⟩
  | answer k =>
    show Off i (s.answer ok k)
    unfold State.answer
    cases hk : s.asked[k]? with
    | none => exact hoff
    | some q =>
      intro r hs
      simp only at hs ⊢
      obtain ⟨h1, h2⟩ := hoff r hs
      refine ⟨fun hc => ?_, fun hc => h2 (List.mem_of_mem_eraseIdx hc)⟩
      split at hc
      · rcases List.mem_append.1 hc with hc | hc
        · exact h1 hc
        · rw [List.mem_singleton.1 hc] at h2
          exact h2 (List.mem_of_getElem? hk)
      · exact h1 hc

theorem run_on (ok : Nat → Nat → Bool) {i : Nat} (evs : List Event) : ∀ s, Inv i s → On ok i s → Stays evs →
    Inv i (run ok evs s) ∧ On ok i (run ok evs s) := by
  induction evs with
  | nil => intro s h1 h2 _; exact ⟨h1, h2⟩
  | cons e evs ih =>
    intro s h1 h2 hs
    have he : ∀ j, e ≠ .infra j := fun j hj => hs j (by simp [hj])
    exact ih _ (step_inv ok h1 e he) (step_on ok h1 h2 e he) (fun j hj => hs j (by simp [hj]))

theorem run_off (ok : Nat → Nat → Bool) {i : Nat} (evs : List Event) : ∀ s, Inv i s → Off i s → Stays evs → Patient ok s evs →
    Off i (run ok evs s) := by
  induction evs with
  | nil => intro s _ h2 _ _; exact h2
  | cons e evs ih =>
    intro s h1 h2 hs hp
    have he : ∀ j, e ≠ .infra j := fun j hj => hs j (by simp [hj])
    exact ih _ (step_inv ok h1 e he) (step_off ok h1 h2 e he hp.1) (fun j hj => hs j (by simp [hj])) hp.2

theorem inv_init (i : Nat) : Inv i (State.init (some i)) := ⟨rfl, by simp [State.init], by simp [State.init]⟩

theorem settled_iff {i : Nat} {s : State} (h : Inv i s) (r : Nat) : s.Settled r ↔ (i, r) ∉ s.asked := by
  constructor
  · intro hs hm
    exact hs _ hm rfl
  · rintro hs ⟨j, q⟩ hq rfl
    have := h.asked _ hq
    simp only at this
    subst this
    exact hs hq

/-- C207, one direction, while the infrastructure stays: whatever is clicked and in whatever order the answers arrive, the
route of a switch that is on is highlighted as soon as no request about it is open, if the server knows the route. -/
theorem C207_on_partial (ok : Nat → Nat → Bool) (i : Nat) (evs : List Event) (hs : Stays evs) (r : Nat) (hr : ok i r = true)
    (hset : (run ok evs (State.init (some i))).Settled r) (hsw : (run ok evs (State.init (some i))).switches r = some true) :
    (i, r) ∈ (run ok evs (State.init (some i))).shown := by
  obtain ⟨h1, h2⟩ := run_on ok evs (State.init (some i)) (inv_init i) (fun r _ h => by cases h) hs
  rcases h2 r hr hsw with h | h
  · exact h
  · exact absurd h ((settled_iff h1 r).1 hset)

example : Stays [.panel [4, 7], .toggle 7, .toggle 7, .toggle 7, .answer 1, .answer 0] ∧
    (run (fun _ _ => true) [.panel [4, 7], .toggle 7, .toggle 7, .toggle 7, .answer 1, .answer 0]
      (State.init (some 2))).switches 7 = some true := by
  refine ⟨fun j hj => ?_, by decide⟩
  simp at hj

/-- C207, both directions, while the infrastructure stays and the user waits for the answer about a route before coming back
to its switch: the switch of a route that the server knows is on exactly when the route is highlighted. -/
theorem C207_exact_partial (ok : Nat → Nat → Bool) (i : Nat) (evs : List Event) (hs : Stays evs)
    (hp : Patient ok (State.init (some i)) evs) (r : Nat) (hr : ok i r = true)
    (hset : (run ok evs (State.init (some i))).Settled r) (b : Bool)
    (hsw : (run ok evs (State.init (some i))).switches r = some b) :
    b = true ↔ (i, r) ∈ (run ok evs (State.init (some i))).shown := by
  cases b with
  | true => exact ⟨fun _ => C207_on_partial ok i evs hs r hr hset hsw, fun _ => rfl⟩
  | false =>
    have := (run_off ok evs (State.init (some i)) (inv_init i) (fun r h => by cases h) hs hp r hsw).1
    exact ⟨fun h => absurd h (by decide), fun h => absurd h this⟩

example : Stays [.panel [4, 7], .toggle 7, .answer 0, .panel [], .panel [7], .toggle 7] ∧
    Patient (fun _ _ => true) (State.init (some 2)) [.panel [4, 7], .toggle 7, .answer 0, .panel [], .panel [7], .toggle 7] ∧
    (run (fun _ _ => true) [.panel [4, 7], .toggle 7, .answer 0, .panel [], .panel [7], .toggle 7]
      (State.init (some 2))).switches 7 = some false := by
  refine ⟨fun j hj => ?_, ?_, by decide⟩
  · simp at hj
  · simp [Patient, Event.Patient, State.Settled, State.step, State.init, State.panel, State.isInitiallyChecked,
      State.toggle, State.add, State.answer]

/-- C207 fails without waiting: on and off again before the answer leaves the switch off and the route highlighted. -/
theorem C207_quick_negation (ok : Nat → Nat → Bool) (i r : Nat) (hr : ok i r = true) :
    let s := run ok [.panel [r], .toggle r, .toggle r, .answer 0] (State.init (some i))
    s.asked = [] ∧ s.switches r = some false ∧ s.shown = [(i, r)] := by
  simp [run, State.step, State.init, State.panel, State.isInitiallyChecked, State.toggle, State.add, State.delete, State.answer, hr]

/-- C207 fails when the panel is left and opened again before the answer: the new switch is off, its route highlighted. -/
theorem C207_reopened_negation (ok : Nat → Nat → Bool) (i r : Nat) (hr : ok i r = true) :
    let s := run ok [.panel [r], .toggle r, .panel [], .panel [r], .answer 0] (State.init (some i))
    s.asked = [] ∧ s.switches r = some false ∧ s.shown = [(i, r)] := by
  simp [run, State.step, State.init, State.panel, State.isInitiallyChecked, State.toggle, State.add, State.answer, hr]

/-- C207 fails for a route the server does not know: the switch stays on and nothing is highlighted. -/
theorem C207_unknown_negation (ok : Nat → Nat → Bool) (i r : Nat) (hr : ok i r = false) :
    let s := run ok [.panel [r], .toggle r, .answer 0] (State.init (some i))
    s.asked = [] ∧ s.switches r = some true ∧ s.shown = [] := by
  simp [run, State.step, State.init, State.panel, State.isInitiallyChecked, State.toggle, State.add, State.answer, hr]

/-- C207 fails across infrastructures: the switch of a route is on when the route of another infrastructure with the same id is
highlighted, and switching it off takes the highlight from that other route. -/
theorem C207_infrastructure_negation (ok : Nat → Nat → Bool) (i j r : Nat) (hij : i ≠ j) (hr : ok i r = true) :
    let s := run ok [.panel [r], .toggle r, .answer 0, .panel [], .infra (some j), .panel [r]] (State.init (some i))
    s.asked = [] ∧ s.switches r = some true ∧ (j, r) ∉ s.shown ∧ (i, r) ∈ s.shown ∧
      (run ok [.toggle r] s).shown = [] := by
  simp [run, State.step, State.init, State.panel, State.isInitiallyChecked, State.toggle, State.add, State.delete, State.answer, hr, hij.symm]

/-- C207 fails without an infrastructure: a switch that is left from the last one turns on and asks nobody. -/
theorem C207_no_infrastructure_negation (ok : Nat → Nat → Bool) (i r : Nat) :
    let s := run ok [.panel [r], .infra none, .toggle r] (State.init (some i))
    s.asked = [] ∧ s.switches r = some true ∧ s.shown = [] := by
  simp [run, State.step, State.init, State.panel, State.isInitiallyChecked, State.toggle, State.add]

example : (fun (_ r : Nat) => decide (r < 9)) 2 7 = true ∧ (fun (_ r : Nat) => decide (r < 9)) 2 12 = false ∧ (2 : Nat) ≠ 3 := by decide

/-- C207. A switch is there exactly for the routes the panel shows, and a click changes this switch and no other. -/
theorem C207_switches (ok : Nat → Nat → Bool) (evs : List Event) (s : State) (ids : List Nat) (r q : Nat) :
    (((run ok (evs ++ [.panel ids]) s).switches r).isSome = true ↔ r ∈ ids) ∧
    ((run ok (evs ++ [.toggle q]) s).switches r =
      if r = q then ((run ok evs s).switches r).map (!·) else (run ok evs s).switches r) ∧
    ∀ k j, (run ok (evs ++ [.answer k]) s).switches r = (run ok evs s).switches r ∧
      (run ok (evs ++ [.infra j]) s).switches r = (run ok evs s).switches r := by
  simp only [run, List.foldl_append, List.foldl_cons, List.foldl_nil]
  generalize evs.foldl (State.step ok) s = t
  refine ⟨?_, ?_, ?_⟩
  · simp only [State.step, State.panel]
    split <;> simp_all
  · simp only [State.step, State.toggle]
    cases hb : t.switches q with
    | none =>
      by_cases h : r = q
      · subst h; simp [hb]
      · simp [h]
    | some b =>
      by_cases h : r = q
      · subst h
        cases b <;> cases hi : t.infra <;> simp [State.add, State.delete, hb, hi]
      · cases b <;> cases hi : t.infra <;> simp [State.add, State.delete, hi, h]
  · intro k j
    refine ⟨?_, rfl⟩
    simp only [State.step, State.answer]
    split <;> rfl

/-- C207, after any run: turning a switch off takes the highlight from its route, however often it was asked for, and from no
route with another id; turning one on takes the highlight from none. -/
theorem C207_off (ok : Nat → Nat → Bool) (evs : List Event) (s : State) (r : Nat) (q : Nat × Nat) :
    ((run ok evs s).switches r = some true →
      (q ∈ (run ok (evs ++ [.toggle r]) s).shown ↔ q ∈ (run ok evs s).shown ∧ q.2 ≠ r)) ∧
    ((run ok evs s).switches r ≠ some true →
      (q ∈ (run ok (evs ++ [.toggle r]) s).shown ↔ q ∈ (run ok evs s).shown)) := by
  simp only [run, List.foldl_append, List.foldl_cons, List.foldl_nil]
  generalize evs.foldl (State.step ok) s = t
  refine ⟨fun h => ?_, fun h => ?_⟩
  · simp only [State.step, State.toggle, h, State.delete]
    simp
  · simp only [State.step, State.toggle]
    cases hb : t.switches r with
    | none => rfl
    | some b =>
      cases b with
      | true => exact absurd hb h
      | false => cases hi : t.infra <;> simp [State.add, hi]

example : (run (fun _ _ => true) [.panel [7], .toggle 7, .toggle 7, .toggle 7, .answer 0, .answer 0] (State.init (some 2))).shown =
      [(2, 7), (2, 7)] ∧
    (run (fun _ _ => true) [.panel [7], .toggle 7, .toggle 7, .toggle 7, .answer 0, .answer 0] (State.init (some 2))).switches 7 =
      some true := by decide

end Soro.RouteSwitch
