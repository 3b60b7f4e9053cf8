import Verif.Spec.StationPanel
import Mathlib.Data.List.Induction
import Mathlib.Tactic.ByContra

/-! C202: the station panel of the web client, see `Model/StationPanel.lean`. -/

namespace Soro.StationPanel

theorem run_snoc (es : List Event) (e : Event) : run (es ++ [e]) = (run es).step e := by simp [run]

theorem lastInfra_snoc (es : List Event) (e : Event) :
    lastInfra (es ++ [e]) = match e with | .infra n => n | _ => lastInfra es := by
  cases e <;> simp [lastInfra]

theorem lastClick_snoc (es : List Event) (e : Event) :
    lastClick (es ++ [e]) = match e with | .click i => some i | _ => lastClick es := by
  cases e <;> simp [lastClick]

theorem OneInfra.init {es : List Event} {e : Event} (h : OneInfra (es ++ [e])) : OneInfra es := by
  intro a b i hq n hn
  exact h a (b ++ [e]) i (by rw [hq]; simp) n (by simp [hn])

theorem OneInfra.snoc {es : List Event} {e : Event} (h : OneInfra es) (he : ∀ n, e ≠ .infra n) : OneInfra (es ++ [e]) := by
  intro a b i hq n hn
  rcases List.eq_nil_or_concat b with rfl | ⟨b', x, rfl⟩
  · simp at hn
  · rw [List.concat_eq_append, ← List.cons_append, ← List.append_assoc] at hq
    obtain ⟨h1, h2⟩ := List.append_inj' hq rfl
    simp only [List.concat_eq_append, List.mem_append, List.mem_singleton] at hn
    rcases hn with hn | hn
    · exact h a b' i h1 n hn
    · rw [← hn] at h2; exact he n (List.singleton_inj.1 h2)

theorem lastClick_mem {es : List Event} {i : Nat} (h : lastClick es = some i) : .click i ∈ es := by
  have := List.mem_of_getLast? h
  obtain ⟨e, he, q⟩ := List.mem_filterMap.1 this
  cases e <;> simp at q
  rw [← q]; exact he

theorem OneInfra.none {es : List Event} {n : Option Nat} (h : OneInfra (es ++ [.infra n])) : lastClick es = none := by
  cases hq : lastClick es with
  | none => rfl
  | some i =>
    obtain ⟨a, b, e⟩ := List.append_of_mem (lastClick_mem hq)
    exact absurd (by simp) (h a (b ++ [.infra n]) i (by rw [e]; simp) n)

/-- what is stored -/
theorem store (es : List Event) : (run es).infra = lastInfra es ∧ (run es).station = lastClick es := by
  induction es using List.reverseRecOn with
  | nil => exact ⟨rfl, rfl⟩
  | append_singleton es e ih =>
    rw [run_snoc, lastInfra_snoc, lastClick_snoc]
    have hr : ∀ s : State, s.render.infra = s.infra ∧ s.render.station = s.station := by
      intro s; unfold State.render; split
      · split <;> exact ⟨rfl, rfl⟩
      · exact ⟨rfl, rfl⟩
    cases e with
    | click i =>
      have hw : ∀ (s : State), (s.watch i).infra = s.infra ∧ (s.watch i).station = s.station := by
        intro s; unfold State.watch; dsimp only; split <;> exact ⟨rfl, rfl⟩
      show (State.click _ i).infra = _ ∧ (State.click _ i).station = _
      unfold State.click
      dsimp only
      rw [(hr _).1, (hr _).2]
      split
      · exact ⟨ih.1, rfl⟩
      · rw [(hw _).1, (hw _).2]; exact ⟨ih.1, rfl⟩
    | infra n => exact ⟨rfl, ih.2⟩
    | button o =>
      show (State.button _ o).infra = _ ∧ (State.button _ o).station = _
      unfold State.button
      split
      · exact ih
      · rw [(hr _).1, (hr _).2]; exact ih
    | answer k => exact ih
    | fail k => exact ih

/-- the panel exists while its overlay is selected -/
theorem mounted (es : List Event) : ((run es).panel ≠ none ↔ (run es).overlay = .station) := by
  have hr : ∀ s : State, (s.render.panel ≠ none ↔ s.render.overlay = .station) := by
    intro s; unfold State.render; split
    · rename_i h
      split
      · rename_i p hp; simp [h, hp]
      · simp [h]
    · rename_i h; simp [h]
  induction es using List.reverseRecOn with
  | nil => simp [run, State.init]
  | append_singleton es e ih =>
    rw [run_snoc]
    cases e with
    | click i => exact hr _
    | infra n => exact ih
    | button o =>
      show ((State.button _ o).panel ≠ none ↔ (State.button _ o).overlay = .station)
      unfold State.button
      split
      · exact ih
      · exact hr _
    | answer k => show ((Option.map _ _) ≠ none ↔ _); rw [Ne, Option.map_eq_none_iff]; exact ih
    | fail k => show ((Option.map _ _) ≠ none ↔ _); rw [Ne, Option.map_eq_none_iff]; exact ih

/-- the panel after a click -/
theorem click_panel (s : State) (i : Nat) (h : s.panel ≠ none → s.overlay = .station) : (s.click i).visible = true ∧ (s.click i).overlay = .station ∧
    (s.click i).panel = some (match s.panel with
      | some p => if s.station = some i then p else ⟨p.shown, p.asked ++ [(s.infra, i)]⟩
      | none => ⟨none, [(s.infra, i)]⟩) := by
  obtain ⟨infra, station, visible, overlay, panel⟩ := s
  cases panel with
  | none =>
    unfold State.click State.render State.watch
    by_cases h2 : i = 0
    · subst h2; by_cases h1 : station = some 0 <;> simp [h1, State.ask]
    · by_cases h1 : station = some i <;> simp [h1, h2, State.ask]
  | some p =>
    unfold State.click State.render State.watch
    by_cases h2 : i = 0
    · subst h2; by_cases h1 : station = some 0 <;> simp [h1, State.ask]
    · by_cases h1 : station = some i <;> simp [h1, h2, State.ask]

/-- **C202** After a click on a station the panel is on the screen, whatever happened before. -/
theorem C202_opened (es : List Event) (i : Nat) : (run (es ++ [.click i])).onScreen := by
  rw [run_snoc]
  obtain ⟨h1, h2, h3⟩ := click_panel (run es) i (mounted es).1
  exact ⟨h1, h2, by show (State.click _ i).panel ≠ none; rw [h3]; simp⟩

/-- **C202**. A button of the sidebar selects its overlay and brings it to the screen, or takes it away if it is there already; choices of
infrastructures, answers and failures neither open nor close anything, in all histories. -/
theorem C202_button (es : List Event) (o : Overlay) :
    (run (es ++ [.button o])).overlay = o ∧
    ((run (es ++ [.button o])).visible = true ↔ ¬ ((run es).overlay = o ∧ (run es).visible = true)) ∧
    ∀ e, (∀ i, e ≠ .click i) → (∀ o, e ≠ .button o) →
      (run (es ++ [e])).overlay = (run es).overlay ∧ (run (es ++ [e])).visible = (run es).visible := by
  simp only [run_snoc]
  generalize run es = s
  have hr : ∀ t : State, t.render.overlay = t.overlay ∧ t.render.visible = t.visible := by
    intro t
    unfold State.render
    split
    · split <;> exact ⟨rfl, rfl⟩
    · exact ⟨rfl, rfl⟩
  refine ⟨?_, ?_, ?_⟩
  · simp only [State.step, State.button]
    split
    · assumption
    · rw [(hr _).1]
  · simp only [State.step, State.button]
    split
    · rename_i h
      simp [h]
    · rename_i h
      rw [(hr _).2]
      simp [h]
  · intro e hc hb
    cases e with
    | click i => exact absurd rfl (hc i)
    | button o => exact absurd rfl (hb o)
    | _ => exact ⟨rfl, rfl⟩

/-- **C202**. Hiding the panel with its button and showing it again changes nothing: what it shows and asks for is kept. -/
theorem C202_hidden (es : List Event) : run (es ++ [.button (run es).overlay] ++ [.button (run es).overlay]) = run es := by
  simp only [run_snoc]
  simp [State.step, State.button]

example : (run ([.infra (some 1), .click 3, .answer 0] ++ [.button .station])).visible = false ∧
    (run ([.infra (some 1), .click 3, .answer 0] ++ [.button .station])).panel = some ⟨some (some 1, 3), []⟩ := by decide

/-- the panel after a button was pressed -/
theorem button_panel (s : State) (o : Overlay) (h : s.panel ≠ none ↔ s.overlay = .station) : (s.button o).panel = s.panel ∨
    (s.button o).panel = none ∨ (s.button o).panel = some ⟨none, match s.station with | some i => [(s.infra, i)] | none => []⟩ := by
  unfold State.button
  split
  · exact Or.inl rfl
  · rename_i hn
    unfold State.render
    split
    · rename_i ho
      have : s.panel = none := by
        by_contra q
        exact hn (by rw [h.1 q]; exact ho.symm)
      right; right
      dsimp only
      rw [this]
      cases hs : s.station <;> simp [State.ask]
    · exact Or.inr (Or.inl rfl)

/-- **C202** The panel shows only stations that were clicked, of infrastructures that were chosen, whatever happened. -/
theorem C202_known (es : List Event) {p : Panel} {n : Option Nat} {i : Nat} (h : (run es).panel = some p)
    (hs : p.shown = some (n, i) ∨ (n, i) ∈ p.asked) : .click i ∈ es ∧ (n ≠ none → .infra n ∈ es) := by
  have inf : ∀ es : List Event, lastInfra es ≠ none → .infra (lastInfra es) ∈ es := by
    intro es
    induction es using List.reverseRecOn with
    | nil => intro h; exact absurd rfl h
    | append_singleton es e ih =>
      rw [lastInfra_snoc]
      cases e with
      | infra m => intro _; simp
      | _ => intro h; exact List.mem_append_left _ (ih h)
  induction es using List.reverseRecOn generalizing p with
  | nil => simp [run, State.init] at h
  | append_singleton es e ih =>
    have hst := store es
    have old : ∀ q, (run es).panel = some q → (q.shown = some (n, i) ∨ (n, i) ∈ q.asked) → .click i ∈ es ++ [e] ∧ (n ≠ none → .infra n ∈ es ++ [e]) := by
      intro q hq hm
      obtain ⟨r1, r2⟩ := ih hq hm
      exact ⟨by simp [r1], fun hn => by simp [r2 hn]⟩
    have new : ∀ j, (n, i) = ((run es).infra, j) → .click j ∈ es ++ [e] → .click i ∈ es ++ [e] ∧ (n ≠ none → .infra n ∈ es ++ [e]) := by
      intro j ej hj
      obtain ⟨e1, e2⟩ := Prod.mk.inj ej
      refine ⟨by rw [e2]; exact hj, fun hn => ?_⟩
      rw [e1, hst.1] at hn ⊢
      have := inf es hn
      simp [this]
    rw [run_snoc] at h
    cases e with
    | click j =>
      have hc := (click_panel (run es) j (mounted es).1).2.2
      change (State.click _ j).panel = _ at h
      rw [hc] at h
      obtain rfl := Option.some.inj h
      cases hp : (run es).panel with
      | none =>
        rw [hp] at hs
        simp only [reduceCtorEq, List.mem_singleton, false_or] at hs
        exact new j hs (by simp)
      | some q =>
        rw [hp] at hs
        dsimp only at hs
        split at hs
        · exact old q hp hs
        · simp only [List.mem_append, List.mem_singleton] at hs
          rcases hs with hs | hs | hs
          · exact old q hp (Or.inl hs)
          · exact old q hp (Or.inr hs)
          · exact new j hs (by simp)
    | infra m => exact old p h hs
    | button o =>
      change (State.button _ o).panel = _ at h
      rcases button_panel (run es) o (mounted es) with q | q | q
      · rw [q] at h; exact old p h hs
      · rw [q] at h; cases h
      · rw [q] at h
        obtain rfl := Option.some.inj h
        cases hc : (run es).station with
        | none => rw [hc] at hs; simp at hs
        | some j =>
          rw [hc] at hs
          simp only [reduceCtorEq, List.mem_singleton, false_or] at hs
          rw [hst.2] at hc
          exact new j hs (by simp [lastClick_mem hc])
    | answer k =>
      change Option.map _ _ = _ at h
      cases hp : (run es).panel with
      | none => rw [hp] at h; cases h
      | some q =>
        rw [hp] at h
        obtain rfl := Option.some.inj h
        refine old q hp ?_
        change (q.answer k).shown = _ ∨ _ ∈ (q.answer k).asked at hs
        unfold Panel.answer at hs
        split at hs
        · rename_i r hr
          rcases hs with hs | hs
          · rw [← Option.some.inj hs]; exact Or.inr (List.mem_of_getElem? hr)
          · exact Or.inr (List.mem_of_mem_eraseIdx hs)
        · exact hs
    | fail k =>
      change Option.map _ _ = _ at h
      cases hp : (run es).panel with
      | none => rw [hp] at h; cases h
      | some q =>
        rw [hp] at h
        obtain rfl := Option.some.inj h
        refine old q hp ?_
        rcases hs with hs | hs
        · exact Or.inl hs
        · exact Or.inr (List.mem_of_mem_eraseIdx hs)

/-- the station wanted -/
def wanted (es : List Event) : Option (Option Nat × Nat) := (lastClick es).map fun i => (lastInfra es, i)

theorem panel_inv (es : List Event) (ho : OneInfra es) (hi : InOrder es) {p : Panel} (h : (run es).panel = some p) :
    (p.asked = [] → p.shown = wanted es) ∧ (p.asked ≠ [] → p.asked.getLast? = wanted es) := by
  induction es using List.reverseRecOn generalizing p with
  | nil => simp [run, State.init] at h
  | append_singleton es e ih =>
    have hst := store es
    have ho' := ho.init
    have hi' : InOrder es := fun e he => hi e (by simp [he])
    have ih := fun q => @ih ho' hi' q
    rw [run_snoc] at h
    cases e with
    | click j =>
      have hw : wanted (es ++ [.click j]) = some (lastInfra es, j) := by unfold wanted; rw [lastClick_snoc, lastInfra_snoc]; rfl
      have hc := (click_panel (run es) j (mounted es).1).2.2
      change (State.click _ j).panel = _ at h
      rw [hc] at h
      obtain rfl := Option.some.inj h
      rw [hw]
      cases hp : (run es).panel with
      | none => simp [hst.1]
      | some q =>
        dsimp only
        split
        · rename_i hs
          have hwo : wanted es = some (lastInfra es, j) := by unfold wanted; rw [← hst.2, hs]; rfl
          rw [← hwo]; exact ih q hp
        · simp [hst.1]
    | infra m =>
      have hw : wanted (es ++ [.infra m]) = wanted es := by
        unfold wanted; rw [lastClick_snoc]; dsimp only; rw [ho.none]; rfl
      rw [hw]; exact ih p h
    | button o =>
      have hw : wanted (es ++ [.button o]) = wanted es := by unfold wanted; rw [lastClick_snoc, lastInfra_snoc]
      rw [hw]
      change (State.button _ o).panel = _ at h
      rcases button_panel (run es) o (mounted es) with q | q | q
      · rw [q] at h; exact ih p h
      · rw [q] at h; cases h
      · rw [q] at h
        obtain rfl := Option.some.inj h
        unfold wanted
        rw [← hst.1, ← hst.2]
        cases (run es).station <;> simp
    | answer k =>
      have hw : wanted (es ++ [.answer k]) = wanted es := by unfold wanted; rw [lastClick_snoc, lastInfra_snoc]
      rw [hw]
      have hk : k = 0 := (hi (.answer k) (by simp)).1 k rfl
      subst hk
      change Option.map _ _ = _ at h
      cases hp : (run es).panel with
      | none => rw [hp] at h; cases h
      | some q =>
        rw [hp] at h
        obtain rfl := Option.some.inj h
        have := ih q hp
        obtain ⟨sh, as⟩ := q
        cases as with
        | nil => exact this
        | cons r as =>
          have := this.2 (by simp)
          refine ⟨?_, ?_⟩
          · intro hn
            have hn : as = [] := hn
            rw [hn] at this
            exact this
          · intro hn
            have hn : as ≠ [] := hn
            show as.getLast? = _
            rw [← this]
            cases as with
            | nil => exact absurd rfl hn
            | cons a as => simp
    | fail k => exact absurd rfl ((hi (.fail k) (by simp)).2 k)

/-- **C202** (partial: if requests succeed and are answered in order, and no infrastructure is chosen after the first click) When all
requests have been answered, the panel shows the station clicked last, of the infrastructure chosen last. -/
theorem C202_clicked_partial (es : List Event) (ho : OneInfra es) (hi : InOrder es) {p : Panel} (h : (run es).panel = some p)
    (hp : p.asked = []) : p.shown = (lastClick es).map fun i => (lastInfra es, i) := (panel_inv es ho hi h).1 hp

theorem answers_panel (n : Nat) : ∀ (s : State) (p : Panel), s.panel = some p → p.asked.length = n →
    ∃ q, ((List.replicate n (Event.answer 0)).foldl State.step s).panel = some q ∧ q.asked = [] := by
  induction n with
  | zero => intro s p h hl; exact ⟨p, h, List.length_eq_zero_iff.1 hl⟩
  | succ n ih =>
    intro s p h hl
    rw [List.replicate_succ, List.foldl_cons]
    refine ih _ (p.answer 0) ?_ ?_
    · show Option.map _ _ = _; rw [h]; rfl
    · obtain ⟨sh, as⟩ := p
      cases as with
      | nil => simp at hl
      | cons r as => simpa [Panel.answer] using hl

/-- **C202** (partial: as before) A click shows the station once the server has answered all requests. -/
theorem C202_click_partial (es : List Event) (i : Nat) (ho : OneInfra es) (hi : InOrder es) :
    ∃ n p, (run (es ++ [.click i] ++ List.replicate n (.answer 0))).panel = some p ∧ p.shown = some (lastInfra es, i) := by
  obtain ⟨_, _, h3⟩ := C202_opened es i
  obtain ⟨p, hp⟩ := Option.ne_none_iff_exists'.1 h3
  obtain ⟨q, h1, h2⟩ := answers_panel p.asked.length _ p hp rfl
  rw [run, ← List.foldl_append, ← run] at h1
  refine ⟨_, q, h1, ?_⟩
  have hl : ∀ n, lastClick (es ++ [.click i] ++ List.replicate n (.answer 0)) = some i ∧
      lastInfra (es ++ [.click i] ++ List.replicate n (.answer 0)) = lastInfra es := by
    intro n
    induction n with
    | zero => simp only [List.replicate_zero, List.append_nil]; rw [lastClick_snoc, lastInfra_snoc]; exact ⟨rfl, rfl⟩
    | succ n ih =>
      rw [List.replicate_succ', ← List.append_assoc, lastClick_snoc, lastInfra_snoc]; exact ih
  rw [C202_clicked_partial _ ?_ ?_ h1 h2, (hl _).1, (hl _).2]
  · rfl
  · have : ∀ n, OneInfra (es ++ [.click i] ++ List.replicate n (.answer 0)) := by
      intro n
      induction n with
      | zero => simpa using ho.snoc (e := .click i) (by simp)
      | succ n ih => rw [List.replicate_succ', ← List.append_assoc]; exact ih.snoc (by simp)
    exact this _
  · intro e he
    simp only [List.mem_append, List.mem_singleton, List.mem_replicate] at he
    rcases he with (he | rfl) | ⟨_, rfl⟩
    · exact hi e he
    · exact ⟨by simp, by simp⟩
    · exact ⟨by simp, by simp⟩

/-- two infrastructures, stations 3 and 4 clicked, the menu in between -/
def exDay : List Event := [.infra (some 0), .infra (some 1), .click 3, .button .menu, .button .station, .click 4, .answer 0, .answer 0]

theorem exOne : OneInfra exDay := by
  have h : OneInfra [.infra (some 0), .infra (some 1)] := by
    intro a b i e n hn
    have : Event.click i ∈ [Event.infra (some 0), .infra (some 1)] := by rw [e]; simp
    simp at this
  have := ((((((h.snoc (e := .click 3) (by simp)).snoc (e := .button .menu) (by simp)).snoc (e := .button .station) (by simp)).snoc
    (e := .click 4) (by simp)).snoc (e := .answer 0) (by simp)).snoc (e := .answer 0) (by simp))
  exact this

theorem exOrder : InOrder exDay := by
  intro e he
  simp only [exDay, List.mem_cons, List.not_mem_nil, or_false] at he
  rcases he with rfl | rfl | rfl | rfl | rfl | rfl | rfl | rfl <;> simp

example : (run exDay).panel = some ⟨some (some 1, 4), []⟩ := by decide

example {p : Panel} (h : (run exDay).panel = some p) (hp : p.asked = []) : p.shown = some (some 1, 4) :=
  (C202_clicked_partial exDay exOne exOrder h hp).trans (by decide)

example : ∃ n p, (run (exDay ++ [.click 0] ++ List.replicate n (.answer 0))).panel = some p ∧ p.shown = some (some 1, 0) :=
  C202_click_partial exDay 0 exOne exOrder

/-- **C202** fails: if the answer for a station clicked earlier comes later, it is shown. -/
theorem C202_overtaken_negation : ∃ es, OneInfra es ∧ lastClick es = some 4 ∧ (run es).panel = some ⟨some (some 1, 3), []⟩ :=
  ⟨[.infra (some 1)] ++ [.click 3] ++ [.click 4] ++ [.answer 1] ++ [.answer 0], by
    have h : OneInfra [.infra (some 1)] := by
      intro a b i e n hn
      have : Event.click i ∈ [Event.infra (some 1)] := by rw [e]; simp
      simp at this
    exact (((h.snoc (by simp)).snoc (by simp)).snoc (by simp)).snoc (by simp), by decide, by decide⟩

/-- **C202** fails: if the request for a station fails, the one shown before stays. -/
theorem C202_failed_negation : ∃ es, OneInfra es ∧ lastClick es = some 4 ∧ (run es).panel = some ⟨some (some 1, 3), []⟩ ∧
    (∀ k, .answer k ∈ es → k = 0) :=
  ⟨[.infra (some 1)] ++ [.click 3] ++ [.answer 0] ++ [.click 4] ++ [.fail 0], by
    have h : OneInfra [.infra (some 1)] := by
      intro a b i e n hn
      have : Event.click i ∈ [Event.infra (some 1)] := by rw [e]; simp
      simp at this
    exact (((h.snoc (by simp)).snoc (by simp)).snoc (by simp)).snoc (by simp), by decide, by decide, by simp⟩

/-- **C202** fails: if a station of another infrastructure has the same id, a click on it shows the old one, in all histories. -/
theorem C202_same_id_negation (es : List Event) {n : Option Nat} {i : Nat} (h : (run es).panel = some ⟨some (n, i), []⟩)
    (hi : lastClick es = some i) (m : Option Nat) : (run (es ++ [.infra m, .click i])).panel = some ⟨some (n, i), []⟩ := by
  have e : es ++ [.infra m, .click i] = (es ++ [.infra m]) ++ [.click i] := by simp
  have hp : (run (es ++ [.infra m])).panel = some ⟨some (n, i), []⟩ := by rw [run_snoc]; exact h
  have hs : (run (es ++ [.infra m])).station = some i := by rw [(store _).2, lastClick_snoc]; exact hi
  rw [e, run_snoc]
  have := (click_panel (run (es ++ [.infra m])) i (mounted _).1).2.2
  rw [hp] at this
  dsimp only at this
  rw [if_pos hs] at this
  exact this

example : (run ([.infra (some 0), .click 3, .answer 0] ++ [.infra (some 1), .click 3])).panel = some ⟨some (some 0, 3), []⟩ :=
  C202_same_id_negation _ (by decide) (by decide) _

/-- **C202** fails: when the panel is opened again after another infrastructure was chosen, it shows a station that was never clicked. -/
theorem C202_never_clicked_negation : ∃ es, InOrder es ∧ (run es).panel = some ⟨some (some 1, 3), []⟩ ∧
    ∀ a b, es = a ++ .click 3 :: b → lastInfra a = some 0 := by
  refine ⟨[.infra (some 0), .click 3, .infra (some 1), .button .menu, .button .station, .answer 0], ?_, by decide, ?_⟩
  · intro e he
    simp only [List.mem_cons, List.not_mem_nil, or_false] at he
    rcases he with rfl | rfl | rfl | rfl | rfl | rfl <;> simp
  · intro a b e
    rcases a with _ | ⟨x, _ | ⟨y, a⟩⟩
    · simp at e
    · simp at e; rw [← e.1]; rfl
    · simp at e
      have : Event.click 3 ∈ [Event.infra (some 1), .button .menu, .button .station, .answer 0] := by rw [e.2.2]; simp
      simp at this

end Soro.StationPanel
