import Verif.Spec.Menu
import Mathlib.Data.List.Induction

/-! C205: the fields of the menu, see `Model/Menu.lean`. -/

namespace Soro.Menu
open WebClient

variable {ν : Type} [DecidableEq ν]

theorem run_snoc (srv : Server ν) (s : State ν) (es : List (Event ν)) (e : Event ν) : s.run srv (es ++ [e]) = (s.run srv es).step srv e := by
  simp [State.run]

theorem load_infra (s : Side ν) (i : Option ν) : (s.loadInfrastructure i).infra = i ∧ (s.loadInfrastructure i).tt = none ∧
    (s.loadInfrastructure i).range = s.range := by
  cases i <;> exact ⟨rfl, rfl, rfl⟩

theorem load_tt (s : Side ν) (t : Option ν) (h : s.infra.isNone = false) : (s.loadTimetable t).infra = s.infra ∧ (s.loadTimetable t).tt = t ∧
    (s.loadTimetable t).range = s.range := by
  unfold Side.loadTimetable
  cases hi : s.infra with
  | none => rw [hi] at h; cases h
  | some i => cases t <;> exact ⟨by simp [hi], rfl, rfl⟩

theorem receive_sel (srv : Server ν) (s : Side ν) (q : Req ν) : (s.receive srv q).infra = s.infra ∧ (s.receive srv q).tt = s.tt := by
  cases q with
  | timetables i => simp only [Side.receive]; cases srv.timetables i <;> exact ⟨rfl, rfl⟩
  | interval i t => simp only [Side.receive]; cases srv.interval i t <;> exact ⟨rfl, rfl⟩

theorem receive_range (srv : Server ν) (s : Side ν) (q : Req ν) : (s.receive srv q).range =
    match (match q with | .timetables _ => none | .interval i t => srv.interval i t) with
    | none => s.range
    | some r => some r := by
  cases q with
  | timetables i => simp only [Side.receive]; cases srv.timetables i <;> rfl
  | interval i t => simp only [Side.receive]; cases srv.interval i t <;> rfl

/-- what a step does to each field: `P` says how a field relates to the value of the store; it holds of equal values, and is kept by
the watchers -/
theorem step_rel (P : Option ν → Option ν → Prop) (hrefl : ∀ v, P v v) (srv : Server ν) (s : State ν) (e : Event ν)
    (he : e = .enter → s.fields ≠ none ∨ ∀ v, P none v) (h : ∀ f, s.fields = some f → P f.infra s.side.infra ∧ P f.tt s.side.tt) :
    ∀ f, (s.step srv e).fields = some f → P f.infra (s.step srv e).side.infra ∧ P f.tt (s.step srv e).side.tt := by
  have hw : ∀ old new field, P field old → P (watchSelect old new field) new := by
    intro old new field hp
    unfold watchSelect
    split
    · rename_i h; rw [h]; exact hp
    · exact hrefl _
  have hw' : ∀ old new : Option ν, P (watchSelect old new new) new := by
    intro old new; unfold watchSelect; split <;> exact hrefl _
  obtain ⟨side, fields⟩ := s
  cases e with
  | infra i =>
    cases fields with
    | none => exact h
    | some f0 =>
      intro f hf
      injection hf with hf; subst hf
      obtain ⟨a, b⟩ := h f0 rfl
      refine ⟨?_, hw _ _ _ b⟩
      show P (watchSelect side.infra (side.loadInfrastructure i).infra i) (side.loadInfrastructure i).infra
      rw [(load_infra side i).1]; exact hw' _ _
  | timetable t =>
    cases fields with
    | none => exact h
    | some f0 =>
      cases hi : side.infra.isNone with
      | true => simp only [State.step, hi, if_true]; exact h
      | false =>
        simp only [State.step, hi]
        intro f hf
        injection hf with hf; subst hf
        obtain ⟨a, b⟩ := h f0 rfl
        refine ⟨hw _ _ _ a, ?_⟩
        show P (watchSelect side.tt (side.loadTimetable t).tt t) (side.loadTimetable t).tt
        rw [(load_tt side t hi).2.1]; exact hw' _ _
  | range a b =>
    cases fields with
    | none => exact h
    | some f0 =>
      cases hi : (side.infra.isNone || side.tt.isNone) with
      | true => simp only [State.step, hi, if_true]; exact h
      | false =>
        simp only [State.step, hi]
        intro f hf
        injection hf with hf; subst hf
        exact h f0 rfl
  | clearRange =>
    cases fields with
    | none => exact h
    | some f0 =>
      cases hi : (side.infra.isNone || side.tt.isNone) with
      | true => simp only [State.step, hi, if_true]; exact h
      | false =>
        simp only [State.step, hi]
        intro f hf
        injection hf with hf; subst hf
        exact h f0 rfl
  | answer k =>
    simp only [State.step]
    split
    · exact h
    · rename_i q hq
      intro f hf
      obtain ⟨f0, h0, rfl⟩ := Option.map_eq_some_iff.1 hf
      obtain ⟨a, b⟩ := h f0 h0
      dsimp only
      split
      · exact ⟨hw _ _ _ a, hw _ _ _ b⟩
      · exact ⟨hw _ _ _ a, hw _ _ _ b⟩
  | leave => intro f hf; cases hf
  | enter =>
    intro f hf
    injection hf with hf
    cases fields with
    | some f0 => subst hf; exact h _ rfl
    | none =>
      subst hf
      rcases he rfl with q | q
      · exact absurd rfl q
      · exact ⟨q _, q _⟩

/-- the same for the range -/
theorem step_range (P : Option (Nat × Nat) → Option (Nat × Nat) → Prop) (hrefl : ∀ v, P v v) (srv : Server ν) (s : State ν) (e : Event ν)
    (he : e = .enter → s.fields ≠ none ∨ ∀ v, P none v) (hc : e = .clearRange → ∀ v, P none v)
    (h : ∀ f, s.fields = some f → P f.range (storedRange s.side)) :
    ∀ f, (s.step srv e).fields = some f → P f.range (storedRange (s.step srv e).side) := by
  obtain ⟨side, fields⟩ := s
  cases e with
  | infra i =>
    cases fields with
    | none => exact h
    | some f0 =>
      intro f hf
      injection hf with hf; subst hf
      show P f0.range (storedRange (side.loadInfrastructure i))
      unfold storedRange
      rw [(load_infra side i).2.2]
      exact h f0 rfl
  | timetable t =>
    cases fields with
    | none => exact h
    | some f0 =>
      cases hi : side.infra.isNone with
      | true => simp only [State.step, hi, if_true]; exact h
      | false =>
        simp only [State.step, hi]
        intro f hf
        injection hf with hf; subst hf
        show P f0.range (storedRange (side.loadTimetable t))
        unfold storedRange
        rw [(load_tt side t hi).2.2]
        exact h f0 rfl
  | range a b =>
    cases fields with
    | none => exact h
    | some f0 =>
      cases hi : (side.infra.isNone || side.tt.isNone) with
      | true => simp only [State.step, hi, if_true]; exact h
      | false =>
        simp only [State.step, hi]
        intro f hf
        injection hf with hf; subst hf
        exact hrefl _
  | clearRange =>
    cases fields with
    | none => exact h
    | some f0 =>
      cases hi : (side.infra.isNone || side.tt.isNone) with
      | true => simp only [State.step, hi, if_true]; exact h
      | false =>
        simp only [State.step, hi]
        intro f hf
        injection hf with hf; subst hf
        exact hc rfl _
  | answer k =>
    simp only [State.step]
    split
    · exact h
    · rename_i q hq
      intro f hf
      obtain ⟨f0, h0, rfl⟩ := Option.map_eq_some_iff.1 hf
      have hr := receive_range srv { side with asked := side.asked.eraseIdx k } q
      have hh := h f0 h0
      dsimp only
      unfold storedRange at hh ⊢
      rw [hr]
      cases q with
      | timetables i => exact hh
      | interval i t =>
        cases hv : srv.interval i t with
        | none => simp only [hv]; exact hh
        | some r => simp only [hv]; exact hrefl _
  | leave => intro f hf; cases hf
  | enter =>
    intro f hf
    injection hf with hf
    cases fields with
    | some f0 => subst hf; exact h _ rfl
    | none =>
      subst hf
      rcases he rfl with q | q
      · exact absurd rfl q
      · exact q _

/-- **C205**, no field is wrong: whatever happened, every field of the menu shows the current selection, or nothing. -/
theorem C205_never_wrong (srv : Server ν) (es : List (Event ν)) (f : Fields ν) (hf : (State.init.run srv es).fields = some f) :
    ShowsOrEmpty f.infra (State.init.run srv es).side.infra ∧ ShowsOrEmpty f.tt (State.init.run srv es).side.tt ∧
    ShowsOrEmpty f.range (storedRange (State.init.run srv es).side) := by
  have key : ∀ es : List (Event ν), (∀ f, (State.init.run srv es).fields = some f →
      ShowsOrEmpty f.infra (State.init.run srv es).side.infra ∧ ShowsOrEmpty f.tt (State.init.run srv es).side.tt) ∧
      ∀ f, (State.init.run srv es).fields = some f → ShowsOrEmpty f.range (storedRange (State.init.run srv es).side) := by
    intro es
    induction es using List.reverseRecOn with
    | nil =>
      constructor
      · intro f hf; injection hf with hf; subst hf; exact ⟨Or.inl rfl, Or.inl rfl⟩
      · intro f hf; injection hf with hf; subst hf; exact Or.inl rfl
    | append_singleton es e ih =>
      rw [run_snoc]
      exact ⟨step_rel ShowsOrEmpty (fun _ => Or.inr rfl) srv _ e (fun _ => Or.inr fun _ => Or.inl rfl) ih.1,
        step_range ShowsOrEmpty (fun _ => Or.inr rfl) srv _ e (fun _ => Or.inr fun _ => Or.inl rfl) (fun _ _ => Or.inl rfl) ih.2⟩
  obtain ⟨a, b⟩ := key es
  exact ⟨(a f hf).1, (a f hf).2, b f hf⟩

/-- the menu stays selected -/
theorem stays (srv : Server ν) (s : State ν) (hs : s.fields ≠ none) (e : Event ν) (he : e ≠ .leave) : (s.step srv e).fields ≠ none := by
  obtain ⟨side, fields⟩ := s
  cases fields with
  | none => exact absurd rfl hs
  | some f =>
    cases e with
    | infra i => simp [State.step]
    | timetable t => simp only [State.step]; split <;> simp
    | range a b => simp only [State.step]; split <;> simp
    | clearRange => simp only [State.step]; split <;> simp
    | answer k => simp only [State.step]; split <;> simp
    | leave => exact absurd rfl he
    | enter => simp [State.step]

/-- **C205**, partially: as long as no other overlay was selected, the selects show exactly the current infrastructure and timetable,
and, if the field was never cleared, the range shown is exactly the current one. Missing: after another overlay was selected, see
`C205_reopened_negation`, and a range that was cleared, see `C205_cleared_negation`. -/
theorem C205_shown_partial (srv : Server ν) (es : List (Event ν)) (hl : .leave ∉ es) :
    ∃ f, (State.init.run srv es).fields = some f ∧ f.infra = (State.init.run srv es).side.infra ∧ f.tt = (State.init.run srv es).side.tt ∧
      (.clearRange ∉ es → f.range = storedRange (State.init.run srv es).side) := by
  have key : (State.init.run srv es).fields ≠ none ∧ (∀ f, (State.init.run srv es).fields = some f →
      f.infra = (State.init.run srv es).side.infra ∧ f.tt = (State.init.run srv es).side.tt) ∧
      (.clearRange ∉ es → ∀ f, (State.init.run srv es).fields = some f → f.range = storedRange (State.init.run srv es).side) := by
    induction es using List.reverseRecOn with
    | nil =>
      refine ⟨by simp [State.run, State.init], ?_, ?_⟩
      · intro f hf; injection hf with hf; subst hf; exact ⟨rfl, rfl⟩
      · intro _ f hf; injection hf with hf; subst hf; rfl
    | append_singleton es e ih =>
      simp only [List.mem_append, List.mem_singleton, not_or] at hl ⊢
      obtain ⟨h1, h2, h3⟩ := ih hl.1
      rw [run_snoc]
      refine ⟨stays srv _ h1 e (fun q => hl.2 q.symm), step_rel (· = ·) (fun _ => rfl) srv _ e (fun _ => Or.inl h1) h2, ?_⟩
      intro hc
      exact step_range (· = ·) (fun _ => rfl) srv _ e (fun _ => Or.inl h1) (fun q => absurd q.symm hc.2) (h3 hc.1)
  obtain ⟨h1, h2, h3⟩ := key
  obtain ⟨f, hf⟩ := Option.ne_none_iff_exists'.1 h1
  exact ⟨f, hf, (h2 f hf).1, (h2 f hf).2, fun hc => h3 hc f hf⟩

/-- **C205**, a range that is picked reaches the store: the range is rounded down to seconds, both for the store and for the field. -/
theorem C205_picked (srv : Server ν) (s : State ν) (f : Fields ν) (hf : s.fields = some f) (i t : ν) (hi : s.side.infra = some i)
    (ht : s.side.tt = some t) (a b : Nat) :
    ∃ u v f', (s.step srv (.range a b)).side.range = some (u, v) ∧ (s.step srv (.range a b)).fields = some f' ∧
      f'.range = some (u * 1000, v * 1000) ∧ u * 1000 ≤ a ∧ a < (u + 1) * 1000 ∧ v * 1000 ≤ b ∧ b < (v + 1) * 1000 ∧
      f'.infra = f.infra ∧ f'.tt = f.tt := by
  obtain ⟨side, fields⟩ := s
  dsimp only at hf hi ht
  subst hf
  have hn : (side.infra.isNone || side.tt.isNone) = false := by simp [hi, ht]
  simp only [State.step, hn]
  refine ⟨a / 1000, b / 1000, _, rfl, rfl, rfl, ?_, ?_, ?_, ?_, rfl, rfl⟩ <;> omega

/-- **C205** is violated: when another overlay is selected and then the menu again, all fields are empty whatever is selected. -/
theorem C205_reopened_negation (srv : Server ν) (s : State ν) (es : List (Event ν)) :
    (s.run srv (es ++ [.leave, .enter])).fields = some .fresh ∧ (s.run srv (es ++ [.leave, .enter])).side = (s.run srv es).side := by
  simp [State.run, State.step]

/-- **C205** is violated: when the range is cleared its field is empty, and the range stays in force. -/
theorem C205_cleared_negation (srv : Server ν) (s : State ν) (f : Fields ν) (hf : s.fields = some f) (i t : ν) (hi : s.side.infra = some i)
    (ht : s.side.tt = some t) :
    (∃ f', (s.step srv .clearRange).fields = some f' ∧ f'.range = none) ∧ (s.step srv .clearRange).side.range = s.side.range := by
  obtain ⟨side, fields⟩ := s
  dsimp only at hf hi ht
  subst hf
  have hn : (side.infra.isNone || side.tt.isNone) = false := by simp [hi, ht]
  simp only [State.step, hn]
  exact ⟨⟨_, rfl, rfl⟩, rfl⟩

/-- a server with one infrastructure and one timetable -/
def demo : Server Nat := ⟨fun _ => some [7], fun _ _ => some (100, 200), fun _ _ _ _ => none⟩

/-- both are chosen, and the range is that of the timetable; then a range is picked -/
example : ∃ f, (State.init.run demo [.infra (some 3), .timetable (some 7), .answer 1]).fields = some f ∧ f.infra = some 3 ∧ f.tt = some 7 ∧
    f.range = some (100000, 200000) := ⟨_, rfl, by decide, by decide, by decide⟩

example : (State.init.run demo [.infra (some 3), .timetable (some 7), .answer 1, .range 150999 180000]).side.range = some (150, 180) := by decide

/-- after the menu was left the selects are empty while both are still chosen; another infrastructure is shown again -/
example : (State.init.run demo [.infra (some 3), .timetable (some 7), .leave, .enter]).fields = some .fresh ∧
    (State.init.run demo [.infra (some 3), .timetable (some 7), .leave, .enter]).side.tt = some 7 ∧
    (State.init.run demo [.infra (some 3), .timetable (some 7), .leave, .enter, .infra (some 4)]).fields = some ⟨some 4, none, none⟩ := by decide

/-- the range is cleared and stays in force -/
example : (State.init.run demo [.infra (some 3), .timetable (some 7), .answer 1, .clearRange]).side.range = some (100, 200) ∧
    (State.init.run demo [.infra (some 3), .timetable (some 7), .answer 1, .clearRange]).fields = some ⟨some 3, some 7, none⟩ := by decide

end Soro.Menu
