import Verif.Spec.Settings
import Mathlib.Data.List.Induction

/-
C198, C199: theme and primary colour of the web client.
-/

namespace Soro.Settings
open Spec

theorem preferred_eq (evs : List Event) :
    preferred evs = (evs.filterMap fun | .prefer p => some p | _ => none).getLast?.getD .os := by
  cases evs <;> rfl

/-- after some preference was chosen it is in the storage -/
structure Themed (evs : List Event) (first : Theme) (s : State) : Prop where
  pref : s.pref = preferred evs
  system : s.system = systemTheme first evs
  theme : s.theme = wanted s.pref s.system
  shown : s.shown = s.theme
  listens : s.listens = true
  stored : s.storage.pref.getD .os = s.pref

theorem applyTheme_eq (s : State) : s.applyTheme = s.setTheme (wanted s.pref s.system) := by
  unfold State.applyTheme wanted
  cases s.pref <;> rfl

theorem save_pref (s : State) : s.save.pref = s.pref ∧ s.save.theme = s.theme ∧ s.save.shown = s.shown ∧
    s.save.listens = s.listens ∧ s.save.system = s.system ∧ s.save.storage.pref = some s.pref ∧ s.save.colours = s.colours ∧
    s.save.primary = s.primary := by
  unfold State.save
  cases s.primary with
  | none => simp
  | some c => by_cases h : c = "" <;> simp [h]

theorem start_themed (own : Theme → String) (st : Storage) (t : Theme) :
    (start own st t).pref = st.pref.getD .os ∧ (start own st t).system = t ∧
    (start own st t).theme = wanted (st.pref.getD .os) t ∧ (start own st t).shown = (start own st t).theme ∧
    (start own st t).listens = true ∧ (start own st t).storage = st := by
  unfold start State.loadSettings
  obtain ⟨p, c⟩ := st
  cases p <;> cases c <;>
    simp only [State.fresh, applyTheme_eq, State.setTheme, State.restoreColour, State.commitColour, Option.getD] <;>
    (try split) <;> simp

theorem themed_step (own : Theme → String) (evs : List Event) (first : Theme) (s : State) (h : Themed evs first s) (e : Event) :
    Themed (evs ++ [e]) first (s.step own e) := by
  have hp := preferred_eq
  have h1 := h.pref
  have h2 := h.system
  rw [hp] at h1
  unfold systemTheme at h2
  cases e with
  | prefer p =>
    obtain ⟨a1, a2, a3, a4, a5, a6, -⟩ := save_pref ({ s with pref := p } : State).applyTheme
    simp only [State.step]
    rw [applyTheme_eq] at a1 a2 a3 a4 a5 a6 ⊢
    refine ⟨?_, ?_, ?_, ?_, ?_, ?_⟩
    · rw [a1, hp]; simp [State.setTheme, List.filterMap_append]
    · rw [a5]; unfold systemTheme; simpa [State.setTheme, List.filterMap_append] using h2
    · rw [a2, a1, a5]; rfl
    · rw [a3, a2]; rfl
    · rw [a4]; exact h.listens
    · rw [a6, a1]; rfl
  | colour c =>
    obtain ⟨a1, a2, a3, a4, a5, a6, -⟩ := save_pref (s.commitColour c)
    simp only [State.step]
    refine ⟨?_, ?_, ?_, ?_, ?_, ?_⟩
    · rw [a1, hp]; simpa [State.commitColour, List.filterMap_append] using h1
    · rw [a5]; unfold systemTheme; simpa [State.commitColour, List.filterMap_append] using h2
    · rw [a2, a1, a5]; exact h.theme
    · rw [a3, a2]; exact h.shown
    · rw [a4]; exact h.listens
    · rw [a6, a1]; rfl
  | system t =>
    have hpref : (s.step own (.system t)).pref = s.pref := by simp only [State.step]; split <;> rfl
    have hsys : (s.step own (.system t)).system = t := by simp only [State.step]; split <;> rfl
    have hst : (s.step own (.system t)).storage = s.storage := by simp only [State.step]; split <;> rfl
    have hli : (s.step own (.system t)).listens = s.listens := by simp only [State.step]; split <;> rfl
    refine ⟨?_, ?_, ?_, ?_, ?_, ?_⟩
    · rw [hpref, hp]; simpa [List.filterMap_append] using h1
    · rw [hsys]; unfold systemTheme; simp [List.filterMap_append]
    · rw [hpref, hsys]
      simp only [State.step, h.listens, Bool.true_and]
      by_cases ho : s.pref = .os
      · simp [ho, State.setTheme, wanted]
      · rw [if_neg (by simpa using ho)]
        show s.theme = _
        rw [h.theme]
        cases hq : s.pref <;> simp [wanted] at ho ⊢
        exact absurd hq ho
    · simp only [State.step]
      split
      · rfl
      · exact h.shown
    · rw [hli]; exact h.listens
    · rw [hst, hpref]; exact h.stored
  | restart =>
    obtain ⟨b1, b2, b3, b4, b5, b6⟩ := start_themed own s.storage s.system
    simp only [State.step]
    refine ⟨?_, ?_, ?_, b4, b5, ?_⟩
    · rw [b1, h.stored, hp]; simpa [List.filterMap_append] using h1
    · rw [b2]; unfold systemTheme; simpa [List.filterMap_append] using h2
    · rw [b1, b2, b3]
    · rw [b6, b1]

theorem run_append (own : Theme → String) (first : Theme) (evs : List Event) (e : Event) :
    run own first (evs ++ [e]) = (run own first evs).step own e := by
  unfold run; rw [List.foldl_append]; rfl

theorem themed_run (own : Theme → String) (first : Theme) (evs : List Event) : Themed evs first (run own first evs) := by
  induction evs using List.reverseRecOn with
  | nil =>
    obtain ⟨b1, b2, b3, b4, b5, b6⟩ := start_themed own ⟨none, none⟩ first
    exact ⟨b1, b2, by rw [show run own first [] = start own ⟨none, none⟩ first from rfl, b3, b1, b2], b4, b5, by
      rw [show run own first [] = start own ⟨none, none⟩ first from rfl, b6, b1]⟩
  | append_singleton evs e ih =>
    rw [run_append]
    exact themed_step own evs first _ ih e

/-- C198: in every session, whatever was chosen and however the operating system changed, the theme shown is the one preferred last,
or that of the operating system if this was preferred last or nothing was; and the preference shown in the settings is the one
chosen last. -/
theorem C198_theme (own : Theme → String) (first : Theme) (evs : List Event) :
    (run own first evs).shown = wanted (preferred evs) (systemTheme first evs) ∧
    (run own first evs).theme = (run own first evs).shown ∧ (run own first evs).pref = preferred evs := by
  have h := themed_run own first evs
  refine ⟨?_, h.shown.symm, h.pref⟩
  rw [h.shown, h.theme, h.pref, h.system]

/-- the operating system becomes dark while the client is closed for a light theme, which is then given up -/
example : let evs : List Event := [.prefer .light, .system .dark, .restart, .colour "#ff0000", .prefer .os, .restart]
    preferred evs = .os ∧ systemTheme .light evs = .dark ∧ preferred (evs.take 4) = .light ∧
    (run ownColour .light evs).shown = .dark ∧ (run ownColour .light (evs.take 4)).shown = .light := by decide

/-! ### C199 -/

structure Coloured (own : Theme → String) (evs : List Event) (s : State) : Prop where
  shown : ∀ t, s.colours t = (chosen evs).getD (own .dark)
  primary : s.primary = some ((chosen evs).getD (own .dark))
  stored : s.storage.colour = none ∧ chosen evs = none ∨ s.storage.colour = some ((chosen evs).getD (own .dark))

theorem start_coloured (own : Theme → String) (st : Storage) (t : Theme) (hown : own .light = own .dark) (hst : st.colour ≠ some "") :
    (∀ u, (start own st t).colours u = st.colour.getD (own .dark)) ∧ (start own st t).primary = some (st.colour.getD (own .dark)) ∧
    (start own st t).storage = st := by
  have ho : ∀ u, own u = own .dark := by intro u; cases u <;> simp [hown]
  unfold start State.loadSettings
  obtain ⟨p, c⟩ := st
  cases c with
  | none => cases p <;> simp [State.fresh, applyTheme_eq, State.setTheme, State.restoreColour, ho]
  | some c =>
    have hc : c ≠ "" := by simpa using hst
    cases p <;> simp [State.fresh, applyTheme_eq, State.setTheme, State.commitColour, hc]

theorem save_colour (s : State) (c : String) (h : s.primary = some c) (hc : c ≠ "") : s.save.storage.colour = some c := by
  unfold State.save
  rw [h]
  simp [hc]

theorem chosen_append (evs : List Event) (e : Event) :
    chosen (evs ++ [e]) = (match e with | .colour c => some c | _ => chosen evs) := by
  unfold chosen
  cases e <;> simp [List.filterMap_append]

theorem chosen_mem (evs : List Event) (c : String) (h : chosen evs = some c) : .colour c ∈ evs := by
  unfold chosen at h
  have := List.mem_of_getLast? h
  rw [List.mem_filterMap] at this
  obtain ⟨e, he, hc⟩ := this
  cases e <;> simp at hc
  subst hc
  exact he

theorem coloured_run (own : Theme → String) (hown : own .light = own .dark) (hne : own .dark ≠ "") (first : Theme) (evs : List Event)
    (hc : ∀ c, .colour c ∈ evs → c ≠ "") : Coloured own evs (run own first evs) := by
  induction evs using List.reverseRecOn with
  | nil =>
    obtain ⟨a1, a2, a3⟩ := start_coloured own ⟨none, none⟩ first hown (by simp)
    exact ⟨a1, a2, Or.inl ⟨by rw [show run own first [] = start own ⟨none, none⟩ first from rfl, a3], rfl⟩⟩
  | append_singleton evs e ih =>
    have ih := ih (fun c h => hc c (List.mem_append_left _ h))
    have hcol : (chosen evs).getD (own .dark) ≠ "" := by
      cases h : chosen evs with
      | none => exact hne
      | some c => exact hc c (List.mem_append_left _ (chosen_mem evs c h))
    rw [run_append]
    refine ⟨?_, ?_, ?_⟩ <;> rw [chosen_append]
    all_goals cases e with
      | prefer p =>
        obtain ⟨-, -, -, -, -, -, a7, a8⟩ := save_pref ({ run own first evs with pref := p } : State).applyTheme
        simp only [State.step]
        have hp : ({ run own first evs with pref := p } : State).applyTheme.primary = some ((chosen evs).getD (own .dark)) := by
          rw [applyTheme_eq]; exact ih.primary
        first
        | (rw [a7, applyTheme_eq]; exact ih.shown)
        | (rw [a8]; exact hp)
        | exact Or.inr (save_colour _ _ hp hcol)
      | colour c =>
        obtain ⟨-, -, -, -, -, -, a7, a8⟩ := save_pref ((run own first evs).commitColour c)
        simp only [State.step]
        first
        | (rw [a7]; intro t; rfl)
        | (rw [a8]; rfl)
        | exact Or.inr (save_colour _ _ rfl (hc c (by simp)))
      | system t =>
        simp only [State.step]
        split
        all_goals first
        | exact ih.shown
        | exact ih.primary
        | exact ih.stored
      | restart =>
        have hs : (run own first evs).storage.colour ≠ some "" := by
          rcases ih.stored with h | h
          · rw [h.1]; simp
          · rw [h]; simpa using hcol
        have hs2 : (run own first evs).storage.colour.getD (own .dark) = (chosen evs).getD (own .dark) := by
          rcases ih.stored with h | h
          · rw [h.1, h.2]
          · rw [h]; rfl
        obtain ⟨a1, a2, a3⟩ := start_coloured own (run own first evs).storage (run own first evs).system hown hs
        simp only [State.step]
        first
        | (rw [← hs2]; exact a1)
        | (rw [← hs2]; exact a2)
        | (rw [a3]; exact ih.stored)

/-- C199: in every session the primary colour of both themes is the one chosen last, in this session or an earlier one, and the
colour of the themes if none was chosen; it is also the one that the settings show. -/
theorem C199_colour (first : Theme) (evs : List Event) (hc : ∀ c, .colour c ∈ evs → c ≠ "") (t : Theme) :
    (run ownColour first evs).colours t = (chosen evs).getD (ownColour t) ∧
    (run ownColour first evs).primary = some ((chosen evs).getD (ownColour t)) := by
  have h := coloured_run ownColour rfl (by decide) first evs hc
  have ho : ownColour t = ownColour .dark := by cases t <;> rfl
  rw [ho]
  exact ⟨h.shown t, h.primary⟩

example : let evs : List Event := [.prefer .dark, .colour "#ff0000", .restart, .prefer .light, .restart]
    (∀ c, .colour c ∈ evs → c ≠ "") ∧ chosen evs = some "#ff0000" ∧ (run ownColour .light evs).colours .light = "#ff0000" := by
  refine ⟨?_, rfl, by decide⟩
  intro c h
  simp at h
  subst h
  decide

theorem start_stored (own : Theme → String) (st : Storage) (t : Theme) (c : String) (h : st.colour = some c) (hc : c ≠ "") (u : Theme) :
    (start own st t).colours u = c := by
  obtain ⟨p, c'⟩ := st
  simp only at h
  subst h
  unfold start State.loadSettings
  cases p <;> simp [State.fresh, applyTheme_eq, State.setTheme, State.commitColour, hc]

/-- C199 rests on both themes having the same colour: with different ones the choice of a theme would store the colour of the other
one, which both themes would have from the next start on although no colour was chosen. -/
theorem other_themes_colour (own : Theme → String) (hd : own .dark ≠ "") :
    chosen [.prefer .light, .restart] = none ∧ (run own .dark [.prefer .light, .restart]).shown = .light ∧
    (run own .dark [.prefer .light, .restart]).colours .light = own .dark := by
  refine ⟨rfl, ?_, ?_⟩
  · rw [(C198_theme own .dark [.prefer .light, .restart]).1]; rfl
  · have h1 : ({ start own ⟨none, none⟩ .dark with pref := .light } : State).applyTheme.primary = some (own .dark) := rfl
    exact start_stored own _ _ _ (save_colour _ _ h1 hd) hd .light

end Soro.Settings
