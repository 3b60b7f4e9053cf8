import Verif.Proof.ServerStart

/-! Properties C133 and C134: which infrastructures and timetables a started server serves. -/

namespace Soro
open ServerStart

variable {C V I : Type}

/-! ### C133 -/

/-- C133, provided no file of a directory is overwritten in place: after any history of starts and changes, a start of the
server (with or without `--regenerate`) succeeds and serves exactly the directories in the source directory, each with its
present content. -/
theorem C133_current_partial (parse : Nat → C → V) (source : V → Nat) (hsrc : ∀ n c, source (parse n c) = n) (ser : Bool)
    (es : List (Event C)) (hno : NoOverwrite es) (regenerate : Bool) :
    ∃ w, run parse source ser (es ++ [.start regenerate]) World.init = some w ∧ Current parse w.entries w.served := by
  obtain ⟨w, h1, h2⟩ := run_inv parse source hsrc ser es hno World.init (inv_init parse)
  obtain ⟨w', h3, _, h5, h6⟩ := start_spec parse source hsrc ser regenerate w h2
  refine ⟨w', ?_, by rw [h5]; exact h6⟩
  rw [run_append, h1, Option.bind_some, run, h3]
  rfl

/-- C133: with `--regenerate`, or compiled without serialization, a start serves the present content of every directory
after any history whatsoever. -/
theorem C133_regenerate (parse : Nat → C → V) (source : V → Nat) (hsrc : ∀ n c, source (parse n c) = n)
    (ser regenerate : Bool) (h : regenerate = true ∨ ser = false) (w : World C V)
    (hnd : (w.entries.map Entry.name).Nodup) :
    ∃ w', step parse source ser w (.start regenerate) = some w' ∧ Current parse w'.entries w'.served := by
  have hall : ∀ e : Entry C, mustParse regenerate ser w.cache e = true := by
    intro e
    unfold mustParse
    rcases h with rfl | rfl <;> simp
  have htodo : ∀ (c c' : Cache V) (l : List (Entry C)), todoList regenerate ser c l = todoList regenerate ser c' l := by
    intro c c' l
    induction l with
    | nil => rfl
    | cons e l ih =>
      have : mustParse regenerate ser c e = mustParse regenerate ser c' e := by
        unfold mustParse
        rcases h with rfl | rfl <;> simp
      rw [todoList, todoList, ih, this]
  obtain ⟨c', h1, _⟩ := loadInfras_spec parse source hsrc ser regenerate w.clock (fun _ => none) w.entries hnd
    (by intro e _ t v h; cases h) (fun _ => none) [] (fun _ _ => rfl) (by simp)
  have key : ∀ (is : List (Item C)) (hs : ∀ i ∈ is, ∃ e, i = .source e) (c c' : Cache V) (m : List (Nat × V)) r,
      loadInfras parse source ser w.clock is c m = some r → ∃ c2, loadInfras parse source ser w.clock is c' m = some (c2, r.2) := by
    intro is
    induction is with
    | nil => intro _ c c' m r h; cases h; exact ⟨c', rfl⟩
    | cons i is ih =>
      intro hs c c' m r h
      obtain ⟨e, rfl⟩ := hs i (by simp)
      rw [loadInfras] at h ⊢
      exact ih (fun j hj => hs j (by simp [hj])) _ _ _ _ h
  have hsrcs : ∀ (l : List (Entry C)), ∀ i ∈ todoList regenerate ser w.cache l, ∃ e, i = Item.source e := by
    intro l
    induction l with
    | nil => intro i hi; cases hi
    | cons e l ih =>
      intro i hi
      rw [todoList, hall e] at hi
      split at hi
      · rcases List.mem_cons.1 hi with rfl | hi
        · exact ⟨e, rfl⟩
        · exact ih i hi
      · exact ih i hi
  rw [htodo _ w.cache] at h1
  obtain ⟨c2, h2⟩ := key _ (hsrcs w.entries) _ w.cache [] _ h1
  refine ⟨{ w with cache := c2, clock := w.clock + 1,
                   served := [] ++ (w.entries.filter Entry.isDir).map fun e => (e.name, parse e.name e.content) },
    by rw [step, startInfras, h2]; rfl, ?_⟩
  simpa using current_of parse w.entries hnd

/-- C133 is false if a file is overwritten in place: the write time of the directory does not change, and the next start
serves the old content. -/
theorem C133_overwrite_negation : ∃ w, run (fun n c => ((n, c) : Nat × Nat)) Prod.fst true
    [.create 1 true 10, .start false, .overwrite 1 20, .start false] World.init = some w ∧
    w.entries.map (fun e => (e.name, e.content)) = [(1, 20)] ∧ w.served = [(1, (1, 10))] := ⟨_, rfl, rfl, rfl⟩

/-- C133, looking up: after any history without overwritten files and a start, asking for a name finds the infrastructure of the present
content of the directory of this name, and nothing if there is no such directory. -/
theorem C133_found_partial (parse : Nat → C → V) (source : V → Nat) (hsrc : ∀ n c, source (parse n c) = n) (ser : Bool)
    (es : List (Event C)) (hno : NoOverwrite es) (regenerate : Bool) :
    ∃ w, run parse source ser (es ++ [.start regenerate]) World.init = some w ∧
      (∀ e ∈ w.entries, e.isDir = true → lookup w.served e.name = some (parse e.name e.content)) ∧
      ∀ n, (∀ e ∈ w.entries, e.isDir = true → e.name ≠ n) → lookup w.served n = none := by
  obtain ⟨w, hw, hnd, hc⟩ := C133_current_partial parse source hsrc ser es hno regenerate
  refine ⟨w, hw, ?_, ?_⟩
  · intro e he hd
    have hm := (hc e.name _).2 ⟨e, he, hd, rfl, rfl⟩
    unfold lookup
    cases hf : w.served.find? fun x => x.1 == e.name with
    | none =>
      have := List.find?_eq_none.1 hf _ hm
      simp at this
    | some x =>
      have h1 := List.mem_of_find?_eq_some hf
      have h2 : x.1 = e.name := by simpa using List.find?_some hf
      have := List.inj_on_of_nodup_map hnd h1 hm h2
      rw [this]; rfl
  · intro n hn
    unfold lookup
    rw [Option.map_eq_none_iff, List.find?_eq_none]
    intro x hx hxn
    obtain ⟨e, he, hd, hen, -⟩ := (hc x.1 x.2).1 hx
    exact hn e he hd (hen.trans (by simpa using hxn))

example : NoOverwrite ([.create 1 true 10, .start false, .change 1 20, .create 2 true 7, .start false, .remove 2] :
    List (Event Nat)) := by
  intro n c h; simp at h
example : ∃ w, run (fun n c => ((n, c) : Nat × Nat)) Prod.fst true
    [.create 1 true 10, .start false, .change 1 20, .create 2 true 7, .create 3 false 8, .start false] World.init = some w ∧
    w.served = [(1, (1, 20)), (2, (2, 7))] := ⟨_, rfl, rfl⟩

/-! ### C134 -/

/-- C134, for starts with `--regenerate`, without serialization, or without saved files: every infrastructure gets exactly
the timetables of the source directory that can be parsed for it. -/
theorem C134_timetables_partial (parse : I → Nat → C → Option V) (source : V → Nat)
    (hsrc : ∀ i n c v, parse i n c = some v → source v = n) (ser regenerate : Bool) (now : Nat) (entries : List (Entry C))
    (hnd : (entries.map Entry.name).Nodup) (infras : List I) (cache : Cache V)
    (h : regenerate = true ∨ ser = false ∨ ∀ n, cache n = none) :
    ∃ contexts, (startTimetables parse source ser regenerate now entries infras cache).2 = contexts ∧
      contexts.map Prod.fst = infras ∧ ∀ c ∈ contexts, (c.2.map Prod.fst).Nodup ∧
        ∀ n v, (n, v) ∈ c.2 ↔ ∃ e ∈ entries, e.isDir = true ∧ e.name = n ∧ parse c.1 e.name e.content = some v := by
  have hall : ∀ e : Entry C, mustParse regenerate ser cache e = true := by
    intro e
    unfold mustParse
    rcases h with rfl | rfl | h
    · simp
    · simp
    · simp [h]
  have hent := todo_entries regenerate ser cache entries
  have hsub : ((todoList regenerate ser cache entries).filterMap Item.entry).Sublist entries := by
    rw [hent]; exact List.filter_sublist
  have hnd' : (((todoList regenerate ser cache entries).filterMap Item.entry).map Entry.name).Nodup :=
    (hsub.map Entry.name).nodup hnd
  refine ⟨_, rfl, ?_, ?_⟩
  · rw [startTimetables, loadContexts_spec parse source hsrc _ _ _ hnd']
    simp [Function.comp_def]
  · intro c hc
    rw [startTimetables, loadContexts_spec parse source hsrc _ _ _ hnd', List.nil_append] at hc
    obtain ⟨i, hi, rfl⟩ := List.mem_map.1 hc
    refine ⟨?_, fun n v => ?_⟩
    · dsimp only
      have : ∀ l : List (Entry C), ((l.filterMap fun e => (parse i e.name e.content).map fun v => (e.name, v)).map
          Prod.fst).Sublist (l.map Entry.name) := by
        intro l
        induction l with
        | nil => simp
        | cons e l ih =>
          rw [List.filterMap_cons, List.map_cons]
          cases parse i e.name e.content with
          | none => exact ih.cons _
          | some v => exact ih.cons₂ _
      exact (this _).nodup hnd'
    · rw [hent]
      simp only [List.mem_filterMap, List.mem_filter, hall, Bool.and_true, Option.map_eq_some_iff, Prod.mk.injEq]
      constructor
      · rintro ⟨e, ⟨he, hd⟩, w, hp, rfl, rfl⟩
        exact ⟨e, he, hd, rfl, hp⟩
      · rintro ⟨e, he, hd, rfl, hp⟩
        exact ⟨e, ⟨he, hd⟩, v, hp, rfl, rfl⟩

/-- C134 is false after a second start: with serialization, whatever timetables the first start served, an immediate second
start without `--regenerate` serves none of them, for any infrastructure. -/
theorem C134_restart_negation (parse : I → Nat → C → Option V) (source : V → Nat)
    (hsrc : ∀ i n c v, parse i n c = some v → source v = n) (regenerate : Bool) (now : Nat) (entries : List (Entry C))
    (hnd : (entries.map Entry.name).Nodup) (hpast : ∀ e ∈ entries, e.mtime ≤ now) (infras : List I) (cache : Cache V)
    (i : I) (ts : List (Nat × V)) (n : Nat) (v : V)
    (hc : (i, ts) ∈ (startTimetables parse source true regenerate now entries infras cache).2) (hn : (n, v) ∈ ts) :
    ∀ c ∈ (startTimetables parse source true false (now + 1) entries infras
      (startTimetables parse source true regenerate now entries infras cache).1).2, n ∉ c.2.map Prod.fst := by
  have hnd' : ∀ (r : Bool) (k : Cache V), (((todoList r true k entries).filterMap Item.entry).map Entry.name).Nodup := by
    intro r k
    rw [todo_entries]
    exact (List.filter_sublist.map Entry.name).nodup hnd
  have hcache := (loadContexts_cache parse source now (todoList regenerate true cache entries) infras cache [] n).1
  rw [startTimetables, loadContexts_spec parse source hsrc _ _ _ (hnd' _ _), List.nil_append] at hc
  obtain ⟨i', hi', heq⟩ := List.mem_map.1 hc
  cases heq
  obtain ⟨e, he, hev⟩ := List.mem_filterMap.1 hn
  obtain ⟨v', hp, heq⟩ := Option.map_eq_some_iff.1 hev
  cases heq
  obtain ⟨u, hu⟩ := hcache ⟨i, hi', e, he, rfl, by rw [hp]; rfl⟩
  intro c hc' hmem
  rw [startTimetables, loadContexts_spec parse source hsrc _ _ _ (hnd' _ _), List.nil_append] at hc'
  obtain ⟨j, hj, rfl⟩ := List.mem_map.1 hc'
  obtain ⟨p, hp1, hp2⟩ := List.mem_map.1 hmem
  obtain ⟨x, hx, hxv⟩ := List.mem_filterMap.1 hp1
  obtain ⟨w, _, rfl⟩ := Option.map_eq_some_iff.1 hxv
  rw [todo_entries, List.mem_filter] at hx
  simp only [Bool.and_eq_true] at hx
  obtain ⟨hxe, _, hxm⟩ := hx
  dsimp only at hp2
  unfold mustParse at hxm
  rw [hp2] at hxm
  rw [startTimetables] at hxm
  rw [hu] at hxm
  have := hpast x hxe
  simp at hxm
  omega

/-- an example: one infrastructure, one timetable; served by the first start, not by the second -/
example : let parse : Unit → Nat → Nat → Option (Nat × Nat) := fun _ n c => some (n, c)
    let first := startTimetables parse Prod.fst true false 5 [⟨1, true, 3, 10⟩] [()] fun _ => none
    first.2 = [((), [(1, (1, 10))])] ∧
    (startTimetables parse Prod.fst true false 6 [⟨1, true, 3, 10⟩] [()] first.1).2 = [((), [])] := ⟨rfl, rfl⟩

end Soro
