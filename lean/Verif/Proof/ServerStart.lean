import Verif.Spec.ServerStart
import Mathlib.Data.List.Nodup

/-! Proofs about the start of the server. -/

namespace Soro.ServerStart

variable {C V I : Type}

theorem mem_emplace_fresh {m : List (Nat × V)} {k : Nat} {v : V} (h : k ∉ m.map Prod.fst) : emplace m k v = m ++ [(k, v)] := by
  unfold emplace
  rw [if_neg]
  rw [List.any_eq_true]
  rintro ⟨e, he, h1⟩
  exact h (List.mem_map.2 ⟨e, he, beq_iff_eq.1 h1⟩)

/-- the saved files that are not older than their entry hold the value of its present content -/
def Fresh (parse : Nat → C → V) (entries : List (Entry C)) (cache : Cache V) : Prop :=
  ∀ e ∈ entries, ∀ t v, cache e.name = some (t, v) → e.mtime ≤ t → v = parse e.name e.content

/-- what a start serves, and what it leaves behind -/
theorem loadInfras_spec (parse : Nat → C → V) (source : V → Nat) (hsrc : ∀ n c, source (parse n c) = n) (ser regen : Bool)
    (now : Nat) (cache0 : Cache V) (es : List (Entry C)) (hnd : (es.map Entry.name).Nodup)
    (hfresh : Fresh parse es cache0) (cache : Cache V) (m : List (Nat × V))
    (hsame : ∀ e ∈ es, cache e.name = cache0 e.name) (hm : ∀ e ∈ es, e.name ∉ m.map Prod.fst) :
    ∃ cache', loadInfras parse source ser now (todoList regen ser cache0 es) cache m =
        some (cache', m ++ (es.filter Entry.isDir).map fun e => (e.name, parse e.name e.content)) ∧
      ∀ n, cache' n = cache n ∨ ∃ e ∈ es, e.name = n ∧ cache' n = some (now, parse e.name e.content) := by
  induction es generalizing cache m with
  | nil => exact ⟨cache, by simp [todoList, loadInfras], fun n => .inl rfl⟩
  | cons e es ih =>
    rw [List.map_cons, List.nodup_cons] at hnd
    have hf' : Fresh parse es cache0 := fun x hx => hfresh x (by simp [hx])
    have hne : ∀ x ∈ es, x.name ≠ e.name := fun x hx h => hnd.1 (List.mem_map.2 ⟨x, hx, h⟩)
    cases hd : e.isDir with
    | false =>
      obtain ⟨c', h1, h2⟩ := ih hnd.2 hf' cache m (fun x hx => hsame x (by simp [hx])) (fun x hx => hm x (by simp [hx]))
      refine ⟨c', by simpa [todoList, hd] using h1, fun n => ?_⟩
      rcases h2 n with h | ⟨x, hx, h⟩
      · exact .inl h
      · exact .inr ⟨x, by simp [hx], h⟩
    | true =>
      have hm' : ∀ x ∈ es, x.name ∉ (m ++ [(e.name, parse e.name e.content)]).map Prod.fst := by
        intro x hx
        rw [List.map_append, List.mem_append]
        rintro (h | h)
        · exact hm x (by simp [hx]) h
        · simp only [List.map_cons, List.map_nil, List.mem_singleton] at h
          exact hne x hx h
      have hemp : emplace m e.name (parse e.name e.content) = m ++ [(e.name, parse e.name e.content)] :=
        mem_emplace_fresh (hm e (by simp))
      rw [todoList, if_pos hd]
      cases hmp : mustParse regen ser cache0 e with
      | true =>
        rw [if_pos rfl, loadInfras, hsrc, hemp]
        obtain ⟨c', h1, h2⟩ := ih hnd.2 hf' (if ser then save cache e.name now (parse e.name e.content) else cache)
          (m ++ [(e.name, parse e.name e.content)]) (fun x hx => by
            rw [← hsame x (by simp [hx])]
            split
            · rw [save, if_neg (hne x hx)]
            · rfl) hm'
        refine ⟨c', by rw [h1]; simp [hd], fun n => ?_⟩
        rcases h2 n with h | ⟨x, hx, h⟩
        · split at h
          · unfold save at h
            split at h
            · rename_i hn
              exact .inr ⟨e, by simp, hn.symm, h⟩
            · exact .inl h
          · exact .inl h
        · exact .inr ⟨x, by simp [hx], h⟩
      | false =>
        rw [if_neg (by simp), loadInfras]
        unfold mustParse at hmp
        simp only [Bool.or_eq_false_iff] at hmp
        obtain ⟨_, hc⟩ := hmp
        cases hce : cache0 e.name with
        | none => rw [hce] at hc; cases hc
        | some p =>
          obtain ⟨t, v⟩ := p
          rw [hce] at hc
          simp only [decide_eq_false_iff_not, Nat.not_lt] at hc
          have hv := hfresh e (by simp) t v hce hc
          rw [hsame e (by simp), hce]
          dsimp only
          rw [hv, hsrc, hemp]
          obtain ⟨c', h1, h2⟩ := ih hnd.2 hf' cache (m ++ [(e.name, parse e.name e.content)])
            (fun x hx => hsame x (by simp [hx])) hm'
          refine ⟨c', by rw [h1]; simp [hd], fun n => ?_⟩
          rcases h2 n with h | ⟨x, hx, h⟩
          · exact .inl h
          · exact .inr ⟨x, by simp [hx], h⟩

/-- invariant of all histories without overwriting -/
structure Inv (parse : Nat → C → V) (w : World C V) : Prop where
  names : (w.entries.map Entry.name).Nodup
  past : ∀ e ∈ w.entries, e.mtime < w.clock
  saved : ∀ n t v, w.cache n = some (t, v) → t < w.clock
  fresh : Fresh parse w.entries w.cache

theorem inv_init (parse : Nat → C → V) : Inv parse (World.init : World C V) :=
  ⟨by simp [World.init], by simp [World.init], by simp [World.init], by simp [World.init, Fresh]⟩

theorem current_of (parse : Nat → C → V) (es : List (Entry C)) (hnd : (es.map Entry.name).Nodup) :
    Current parse es ((es.filter Entry.isDir).map fun e => (e.name, parse e.name e.content)) := by
  refine ⟨?_, fun n v => ?_⟩
  · rw [List.map_map]
    exact (List.filter_sublist.map Entry.name).nodup hnd
  · rw [List.mem_map]
    constructor
    · rintro ⟨e, he, h⟩
      rw [List.mem_filter] at he
      cases h
      exact ⟨e, he.1, he.2, rfl, rfl⟩
    · rintro ⟨e, he, hd, rfl, rfl⟩
      exact ⟨e, List.mem_filter.2 ⟨he, hd⟩, rfl⟩

theorem start_spec (parse : Nat → C → V) (source : V → Nat) (hsrc : ∀ n c, source (parse n c) = n) (ser regen : Bool)
    (w : World C V) (hi : Inv parse w) : ∃ w', step parse source ser w (.start regen) = some w' ∧ Inv parse w' ∧
      w'.entries = w.entries ∧ Current parse w.entries w'.served := by
  obtain ⟨c', h1, h2⟩ := loadInfras_spec parse source hsrc ser regen w.clock w.cache w.entries hi.names hi.fresh w.cache []
    (fun _ _ => rfl) (by simp)
  refine ⟨{ w with cache := c', clock := w.clock + 1,
                   served := [] ++ (w.entries.filter Entry.isDir).map fun e => (e.name, parse e.name e.content) },
    by rw [step, startInfras, h1]; rfl, ⟨hi.names, fun e he => ?_, fun n t v h => ?_, fun e he t v h hle => ?_⟩, rfl, ?_⟩
  · have := hi.past e he; dsimp only; omega
  · dsimp only at h ⊢
    rcases h2 n with h3 | ⟨e, he, hn, h3⟩
    · rw [h3] at h
      have := hi.saved n t v h
      omega
    · rw [h3] at h
      cases h
      omega
  · dsimp only at h he
    rcases h2 e.name with h3 | ⟨x, hx, hn, h3⟩
    · rw [h3] at h
      exact hi.fresh e he t v h hle
    · rw [h3] at h
      cases h
      have : x = e := by
        have := List.inj_on_of_nodup_map hi.names hx he hn
        exact this
      rw [this]
  · simpa using current_of parse w.entries hi.names

theorem map_names (es : List (Entry C)) (f : Entry C → Entry C) (h : ∀ e, (f e).name = e.name) :
    (es.map f).map Entry.name = es.map Entry.name := by
  rw [List.map_map]
  congr 1
  funext e
  exact h e

theorem step_inv (parse : Nat → C → V) (source : V → Nat) (hsrc : ∀ n c, source (parse n c) = n) (ser : Bool) (w : World C V)
    (hi : Inv parse w) (e : Event C) (hno : ∀ n c, e ≠ .overwrite n c) :
    ∃ w', step parse source ser w e = some w' ∧ Inv parse w' := by
  cases e with
  | start r =>
    obtain ⟨w', h1, h2, _⟩ := start_spec parse source hsrc ser r w hi
    exact ⟨w', h1, h2⟩
  | overwrite n c => exact absurd rfl (hno n c)
  | remove name =>
    refine ⟨_, rfl, (List.filter_sublist.map Entry.name).nodup hi.names, fun e he => ?_, fun n t v h => ?_, fun e he => ?_⟩
    · have := hi.past e (List.mem_filter.1 he).1; dsimp only; omega
    · have := hi.saved n t v h; dsimp only; omega
    · exact hi.fresh e (List.mem_filter.1 he).1
  | create name isDir content =>
    refine ⟨_, rfl, ?_, fun e he => ?_, fun n t v h => ?_, fun e he t v h hle => ?_⟩
    · dsimp only
      rw [List.map_append, List.nodup_append]
      refine ⟨(List.filter_sublist.map Entry.name).nodup hi.names, by simp, ?_⟩
      intro a ha b hb
      obtain ⟨x, hx, rfl⟩ := List.mem_map.1 ha
      simp only [List.map_cons, List.map_nil, List.mem_singleton] at hb
      subst hb
      have := (List.mem_filter.1 hx).2
      simpa using this
    · rcases List.mem_append.1 he with he | he
      · have := hi.past e (List.mem_filter.1 he).1; dsimp only; omega
      · simp only [List.mem_singleton] at he
        subst he
        dsimp only; omega
    · have := hi.saved n t v h; dsimp only; omega
    · rcases List.mem_append.1 he with he | he
      · exact hi.fresh e (List.mem_filter.1 he).1 t v h hle
      · simp only [List.mem_singleton] at he
        subst he
        have := hi.saved _ _ _ h
        dsimp only at hle
        omega
  | change name content =>
    refine ⟨_, rfl, ?_, fun e he => ?_, fun n t v h => ?_, fun e he t v h hle => ?_⟩
    · dsimp only
      rw [map_names _ _ fun e => by split <;> rfl]
      exact hi.names
    · obtain ⟨x, hx, rfl⟩ := List.mem_map.1 he
      have := hi.past x hx
      dsimp only
      split
      · dsimp only; omega
      · omega
    · have := hi.saved n t v h; dsimp only; omega
    · obtain ⟨x, hx, rfl⟩ := List.mem_map.1 he
      split at h
      · rename_i hn
        rw [if_pos hn] at hle
        have := hi.saved _ _ _ h
        dsimp only at hle
        omega
      · rename_i hn
        rw [if_neg hn] at hle ⊢
        exact hi.fresh x hx t v h hle

theorem run_inv (parse : Nat → C → V) (source : V → Nat) (hsrc : ∀ n c, source (parse n c) = n) (ser : Bool)
    (es : List (Event C)) (hno : NoOverwrite es) (w : World C V) (hi : Inv parse w) :
    ∃ w', run parse source ser es w = some w' ∧ Inv parse w' := by
  induction es generalizing w with
  | nil => exact ⟨w, rfl, hi⟩
  | cons e es ih =>
    obtain ⟨w1, h1, h2⟩ := step_inv parse source hsrc ser w hi e fun n c h => hno n c (by simp [h])
    obtain ⟨w2, h3, h4⟩ := ih (fun n c h => hno n c (by simp [h])) w1 h2
    exact ⟨w2, by rw [run, h1]; exact h3, h4⟩

theorem run_append (parse : Nat → C → V) (source : V → Nat) (ser : Bool) (as bs : List (Event C)) (w : World C V) :
    run parse source ser (as ++ bs) w = (run parse source ser as w).bind (run parse source ser bs) := by
  induction as generalizing w with
  | nil => rfl
  | cons a as ih =>
    rw [List.cons_append, run, run]
    cases step parse source ser w a with
    | none => rfl
    | some w1 => exact ih w1

/-! ### timetables -/

/-- the entry of a source item -/
def Item.entry : Item C → Option (Entry C)
  | .source e => some e
  | .raw _ => none

/-- the timetables of one infrastructure: those of the sources in the list -/
theorem loadTimetables_mem (parse : I → Nat → C → Option V) (source : V → Nat)
    (hsrc : ∀ i n c v, parse i n c = some v → source v = n) (ser : Bool) (now : Nat) (infra : I) (is : List (Item C))
    (cache : Cache V) (m : List (Nat × V)) (hnd : ((is.filterMap Item.entry).map Entry.name).Nodup)
    (hm : ∀ e ∈ is.filterMap Item.entry, e.name ∉ m.map Prod.fst) :
    (loadTimetables parse source ser now infra is cache m).2 =
      m ++ (is.filterMap Item.entry).filterMap fun e => (parse infra e.name e.content).map fun v => (e.name, v) := by
  induction is generalizing cache m with
  | nil => simp [loadTimetables]
  | cons x is ih =>
    cases x with
    | raw n =>
      rw [loadTimetables, List.filterMap_cons]
      exact ih cache m hnd hm
    | source e =>
      simp only [List.filterMap_cons, Item.entry, List.map_cons, List.nodup_cons, List.mem_cons, forall_eq_or_imp] at hnd hm
      rw [loadTimetables]
      cases hp : parse infra e.name e.content with
      | none =>
        dsimp only
        rw [ih cache m hnd.2 hm.2]
        simp [Item.entry, hp]
      | some v =>
        dsimp only
        rw [hsrc _ _ _ _ hp, mem_emplace_fresh hm.1, ih _ _ hnd.2]
        · simp [Item.entry, hp]
        · intro x hx
          rw [List.map_append, List.mem_append]
          rintro (h | h)
          · exact hm.2 x hx h
          · simp only [List.map_cons, List.map_nil, List.mem_singleton] at h
            exact hnd.1 (List.mem_map.2 ⟨x, hx, h⟩)

theorem loadContexts_spec (parse : I → Nat → C → Option V) (source : V → Nat)
    (hsrc : ∀ i n c v, parse i n c = some v → source v = n) (ser : Bool) (now : Nat) (todo : List (Item C))
    (hnd : ((todo.filterMap Item.entry).map Entry.name).Nodup) (is : List I) (cache : Cache V)
    (cs : List (I × List (Nat × V))) :
    (loadContexts parse source ser now todo is cache cs).2 = cs ++ is.map fun i =>
      (i, (todo.filterMap Item.entry).filterMap fun e => (parse i e.name e.content).map fun v => (e.name, v)) := by
  induction is generalizing cache cs with
  | nil => simp [loadContexts]
  | cons i is ih =>
    rw [loadContexts, ih, loadTimetables_mem parse source hsrc ser now i todo cache [] hnd (by simp)]
    simp

theorem todo_entries (regen ser : Bool) (cache : Cache V) (es : List (Entry C)) :
    (todoList regen ser cache es).filterMap Item.entry =
      es.filter fun e => e.isDir && mustParse regen ser cache e := by
  induction es with
  | nil => rfl
  | cons e es ih =>
    rw [todoList]
    cases hd : e.isDir <;> cases hm : mustParse regen ser cache e <;> simp [Item.entry, ih, hd, hm, List.filter_cons, List.filterMap_cons]

/-- what the start leaves in the saved files -/
theorem loadTimetables_cache (parse : I → Nat → C → Option V) (source : V → Nat) (now : Nat) (infra : I)
    (is : List (Item C)) (cache : Cache V) (m : List (Nat × V)) (n : Nat) :
    ((∃ e ∈ is.filterMap Item.entry, e.name = n ∧ (parse infra e.name e.content).isSome = true) →
      ∃ v, (loadTimetables parse source true now infra is cache m).1 n = some (now, v)) ∧
    ((loadTimetables parse source true now infra is cache m).1 n = cache n ∨
      ∃ v, (loadTimetables parse source true now infra is cache m).1 n = some (now, v)) := by
  induction is generalizing cache m with
  | nil => simp [loadTimetables]
  | cons x is ih =>
    cases x with
    | raw k =>
      rw [loadTimetables, List.filterMap_cons]
      exact ih cache m
    | source e =>
      rw [loadTimetables]
      simp only [List.filterMap_cons, Item.entry, List.mem_cons]
      cases hp : parse infra e.name e.content with
      | none =>
        dsimp only
        obtain ⟨h1, h2⟩ := ih cache m
        refine ⟨?_, h2⟩
        rintro ⟨x, rfl | hx, hn, hs⟩
        · rw [hp] at hs; cases hs
        · exact h1 ⟨x, hx, hn, hs⟩
      | some v =>
        simp only [if_true]
        obtain ⟨h1, h2⟩ := ih (save cache e.name now v) (emplace m (source v) v)
        by_cases hn : n = e.name
        · have : ∃ u, (loadTimetables parse source true now infra is (save cache e.name now v)
              (emplace m (source v) v)).1 n = some (now, u) := by
            rcases h2 with h2 | h2
            · exact ⟨v, by rw [h2, save, if_pos hn]⟩
            · exact h2
          exact ⟨fun _ => this, .inr this⟩
        · refine ⟨?_, ?_⟩
          · rintro ⟨x, rfl | hx, hxn, hs⟩
            · exact absurd hxn.symm hn
            · exact h1 ⟨x, hx, hxn, hs⟩
          · rcases h2 with h2 | h2
            · exact .inl (by rw [h2, save, if_neg hn])
            · exact .inr h2

theorem loadContexts_cache (parse : I → Nat → C → Option V) (source : V → Nat) (now : Nat) (todo : List (Item C))
    (is : List I) (cache : Cache V) (cs : List (I × List (Nat × V))) (n : Nat) :
    ((∃ i ∈ is, ∃ e ∈ todo.filterMap Item.entry, e.name = n ∧ (parse i e.name e.content).isSome = true) →
      ∃ v, (loadContexts parse source true now todo is cache cs).1 n = some (now, v)) ∧
    ((loadContexts parse source true now todo is cache cs).1 n = cache n ∨
      ∃ v, (loadContexts parse source true now todo is cache cs).1 n = some (now, v)) := by
  induction is generalizing cache cs with
  | nil => simp [loadContexts]
  | cons i is ih =>
    rw [loadContexts]
    obtain ⟨h1, h2⟩ := loadTimetables_cache parse source now i todo cache [] n
    obtain ⟨h3, h4⟩ := ih (loadTimetables parse source true now i todo cache []).1
      (cs ++ [(i, (loadTimetables parse source true now i todo cache []).2)])
    refine ⟨?_, ?_⟩
    · rintro ⟨j, hj, h⟩
      rcases List.mem_cons.1 hj with rfl | hj
      · obtain ⟨v, hv⟩ := h1 h
        rcases h4 with h4 | h4
        · exact ⟨v, by rw [h4, hv]⟩
        · exact h4
      · exact h3 ⟨j, hj, h⟩
    · rcases h4 with h4 | h4
      · rcases h2 with h2 | ⟨v, h2⟩
        · exact .inl (by rw [h4, h2])
        · exact .inr ⟨v, by rw [h4, h2]⟩
      · exact .inr h4

end Soro.ServerStart
