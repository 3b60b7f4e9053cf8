import Verif.Proof.Tiles
import Verif.Props.ServerStart

/-! Map tiles (C152) and checks at the start of the server (C153). -/

namespace Soro.Tiles
open TypeNames ServerStart

variable {C V : Type}

/-! ### C152: Tiles show the served infrastructure -/

/-- With `--regenerate` the tiles are up to date, whatever happened before (names without points). -/
theorem C152_regenerate (parse : Nat → C → V) (source : V → Nat) (hsrc : ∀ n c, source (parse n c) = n) (ser : Bool)
    {written : Nat → Text} (hw : Plain written) (s : State C V) (hn : (s.world.entries.map Entry.name).Nodup) :
    (∃ t, Step parse source ser written s (.start true) t) ∧
    ∀ t, Step parse source ser written s (.start true) t → UpToDate written t := by
  obtain ⟨w, h1, h2⟩ := C133_regenerate parse source hsrc ser true (.inl rfl) s.world hn
  have key := fun (order : List (Nat × V)) (hp : order.Perm w.served) =>
    start_upToDate (f := s.files) (now := s.world.clock) (distinct_plain hw) hp h2.1 fun _ _ _ => Or.inl (b := _) (rfl : true = true)
  refine ⟨?_, fun t ht => ?_⟩
  · obtain ⟨f, m, h3, _⟩ := key w.served (List.Perm.refl _)
    exact ⟨_, .start h1 (List.Perm.refl _) h3⟩
  · cases ht with
    | start h3 h4 h5 =>
      rw [h1] at h3
      cases h3
      obtain ⟨f, m, h6, h7, _⟩ := key _ h4
      rw [h6] at h5
      cases h5
      exact fun n v hm => (h7 n v hm).1
    | other h _ => exact absurd rfl (h true)

/-- invariant of histories in which the infrastructures do not change -/
structure Good (parse : Nat → C → V) (content : Nat → C) (written : Nat → Text) (s : State C V) : Prop where
  inv : Inv parse s.world
  fixed : Fixed content s.world
  osm : ∀ n t u, s.files.osm (osmPath (written n)) = some (t, u) → u = parse n (content n)
  db : ∀ n t u, s.files.db (dbPath (written n)) = some (t, u) → u = parse n (content n)

theorem good_start {parse : Nat → C → V} {source : V → Nat} (hsrc : ∀ n c, source (parse n c) = n) {ser : Bool}
    {content : Nat → C} {written : Nat → Text} (hw : Plain written) {s : State C V} (hg : Good parse content written s) (r : Bool) :
    (∃ t, Step parse source ser written s (.start r) t) ∧
    ∀ t, Step parse source ser written s (.start r) t → Good parse content written t ∧ UpToDate written t := by
  obtain ⟨w, h1, h2, h3, h4⟩ := start_spec parse source hsrc ser r s.world hg.inv
  have hv : ∀ n v, (n, v) ∈ w.served → v = parse n (content n) := by
    intro n v hm
    obtain ⟨e, he, _, rfl, rfl⟩ := (h4.2 n v).1 hm
    rw [hg.fixed e he]
  have key := fun (order : List (Nat × V)) (hp : order.Perm w.served) =>
    start_upToDate (r := r) (f := s.files) (now := s.world.clock) (distinct_plain hw) hp h4.1 fun n v hm =>
      .inr (.inl ⟨fun t u h => by rw [hg.osm n t u h, hv n v hm], fun t u h => by rw [hg.db n t u h, hv n v hm]⟩)
  refine ⟨?_, fun t ht => ?_⟩
  · obtain ⟨f, m, h5, _⟩ := key w.served (List.Perm.refl _)
    exact ⟨_, .start h1 (List.Perm.refl _) h5⟩
  · cases ht with
    | start h5 h6 h7 =>
      rw [h1] at h5
      cases h5
      obtain ⟨f, m, h8, h9, h10⟩ := key _ h6
      rw [h8] at h7
      cases h7
      refine ⟨⟨h2, fun e he => ?_, fun n t u h => ?_, fun n t u h => ?_⟩, fun n v hm => (h9 n v hm).1⟩
      · rw [h3] at he
        exact hg.fixed e he
      · by_cases hm : n ∈ w.served.map Prod.fst
        · obtain ⟨⟨n', v⟩, hm', rfl⟩ := List.mem_map.1 hm
          obtain ⟨_, ⟨t', h11⟩, _⟩ := h9 _ v hm'
          rw [h11] at h
          cases h
          exact hv _ _ hm'
        · rw [(h10 n hm).1] at h
          exact hg.osm n t u h
      · by_cases hm : n ∈ w.served.map Prod.fst
        · obtain ⟨⟨n', v⟩, hm', rfl⟩ := List.mem_map.1 hm
          obtain ⟨_, _, t', h11⟩ := h9 _ v hm'
          rw [h11] at h
          cases h
          exact hv _ _ hm'
        · rw [(h10 n hm).2] at h
          exact hg.db n t u h
    | other h _ => exact absurd rfl (h r)

theorem good_step {parse : Nat → C → V} {source : V → Nat} (hsrc : ∀ n c, source (parse n c) = n) {ser : Bool}
    {content : Nat → C} {written : Nat → Text} (hw : Plain written) {s : State C V} (hg : Good parse content written s) {e : Event C}
    (he : Constant content [e]) :
    (∃ t, Step parse source ser written s e t) ∧ ∀ t, Step parse source ser written s e t → Good parse content written t := by
  by_cases hs : ∃ r, e = .start r
  · obtain ⟨r, rfl⟩ := hs
    obtain ⟨h1, h2⟩ := good_start hsrc (ser := ser) hw hg r
    exact ⟨h1, fun t ht => (h2 t ht).1⟩
  · have hs' : ∀ r, e ≠ .start r := fun r h => hs ⟨r, h⟩
    have hno : ∀ n c, e ≠ .overwrite n c := fun n c h => he.2.2 n c (by simp [h])
    obtain ⟨w, h1, h2⟩ := step_inv parse source hsrc ser s.world hg.inv e hno
    have hf : Fixed content w := step_fixed h1 hg.fixed (fun n d c h => he.1 n d c (by simp [h])) (fun n c h => he.2.1 n c (by simp [h])) hno
    refine ⟨⟨_, .other hs' h1⟩, fun t ht => ?_⟩
    cases ht with
    | start _ _ _ => exact absurd rfl (hs' _)
    | other _ h3 =>
      rw [h1] at h3
      cases h3
      exact ⟨h2, hf, hg.osm, hg.db⟩

theorem good_run {parse : Nat → C → V} {source : V → Nat} (hsrc : ∀ n c, source (parse n c) = n) {ser : Bool}
    {content : Nat → C} {written : Nat → Text} (hw : Plain written) (r : Bool) (es : List (Event C)) (he : Constant content es)
    {s : State C V} (hg : Good parse content written s) :
    (∃ t, Run parse source ser written s (es ++ [.start r]) t) ∧
    ∀ t, Run parse source ser written s (es ++ [.start r]) t → UpToDate written t := by
  induction es generalizing s with
  | nil =>
    obtain ⟨⟨t, h1⟩, h2⟩ := good_start hsrc (ser := ser) hw hg r
    refine ⟨⟨t, .cons h1 .nil⟩, fun t ht => ?_⟩
    cases ht with
    | cons h3 h4 =>
      cases h4
      exact (h2 _ h3).2
  | cons e es ih =>
    have h1 : Constant content [e] := ⟨fun n d c h => he.1 n d c (by rw [List.mem_singleton] at h; simp [h]),
      fun n c h => he.2.1 n c (by rw [List.mem_singleton] at h; simp [h]), fun n c h => he.2.2 n c (by rw [List.mem_singleton] at h; simp [h])⟩
    have h2 : Constant content es := ⟨fun n d c h => he.1 n d c (List.mem_cons_of_mem _ h), fun n c h => he.2.1 n c (List.mem_cons_of_mem _ h),
      fun n c h => he.2.2 n c (List.mem_cons_of_mem _ h)⟩
    obtain ⟨⟨t, h3⟩, h4⟩ := good_step hsrc (ser := ser) hw hg h1
    obtain ⟨⟨u, h5⟩, _⟩ := ih h2 (h4 t h3)
    refine ⟨⟨u, .cons h3 h5⟩, fun u hu => ?_⟩
    cases hu with
    | cons h6 h7 => exact (ih h2 (h4 _ h6)).2 u h7

/-- After any history in which infrastructures are added and removed but do not change, a start of the server serves tiles of exactly
the infrastructures it serves (names without points). Missing: infrastructures that change (negation below). -/
theorem C152_unchanged_partial (parse : Nat → C → V) (source : V → Nat) (hsrc : ∀ n c, source (parse n c) = n) (ser : Bool)
    {content : Nat → C} {written : Nat → Text} (hw : Plain written) (es : List (Event C)) (he : Constant content es) (r : Bool) :
    (∃ t, Run parse source ser written State.init (es ++ [.start r]) t) ∧
    ∀ t, Run parse source ser written State.init (es ++ [.start r]) t → UpToDate written t :=
  good_run hsrc hw r es he ⟨inv_init parse, (by intro e h; cases h), (by intro n t u h; cases h), (by intro n t u h; cases h)⟩

/-- If the map files are deleted, a start brings the tiles up to date. -/
theorem C152_deleted_maps (parse : Nat → C → V) (source : V → Nat) (hsrc : ∀ n c, source (parse n c) = n) (ser r : Bool)
    {written : Nat → Text} (hw : Plain written) (s t : State C V) (hi : Inv parse s.world) (ho : ∀ p, s.files.osm p = none)
    (hd : ∀ p at' u, s.files.db p = some (at', u) → at' < s.world.clock) (h : Step parse source ser written s (.start r) t) :
    UpToDate written t := by
  obtain ⟨w, h1, h2, h3, h4⟩ := start_spec parse source hsrc ser r s.world hi
  cases h with
  | start h5 h6 h7 =>
    rw [h1] at h5
    cases h5
    obtain ⟨f, m, h8, h9, _⟩ := start_upToDate (r := r) (f := s.files) (now := s.world.clock) (distinct_plain hw) h6 h4.1 fun n v hm =>
      .inr (.inr ⟨ho _, fun t u h => hd _ t u h⟩)
    rw [h8] at h7
    cases h7
    exact fun n v hm => (h9 n v hm).1
  | other h _ => exact absurd rfl (h r)

/-- Code violation: the map file is only written if there is none, so without `--regenerate` the tiles of an infrastructure stay those
of the first start, however the infrastructure changes, although the changed infrastructure is served. -/
theorem C152_stale_negation (parse : Nat → C → V) (source : V → Nat) (hsrc : ∀ n c, source (parse n c) = n) (ser : Bool)
    {written : Nat → Text} (hw : Plain written) (s t : State C V) (hi : Inv parse s.world) {n t1 t2 : Nat} {u1 u2 v : V}
    (ho : s.files.osm (osmPath (written n)) = some (t1, u1)) (hd : s.files.db (dbPath (written n)) = some (t2, u2)) (hle : t1 ≤ t2)
    (h : Step parse source ser written s (.start false) t) (hv : (n, v) ∈ t.world.served) :
    tilesOf t.files t.opened (written n) = some u2 := by
  obtain ⟨w, h1, h2, h3, h4⟩ := start_spec parse source hsrc ser false s.world hi
  cases h with
  | @start _ w order f m h5 h6 h7 =>
    rw [h1] at h5
    cases h5
    have hs := nodup_of_stems (stems_nodup (distinct_plain hw) ((h6.map Prod.fst).nodup_iff.2 h4.1))
    have hmem : (written n, v) ∈ order.map fun e => (written e.1, e.2) := List.mem_map.2 ⟨(n, v), h6.symm.subset hv, rfl⟩
    obtain ⟨_, h8⟩ := startTiles_keeps hle _ h7 (fun e he hc => by
      obtain ⟨e', _, rfl⟩ := List.mem_map.1 he
      rw [distinct_plain hw _ _ hc]) ho hd
    have h9 := startTiles_opened _ h7 hs (by simp)
    rw [tilesOf, h9, List.nil_append, find_mapped hs hmem]
    dsimp only
    rw [h8, Option.map_some]
  | other h _ => exact absurd rfl (h false)

/-- plain names for examples -/
def exWritten (n : Nat) : Text := List.replicate n 'a'

theorem exWritten_plain : Plain exWritten := by
  refine ⟨fun n h => ?_, fun a b h => ?_⟩
  · have := List.eq_of_mem_replicate h
    revert this; decide
  · have := congrArg List.length h
    simpa [exWritten] using this

/-- A history for the violation above: a directory is added, the server started, files added to the directory, the server started
again. It serves the new infrastructure (20) with the tiles of the old one (10). -/
theorem C152_history_negation : ∃ t, Run (fun n c => ((n, c) : Nat × Nat)) Prod.fst true exWritten State.init
    [.create 1 true 10, .start false, .change 1 20, .start false] t ∧ t.world.served = [(1, (1, 20))] ∧
    tilesOf t.files t.opened (exWritten 1) = some (1, 10) ∧ ¬ UpToDate exWritten t := by
  refine ⟨_, .cons (.other (by simp) rfl) (.cons (.start rfl (List.Perm.refl _) rfl) (.cons (.other (by simp) rfl)
    (.cons (.start rfl (List.Perm.refl _) rfl) .nil))), rfl, rfl, fun h => ?_⟩
  have := h 1 (1, 20) (by decide)
  revert this
  decide

/-- Code violation: the part of a name after its last point is taken for an extension, so infrastructures `a.x` and `a.y` share their
files, and the tiles of the one that comes last are served for both, even with `--regenerate`. -/
theorem C152_extension_negation {a x y : Text} (ha : a ≠ []) (hx : '.' ∉ x) (hy : '.' ∉ y) (hne : x ≠ y) (now : Nat) (v u : V) (f : Files V) :
    ∃ f' m, startTiles true now [(a ++ '.' :: x, v), (a ++ '.' :: y, u)] f [] = some (f', m) ∧
      tilesOf f' m (a ++ '.' :: x) = some u ∧ tilesOf f' m (a ++ '.' :: y) = some u := by
  have e1 : ∀ e, replaceExtension (a ++ '.' :: x) e = a ++ e := replaceExtension_dot ha hx
  have e2 : ∀ e, replaceExtension (a ++ '.' :: y) e = a ++ e := replaceExtension_dot ha hy
  have hnames : ((a ++ '.' :: x) == (a ++ '.' :: y)) = false := by simpa using hne
  obtain ⟨f1, h1, _⟩ := item_spec (r := true) (now := now) (n := a ++ '.' :: x) (v := v) (f := f) (.inl rfl)
  obtain ⟨f2, h2, _, ⟨t, h3⟩, _⟩ := item_spec (r := true) (now := now) (n := a ++ '.' :: y) (v := u) (f := f1) (.inl rfl)
  rw [dbPath, e2] at h3
  refine ⟨f2, [(a ++ '.' :: x, a ++ ".mdb".toList), (a ++ '.' :: y, a ++ ".mdb".toList)], ?_, ?_, ?_⟩
  · rw [startTiles, h1]
    dsimp only
    rw [startTiles, h2]
    dsimp only
    rw [startTiles, e1, e2]
    simp [hne]
  · rw [tilesOf, List.find?_cons, beq_self_eq_true]
    dsimp only
    rw [h3, Option.map_some]
  · rw [tilesOf, List.find?_cons, hnames, List.find?_cons, beq_self_eq_true]
    dsimp only
    rw [h3, Option.map_some]

example : Constant (fun n => n + 9) ([.create 1 true 10, .start false, .create 2 true 11, .remove 1, .create 1 true 10, .create 4 false 13] :
    List (Event Nat)) := by
  refine ⟨fun n d c h => ?_, fun n c h => ?_, fun n c h => ?_⟩
  · simp only [List.mem_cons, Event.create.injEq, List.not_mem_nil, or_false, reduceCtorEq, false_or] at h
    rcases h with ⟨rfl, _, rfl⟩ | ⟨rfl, _, rfl⟩ | ⟨rfl, _, rfl⟩ | ⟨rfl, _, rfl⟩ <;> rfl
  · simp at h
  · simp at h

example : ∃ t, Step (fun n c => ((n, c) : Nat × Nat)) Prod.fst true exWritten
    ⟨⟨[⟨1, true, 3, 20⟩], fun _ => none, 7, []⟩, ⟨fun _ => none, fun p => if p = "a.mdb".toList then some (2, (1, 10)) else none⟩, []⟩ (.start false) t ∧
    tilesOf t.files t.opened (exWritten 1) = some (1, 20) :=
  ⟨_, .start rfl (List.Perm.refl _) rfl, rfl⟩

/-! ### C153: The server refuses to start without its files -/

/-- A missing resource directory, coordinate file or profile is refused, and with all files and directories the server runs. Missing:
the source directories (negation below). -/
theorem C153_checks_partial (fs : Fs) (s : Settings) (hh : s.help = false) :
    ((fs.present s.resources = false ∨ fs.present (s.resources ++ ["misc".toList, "btrs_geo.csv".toList]) = false ∨
      fs.present (s.resources ++ ["profile".toList, "profile.lua".toList]) = false) → main fs s = .refused) ∧
    (fs.present s.resources = true → fs.present (s.resources ++ ["misc".toList, "btrs_geo.csv".toList]) = true →
      fs.present (s.resources ++ ["profile".toList, "profile.lua".toList]) = true → (∀ p, fs.isDir p = true → fs.present p = true) →
      (main fs s = .running ↔ fs.isDir s.infraSources = true ∧ fs.isDir s.timetableSources = true)) := by
  have key : ∀ p1 p2 p3 i1 d1 i2 d2 : Bool, (if !p1 then Outcome.refused else if !p2 then .refused else if !p3 then .refused
      else if !i1 && d1 then .refused else if !i2 && d2 then .refused else if !d1 then .aborted else if !d2 then .aborted else .running) =
      (if p1 && p2 && p3 then (if (!i1 && d1) || (!i2 && d2) then Outcome.refused else if d1 && d2 then .running else .aborted) else .refused) := by
    decide
  unfold main
  rw [hh, if_neg Bool.false_ne_true, key]
  refine ⟨fun h => ?_, fun h1 h2 h3 hd => ?_⟩
  · rw [if_neg]
    rw [Bool.and_eq_true, Bool.and_eq_true]
    rintro ⟨⟨h1, h2⟩, h3⟩
    rcases h with h | h | h
    · rw [h] at h1; cases h1
    · rw [h] at h2; cases h2
    · rw [h] at h3; cases h3
  · rw [h1, h2, h3]
    have a := hd s.infraSources
    have b := hd s.timetableSources
    generalize fs.isDir s.infraSources = d1 at *
    generalize fs.present s.infraSources = i1 at *
    generalize fs.isDir s.timetableSources = d2 at *
    generalize fs.present s.timetableSources = i2 at *
    clear hd h1 h2 h3
    revert d1 d2 i1 i2
    decide

/-- Code violation: a source directory that does not exist or is no directory is never refused; the program ends with an uncaught
exception. -/
theorem C153_sources_negation (fs : Fs) (s : Settings) (hh : s.help = false) (hd : ∀ p, fs.isDir p = true → fs.present p = true)
    (h1 : fs.present s.resources = true) (h2 : fs.present (s.resources ++ ["misc".toList, "btrs_geo.csv".toList]) = true)
    (h3 : fs.present (s.resources ++ ["profile".toList, "profile.lua".toList]) = true)
    (h : fs.isDir s.infraSources = false ∨ fs.isDir s.timetableSources = false) : main fs s = .aborted := by
  unfold main
  rw [hh, if_neg Bool.false_ne_true, h1, h2, h3]
  have a := hd s.infraSources
  have b := hd s.timetableSources
  generalize fs.isDir s.infraSources = d1 at *
  generalize fs.present s.infraSources = i1 at *
  generalize fs.isDir s.timetableSources = d2 at *
  generalize fs.present s.timetableSources = i2 at *
  clear hd h1 h2 h3
  revert d1 d2 i1 i2
  decide

def exFs : Fs where
  present p := decide (p ∈ [["r".toList], ["r".toList, "misc".toList, "btrs_geo.csv".toList], ["r".toList, "profile".toList, "profile.lua".toList], ["i".toList]])
  isDir p := decide (p ∈ [["r".toList], ["i".toList]])

example : (∀ p, exFs.isDir p = true → exFs.present p = true) ∧ main exFs ⟨false, ["r".toList], ["i".toList], ["t".toList]⟩ = .aborted ∧
    main exFs ⟨false, ["r".toList], ["i".toList], ["i".toList]⟩ = .running ∧ main exFs ⟨false, ["q".toList], ["i".toList], ["i".toList]⟩ = .refused := by
  refine ⟨fun p h => ?_, by decide, by decide, by decide⟩
  simp only [exFs, decide_eq_true_eq, List.mem_cons, List.not_mem_nil, or_false] at h ⊢
  rcases h with h | h
  · exact .inl h
  · exact .inr (.inr (.inr h))

end Soro.Tiles
