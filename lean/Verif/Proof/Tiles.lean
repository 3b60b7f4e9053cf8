import Verif.Spec.Tiles
import Verif.Proof.ServerStart

namespace Soro.Tiles
open TypeNames ServerStart

variable {C V : Type}

theorem replaceExtension_append (n e : Text) : replaceExtension n e = replaceExtension n [] ++ e := by
  unfold replaceExtension
  split <;> simp

theorem dropWhile_all {p : Char → Bool} {l r : Text} (h : ∀ c ∈ l, p c = true) (hr : ∀ c, r.head? = some c → p c = false) :
    (l ++ r).dropWhile p = r := by
  rw [List.dropWhile_append_of_pos h]
  cases r with
  | nil => rfl
  | cons c r => simp [hr c rfl]

theorem replaceExtension_plain {n : Text} (h : '.' ∉ n) (e : Text) : replaceExtension n e = n ++ e := by
  have : n.reverse.dropWhile (· != '.') = [] := by
    have := dropWhile_all (p := (· != '.')) (l := n.reverse) (r := []) (fun c hc => by
      rw [bne_iff_ne]; rintro rfl; exact h (List.mem_reverse.1 hc)) (by simp)
    rwa [List.append_nil] at this
  rw [replaceExtension, this]

theorem replaceExtension_dot {a x : Text} (ha : a ≠ []) (hx : '.' ∉ x) (e : Text) : replaceExtension (a ++ '.' :: x) e = a ++ e := by
  have h1 : (a ++ '.' :: x).reverse = x.reverse ++ '.' :: a.reverse := by simp
  have h2 : (x.reverse ++ '.' :: a.reverse).dropWhile (· != '.') = '.' :: a.reverse :=
    dropWhile_all (fun c hc => by rw [bne_iff_ne]; rintro rfl; exact hx (List.mem_reverse.1 hc)) (fun c hc => by cases hc; rfl)
  rw [replaceExtension, h1, h2]
  cases hr : a.reverse with
  | nil => exact absurd (List.reverse_eq_nil_iff.1 hr) ha
  | cons c r =>
    dsimp only
    rw [← hr, List.reverse_reverse]

/-- paths of the files -/
def osmPath (n : Text) : Text := replaceExtension n ".osm".toList
def dbPath (n : Text) : Text := replaceExtension n ".mdb".toList

theorem osmPath_inj {a b : Text} (h : osmPath a = osmPath b) : replaceExtension a [] = replaceExtension b [] := by
  rw [osmPath, osmPath, replaceExtension_append a, replaceExtension_append b] at h
  exact List.append_cancel_right h

theorem dbPath_inj {a b : Text} (h : dbPath a = dbPath b) : replaceExtension a [] = replaceExtension b [] := by
  rw [dbPath, dbPath, replaceExtension_append a, replaceExtension_append b] at h
  exact List.append_cancel_right h

/-- the files lead to the right tiles -/
def Fits (r : Bool) (now : Nat) (f : Files V) (n : Text) (v : V) : Prop :=
  r = true ∨ ((∀ t u, f.osm (osmPath n) = some (t, u) → u = v) ∧ ∀ t u, f.db (dbPath n) = some (t, u) → u = v) ∨
  (f.osm (osmPath n) = none ∧ ∀ t u, f.db (dbPath n) = some (t, u) → t < now)

theorem item_spec {r : Bool} {now : Nat} {n : Text} {v : V} {f : Files V} (h : Fits r now f n v) :
    ∃ f', createDb r now n (createOsm r now n v f) = some f' ∧ (∃ t, f'.osm (osmPath n) = some (t, v)) ∧
      (∃ t, f'.db (dbPath n) = some (t, v)) ∧ (∀ p, p ≠ osmPath n → f'.osm p = f.osm p) ∧ ∀ p, p ≠ dbPath n → f'.db p = f.db p := by
  have hosm : ∃ f1 t, createOsm r now n v f = f1 ∧ f1.osm (osmPath n) = some (t, v) ∧ f1.db = f.db ∧
      (∀ p, p ≠ osmPath n → f1.osm p = f.osm p) ∧ (f.osm (osmPath n) = none → t = now) := by
    rw [createOsm]
    show ∃ f1 t, (if r || (f.osm (osmPath n)).isNone then _ else _) = f1 ∧ _
    by_cases hc : (r || (f.osm (osmPath n)).isNone) = true
    · refine ⟨_, now, if_pos hc, ?_, rfl, fun p hp => ?_, fun _ => rfl⟩
      · show put f.osm (osmPath n) now v (osmPath n) = _
        rw [put, if_pos rfl]
      · show put f.osm (osmPath n) now v p = _
        rw [put, if_neg hp]
    · rw [Bool.or_eq_true, not_or] at hc
      obtain ⟨hr, hs⟩ := hc
      cases ho : f.osm (osmPath n) with
      | none => rw [ho] at hs; exact absurd rfl hs
      | some tu =>
        obtain ⟨t, u⟩ := tu
        refine ⟨f, t, ?_, ?_, rfl, fun _ _ => rfl, fun hn => by cases hn⟩
        · rw [if_neg]; simp [hr]
        · rcases h with h | h | h
          · exact absurd h hr
          · rw [ho, h.1 t u ho]
          · rw [ho] at h; cases h.1
  obtain ⟨f1, t, h1, h2, h3, h4, h5⟩ := hosm
  rw [h1]
  have hw : ∀ f2 : Files V, f2 = { f1 with db := put f1.db (dbPath n) now v } → (∃ t, f2.osm (osmPath n) = some (t, v)) ∧
      (∃ t, f2.db (dbPath n) = some (t, v)) ∧ (∀ p, p ≠ osmPath n → f2.osm p = f.osm p) ∧ ∀ p, p ≠ dbPath n → f2.db p = f.db p := by
    rintro f2 rfl
    refine ⟨⟨t, h2⟩, ⟨now, ?_⟩, h4, fun p hp => ?_⟩
    · show put f1.db (dbPath n) now v (dbPath n) = _
      rw [put, if_pos rfl]
    · show put f1.db (dbPath n) now v p = _
      rw [put, if_neg hp, h3]
  unfold createDb
  dsimp only
  rw [show replaceExtension n ".osm".toList = osmPath n from rfl, show replaceExtension n ".mdb".toList = dbPath n from rfl, h2]
  dsimp only
  cases hd : f1.db (dbPath n) with
  | none => exact ⟨_, rfl, hw _ rfl⟩
  | some tu =>
    obtain ⟨t', u⟩ := tu
    dsimp only
    by_cases hc : (r || decide (t' < t)) = true
    · exact ⟨_, if_pos hc, hw _ rfl⟩
    · refine ⟨f1, if_neg hc, ⟨t, h2⟩, ⟨t', ?_⟩, h4, fun p _ => by rw [h3]⟩
      rw [Bool.or_eq_true, not_or, decide_eq_true_eq] at hc
      rw [hd]
      rw [h3] at hd
      rcases h with h | h | h
      · exact absurd h hc.1
      · rw [h.2 t' u hd]
      · have := h.2 t' u hd
        rw [h5 h.1] at hc
        exact absurd this hc.2

theorem startTiles_spec (r : Bool) (now : Nat) (is : List (Text × V)) (f : Files V) (m : List (Text × Text))
    (hd : (is.map fun e => replaceExtension e.1 []).Nodup) (hm : ∀ e ∈ is, ∀ c ∈ m, c.1 ≠ e.1)
    (hf : ∀ e ∈ is, Fits r now f e.1 e.2) :
    ∃ f', startTiles r now is f m = some (f', m ++ is.map fun e => (e.1, dbPath e.1)) ∧
      (∀ e ∈ is, (∃ t, f'.osm (osmPath e.1) = some (t, e.2)) ∧ ∃ t, f'.db (dbPath e.1) = some (t, e.2)) ∧
      ∀ n, replaceExtension n [] ∉ (is.map fun e => replaceExtension e.1 []) →
        f'.osm (osmPath n) = f.osm (osmPath n) ∧ f'.db (dbPath n) = f.db (dbPath n) := by
  induction is generalizing f m with
  | nil => exact ⟨f, by simp [startTiles], by simp, fun _ _ => ⟨rfl, rfl⟩⟩
  | cons e is ih =>
    obtain ⟨n, v⟩ := e
    rw [List.map_cons, List.nodup_cons] at hd
    obtain ⟨f1, h1, h2, h3, h4, h5⟩ := item_spec (hf (n, v) (by simp))
    have hne : ∀ e ∈ is, replaceExtension e.1 [] ≠ replaceExtension n [] := fun e he hc =>
      hd.1 (List.mem_map.2 ⟨e, he, hc⟩)
    have hnm : m.any (fun c => c.1 == n) = false := by
      rw [List.any_eq_false]
      intro c hc
      simpa using hm (n, v) (by simp) c hc
    obtain ⟨f', h6, h7, h8⟩ := ih f1 (m ++ [(n, dbPath n)]) hd.2 (fun e he c hc => by
      rcases List.mem_append.1 hc with hc | hc
      · exact hm e (List.mem_cons_of_mem _ he) c hc
      · rw [List.mem_singleton] at hc
        subst hc
        rintro h
        exact hne e he (by rw [← h])) (fun e he => by
      have h9 := h4 (osmPath e.1) fun hc => hne e he (osmPath_inj hc)
      have h10 := h5 (dbPath e.1) fun hc => hne e he (dbPath_inj hc)
      have := hf e (List.mem_cons_of_mem _ he)
      unfold Fits at this ⊢
      rwa [h9, h10])
    refine ⟨f', ?_, fun e he => ?_, fun k hk => ?_⟩
    · rw [startTiles, h1]
      dsimp only
      rw [hnm, if_neg Bool.false_ne_true, show replaceExtension n ".mdb".toList = dbPath n from rfl, h6]
      simp
    · rcases List.mem_cons.1 he with rfl | he
      · obtain ⟨h9, h10⟩ := h8 n hd.1
        exact ⟨by rw [h9]; exact h2, by rw [h10]; exact h3⟩
      · exact h7 e he
    · rw [List.map_cons, List.mem_cons, not_or] at hk
      obtain ⟨h9, h10⟩ := h8 k hk.2
      rw [h9, h10]
      exact ⟨h4 _ fun hc => hk.1 (osmPath_inj hc), h5 _ fun hc => hk.1 (dbPath_inj hc)⟩

theorem find_mapped {is : List (Text × V)} (hd : (is.map Prod.fst).Nodup) {n : Text} {v : V} (h : (n, v) ∈ is) :
    (is.map fun e => (e.1, dbPath e.1)).find? (fun e => e.1 == n) = some (n, dbPath n) := by
  induction is with
  | nil => cases h
  | cons e is ih =>
    rw [List.map_cons, List.nodup_cons] at hd
    rw [List.map_cons, List.find?_cons]
    rcases List.mem_cons.1 h with rfl | h
    · simp
    · have hne : e.1 ≠ n := fun hc => hd.1 (List.mem_map.2 ⟨(n, v), h, hc.symm⟩)
      have : (e.1 == n) = false := by simpa using hne
      dsimp only
      rw [this]
      exact ih hd.2 h

theorem nodup_of_stems {is : List (Text × V)} (h : (is.map fun e => replaceExtension e.1 []).Nodup) : (is.map Prod.fst).Nodup := by
  have e : (is.map fun e => replaceExtension e.1 []) = (is.map Prod.fst).map fun n => replaceExtension n [] := by
    rw [List.map_map]; rfl
  rw [e] at h
  exact h.of_map

/-- names that differ before their extension -/
def Distinct (written : Nat → Text) : Prop := ∀ a b, replaceExtension (written a) [] = replaceExtension (written b) [] → a = b

theorem distinct_plain {written : Nat → Text} (h : Plain written) : Distinct written := by
  intro a b hab
  rw [replaceExtension_plain (h.1 a), replaceExtension_plain (h.1 b), List.append_nil, List.append_nil] at hab
  exact h.2 a b hab

theorem stems_nodup {written : Nat → Text} (hw : Distinct written) {order : List (Nat × V)} (hd : (order.map Prod.fst).Nodup) :
    ((order.map fun e => (written e.1, e.2)).map fun e => replaceExtension e.1 []).Nodup := by
  have e : ((order.map fun e => (written e.1, e.2)).map fun e => replaceExtension e.1 []) =
      (order.map Prod.fst).map fun n => replaceExtension (written n) [] := by
    rw [List.map_map, List.map_map]; rfl
  rw [e]
  exact hd.map_on fun a _ b _ h => hw a b h

/-- a start whose files fit brings the tiles up to date -/
theorem start_upToDate {written : Nat → Text} (hw : Distinct written) {r : Bool} {now : Nat} {order served : List (Nat × V)}
    {f : Files V} (hp : order.Perm served) (hd : (served.map Prod.fst).Nodup)
    (hf : ∀ n v, (n, v) ∈ served → Fits r now f (written n) v) :
    ∃ f' m, startTiles r now (order.map fun e => (written e.1, e.2)) f [] = some (f', m) ∧
      (∀ n v, (n, v) ∈ served → tilesOf f' m (written n) = some v ∧ (∃ t, f'.osm (osmPath (written n)) = some (t, v)) ∧
        ∃ t, f'.db (dbPath (written n)) = some (t, v)) ∧
      ∀ n, n ∉ served.map Prod.fst → f'.osm (osmPath (written n)) = f.osm (osmPath (written n)) ∧
        f'.db (dbPath (written n)) = f.db (dbPath (written n)) := by
  have hs := stems_nodup hw ((hp.map Prod.fst).nodup_iff.2 hd)
  obtain ⟨f', h1, h2, h3⟩ := startTiles_spec r now (order.map fun e => (written e.1, e.2)) f [] hs (by simp) (by
    intro e he
    obtain ⟨⟨n, v⟩, hm, rfl⟩ := List.mem_map.1 he
    exact hf n v (hp.subset hm))
  refine ⟨f', _, h1, fun n v hm => ?_, fun n hn => h3 _ fun hc => ?_⟩
  · have hmem : (written n, v) ∈ order.map fun e => (written e.1, e.2) := List.mem_map.2 ⟨(n, v), hp.symm.subset hm, rfl⟩
    obtain ⟨h4, t, h5⟩ := h2 _ hmem
    refine ⟨?_, h4, t, h5⟩
    rw [tilesOf, List.nil_append, find_mapped (nodup_of_stems hs) hmem]
    dsimp only
    rw [h5, Option.map_some]
  · rw [List.map_map] at hc
    obtain ⟨e, he, hc⟩ := List.mem_map.1 hc
    exact hn (List.mem_map.2 ⟨e, hp.subset he, hw _ _ hc⟩)

theorem item_other {r : Bool} {now : Nat} {k n : Text} {v : V} {f f1 : Files V}
    (h : createDb r now k (createOsm r now k v f) = some f1) (hne : replaceExtension n [] ≠ replaceExtension k []) :
    f1.osm (osmPath n) = f.osm (osmPath n) ∧ f1.db (dbPath n) = f.db (dbPath n) := by
  have e1 : osmPath n ≠ osmPath k := fun hc => hne (osmPath_inj hc)
  have e2 : dbPath n ≠ dbPath k := fun hc => hne (dbPath_inj hc)
  have h1 : (createOsm r now k v f).osm (osmPath n) = f.osm (osmPath n) ∧ (createOsm r now k v f).db = f.db := by
    rw [createOsm]
    split
    · refine ⟨?_, rfl⟩
      show put f.osm (osmPath k) now v (osmPath n) = _
      rw [put, if_neg e1]
    · exact ⟨rfl, rfl⟩
  rw [← h1.1, ← h1.2]
  generalize createOsm r now k v f = g at h
  rw [createDb] at h
  have e3 : ∀ u, put g.db (replaceExtension k ".mdb".toList) now u (dbPath n) = g.db (dbPath n) := fun u => by
    show put g.db (dbPath k) now u (dbPath n) = _
    rw [put, if_neg e2]
  split at h
  · cases h
  · split at h
    · cases h
      exact ⟨rfl, e3 _⟩
    · split at h
      · cases h
        exact ⟨rfl, e3 _⟩
      · cases h
        exact ⟨rfl, rfl⟩

theorem item_keeps {now : Nat} {n : Text} {v u1 u2 : V} {t1 t2 : Nat} {f f1 : Files V}
    (h : createDb false now n (createOsm false now n v f) = some f1) (h1 : f.osm (osmPath n) = some (t1, u1))
    (h2 : f.db (dbPath n) = some (t2, u2)) (hle : t1 ≤ t2) : f1 = f := by
  have e1 : createOsm false now n v f = f := by
    rw [createOsm, if_neg]
    rw [show replaceExtension n ".osm".toList = osmPath n from rfl, h1]
    simp
  rw [e1, createDb, show replaceExtension n ".osm".toList = osmPath n from rfl, show replaceExtension n ".mdb".toList = dbPath n from rfl,
    h1] at h
  dsimp only at h
  rw [h2] at h
  dsimp only at h
  rw [if_neg (by simp; omega)] at h
  cases h
  rfl

theorem startTiles_keeps {now : Nat} {n : Text} {u1 u2 : V} {t1 t2 : Nat} (hle : t1 ≤ t2) (is : List (Text × V)) {f f' : Files V}
    {m m' : List (Text × Text)} (h : startTiles false now is f m = some (f', m'))
    (hn : ∀ e ∈ is, replaceExtension n [] = replaceExtension e.1 [] → n = e.1)
    (h1 : f.osm (osmPath n) = some (t1, u1)) (h2 : f.db (dbPath n) = some (t2, u2)) :
    f'.osm (osmPath n) = some (t1, u1) ∧ f'.db (dbPath n) = some (t2, u2) := by
  induction is generalizing f m with
  | nil => cases h; exact ⟨h1, h2⟩
  | cons e is ih =>
    obtain ⟨k, v⟩ := e
    rw [startTiles] at h
    split at h
    · cases h
    · rename_i f1 hf1
      refine ih h (fun e he => hn e (List.mem_cons_of_mem _ he)) ?_ ?_
      all_goals
        by_cases hk : replaceExtension n [] = replaceExtension k []
        · obtain rfl := hn (k, v) (by simp) hk
          rw [item_keeps hf1 h1 h2 hle]
          assumption
        · obtain ⟨h3, h4⟩ := item_other hf1 hk
          first | (rw [h3]; exact h1) | (rw [h4]; exact h2)

theorem startTiles_opened {r : Bool} {now : Nat} (is : List (Text × V)) {f f' : Files V} {m m' : List (Text × Text)}
    (h : startTiles r now is f m = some (f', m')) (hd : (is.map Prod.fst).Nodup) (hm : ∀ e ∈ is, ∀ c ∈ m, c.1 ≠ e.1) :
    m' = m ++ is.map fun e => (e.1, dbPath e.1) := by
  induction is generalizing f m with
  | nil => cases h; simp
  | cons e is ih =>
    obtain ⟨k, v⟩ := e
    rw [List.map_cons, List.nodup_cons] at hd
    rw [startTiles] at h
    split at h
    · cases h
    · have hnm : m.any (fun c => c.1 == k) = false := by
        rw [List.any_eq_false]
        intro c hc
        simpa using hm (k, v) (by simp) c hc
      rw [hnm, if_neg Bool.false_ne_true] at h
      rw [ih h hd.2 fun e he c hc => ?_]
      · simp [dbPath]
      · rcases List.mem_append.1 hc with hc | hc
        · exact hm e (List.mem_cons_of_mem _ he) c hc
        · rw [List.mem_singleton] at hc
          subst hc
          rintro h
          exact hd.1 (List.mem_map.2 ⟨e, he, h.symm⟩)

/-- the source directory holds the constant contents -/
def Fixed (content : Nat → C) (w : World C V) : Prop := ∀ e ∈ w.entries, e.content = content e.name

theorem step_fixed {parse : Nat → C → V} {source : V → Nat} {ser : Bool} {content : Nat → C} {w w' : World C V} {e : Event C}
    (h : ServerStart.step parse source ser w e = some w') (hf : Fixed content w)
    (h1 : ∀ n d c, e = .create n d c → c = content n) (h2 : ∀ n c, e ≠ .change n c) (h3 : ∀ n c, e ≠ .overwrite n c) :
    Fixed content w' := by
  cases e with
  | start r =>
    rw [ServerStart.step] at h
    obtain ⟨p, _, rfl⟩ := Option.map_eq_some_iff.1 h
    exact hf
  | create n d c =>
    cases h
    intro e he
    rcases List.mem_append.1 he with he | he
    · exact hf e (List.mem_filter.1 he).1
    · rw [List.mem_singleton] at he
      subst he
      exact h1 n d c rfl
  | remove n =>
    cases h
    intro e he
    exact hf e (List.mem_filter.1 he).1
  | change n c => exact absurd rfl (h2 n c)
  | overwrite n c => exact absurd rfl (h3 n c)

end Soro.Tiles
