import Verif.Model.RouteTable
import Verif.Proof.StationRoute

namespace Soro.RouteTable

/-! ### reading -/

/-- the routes of a station that are read, without their ids -/
def kept (s : Nat) (rs : List Raw) : List (Nat × Nat × List PNode × List Spl) :=
  (rs.filter (!·.publishOnly)).map fun r => (s, r.name, r.path, r.limits)

/-- everything but the id -/
def Inter.body (i : Inter) : Nat × Nat × List PNode × List Spl := (i.station, i.name, i.path, i.limits)

theorem readRoutes_body (s : Nat) (rs : List Raw) (acc : List Inter) :
    (readRoutes s rs acc).map Inter.body = acc.map Inter.body ++ kept s rs := by
  induction rs generalizing acc with
  | nil => simp [readRoutes, kept]
  | cons r rs ih =>
    rw [readRoutes]
    split
    · next h => rw [ih]; simp [kept, h]
    · next h => rw [ih]; simp [kept, h, Inter.body]

theorem readRoutes_ids (s : Nat) (rs : List Raw) (acc : List Inter) (h : ∀ (i : Nat) (r : Inter), acc[i]? = some r → r.id = i) :
    ∀ (i : Nat) (r : Inter), (readRoutes s rs acc)[i]? = some r → r.id = i := by
  induction rs generalizing acc with
  | nil => exact h
  | cons x rs ih =>
    rw [readRoutes]
    split
    · exact ih acc h
    · refine ih _ fun i r hi => ?_
      rw [List.getElem?_append] at hi
      split at hi
      · exact h i r hi
      · next hlt =>
        have hlen := (List.getElem?_eq_some_iff.1 hi).1
        simp at hlen
        have : i - acc.length = 0 := by omega
        rw [this] at hi
        simp at hi
        rw [← hi]
        simp
        omega

theorem readStations_body (s : Nat) (rss : List (List Raw)) (acc : List Inter) :
    (readStations s rss acc).map Inter.body =
      acc.map Inter.body ++ (rss.zipIdx s).flatMap fun p => kept p.2 p.1 := by
  induction rss generalizing s acc with
  | nil => simp [readStations]
  | cons rs rss ih =>
    rw [readStations, ih, readRoutes_body]
    simp [List.append_assoc]

theorem readStations_ids (s : Nat) (rss : List (List Raw)) (acc : List Inter) (h : ∀ (i : Nat) (r : Inter), acc[i]? = some r → r.id = i) :
    ∀ (i : Nat) (r : Inter), (readStations s rss acc)[i]? = some r → r.id = i := by
  induction rss generalizing s acc with
  | nil => exact h
  | cons rs rss ih => exact ih (s + 1) _ (readRoutes_ids s rs acc h)

/-! ### maps -/

theorem find_assign {β : Type} (k j : Nat) (v : β) (m : List (Nat × β)) :
    find j (assign k v m) = if j = k then some v else find j m := by
  induction m with
  | nil =>
    simp only [assign, find]
    by_cases h : j = k
    · simp [h]
    · rw [if_neg (fun h' => h h'.symm), if_neg h]
  | cons p ps ih =>
    rw [assign]
    split
    · next hp =>
      simp only [find]
      by_cases h : j = k
      · simp [h]
      · rw [if_neg (fun h' => h h'.symm), if_neg h, if_neg (by rw [hp]; exact fun h' => h h'.symm)]
    · next hp =>
      simp only [find]
      by_cases h : p.1 = j
      · rw [if_pos h, if_pos h, if_neg (by intro h'; exact hp (h.trans h'))]
      · rw [if_neg h, if_neg h, ih]

theorem keys_assign {β : Type} (k : Nat) (v : β) (m : List (Nat × β)) (h : (m.map (·.1)).Nodup) :
    ((assign k v m).map (·.1)).Nodup := by
  have mem : ∀ (m : List (Nat × β)) j, j ∈ (assign k v m).map (·.1) → j = k ∨ j ∈ m.map (·.1) := by
    intro m
    induction m with
    | nil => intro j hj; simp [assign] at hj; exact .inl hj
    | cons p ps ih =>
      intro j hj
      rw [assign] at hj
      split at hj
      · rw [List.map_cons, List.mem_cons] at hj
        rcases hj with hj | hj
        · exact .inl hj
        · exact .inr (List.mem_cons_of_mem _ hj)
      · rw [List.map_cons, List.mem_cons] at hj
        rcases hj with hj | hj
        · exact .inr (by rw [hj]; exact List.mem_cons_self ..)
        · rcases ih j hj with h | h
          · exact .inl h
          · exact .inr (List.mem_cons_of_mem _ h)
  induction m with
  | nil => simp [assign]
  | cons p ps ih =>
    rw [List.map_cons, List.nodup_cons] at h
    rw [assign]
    split
    · next hp => rw [List.map_cons, List.nodup_cons]; rw [hp] at h; exact h
    · next hp =>
      rw [List.map_cons, List.nodup_cons]
      refine ⟨fun hm => ?_, ih h.2⟩
      rcases mem ps _ hm with h' | h'
      · exact hp h'
      · exact h.1 h'

theorem find_iff {β : Type} (m : List (Nat × β)) (h : (m.map (·.1)).Nodup) (k : Nat) (v : β) :
    find k m = some v ↔ (k, v) ∈ m := by
  induction m with
  | nil => simp [find]
  | cons p ps ih =>
    rw [List.map_cons, List.nodup_cons] at h
    rw [find]
    split
    · next hp =>
      constructor
      · intro hv
        cases hv
        exact List.mem_cons.2 (.inl (by rw [← hp]))
      · intro hv
        rcases List.mem_cons.1 hv with hv | hv
        · rw [← hv]
        · exact absurd (List.mem_map.2 ⟨(k, v), hv, hp.symm⟩) h.1
    · next hp =>
      rw [ih h.2, List.mem_cons]
      constructor
      · exact .inr
      · rintro (hv | hv)
        · exact absurd (by rw [← hv]) hp
        · exact hv

/-! ### routes by name -/

/-- the last route of the list with the given station and name -/
def lastNamed (routes : List Inter) (s n : Nat) : Option Inter :=
  routes.reverse.find? fun r => decide (r.station = s ∧ r.name = n)

theorem lastNamed_some (routes : List Inter) (s n : Nat) (x : Inter) : lastNamed routes s n = some x ↔
    ∃ pre post, routes = pre ++ x :: post ∧ (x.station = s ∧ x.name = n) ∧ ∀ y ∈ post, ¬ (y.station = s ∧ y.name = n) := by
  unfold lastNamed
  rw [List.find?_eq_some_iff_append]
  constructor
  · rintro ⟨h, as, bs, he, hn⟩
    refine ⟨bs.reverse, as.reverse, ?_, by simpa using h, fun y hy => ?_⟩
    · have := congrArg List.reverse he
      simpa using this
    · have := hn y (List.mem_reverse.1 hy)
      rw [Bool.not_eq_true', decide_eq_false_iff_not] at this
      exact this
  · rintro ⟨pre, post, he, h, hn⟩
    refine ⟨by simpa using h, post.reverse, pre.reverse, by rw [he]; simp, fun y hy => ?_⟩
    have := hn y (List.mem_reverse.1 hy)
    rw [Bool.not_eq_true', decide_eq_false_iff_not]
    exact this

theorem lastNamed_none (routes : List Inter) (s n : Nat) : lastNamed routes s n = none ↔
    ∀ x ∈ routes, ¬ (x.station = s ∧ x.name = n) := by
  unfold lastNamed
  rw [List.find?_eq_none]
  simp only [List.mem_reverse, decide_eq_true_eq]

theorem nameLoop_find (routes : List Inter) (t : Nat → List (Nat × Nat)) (s n : Nat) :
    find n (nameLoop routes t s) = match lastNamed routes s n with
      | some r => some r.id
      | none => find n (t s) := by
  induction routes generalizing t with
  | nil => simp [nameLoop, lastNamed]
  | cons r rs ih =>
    rw [nameLoop, ih]
    unfold lastNamed
    rw [List.reverse_cons, List.find?_append]
    cases List.find? (fun r => decide (r.station = s ∧ r.name = n)) rs.reverse with
    | some x => rfl
    | none =>
      simp only [Option.none_or, List.find?_cons, List.find?_nil]
      by_cases h : r.station = s ∧ r.name = n
      · rw [decide_eq_true h]
        dsimp only
        rw [if_pos h.1.symm, find_assign, if_pos h.2.symm]
      · rw [decide_eq_false h]
        dsimp only
        split
        · next hs =>
          rw [find_assign, if_neg]
          intro hn
          exact h ⟨hs.symm, hn.symm⟩
        · rfl

theorem nameLoop_keys (routes : List Inter) (t : Nat → List (Nat × Nat)) (s : Nat) (h : ((t s).map (·.1)).Nodup) :
    ((nameLoop routes t s).map (·.1)).Nodup := by
  induction routes generalizing t with
  | nil => exact h
  | cons r rs ih =>
    rw [nameLoop]
    apply ih
    split
    · exact keys_assign _ _ _ h
    · exact h

/-! ### routes by first element -/

theorem elementLoop_spec (f : Nat → Option Nat) (es : List (Nat × Nat)) (m : List (Nat × List Nat))
    (hf : ∀ p ∈ es, ∃ e, f p.2 = some e) :
    ∃ m', elementLoop f es m = some m' ∧ ∀ e, (find e m').getD [] =
      (find e m).getD [] ++ (es.map (·.2)).filter (fun r => decide (f r = some e)) := by
  induction es generalizing m with
  | nil => exact ⟨m, rfl, fun e => by simp⟩
  | cons p es ih =>
    obtain ⟨n, r⟩ := p
    obtain ⟨e0, he0⟩ := hf (n, r) (List.mem_cons_self ..)
    dsimp only at he0
    have hf' : ∀ p ∈ es, ∃ e, f p.2 = some e := fun p hp => hf p (List.mem_cons_of_mem _ hp)
    have step : elementLoop f ((n, r) :: es) m = elementLoop f es (assign e0 ((find e0 m).getD [] ++ [r]) m) := by
      rw [elementLoop, he0]
      dsimp only
      cases find e0 m with
      | none => simp
      | some rs => simp
    obtain ⟨m', h1, h2⟩ := ih (assign e0 ((find e0 m).getD [] ++ [r]) m) hf'
    refine ⟨m', step.trans h1, fun e => ?_⟩
    rw [h2 e, find_assign, List.map_cons, List.filter_cons]
    by_cases h : e = e0
    · rw [if_pos h, he0, h]
      simp
    · rw [if_neg h, he0]
      have : decide (some e0 = some e) = false := by
        rw [decide_eq_false_iff_not, Option.some.injEq]
        exact fun h' => h h'.symm
      rw [this]
      simp

/-! ### extra speed limits -/

theorem assignNodes_spec (path : List PNode) (ls : List Spl) :
    (∀ ls', assignNodes path ls = some ls' → ls'.map (fun l => (l.element, l.tag)) = ls.map (fun l => (l.element, l.tag)) ∧
      ∀ l ∈ ls', ∃ n, path[posOf path l]? = some n ∧ n.element = l.element ∧ n.node = l.node) ∧
    ((∀ l ∈ ls, ∃ n ∈ path, n.element = l.element) → ∃ ls', assignNodes path ls = some ls') ∧
    ((∃ ls', assignNodes path ls = some ls') → ∀ l ∈ ls, ∃ n ∈ path, n.element = l.element) := by
  induction ls with
  | nil =>
    refine ⟨fun ls' h => ?_, fun _ => ⟨[], rfl⟩, fun _ l hl => by cases hl⟩
    simp only [assignNodes, Option.some.injEq] at h
    subst h
    exact ⟨rfl, fun l hl => by cases hl⟩
  | cons l ls ih =>
    obtain ⟨ih1, ih2, ih3⟩ := ih
    refine ⟨fun ls' h => ?_, fun hall => ?_, fun hex x hx => ?_⟩
    · rw [assignNodes] at h
      split at h
      · next n ls'' hn hls =>
        simp only [Option.some.injEq] at h
        subst h
        obtain ⟨a, b⟩ := ih1 ls'' hls
        refine ⟨by simp [a], fun x hx => ?_⟩
        rcases List.mem_cons.1 hx with hx | hx
        · subst hx
          have hlt : path.findIdx (fun n => decide (n.element = l.element)) < path.length := by
            rw [List.findIdx_lt_length]
            have := List.find?_some hn
            exact ⟨n, List.mem_of_find?_eq_some hn, this⟩
          have hget : path[path.findIdx (fun n => decide (n.element = l.element))]? = some n := by
            rw [← List.find?_eq_getElem?_findIdx]
            exact hn
          exact ⟨n, hget, by simpa using List.find?_some hn, rfl⟩
        · exact b x hx
      · exact absurd h (by simp)
    · obtain ⟨ls'', h2⟩ := ih2 fun x hx => hall x (List.mem_cons_of_mem _ hx)
      obtain ⟨n, hn, he⟩ := hall l (List.mem_cons_self ..)
      rw [assignNodes, h2]
      cases hf : path.find? (fun n => decide (n.element = l.element)) with
      | none => exact absurd he (by have := List.find?_eq_none.1 hf n hn; simpa using this)
      | some n' => exact ⟨_, rfl⟩
    · obtain ⟨ls', h⟩ := hex
      rw [assignNodes] at h
      split at h
      · next n ls'' hn hls =>
        rcases List.mem_cons.1 hx with hx | hx
        · subst hx
          exact ⟨n, List.mem_of_find?_eq_some hn, by simpa using List.find?_some hn⟩
        · exact ih3 ⟨ls'', hls⟩ x hx
      · exact absurd h (by simp)

theorem posOf_min (path : List PNode) (l : Spl) (j : Nat) (n : PNode) (hj : path[j]? = some n) (hn : n.element = l.element) :
    posOf path l ≤ j := by
  obtain ⟨hlt, hget⟩ := List.getElem?_eq_some_iff.1 hj
  refine Nat.le_of_not_lt fun h => ?_
  have := List.not_of_lt_findIdx h
  simp [hget, hn] at this

end Soro.RouteTable
