import Verif.Proof.InterlockingGen

/-
Properties C35, C36, C37 and C71: station route graph, generated interlocking routes and their index structures.
-/

namespace Soro.Interlocking
open Route Route.Spec Spec Algo

/-! ### C35 -/

theorem mapM_at {α β : Type} {f : α → Option β} {l : List α} {r : List β} (h : l.mapM f = some r) :
    r.length = l.length ∧ ∀ (i : Nat) (a : α), l[i]? = some a → ∃ b, r[i]? = some b ∧ f a = some b := by
  induction l generalizing r with
  | nil => simp at h; subst h; exact ⟨rfl, by simp⟩
  | cons a l ih =>
    rw [List.mapM_cons] at h
    obtain ⟨b, h1, h2⟩ := Option.bind_eq_some_iff.1 h
    obtain ⟨bs, h3, h4⟩ := Option.bind_eq_some_iff.1 h2
    cases h4
    obtain ⟨h5, h6⟩ := ih h3
    refine ⟨by simp [h5], fun i c hc => ?_⟩
    cases i with
    | zero => simp at hc; subst hc; exact ⟨b, by simp, h1⟩
    | succ i => simpa using h6 i c (by simpa using hc)

/-- C35: the construction succeeds iff all successors are known station routes, and then station route `p` is listed as
predecessor of `s` as often as `s` is listed as successor of `p`. -/
theorem C35_predecessors (succs : List (List Nat)) (h : ∀ l ∈ succs, ∀ s ∈ l, s < succs.length) :
    ∃ g, srgOf succs = some g ∧ g.succs = succs ∧ g.preds.length = succs.length ∧
      ∀ p s, (g.pred s).count p = (g.succ p).count s := by
  have hops : ∀ o ∈ predOps succs, o.1 < succs.length := by
    intro o ho
    unfold predOps at ho
    obtain ⟨x, hx, ho⟩ := List.mem_flatMap.1 ho
    obtain ⟨s, hs, rfl⟩ := List.mem_map.1 ho
    exact h x.1 (List.fst_mem_of_mem_zipIdx hx) s hs
  obtain ⟨v, h1, h2, h3⟩ := bucket_replicate _ _ hops
  refine ⟨⟨succs, v⟩, by rw [srgOf, h1]; rfl, rfl, h2, fun p s => ?_⟩
  unfold SRG.pred SRG.succ
  simp only
  have hc := predOps_count succs 0 s p
  simp only [Nat.zero_le, if_true, Nat.sub_zero] at hc
  rw [← hc]
  by_cases hs : s < succs.length
  · rw [h3 s hs, Option.getD_some, filter_count]
    rfl
  · rw [List.getElem?_eq_none (by omega)]
    simp only [Option.getD_none, List.count_nil]
    symm
    rw [List.count_eq_zero]
    intro hm
    exact hs (hops _ hm)

/-- C35: an unknown successor is written outside of the predecessor lists (undefined behaviour) -/
theorem C35_unknown (succs : List (List Nat)) (l : List Nat) (s : Nat) (hl : l ∈ succs) (hs : s ∈ l) (h : succs.length ≤ s) :
    srgOf succs = none := by
  unfold srgOf
  rw [bucket_none _ _ ?_]
  · rfl
  · obtain ⟨i, hi⟩ := List.mem_iff_getElem?.1 hl
    refine ⟨(s, i), ?_, by simpa using h⟩
    unfold predOps
    refine List.mem_flatMap.2 ⟨(l, i), ?_, List.mem_map.2 ⟨s, hs, rfl⟩⟩
    rw [List.mem_zipIdx_iff_getElem?]
    exact hi

example : srgOf [[1, 2], [2], [], [2, 2]] = some ⟨[[1, 2], [2], [], [2, 2]], [[], [0], [0, 1, 3, 3], []]⟩ := by decide

/-! ### C71 -/

theorem insertRoute_lookup (e r e' : Nat) (m : List (Nat × List Nat)) :
    ((insertRoute e r m).lookup e').getD [] = (m.lookup e').getD [] ++ (if e' = e then [r] else []) := by
  induction m with
  | nil =>
    by_cases h : e' = e
    · subst h; simp [insertRoute, List.lookup]
    · have : (e' == e) = false := by simpa using h
      simp [insertRoute, List.lookup, this, h]
  | cons x m ih =>
    obtain ⟨a, rs⟩ := x
    rw [insertRoute]
    by_cases ha : a = e
    · subst ha
      rw [if_pos rfl]
      by_cases h : e' = a
      · subst h; simp [List.lookup_cons]
      · have : (e' == a) = false := by simpa using h
        simp [List.lookup_cons, this, h]
    · rw [if_neg ha]
      by_cases h : e' = a
      · subst h; simp [List.lookup_cons, ha]
      · have : (e' == a) = false := by simpa using h
        simp only [List.lookup_cons, this, ih]

theorem elementToRoutes_spec (w : World) (rs : List Nat) (m m' : List (Nat × List Nat)) (h : elementToRoutes w rs m = some m') (e : Nat) :
    (m'.lookup e).getD [] = (m.lookup e).getD [] ++ rs.filter fun r =>
      decide (((w.routes[r]?).bind fun r => r.nodes.head?).map w.el = some e) := by
  induction rs generalizing m with
  | nil => cases h; simp
  | cons r rs ih =>
    rw [elementToRoutes] at h
    split at h
    · cases h
    · rename_i n hn
      rw [ih _ h, insertRoute_lookup, List.filter_cons, hn]
      by_cases he : e = w.el n
      · subst he; simp
      · have : w.el n ≠ e := fun h => he h.symm
        simp [he, this]

/-- C71: the successors of a station route `p` are exactly the routes `q` of the station that follows `p` whose first node
belongs to the element behind the last node of `p`; routes that end inside a station or at the end of a track have none. -/
theorem C71_successors (w : World) (p : Nat) (l : List Nat) (h : getSuccessors w p = some l) (q : Nat) :
    q ∈ l ↔ ∃ sr last st b qr first, w.routes[p]? = some sr ∧ isIn w.kind sr = some false ∧ sr.nodes.getLast? = some last ∧
      w.kind last ≠ .trackEnd ∧ w.toStation p = some st ∧ w.next last = some b ∧ q ∈ w.ofStation st ∧
      w.routes[q]? = some qr ∧ qr.nodes.head? = some first ∧ w.el first = w.el b := by
  have through : ∀ sr, w.routes[p]? = some sr → succThrough w p = some l → (q ∈ l ↔ ∃ last st b qr first,
      sr.nodes.getLast? = some last ∧ w.kind last ≠ .trackEnd ∧ w.toStation p = some st ∧ w.next last = some b ∧
      q ∈ w.ofStation st ∧ w.routes[q]? = some qr ∧ qr.nodes.head? = some first ∧ w.el first = w.el b) := by
    intro sr hsr hs
    unfold succThrough at hs
    rw [hsr] at hs
    simp only [Option.bind_some] at hs
    split at hs
    · cases hs
    · rename_i last hlast
      split at hs
      · rename_i hst
        cases hs
        simp only [List.not_mem_nil, false_iff]
        rintro ⟨_, st, _, _, _, _, _, h3, _⟩
        rw [hst] at h3; cases h3
      · rename_i st hst
        split at hs
        · rename_i hk
          cases hs
          simp only [List.not_mem_nil, false_iff]
          rintro ⟨last', _, _, _, _, h1, h2, _⟩
          rw [hlast] at h1; cases h1; exact h2 hk
        · rename_i hk
          split at hs
          · cases hs
          · rename_i b hb
            obtain ⟨m, hm, rfl⟩ := Option.map_eq_some_iff.1 hs
            rw [elementToRoutes_spec w _ _ _ hm]
            simp only [List.lookup_nil, Option.getD_none, List.nil_append, List.mem_filter, decide_eq_true_eq]
            constructor
            · rintro ⟨h1, h2⟩
              obtain ⟨first, h3, h4⟩ := Option.map_eq_some_iff.1 h2
              obtain ⟨qr, h5, h6⟩ := Option.bind_eq_some_iff.1 h3
              exact ⟨last, st, b, qr, first, hlast, hk, hst, hb, h1, h5, h6, h4⟩
            · rintro ⟨last', st', b', qr, first, h1, h2, h3, h4, h5, h6, h7, h8⟩
              rw [hlast] at h1; cases h1
              rw [hst] at h3; cases h3
              rw [hb] at h4; cases h4
              exact ⟨h5, by rw [h6, Option.bind_some, h7, Option.map_some, h8]⟩
  unfold getSuccessors at h
  split at h
  · cases h
  · rename_i sr hsr
    obtain ⟨t, ht, h⟩ := Option.bind_eq_some_iff.1 h
    have key : isIn w.kind sr = some false → ((q ∈ l ↔ ∃ sr last st b qr first, w.routes[p]? = some sr ∧ isIn w.kind sr = some false ∧
        sr.nodes.getLast? = some last ∧ w.kind last ≠ .trackEnd ∧ w.toStation p = some st ∧ w.next last = some b ∧
        q ∈ w.ofStation st ∧ w.routes[q]? = some qr ∧ qr.nodes.head? = some first ∧ w.el first = w.el b) ↔
        (q ∈ l ↔ ∃ last st b qr first, sr.nodes.getLast? = some last ∧ w.kind last ≠ .trackEnd ∧ w.toStation p = some st ∧
        w.next last = some b ∧ q ∈ w.ofStation st ∧ w.routes[q]? = some qr ∧ qr.nodes.head? = some first ∧ w.el first = w.el b)) := by
      intro hin
      refine iff_congr Iff.rfl ⟨?_, ?_⟩
      · rintro ⟨sr', last, st, b, qr, first, h1, -, h2⟩
        rw [hsr] at h1; cases h1
        exact ⟨last, st, b, qr, first, h2⟩
      · rintro ⟨last, st, b, qr, first, h2⟩
        exact ⟨sr, last, st, b, qr, first, hsr, hin, h2⟩
    by_cases htt : t = true
    · subst htt
      rw [if_pos rfl] at h
      refine (key ?_).2 (through sr hsr h)
      unfold isThrough at ht
      obtain ⟨s, h1, h2⟩ := Option.bind_eq_some_iff.1 ht
      unfold isIn
      rw [h1]
      cases s with
      | false => simp at h2
      | true =>
        simp only [if_true] at h2
        simp [h2]
    · rw [if_neg htt] at h
      obtain ⟨i, hi, h⟩ := Option.bind_eq_some_iff.1 h
      cases i with
      | true =>
        simp only [if_true] at h
        cases h
        simp only [List.not_mem_nil, false_iff]
        rintro ⟨sr', _, _, _, _, _, h1, h2, _⟩
        rw [hsr] at h1; cases h1
        rw [hi] at h2; cases h2
      | false =>
        simp only [Bool.false_eq_true, if_false] at h
        exact (key hi).2 (through sr hsr h)

/-- three routes: 0 leads from a halt to the border 11, behind which 12 is the border of station 1 with routes 1 and 2 -/
def exWorld : World where
  kind n := if n = 11 ∨ n = 12 then .border else .halt
  next n := if n = 11 then some 12 else none
  el n := n
  routes := [⟨[10, 11], [], []⟩, ⟨[12, 13], [], []⟩, ⟨[12, 14], [], []⟩]
  toStation r := if r = 0 then some 1 else none
  ofStation s := if s = 0 then [0] else [2, 1]

example : getSuccessors exWorld 0 = some [2, 1] ∧ getSuccessors exWorld 1 = some [] := by decide

/-- C35, for the graph of an infrastructure: every station route has its lists, its successors are the routes that follow it and its
predecessors those it follows, as often as they name it as a successor. -/
theorem C35_graph (w : World) (g : SRG) (h : getSRG w = some g) :
    g.succs.length = w.routes.length ∧ g.preds.length = w.routes.length ∧
    (∀ p q, q ∈ g.succ p ↔ FollowedBy w p q) ∧ (∀ p q, p ∈ g.pred q ↔ FollowedBy w p q) ∧
    ∀ p q, (g.pred q).count p = (g.succ p).count q := by
  obtain ⟨succs, h1, h2⟩ := Option.bind_eq_some_iff.1 h
  obtain ⟨hl, hall⟩ := mapM_at h1
  have hlen : succs.length = w.routes.length := by rw [hl, List.length_range]
  have hin : ∀ l ∈ succs, ∀ s ∈ l, s < succs.length := by
    intro l hl s hs
    refine Nat.lt_of_not_le fun hc => ?_
    rw [C35_unknown succs l s hl hs hc] at h2
    cases h2
  obtain ⟨g', e1, e2, e3, e4⟩ := C35_predecessors succs hin
  rw [e1] at h2; cases h2
  have hs : ∀ p q, q ∈ g.succ p ↔ FollowedBy w p q := by
    intro p q
    by_cases hp : p < w.routes.length
    · have hg : getSuccessors w p = some (g.succ p) := by
        obtain ⟨b, h3, h4⟩ := hall p p (by simp [hp])
        rw [h4, SRG.succ, e2, h3, Option.getD_some]
      exact C71_successors w p _ hg q
    · rw [SRG.succ, e2, List.getElem?_eq_none (by omega)]
      simp only [Option.getD_none, List.not_mem_nil, false_iff]
      rintro ⟨sr, _, _, _, _, _, h3, -⟩
      rw [List.getElem?_eq_none (by omega)] at h3
      cases h3
  refine ⟨by rw [e2, hlen], by rw [e3, hlen], hs, fun p q => ?_, fun p q => e4 p q⟩
  rw [← hs p q, ← List.count_pos_iff, ← List.count_pos_iff, e4 p q]

example : getSRG exWorld = some ⟨[[2, 1], [], []], [[], [0], [0]]⟩ := by decide

/-! ### C37 -/

/-- C37: on an acyclic station route graph the generation terminates. -/
theorem C37_terminates (infra : List SRoute) (infos : List Info) (g : SRG) (hw : WellFormed infra infos g) (ha : Acyclic g.succ) :
    ∃ l, getRoutes infos g = some l := getRoutes_some infos g ha (succ_known hw)

/-- C37: every generated route is a signal to signal route; if it uses several station routes, none requires ETCS. -/
theorem C37_sound (infra : List SRoute) (infos : List Info) (g : SRG) (hw : WellFormed infra infos g) (l : List IR)
    (h : getRoutes infos g = some l) (ir : IR) (hir : ir ∈ l) :
    SignalRoute infra infos g ir ∧ (1 < ir.srs.length → NoEtcs infos ir) := by
  have hg := (getRoutes_mem infos g l h ir).1 hir
  refine ⟨hg.signalRoute hw, ?_⟩
  intro hlen
  cases hg with
  | chain r n i rest stop h1 h2 h3 h4 h5 =>
    obtain ⟨-, he, -⟩ := (EC_spec _ _ _ _ _).1 h5
    intro s hs j hj
    simp only at hs
    rcases List.mem_cons.1 hs with rfl | hs
    · rw [h1] at hj; cases hj; exact h3
    · obtain ⟨k, h6, h7⟩ := he s hs
      rw [h6] at hj; cases hj; exact h7
  | internal => simp at hlen
  | leading => simp at hlen
  | trailing => simp at hlen

/-- C37 is false as stated: a station route without signals, predecessors and successors is itself a signal to signal route
(from its front to its end), but no route is generated for it. -/
theorem C37_isolated_negation : ∃ (infra : List SRoute) (infos : List Info) (g : SRG) (ir : IR), WellFormed infra infos g ∧
    Acyclic g.succ ∧ SignalRoute infra infos g ir ∧ NoEtcs infos ir ∧ ir.start + 1 < ir.stop ∧ getRoutes infos g = some [] := by
  refine ⟨[⟨[1, 2], [], []⟩], [⟨2, [], false⟩], ⟨[[]], [[]]⟩, ⟨0, 2, [0]⟩, ⟨by decide, by decide, by decide, by decide, by decide, by decide⟩,
    ?_, ⟨⟨0, [], rfl, by decide, trivial⟩, ?_, ?_, by decide, ?_⟩, ?_, by decide, by decide⟩
  · rintro a ⟨n, w⟩
    cases w with
    | snoc _ hm =>
      rename_i b _
      unfold SRG.succ at hm
      cases b with
      | zero => simp at hm
      | succ b => simp at hm
  · intro f hf; cases hf; exact .inr ⟨rfl, by decide⟩
  · intro l hl; cases hl; exact ⟨1, rfl, .inr ⟨by decide, by decide⟩⟩
  · have : (positions [⟨[1, 2], [], []⟩] ⟨0, 2, [0]⟩).tail.dropLast = [] := by decide
    rw [this]
    simp
  · intro s hs i hi
    simp at hs
    subst hs
    simp at hi
    subst hi
    rfl

/-- C37, what holds: every signal to signal route without ETCS-only station routes that has at least two nodes is
generated, unless it consists of a single station route without any signal. -/
theorem C37_complete_partial (infra : List SRoute) (infos : List Info) (g : SRG) (hw : WellFormed infra infos g) (l : List IR)
    (h : getRoutes infos g = some l) (ir : IR) (hs : SignalRoute infra infos g ir) (hne : NoEtcs infos ir)
    (htwo : ir.srs.length = 1 → ir.stop ≠ ir.start + 1)
    (hiso : ∀ s i, ir.srs = [s] → infos[s]? = some i → i.signals ≠ []) : ir ∈ l :=
  (getRoutes_mem infos g l h ir).2 (signalRoute_gen hw hs hne (fun hh => htwo hh.1 hh.2) hiso)

/-- C37: no route is generated twice if no successor is listed twice and all station routes have at least two nodes. -/
theorem C37_no_duplicates (infra : List SRoute) (infos : List Info) (g : SRG) (hw : WellFormed infra infos g) (l : List IR)
    (h : getRoutes infos g = some l) (hnd : ∀ r, (g.succ r).Nodup) (htwo : ∀ i ∈ infos, 2 ≤ i.size) : l.Nodup := by
  unfold getRoutes at h
  obtain ⟨rs, h1, rfl⟩ := Option.map_eq_some_iff.1 h
  have parts : ∀ r b, routesOf infos g r = some b → ∃ i a, infos[r]? = some i ∧ (a.Nodup ∧ ∀ x ∈ a, ∃ n rest, x.srs = r :: n :: rest) ∧
      b = a ++ (if i.signals.length > 1 then internal r i.signals else []) ++
      (match i.signals with
        | [] => []
        | s :: _ => if (g.pred r).isEmpty then [⟨0, s + 1, [r]⟩] else []) ++
      (match i.signals.getLast? with
        | none => []
        | some s => if (g.succ r).isEmpty then [⟨s, i.size, [r]⟩] else []) := by
    intro r b hb
    unfold routesOf at hb
    split at hb
    · cases hb
    · rename_i i hi
      obtain ⟨a, ha, rfl⟩ := Option.map_eq_some_iff.1 hb
      refine ⟨i, a, hi, ?_, rfl⟩
      by_cases hc : (canStart g r i && !i.etcs) = true
      · rw [if_pos hc] at ha
        unfold routesFromSr at ha
        obtain ⟨ys, h2, rfl⟩ := Option.map_eq_some_iff.1 ha
        constructor
        · refine flatten_nodup _ (fun x : IR => x.srs[1]?) (fun n c => c = some n) _ _ h2
            (fun n _ b hb => fill_nodup infos g hnd _ n _ b hb) ?_ ?_
          · intro n _ b hb x hx
            obtain ⟨-, rest, h2, -⟩ := (fill_mem infos g _ _ _ _ hb x).1 hx
            rw [h2]; rfl
          · exact (hnd r).imp fun hne c h1 h2 => hne (by rw [h1] at h2; cases h2; rfl)
        · intro x hx
          obtain ⟨n, -, c, hc', hx⟩ := (mapM_flatten_mem _ _ _ h2 x).1 hx
          obtain ⟨-, rest, h3, -⟩ := (fill_mem infos g _ _ _ _ hc' x).1 hx
          exact ⟨n, rest, h3⟩
      · rw [if_neg hc] at ha; cases ha; simp
  refine flatten_nodup _ (fun x : IR => x.srs.head?) (fun r c => c = some r) _ _ h1 ?_ ?_ ?_
  · intro r _ b hb
    obtain ⟨i, a, hi, ⟨hna, hka⟩, rfl⟩ := parts r b hb
    have hmi := List.mem_of_getElem? hi
    have hsort := hw.sorted i hmi
    have h2size := htwo i hmi
    have e2 : ∀ x, x ∈ (if i.signals.length > 1 then internal r i.signals else []) →
        ∃ k a b, i.signals[k]? = some a ∧ i.signals[k + 1]? = some b ∧ x = ⟨a, b + 1, [r]⟩ := by
      intro x hx
      split at hx
      · exact (mem_internal _ _ _).1 hx
      · cases hx
    have n2 : (if i.signals.length > 1 then internal r i.signals else []).Nodup := by
      split
      · exact internal_nodup r _ hsort
      · simp
    have e3 : ∀ x, x ∈ (match i.signals with
        | [] => []
        | s :: _ => if (g.pred r).isEmpty then [(⟨0, s + 1, [r]⟩ : IR)] else []) → ∃ s, i.signals.head? = some s ∧ x = ⟨0, s + 1, [r]⟩ := by
      intro x hx
      cases hsig : i.signals with
      | nil => simp [hsig] at hx
      | cons s ss =>
        rw [hsig] at hx
        simp only at hx
        split at hx
        · exact ⟨s, rfl, by simpa using hx⟩
        · cases hx
    have n3 : (match i.signals with
        | [] => []
        | s :: _ => if (g.pred r).isEmpty then [(⟨0, s + 1, [r]⟩ : IR)] else []).Nodup := by
      split
      · simp
      · split <;> simp
    have e4 : ∀ x, x ∈ (match i.signals.getLast? with
        | none => []
        | some s => if (g.succ r).isEmpty then [(⟨s, i.size, [r]⟩ : IR)] else []) → ∃ s, i.signals.getLast? = some s ∧ x = ⟨s, i.size, [r]⟩ := by
      intro x hx
      cases hsig : i.signals.getLast? with
      | none => simp [hsig] at hx
      | some s =>
        rw [hsig] at hx
        simp only at hx
        split at hx
        · exact ⟨s, rfl, by simpa using hx⟩
        · cases hx
    have n4 : (match i.signals.getLast? with
        | none => []
        | some s => if (g.succ r).isEmpty then [(⟨s, i.size, [r]⟩ : IR)] else []).Nodup := by
      split
      · simp
      · split <;> simp
    rw [List.nodup_append, List.nodup_append, List.nodup_append]
    refine ⟨⟨⟨hna, n2, ?_⟩, n3, ?_⟩, n4, ?_⟩
    · rintro x hx y hy rfl
      obtain ⟨n, rest, h3⟩ := hka x hx
      obtain ⟨k, c, d, -, -, rfl⟩ := e2 x hy
      simp at h3
    · rintro x hx y hy rfl
      obtain ⟨s, hs, rfl⟩ := e3 x hy
      rcases List.mem_append.1 hx with hx | hx
      · obtain ⟨n, rest, h3⟩ := hka _ hx
        simp at h3
      · obtain ⟨k, c, d, h3, h4, h5⟩ := e2 _ hx
        simp only [IR.mk.injEq] at h5
        have := head_le hsort hs (List.mem_of_getElem? h3)
        have := sorted_get hsort h3 h4 (by omega)
        omega
    · rintro x hx y hy rfl
      obtain ⟨s, hs, rfl⟩ := e4 x hy
      rcases List.mem_append.1 hx with hx | hx
      · rcases List.mem_append.1 hx with hx | hx
        · obtain ⟨n, rest, h3⟩ := hka _ hx
          simp at h3
        · obtain ⟨k, c, d, h3, h4, h5⟩ := e2 _ hx
          simp only [IR.mk.injEq] at h5
          have := le_last hsort hs (List.mem_of_getElem? h4)
          have := sorted_get hsort h3 h4 (by omega)
          omega
      · obtain ⟨s', hs', h5⟩ := e3 _ hx
        simp only [IR.mk.injEq] at h5
        have := head_le hsort hs' (List.mem_of_getLast? hs)
        omega
  · intro r _ b hb x hx
    obtain ⟨i, a, hi, ⟨hna, hka⟩, rfl⟩ := parts r b hb
    rw [List.mem_append, List.mem_append, List.mem_append] at hx
    rcases hx with ((hx | hx) | hx) | hx
    · obtain ⟨n, rest, h3⟩ := hka x hx
      rw [h3]; rfl
    · split at hx
      · obtain ⟨k, c, d, -, -, rfl⟩ := (mem_internal _ _ _).1 hx
        rfl
      · cases hx
    · split at hx
      · cases hx
      · split at hx
        · rw [List.mem_singleton] at hx; subst hx; rfl
        · cases hx
    · split at hx
      · cases hx
      · split at hx
        · rw [List.mem_singleton] at hx; subst hx; rfl
        · cases hx
  · rw [List.pairwise_iff_getElem]
    intro i j hi hj hij c h2 h3
    rw [List.getElem_range] at h2 h3
    rw [h2] at h3
    simp only [Option.some.injEq] at h3
    omega

/-- 0 → 1 → 2: signals on 0 and 2, none on 1 -/
def exInfos : List Info := [⟨4, [1, 3], false⟩, ⟨2, [], false⟩, ⟨3, [1], false⟩]
def exNet : List SRoute := [⟨[1, 2, 3, 4], [], []⟩, ⟨[5, 6], [], []⟩, ⟨[7, 8, 9], [], []⟩]
def exSRG : SRG := ⟨[[1], [2], []], [[], [0], [1]]⟩

theorem exNet_wf : WellFormed exNet exInfos exSRG := ⟨by decide, by decide, by decide, by decide, by decide, by decide⟩

theorem exSRG_acyclic : Acyclic exSRG.succ := by
  have step : ∀ a b, b ∈ exSRG.succ a → a < b := by
    intro a b h
    match a with
    | 0 => simp [SRG.succ, exSRG] at h; omega
    | 1 => simp [SRG.succ, exSRG] at h; omega
    | 2 => simp [SRG.succ, exSRG] at h
    | a + 3 => simp [SRG.succ, exSRG] at h
  have walk : ∀ n a b, Walk exSRG.succ n a b → a + n ≤ b := by
    intro n a b w
    induction w with
    | nil => omega
    | snoc _ hm ih => have := step _ _ hm; omega
  rintro a ⟨n, w⟩
  have := walk _ _ _ w
  omega

example : getRoutes exInfos exSRG =
    some [⟨3, 2, [0, 1, 2]⟩, ⟨1, 4, [0]⟩, ⟨0, 2, [0]⟩, ⟨1, 3, [2]⟩] := by decide +kernel

/-- a route fulfilling the hypotheses of the completeness theorem -/
example : SignalRoute exNet exInfos exSRG ⟨3, 2, [0, 1, 2]⟩ ∧ NoEtcs exInfos ⟨3, 2, [0, 1, 2]⟩ := by
  have hm := (C37_sound exNet exInfos exSRG exNet_wf _ (by decide +kernel :
    getRoutes exInfos exSRG = some [⟨3, 2, [0, 1, 2]⟩, ⟨1, 4, [0]⟩, ⟨0, 2, [0]⟩, ⟨1, 3, [2]⟩]) ⟨3, 2, [0, 1, 2]⟩ (by simp))
  exact ⟨hm.1, hm.2 (by decide)⟩

/-! ### C36 -/

theorem assignIds_get (l : List IR) (id k : Nat) : (assignIds id l)[k]? = l[k]?.map fun ir => (id + k, ir) := by
  induction l generalizing id k with
  | nil => simp [assignIds]
  | cons a l ih =>
    cases k with
    | zero => simp [assignIds]
    | succ k => simp [assignIds, ih, Nat.add_assoc, Nat.add_comm 1 k]

theorem ops_count (G : IR → List Nat) (l : List IR) (i0 k id : Nat) :
    ((assignIds i0 l).flatMap fun x => (G x.2).map fun s => (s, x.1)).count (k, id) =
      if i0 ≤ id then ((l[id - i0]?).map fun ir => (G ir).count k).getD 0 else 0 := by
  induction l generalizing i0 with
  | nil => simp [assignIds]
  | cons a l ih =>
    rw [assignIds, List.flatMap_cons, List.count_append, ih]
    have e : ((G a).map fun s => (s, i0)).count (k, id) = if i0 = id then (G a).count k else 0 := by
      generalize G a = ga
      induction ga with
      | nil => simp
      | cons x l ihl =>
        rw [List.map_cons, List.count_cons, ihl, List.count_cons]
        by_cases hk : i0 = id <;> by_cases hx : x = k <;> simp [hk, hx]
    simp only [e]
    by_cases h1 : i0 = id
    · subst h1; simp; omega
    · by_cases h2 : i0 ≤ id
      · rw [if_neg h1, if_pos (by omega), if_pos h2, Nat.zero_add, show id - i0 = (id - (i0 + 1)) + 1 by omega,
          List.getElem?_cons_succ]
      · rw [if_neg h1, if_neg (by omega), if_neg h2]

theorem mem_assignIds (l : List IR) (i0 : Nat) (x : Nat × IR) (h : x ∈ assignIds i0 l) : x.2 ∈ l := by
  induction l generalizing i0 with
  | nil => cases h
  | cons a l ih =>
    rw [assignIds] at h
    rcases List.mem_cons.1 h with rfl | h
    · simp
    · exact List.mem_cons_of_mem _ (ih _ h)

theorem index_spec (G : IR → List Nat) (l : List IR) (n : Nat) (hlt : ∀ ir ∈ l, ∀ k ∈ G ir, k < n) :
    ∃ v, bucket ((assignIds 0 l).flatMap fun x => (G x.2).map fun s => (s, x.1)) (List.replicate n []) = some v ∧ v.length = n ∧
      ∀ k < n, ∃ b, v[k]? = some b ∧ ∀ id, b.count id = ((l[id]?).map fun ir => (G ir).count k).getD 0 := by
  obtain ⟨v, h1, h2, h3⟩ := bucket_replicate ((assignIds 0 l).flatMap fun x => (G x.2).map fun s => (s, x.1)) n (by
    intro o ho
    obtain ⟨x, hx, ho⟩ := List.mem_flatMap.1 ho
    obtain ⟨s, hs, rfl⟩ := List.mem_map.1 ho
    exact hlt _ (mem_assignIds _ _ _ hx) s hs)
  refine ⟨v, h1, h2, fun k hk => ⟨_, h3 k hk, fun id => ?_⟩⟩
  rw [filter_count, ops_count]
  simp

theorem mapM_toList {α β : Type} (f : α → Option β) (l : List α) (h : ∀ x ∈ l, ∃ y, f x = some y) :
    l.mapM f = some (l.flatMap fun x => (f x).toList) := by
  induction l with
  | nil => rfl
  | cons a l ih =>
    obtain ⟨y, hy⟩ := h a (by simp)
    rw [List.mapM_cons, ih fun x hx => h x (by simp [hx])]
    simp [hy]

theorem count_toList (o : Option Nat) (k : Nat) : o.toList.count k = if o = some k then 1 else 0 := by
  cases o with
  | none => simp
  | some a => simp [List.count_cons]

/-- the index structure for a node of every route -/
theorem node_index (F : IR → Option Nat) (l : List IR) (n : Nat) (hF : ∀ ir ∈ l, ∃ k, F ir = some k ∧ k < n) :
    ∃ v, (((assignIds 0 l).mapM fun x => (F x.2).map fun k => (k, x.1)).bind fun ops =>
        (bucket ops (List.replicate n [])).map fun v => v.map sortNat) = some v ∧ v.length = n ∧
      ∀ k < n, ∃ b, v[k]? = some b ∧ b.Pairwise (· < ·) ∧ ∀ id, id ∈ b ↔ ∃ ir, l[id]? = some ir ∧ F ir = some k := by
  have hm : ((assignIds 0 l).mapM fun x => (F x.2).map fun k => (k, x.1)) =
      some ((assignIds 0 l).flatMap fun x => ((F x.2).toList).map fun s => (s, x.1)) := by
    rw [mapM_toList _ _ (by
      intro x hx
      obtain ⟨k, hk, -⟩ := hF x.2 (mem_assignIds _ _ _ hx)
      exact ⟨(k, x.1), by rw [hk]; rfl⟩)]
    congr 2
    funext x
    cases F x.2 <;> rfl
  obtain ⟨v, h1, h2, h3⟩ := index_spec (fun ir => (F ir).toList) l n (by
    intro ir hir k hk
    obtain ⟨k', h4, h5⟩ := hF ir hir
    rw [h4] at hk
    simp at hk
    omega)
  refine ⟨v.map sortNat, by rw [hm, Option.bind_some, h1]; rfl, by simpa using h2, fun k hk => ?_⟩
  obtain ⟨b, h4, h5⟩ := h3 k hk
  refine ⟨sortNat b, by rw [List.getElem?_map, h4]; rfl, ?_, ?_⟩
  · have hnd : (sortNat b).Nodup := by
      rw [List.nodup_iff_count]
      intro a
      rw [(sortNat_perm b).count_eq, h5]
      cases l[a]? with
      | none => simp
      | some ir =>
        simp only [Option.map_some, Option.getD_some, count_toList]
        split <;> omega
    have hs := sortNat_sorted b
    rw [List.nodup_iff_pairwise_ne] at hnd
    exact (hs.and hnd).imp fun h => by omega
  · intro id
    rw [mem_sortNat, ← List.count_pos_iff, h5]
    cases hl : l[id]? with
    | none => simp
    | some ir =>
      simp only [Option.map_some, Option.getD_some, count_toList, Option.some.injEq]
      constructor
      · intro h
        refine ⟨ir, rfl, ?_⟩
        split at h
        · assumption
        · omega
      · rintro ⟨ir', rfl, h⟩
        rw [if_pos h]; omega

/-- C36: ids are dense and equal positions. -/
theorem C36_ids (l : List IR) (k : Nat) : (assignIds 0 l)[k]? = l[k]?.map fun ir => (k, ir) := by
  rw [assignIds_get]; simp

/-- C36: route `id` is listed at `starting_at[n]` iff its first node is `n`; the lists are strictly sorted (so it is listed
once). -/
theorem C36_starting_at (infra : List SRoute) (n : Nat) (l : List IR)
    (h : ∀ ir ∈ l, ∃ k, ir.firstNode infra = some k ∧ k < n) :
    ∃ v, startingAt infra n (assignIds 0 l) = some v ∧ v.length = n ∧
      ∀ k < n, ∃ b, v[k]? = some b ∧ b.Pairwise (· < ·) ∧ ∀ id, id ∈ b ↔ ∃ ir, l[id]? = some ir ∧ ir.firstNode infra = some k :=
  node_index (fun ir => ir.firstNode infra) l n h

/-- C36: the same for `ending_at` and the last node. -/
theorem C36_ending_at (infra : List SRoute) (n : Nat) (l : List IR)
    (h : ∀ ir ∈ l, ∃ k, ir.lastNode infra = some k ∧ k < n) :
    ∃ v, endingAt infra n (assignIds 0 l) = some v ∧ v.length = n ∧
      ∀ k < n, ∃ b, v[k]? = some b ∧ b.Pairwise (· < ·) ∧ ∀ id, id ∈ b ↔ ∃ ir, l[id]? = some ir ∧ ir.lastNode infra = some k :=
  node_index (fun ir => ir.lastNode infra) l n h

/-- C36: `sr_to_participating_irs` lists route `id` for station route `s` as often as the route uses `s`; the lists are
sorted. -/
theorem C36_participating (n : Nat) (l : List IR) (h : ∀ ir ∈ l, ∀ s ∈ ir.srs, s < n) :
    ∃ v, participating n (assignIds 0 l) = some v ∧ v.length = n ∧
      ∀ s < n, ∃ b, v[s]? = some b ∧ b.Pairwise (· ≤ ·) ∧
        ∀ id, b.count id = ((l[id]?).map fun ir => ir.srs.count s).getD 0 := by
  obtain ⟨v, h1, h2, h3⟩ := index_spec (fun ir => ir.srs) l n h
  refine ⟨v.map sortNat, by unfold participating; rw [h1]; rfl, by simpa using h2, fun k hk => ?_⟩
  obtain ⟨b, h4, h5⟩ := h3 k hk
  exact ⟨sortNat b, by rw [List.getElem?_map, h4]; rfl, sortNat_sorted b, fun id => by rw [(sortNat_perm b).count_eq, h5]⟩

/-- C36: `station_to_irs` lists route `id` for station `st` iff one of its station routes belongs to `st`; the lists are
strictly sorted. -/
theorem C36_stations (station : Nat → Nat) (n : Nat) (l : List IR) (h : ∀ ir ∈ l, ∀ s ∈ ir.srs, station s < n) :
    ∃ v, stationToIrs station n (assignIds 0 l) = some v ∧ v.length = n ∧
      ∀ st < n, ∃ b, v[st]? = some b ∧ b.Pairwise (· < ·) ∧
        ∀ id, id ∈ b ↔ ∃ ir, l[id]? = some ir ∧ ∃ s ∈ ir.srs, station s = st := by
  obtain ⟨v, h1, h2, h3⟩ := index_spec (fun ir => ir.srs.map station) l n (by
    intro ir hir k hk
    obtain ⟨s, hs, rfl⟩ := List.mem_map.1 hk
    exact h ir hir s hs)
  have hops : ((assignIds 0 l).flatMap fun x => x.2.srs.map fun s => (station s, x.1)) =
      (assignIds 0 l).flatMap fun x => (x.2.srs.map station).map fun s => (s, x.1) := by
    congr 1
    funext x
    rw [List.map_map]; rfl
  refine ⟨v.map eraseDup, by unfold stationToIrs; rw [hops, h1]; rfl, by simpa using h2, fun k hk => ?_⟩
  obtain ⟨b, h4, h5⟩ := h3 k hk
  refine ⟨eraseDup b, by rw [List.getElem?_map, h4]; rfl, eraseDup_lt b, fun id => ?_⟩
  rw [mem_eraseDup, ← List.count_pos_iff, h5]
  cases hl : l[id]? with
  | none => simp
  | some ir =>
    simp only [Option.map_some, Option.getD_some, List.count_pos_iff, List.mem_map, Option.some.injEq]
    constructor
    · rintro ⟨s, hs, h6⟩; exact ⟨ir, rfl, s, hs, h6⟩
    · rintro ⟨_, rfl, s, hs, h6⟩; exact ⟨s, hs, h6⟩

/-- C36: `halting_at` lists route `id` at node `k` as often as the halts of its station routes, restricted to the part the
route uses, name that node; the lists are sorted. -/
theorem C36_halting_at (infra : List SRoute) (passenger freight : Nat → Option Nat) (n : Nat) (l : List IR)
    (h : ∀ ir ∈ l, ∃ ns, haltNodes infra passenger freight ir = some ns ∧ ∀ k ∈ ns, k < n) :
    ∃ v, haltingAt infra passenger freight n (assignIds 0 l) = some v ∧ v.length = n ∧
      ∀ k < n, ∃ b, v[k]? = some b ∧ b.Pairwise (· ≤ ·) ∧
        ∀ id, b.count id = ((l[id]?).map fun ir => ((haltNodes infra passenger freight ir).getD []).count k).getD 0 := by
  have hm : ((assignIds 0 l).mapM fun x => (haltNodes infra passenger freight x.2).map fun ns => ns.map fun n => (n, x.1)) =
      some ((assignIds 0 l).map fun x => ((haltNodes infra passenger freight x.2).getD []).map fun n => (n, x.1)) := by
    have : ∀ xs : List (Nat × IR), (∀ x ∈ xs, x.2 ∈ l) →
        (xs.mapM fun x => (haltNodes infra passenger freight x.2).map fun ns => ns.map fun n => (n, x.1)) =
        some (xs.map fun x => ((haltNodes infra passenger freight x.2).getD []).map fun n => (n, x.1)) := by
      intro xs hxs
      induction xs with
      | nil => rfl
      | cons a xs ih =>
        obtain ⟨ns, hns, -⟩ := h a.2 (hxs a (by simp))
        rw [List.mapM_cons, ih fun x hx => hxs x (by simp [hx])]
        simp [hns]
    exact this _ fun x hx => mem_assignIds _ _ _ hx
  obtain ⟨v, h1, h2, h3⟩ := index_spec (fun ir => (haltNodes infra passenger freight ir).getD []) l n (by
    intro ir hir k hk
    obtain ⟨ns, h4, h5⟩ := h ir hir
    simp only [h4, Option.getD_some] at hk
    exact h5 k hk)
  rw [List.flatMap_def] at h1
  refine ⟨v.map sortNat, by unfold haltingAt; rw [hm, Option.bind_some, h1]; rfl, by simpa using h2, fun k hk => ?_⟩
  obtain ⟨b, h4, h5⟩ := h3 k hk
  exact ⟨sortNat b, by rw [List.getElem?_map, h4]; rfl, sortNat_sorted b, fun id => by rw [(sortNat_perm b).count_eq, h5]⟩

/-- C36: the nodes at which a route halts are the passenger and freight halts of its station routes that lie in the used
part. -/
theorem C36_halts (infra : List SRoute) (passenger freight : Nat → Option Nat) (ir : IR) (hv : Valid infra ir) (ns : List Nat)
    (h : haltNodes infra passenger freight ir = some ns) (n : Nat) :
    n ∈ ns ↔ ∃ s i r, (s, i) ∈ positions infra ir ∧ (passenger s = some i ∨ freight s = some i) ∧ infra[s]? = some r ∧
      r.nodes[i]? = some n := by
  obtain ⟨sps, h1, h2⟩ := subPaths_spec ir hv
  unfold haltNodes at h
  rw [h1, Option.bind_some] at h
  obtain ⟨rs, h3, rfl⟩ := Option.map_eq_some_iff.1 h
  rw [mapM_flatten_mem _ _ _ h3, h2]
  have hn : ∀ sp o a, haltNode infra sp o = some a → (n ∈ a ↔ ∃ i r, o = some i ∧ (sp.sr, i) ∈ span sp.sr sp.frm sp.to ∧
      infra[sp.sr]? = some r ∧ r.nodes[i]? = some n) := by
    intro sp o a ha
    unfold haltNode at ha
    cases o with
    | none => cases ha; simp
    | some i =>
      simp only at ha
      by_cases hc : sp.contains i = true
      · rw [if_pos hc] at ha
        obtain ⟨m, h4, rfl⟩ := Option.map_eq_some_iff.1 ha
        obtain ⟨r, h5, h6⟩ := Option.bind_eq_some_iff.1 h4
        simp only [SubPath.contains, Bool.and_eq_true, decide_eq_true_eq] at hc
        rw [List.mem_singleton]
        constructor
        · rintro rfl
          exact ⟨i, r, rfl, (mem_span _ _ _ _).2 ⟨rfl, hc⟩, h5, h6⟩
        · rintro ⟨j, r', h7, -, h8, h9⟩
          cases h7
          rw [h5] at h8; cases h8
          rw [h6] at h9; cases h9; rfl
      · rw [if_neg hc] at ha
        cases ha
        simp only [List.not_mem_nil, false_iff]
        rintro ⟨j, r', h7, h8, -⟩
        cases h7
        rw [mem_span] at h8
        apply hc
        simp only [SubPath.contains, Bool.and_eq_true, decide_eq_true_eq]
        exact h8.2
  constructor
  · rintro ⟨sp, hsp, b, hb, hmem⟩
    obtain ⟨a1, ha1, hb⟩ := Option.bind_eq_some_iff.1 hb
    obtain ⟨a2, ha2, rfl⟩ := Option.map_eq_some_iff.1 hb
    rcases List.mem_append.1 hmem with hmem | hmem
    · obtain ⟨i, r, h4, h5, h6, h7⟩ := (hn _ _ _ ha1).1 hmem
      exact ⟨sp.sr, i, r, List.mem_flatMap.2 ⟨sp, hsp, h5⟩, .inl h4, h6, h7⟩
    · obtain ⟨i, r, h4, h5, h6, h7⟩ := (hn _ _ _ ha2).1 hmem
      exact ⟨sp.sr, i, r, List.mem_flatMap.2 ⟨sp, hsp, h5⟩, .inr h4, h6, h7⟩
  · rintro ⟨s, i, r, hp, ho, h6, h7⟩
    obtain ⟨sp, hsp, hp⟩ := List.mem_flatMap.1 hp
    obtain rfl : s = sp.sr := ((mem_span _ _ _ _).1 hp).1
    obtain ⟨b, hb⟩ := fill_mem.mapM_mem_some _ _ _ h3 sp hsp
    refine ⟨sp, hsp, b, hb, ?_⟩
    obtain ⟨a1, ha1, hb⟩ := Option.bind_eq_some_iff.1 hb
    obtain ⟨a2, ha2, rfl⟩ := Option.map_eq_some_iff.1 hb
    rw [List.mem_append]
    rcases ho with ho | ho
    · exact .inl ((hn _ _ _ ha1).2 ⟨i, r, ho, hp, h6, h7⟩)
    · exact .inr ((hn _ _ _ ha2).2 ⟨i, r, ho, hp, h6, h7⟩)

/-- `halting_at` may list a route twice: if passenger and freight halt are the same node (C36 claims single entries for
`starting_at` and `ending_at` only). -/
theorem C36_halting_twice : haltingAt [⟨[0, 1, 2], [], []⟩] (fun _ => some 1) (fun _ => some 1) 3 (assignIds 0 [⟨0, 3, [0]⟩]) =
    some [[], [0, 0], []] := by decide

example : startingAt exNet 10 (assignIds 0 [⟨3, 2, [0, 1, 2]⟩, ⟨1, 4, [0]⟩, ⟨3, 4, [0]⟩]) =
    some [[], [], [1], [], [0, 2], [], [], [], [], []] := by decide
example : endingAt exNet 10 (assignIds 0 [⟨3, 2, [0, 1, 2]⟩, ⟨1, 4, [0]⟩, ⟨3, 4, [0]⟩]) =
    some [[], [], [], [], [1, 2], [], [], [], [0], []] := by decide
example : participating 3 (assignIds 0 [⟨3, 2, [0, 1, 2]⟩, ⟨1, 4, [0]⟩]) = some [[0, 1], [0], [0]] := by decide
example : stationToIrs (fun s => s / 2) 2 (assignIds 0 [⟨3, 2, [0, 1, 2]⟩, ⟨1, 4, [0]⟩]) = some [[0, 1], [0]] := by decide

end Soro.Interlocking
