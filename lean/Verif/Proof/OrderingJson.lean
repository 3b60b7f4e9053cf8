import Verif.Spec.OrderingJson
import Verif.Proof.OrderingGraph
import Verif.Props.Utls
import Mathlib.Data.List.Nodup

/-! Proofs about the request for an ordering graph and its answer. -/

namespace Soro.OrderingJson
open OrderingGraph Utls Utls.Spec

/-! ### numbers and lists of numbers -/

theorem fits_u32 (v : Int) : Fits u32 v ↔ 0 ≤ v ∧ v < 2 ^ 32 := by
  unfold Fits u32 IntTy.min IntTy.max
  simp only [Bool.false_eq_true, if_false]
  norm_num
  omega

theorem parse_number (s : List Char) (v : Int) : tryParseInt u32 s = some v ↔ ∃ n : Nat, v = n ∧ IsNumber s n := by
  rw [C60_accepts, fits_u32]
  constructor
  · rintro ⟨h | ⟨h, _⟩, h1, h2⟩
    · obtain ⟨h3, h4, rfl⟩ := h
      exact ⟨value s, rfl, h3, h4, rfl, by omega⟩
    · cases h
  · rintro ⟨n, rfl, h1, h2, h3, h4⟩
    exact ⟨.inl ⟨h1, h2, by rw [h3]⟩, by omega, by omega⟩

theorem parseAll_spec (ss : List (List Char)) (ns : List Nat) :
    parseAll ss = some ns ↔ List.Forall₂ IsNumber ss ns := by
  induction ss generalizing ns with
  | nil =>
    cases ns with
    | nil => simp [parseAll]
    | cons n ns => exact ⟨(fun h => nomatch h), (fun h => nomatch h)⟩
  | cons s ss ih =>
    rw [parseAll]
    cases h : tryParseInt u32 s with
    | none =>
      refine ⟨(fun h => nomatch h), fun h1 => ?_⟩
      cases h1 with
      | cons h2 h3 =>
        rename_i n ns
        have := (parse_number s n).2 ⟨n, rfl, h2⟩
        rw [h] at this
        cases this
    | some v =>
      obtain ⟨n, rfl, hn⟩ := (parse_number s v).1 h
      simp only [Option.map_eq_some_iff, Int.toNat_natCast]
      constructor
      · rintro ⟨ms, h1, rfl⟩
        exact .cons hn ((ih ms).1 h1)
      · intro h1
        cases h1 with
        | cons h2 h3 =>
          rename_i m ms
          refine ⟨ms, (ih ms).2 h3, ?_⟩
          obtain ⟨_, _, h4, _⟩ := hn
          obtain ⟨_, _, h5, _⟩ := h2
          rw [← h4, ← h5]

theorem forall2_left {α β : Type} {R : α → β → Prop} {l : List α} {m : List β} (h : List.Forall₂ R l m) :
    ∀ x ∈ l, ∃ y, R x y := by
  induction h with
  | nil => simp
  | cons h1 _ ih =>
    intro x hx
    rcases List.mem_cons.1 hx with rfl | hx
    · exact ⟨_, h1⟩
    · exact ih x hx

theorem comma_not_digit : (',' : Char).isDigit = false := by decide

theorem append_comma_inj {s t a b : List Char} (hs : ',' ∉ s) (ht : ',' ∉ t) (h : s ++ ',' :: a = t ++ ',' :: b) :
    s = t ∧ a = b := by
  induction s generalizing t with
  | nil =>
    cases t with
    | nil => simpa using h
    | cons c t =>
      simp only [List.nil_append, List.cons_append, List.cons.injEq] at h
      exact absurd (by simp [← h.1]) ht
  | cons x s ih =>
    cases t with
    | nil =>
      simp only [List.nil_append, List.cons_append, List.cons.injEq] at h
      exact absurd (by simp [h.1]) hs
    | cons c t =>
      simp only [List.cons_append, List.cons.injEq] at h
      obtain ⟨h1, h2⟩ := ih (fun h => hs (by simp [h])) (fun h => ht (by simp [h])) h.2
      exact ⟨by rw [h.1, h1], h2⟩

theorem intercalate_inj {ss ts : List (List Char)} (hs0 : ss ≠ []) (ht0 : ts ≠ []) (hs : ∀ s ∈ ss, ',' ∉ s)
    (ht : ∀ t ∈ ts, ',' ∉ t) (h : List.intercalate [','] ss = List.intercalate [','] ts) : ss = ts := by
  induction ss generalizing ts with
  | nil => exact absurd rfl hs0
  | cons s ss ih =>
    cases ts with
    | nil => exact absurd rfl ht0
    | cons t ts =>
      cases ss with
      | nil =>
        cases ts with
        | nil => simpa [List.intercalate] using h
        | cons u ts =>
          rw [List.intercalate_cons_cons] at h
          have h1 := hs s (by simp)
          simp only [List.intercalate, List.intersperse_singleton, List.flatten_cons, List.flatten_nil, List.append_nil] at h
          rw [h] at h1
          exact absurd (by simp) h1
      | cons v ss =>
        cases ts with
        | nil =>
          rw [List.intercalate_cons_cons] at h
          have h1 := ht t (by simp)
          simp only [List.intercalate, List.intersperse_singleton, List.flatten_cons, List.flatten_nil, List.append_nil] at h
          rw [← h] at h1
          exact absurd (by simp) h1
        | cons u ts =>
          rw [List.intercalate_cons_cons, List.intercalate_cons_cons] at h
          simp only [List.append_assoc, List.cons_append, List.nil_append] at h
          obtain ⟨h1, h2⟩ := append_comma_inj (hs s (by simp)) (ht t (by simp)) h
          have := ih (ts := u :: ts) (by simp) (by simp) (fun x hx => hs x (by simp [hx])) (fun x hx => ht x (by simp [hx])) h2
          rw [h1, this]

theorem lists_ne {csv : List Char} {ns : List Nat} (h : Lists csv ns) (hne : csv ≠ []) :
    ∃ ss, ss ≠ [] ∧ List.intercalate [','] ss = csv ∧ List.Forall₂ IsNumber ss ns := by
  induction h with
  | none => exact absurd rfl hne
  | one s n h => exact ⟨[s], by simp, by simp [List.intercalate], .cons h .nil⟩
  | more s n rest ns h1 h2 h3 ih =>
    obtain ⟨ss, h4, h5, h6⟩ := ih h2
    refine ⟨s :: ss, by simp, ?_, .cons h1 h6⟩
    cases ss with
    | nil => exact absurd rfl h4
    | cons t ss => rw [List.intercalate_cons_cons, h5]; simp

theorem lists_of_parts (ss : List (List Char)) (ns : List Nat) (h : List.Forall₂ IsNumber ss ns) :
    Lists (List.intercalate [','] ss) ns := by
  induction h with
  | nil => exact .none
  | cons h1 h2 ih =>
    rename_i s n ss ns
    cases ss with
    | nil =>
      cases h2
      simpa [List.intercalate] using Lists.one s n h1
    | cons t ss =>
      rw [List.intercalate_cons_cons]
      have : List.intercalate [','] (t :: ss) ≠ [] := by
        intro h
        cases h2 with
        | cons h3 h4 =>
          cases ss with
          | nil => simp [List.intercalate] at h; exact h3.1 h
          | cons u ss => rw [List.intercalate_cons_cons] at h; simp at h
      simpa using Lists.more s n _ ns h1 this ih

theorem trainIds_spec (csv : List Char) (ns : List Nat) : trainIds csv = some ns ↔ Lists csv ns := by
  unfold trainIds
  by_cases hne : csv = []
  · subst hne
    rw [show split (([] : List Char).length + 1) [] [','] = some [] from rfl]
    simp only [Option.bind_some, parseAll, Option.some.injEq]
    constructor
    · rintro rfl; exact .none
    · intro h
      generalize hc : ([] : List Char) = csv at h
      cases h with
      | none => rfl
      | one s n h => exact absurd hc.symm h.1
      | more s n rest ns h1 h2 h3 => exact absurd hc.symm (by simp)
  · obtain ⟨ts, h1, h2, h3, h4⟩ := C61_split csv [','] (by simp) hne (csv.length + 1) (by omega)
    have h4' : ∀ t ∈ ts, ',' ∉ t := by
      intro t ht hc
      obtain ⟨a, b, rfl⟩ := List.append_of_mem hc
      exact h4 _ ht ⟨a, b, by simp⟩
    rw [h1]
    simp only [Option.bind_some, parseAll_spec]
    constructor
    · intro h
      rw [← h3]
      exact lists_of_parts ts ns h
    · intro h
      obtain ⟨ss, h5, h6, h7⟩ := lists_ne h hne
      have : ss = ts := by
        refine intercalate_inj h5 h2 (fun s hs hc => ?_) h4' (by rw [h6, h3])
        obtain ⟨n, hn⟩ := forall2_left h7 s hs
        have := hn.2.1 ',' hc
        rw [comma_not_digit] at this
        cases this
      rw [← this]
      exact h7

/-! ### the document -/

/-- what is written for a node -/
def jnode (first rel : Nat) (n : ONode) : JNode := ⟨n.id, n.train, n.id - first, rel, n.ir⟩

def edgesOf (n : ONode) : List (Nat × Nat) := n.outs.map fun t => (n.id, t)

/-- the nodes of a trip -/
def tripRange (g : OGraph) (e : Trip) : List ONode := (List.range' e.2.1 (e.2.2 - e.2.1)).filterMap fun i => g[i]?

theorem writeNodes_spec (g : OGraph) (first rel : Nat) (is : List Nat) (d : Doc) (h : ∀ i ∈ is, i < g.length) :
    writeNodes g first rel is d = some
      { d with
        nodes := d.nodes ++ (is.filterMap fun i => g[i]?).map (jnode first rel)
        edges := d.edges ++ (is.filterMap fun i => g[i]?).flatMap edgesOf } := by
  induction is generalizing d with
  | nil => simp [writeNodes]
  | cons i is ih =>
    have hi := List.getElem?_eq_getElem (h i (by simp))
    rw [writeNodes, hi]
    dsimp only
    rw [ih _ fun x hx => h x (by simp [hx])]
    simp [List.filterMap_cons, hi, jnode, edgesOf]

theorem writeTrips_spec (g : OGraph) (es : List Trip) (rel : Nat) (d : Doc) (h : ∀ e ∈ es, e.2.2 ≤ g.length) :
    writeTrips g rel es d = some
      { nodes := d.nodes ++ (es.zipIdx rel).flatMap fun e => (tripRange g e.1).map (jnode e.1.2.1 e.2)
        edges := d.edges ++ (es.flatMap (tripRange g)).flatMap edgesOf
        totalTrains := d.totalTrains + es.length
        maxLength := es.foldl (fun m e => max m (e.2.2 - e.2.1)) d.maxLength } := by
  induction es generalizing rel d with
  | nil => simp [writeTrips]
  | cons e es ih =>
    have he := h e (by simp)
    rw [writeTrips, writeNodes_spec _ _ _ _ _ fun i hi => by
      have := List.mem_range'_1.1 hi; omega]
    rw [Option.bind_some, ih _ _ fun x hx => h x (by simp [hx])]
    simp [List.zipIdx_cons, tripRange, Nat.add_assoc, Nat.add_comm 1]

/-- the trips with the position of their first node -/
def rows : Nat → List (OTrain × Int) → List ((OTrain × Int) × Nat)
  | _, [] => []
  | o, t :: ts => (t, o) :: rows (o + t.1.path.length) ts

def toTrip (r : (OTrain × Int) × Nat) : Trip := ((r.1.1.id, r.1.2), (r.2, r.2 + r.1.1.path.length))

theorem emplaceAll_rows (ts : List (OTrain × Int)) (o : Nat) (m : List Trip)
    (hnd : (ts.map fun t => (t.1.id, t.2)).Nodup) (hm : ∀ e ∈ m, ∀ t ∈ ts, e.1 ≠ (t.1.id, t.2)) :
    emplaceAll o ts m = m ++ (rows o ts).map toTrip := by
  induction ts generalizing o m with
  | nil => simp [emplaceAll, rows]
  | cons t ts ih =>
    rw [List.map_cons, List.nodup_cons] at hnd
    have hany : (m.any fun e => e.1 == (t.1.id, t.2)) = false := by
      rw [← Bool.not_eq_true, List.any_eq_true]
      rintro ⟨e, he, h⟩
      exact hm e he t (by simp) (beq_iff_eq.1 h)
    rw [emplaceAll, emplaceTrip, hany, if_neg (by simp), ih _ _ hnd.2]
    · simp [rows, toTrip]
    · intro e he u hu
      rcases List.mem_append.1 he with he | he
      · exact hm e he u (by simp [hu])
      · simp only [List.mem_singleton] at he
        subst he
        intro h
        exact hnd.1 (List.mem_map.2 ⟨u, hu, h.symm⟩)

theorem rows_fst (ts : List (OTrain × Int)) (o : Nat) : (rows o ts).map Prod.fst = ts := by
  induction ts generalizing o with
  | nil => rfl
  | cons t ts ih => simp [rows, ih]

theorem rows_get (ts : List (OTrain × Int)) (o : Nat) {r : (OTrain × Int) × Nat} (h : r ∈ rows o ts) :
    ∃ j, ts[j]? = some r.1 ∧ r.2 = o + offset ts j := by
  induction ts generalizing o with
  | nil => simp [rows] at h
  | cons t ts ih =>
    rw [rows] at h
    rcases List.mem_cons.1 h with rfl | h
    · exact ⟨0, rfl, by simp [offset]⟩
    · obtain ⟨j, h1, h2⟩ := ih _ h
      exact ⟨j + 1, by simpa using h1, by rw [h2]; simp [offset, Nat.add_assoc]⟩

theorem rows_ranges (ts : List (OTrain × Int)) (o : Nat) :
    (rows o ts).flatMap (fun r => List.range' r.2 r.1.1.path.length) =
      List.range' o (ts.map fun t => t.1.path.length).sum := by
  induction ts generalizing o with
  | nil => simp [rows]
  | cons t ts ih =>
    rw [rows, List.flatMap_cons, ih, List.map_cons, List.sum_cons, List.range'_append_1]

theorem perm_of_map {α β : Type} {f : α → β} {l : List β} {m : List β} (h : l.Perm m) :
    ∀ k : List α, m = k.map f → ∃ k' : List α, l = k'.map f ∧ k'.Perm k := by
  induction h with
  | nil => intro k hk; exact ⟨[], rfl, by simp at hk; simp [hk]⟩
  | cons x _ ih =>
    intro k hk
    cases k with
    | nil => simp at hk
    | cons y k =>
      simp only [List.map_cons, List.cons.injEq] at hk
      obtain ⟨k', h1, h2⟩ := ih k hk.2
      exact ⟨y :: k', by rw [h1, hk.1]; rfl, h2.cons y⟩
  | swap x y l =>
    intro k hk
    match k with
    | [] => simp at hk
    | [_] => simp at hk
    | a :: b :: k =>
      simp only [List.map_cons, List.cons.injEq] at hk
      exact ⟨b :: a :: k, by simp [hk], .swap ..⟩
  | trans _ _ ih1 ih2 =>
    intro k hk
    obtain ⟨k1, h1, h2⟩ := ih2 k hk
    obtain ⟨k2, h3, h4⟩ := ih1 k1 h1
    exact ⟨k2, h3, h4.trans h2⟩

theorem filterMap_all (g : OGraph) : (List.range' 0 g.length).filterMap (fun i => g[i]?) = g := by
  rw [← List.range_eq_range']
  induction g with
  | nil => rfl
  | cons n g ih =>
    rw [List.length_cons, List.range_succ_eq_map, List.filterMap_cons]
    simp only [List.getElem?_cons_zero, List.filterMap_map]
    congr 1

theorem foldl_max (f : Trip → Nat) (es : List Trip) (m : Nat) :
    m ≤ es.foldl (fun m e => max m (f e)) m ∧ (∀ e ∈ es, f e ≤ es.foldl (fun m e => max m (f e)) m) ∧
      (es.foldl (fun m e => max m (f e)) m = m ∨ ∃ e ∈ es, es.foldl (fun m e => max m (f e)) m = f e) := by
  induction es generalizing m with
  | nil => simp
  | cons e es ih =>
    obtain ⟨h1, h2, h3⟩ := ih (max m (f e))
    simp only [List.foldl_cons]
    refine ⟨by omega, ?_, ?_⟩
    · intro x hx
      rcases List.mem_cons.1 hx with rfl | hx
      · omega
      · exact h2 x hx
    · rcases h3 with h3 | ⟨x, hx, h3⟩
      · rcases Nat.le_total m (f e) with h | h
        · exact .inr ⟨e, by simp, by omega⟩
        · exact .inl (by omega)
      · exact .inr ⟨x, by simp [hx], h3⟩

theorem selected_sublist (filter : List Nat) (trains : List OTrain) : (selected filter trains).Sublist trains :=
  List.filter_sublist

theorem ids_nodup {trains : List OTrain} (h : ∀ (i : Nat) (tr : OTrain), trains[i]? = some tr → tr.id = i) :
    (trains.map OTrain.id).Nodup := by
  rw [List.nodup_iff_getElem?_ne_getElem?]
  intro i j hij hj heq
  rw [List.length_map] at hj
  rw [List.getElem?_map, List.getElem?_map, List.getElem?_eq_getElem (by omega), List.getElem?_eq_getElem hj] at heq
  simp only [Option.map_some, Option.some.injEq] at heq
  rw [h i _ (List.getElem?_eq_getElem (by omega)), h j _ (List.getElem?_eq_getElem hj)] at heq
  omega

theorem trips_nodup (ts : List OTrain) (h1 : (ts.map OTrain.id).Nodup) (h2 : ∀ tr ∈ ts, tr.anchors.Nodup) :
    ((ts.flatMap fun t => t.anchors.map fun a => (t, a)).map fun t : OTrain × Int => (t.1.id, t.2)).Nodup := by
  induction ts with
  | nil => simp
  | cons t ts ih =>
    rw [List.map_cons, List.nodup_cons] at h1
    rw [List.flatMap_cons, List.map_append, List.nodup_append]
    refine ⟨?_, ih h1.2 fun x hx => h2 x (by simp [hx]), ?_⟩
    · rw [List.map_map]
      exact (List.nodup_map_iff (fun a b h => by simpa using h)).2 (h2 t (by simp))
    · intro a ha b hb hab
      simp only [List.mem_map, List.mem_flatMap] at ha hb
      obtain ⟨_, ⟨x, _, rfl⟩, rfl⟩ := ha
      obtain ⟨_, ⟨u, hu, y, _, rfl⟩, rfl⟩ := hb
      simp only [Prod.mk.injEq] at hab
      exact h1.1 (List.mem_map.2 ⟨u, hu, hab.1.symm⟩)

end Soro.OrderingJson
