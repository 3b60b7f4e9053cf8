import Verif.Spec.Interlocking
import Verif.Proof.InterlockingRoute
import Verif.Proof.Algo
import Verif.Proof.Cycle

namespace Soro.Interlocking
open Route Route.Spec Spec Algo

/-! ### buckets -/

theorem bucket_spec (ops : List (Nat × Nat)) (acc : List (List Nat)) (h : ∀ o ∈ ops, o.1 < acc.length) :
    ∃ acc', bucket ops acc = some acc' ∧ acc'.length = acc.length ∧
      ∀ k, acc'[k]?.getD [] = acc[k]?.getD [] ++ (ops.filter fun o => o.1 == k).map (·.2) := by
  induction ops generalizing acc with
  | nil => exact ⟨acc, rfl, rfl, by simp⟩
  | cons o ops ih =>
    obtain ⟨k0, v⟩ := o
    have h0 := h _ (List.mem_cons_self)
    obtain ⟨acc', h1, h2, h3⟩ := ih (acc.modify k0 (· ++ [v])) (fun o ho => by
      rw [List.length_modify]; exact h o (by simp [ho]))
    refine ⟨acc', by rw [bucket, if_pos h0, h1], by rw [h2, List.length_modify], fun k => ?_⟩
    rw [h3, List.getElem?_modify]
    by_cases hk : k0 = k
    · subst hk
      simp at h0
      simp [h0]
    · simp [hk]

theorem bucket_none (ops : List (Nat × Nat)) (acc : List (List Nat)) (h : ∃ o ∈ ops, acc.length ≤ o.1) :
    bucket ops acc = none := by
  induction ops generalizing acc with
  | nil => obtain ⟨o, ho, _⟩ := h; cases ho
  | cons o ops ih =>
    obtain ⟨k, v⟩ := o
    rw [bucket]
    split
    · apply ih
      obtain ⟨o, ho, h'⟩ := h
      rcases List.mem_cons.1 ho with rfl | ho
      · simp at h'; omega
      · exact ⟨o, ho, by rw [List.length_modify]; exact h'⟩
    · rfl

theorem bucket_replicate (ops : List (Nat × Nat)) (n : Nat) (h : ∀ o ∈ ops, o.1 < n) :
    ∃ v, bucket ops (List.replicate n []) = some v ∧ v.length = n ∧
      ∀ k < n, v[k]? = some ((ops.filter fun o => o.1 == k).map (·.2)) := by
  obtain ⟨v, h1, h2, h3⟩ := bucket_spec ops (List.replicate n []) (by simpa using h)
  rw [List.length_replicate] at h2
  refine ⟨v, h1, h2, fun k hk => ?_⟩
  have := h3 k
  simp only [List.getElem?_replicate, hk, if_true, Option.getD_some, List.nil_append] at this
  rw [List.getElem?_eq_getElem (by omega)] at this ⊢
  simpa using this

theorem filter_count (ops : List (Nat × Nat)) (k v : Nat) :
    ((ops.filter fun o => o.1 == k).map (·.2)).count v = ops.count (k, v) := by
  induction ops with
  | nil => rfl
  | cons o ops ih =>
    obtain ⟨a, b⟩ := o
    by_cases ha : a = k
    · subst ha
      simp only [List.filter_cons, beq_self_eq_true, if_true, List.map_cons, List.count_cons, ih]
      by_cases hb : b = v <;> simp [hb]
    · simp [List.filter_cons, ha, ih]

/-! ### predecessors -/

theorem predOps_count (succs : List (List Nat)) (k s p : Nat) :
    ((succs.zipIdx k).flatMap fun x => x.1.map fun s => (s, x.2)).count (s, p) =
      if k ≤ p then (succs[p - k]?.getD []).count s else 0 := by
  induction succs generalizing k with
  | nil => simp
  | cons l succs ih =>
    rw [List.zipIdx_cons, List.flatMap_cons, List.count_append, ih]
    have e : (l.map fun s => (s, k)).count (s, p) = if k = p then l.count s else 0 := by
      induction l with
      | nil => simp
      | cons x l ihl =>
        rw [List.map_cons, List.count_cons, ihl, List.count_cons]
        by_cases hk : k = p <;> by_cases hx : x = s <;> simp [hk, hx]
    simp only [e]
    by_cases h1 : k = p
    · subst h1; simp; omega
    · by_cases h2 : k ≤ p
      · rw [if_neg h1, if_pos (by omega), if_pos h2, Nat.zero_add, show p - k = (p - (k + 1)) + 1 by omega,
          List.getElem?_cons_succ]
      · rw [if_neg h1, if_neg (by omega), if_neg h2]

/-! ### mapM -/

theorem mapM_some {α β : Type} (f : α → Option β) (l : List α) (h : ∀ x ∈ l, ∃ y, f x = some y) : ∃ r, l.mapM f = some r := by
  induction l with
  | nil => exact ⟨[], rfl⟩
  | cons a l ih =>
    obtain ⟨y, hy⟩ := h a (by simp)
    obtain ⟨r, hr⟩ := ih fun x hx => h x (by simp [hx])
    exact ⟨y :: r, by simp [List.mapM_cons, hy, hr]⟩

theorem mapM_cons_some {α β : Type} (f : α → Option β) (a : α) (l : List α) (r : List β) (h : (a :: l).mapM f = some r) :
    ∃ y r', f a = some y ∧ l.mapM f = some r' ∧ r = y :: r' := by
  rw [List.mapM_cons] at h
  cases h1 : f a with
  | none => simp [h1] at h
  | some y =>
    cases h2 : l.mapM f with
    | none => simp [h1, h2] at h
    | some r' => simp [h1, h2] at h; exact ⟨y, r', rfl, rfl, h.symm⟩

theorem mapM_flatten_mem {α β : Type} (f : α → Option (List β)) (l : List α) (r : List (List β)) (h : l.mapM f = some r) (x : β) :
    x ∈ r.flatten ↔ ∃ a ∈ l, ∃ b, f a = some b ∧ x ∈ b := by
  induction l generalizing r with
  | nil => cases h; simp
  | cons a l ih =>
    obtain ⟨y, r', h1, h2, rfl⟩ := mapM_cons_some f a l r h
    rw [List.flatten_cons, List.mem_append, ih r' h2]
    simp [h1]

/-! ### filling paths -/

/-- where a route ends on station route `r` -/
def endOf (i : Info) : Nat := match i.signals with | [] => i.size | s :: _ => s + 1

/-- the chain `r :: rest` can be appended by `fill_paths` and ends at `stop` -/
def EC (infos : List Info) (g : SRG) : Nat → List Nat → Nat → Prop
  | r, [], stop => ∃ i, infos[r]? = some i ∧ i.etcs = false ∧ canEnd g r i = true ∧ stop = endOf i
  | r, n :: rest, stop => (∃ i, infos[r]? = some i ∧ i.etcs = false ∧ canEnd g r i = false) ∧ n ∈ g.succ r ∧ EC infos g n rest stop

theorem fill_mem (infos : List Info) (g : SRG) (fuel r : Nat) (ir : IR) (res : List IR) (h : fill infos g fuel r ir = some res)
    (x : IR) : x ∈ res ↔ x.start = ir.start ∧ ∃ rest, x.srs = ir.srs ++ r :: rest ∧ EC infos g r rest x.stop := by
  induction fuel generalizing r ir res with
  | zero => simp [fill] at h
  | succ fuel ih =>
    rw [fill] at h
    split at h
    · simp at h
    · rename_i i hi
      have info : ∀ {j}, infos[r]? = some j → j = i := fun hj => by rw [hi] at hj; cases hj; rfl
      by_cases he : i.etcs = true
      · rw [if_pos he] at h
        cases h
        simp only [List.not_mem_nil, false_iff]
        rintro ⟨-, rest, -, hec⟩
        cases rest with
        | nil => obtain ⟨j, h1, h2, -⟩ := hec; rw [info h1, he] at h2; cases h2
        | cons n rest => obtain ⟨⟨j, h1, h2, -⟩, -⟩ := hec; rw [info h1, he] at h2; cases h2
      · rw [if_neg he] at h
        have he' : i.etcs = false := by simpa using he
        by_cases hc : canEnd g r i = true
        · rw [if_pos hc] at h
          cases h
          rw [List.mem_singleton]
          constructor
          · rintro rfl
            exact ⟨rfl, [], rfl, i, hi, he', hc, rfl⟩
          · rintro ⟨h1, rest, h2, hec⟩
            cases rest with
            | nil =>
              obtain ⟨j, hj, -, -, h3⟩ := hec
              rw [info hj] at h3
              obtain ⟨a, b, c⟩ := x
              simp only at h1 h2 h3
              subst h1 h2 h3
              rfl
            | cons n rest => obtain ⟨⟨j, hj, -, h3⟩, -⟩ := hec; rw [info hj, hc] at h3; cases h3
        · rw [if_neg hc] at h
          have hc' : canEnd g r i = false := by simpa using hc
          obtain ⟨rs, h1, rfl⟩ := Option.map_eq_some_iff.1 h
          rw [mapM_flatten_mem _ _ _ h1]
          constructor
          · rintro ⟨n, hn, b, hb, hx⟩
            obtain ⟨h2, rest, h3, h4⟩ := (ih n _ b hb).1 hx
            exact ⟨h2, n :: rest, by rw [h3]; simp, ⟨i, hi, he', hc'⟩, hn, h4⟩
          · rintro ⟨h2, rest, h3, hec⟩
            cases rest with
            | nil => obtain ⟨j, hj, -, h4, -⟩ := hec; rw [info hj, hc'] at h4; cases h4
            | cons n rest =>
              obtain ⟨-, hn, hec⟩ := hec
              have : ∃ b, fill infos g fuel n ⟨ir.start, ir.stop, ir.srs ++ [r]⟩ = some b := by
                obtain ⟨b, hb⟩ := mapM_mem_some _ _ _ h1 n hn
                exact ⟨b, hb⟩
              obtain ⟨b, hb⟩ := this
              exact ⟨n, hn, b, hb, (ih n _ b hb).2 ⟨h2, rest, by rw [h3]; simp, hec⟩⟩
where
  mapM_mem_some {α β : Type} (f : α → Option β) (l : List α) (r : List β) (h : l.mapM f = some r) (x : α) (hx : x ∈ l) :
      ∃ y, f x = some y := by
    induction l generalizing r with
    | nil => cases hx
    | cons a l ih =>
      obtain ⟨y, r', h1, h2, rfl⟩ := mapM_cons_some f a l r h
      rcases List.mem_cons.1 hx with rfl | hx
      · exact ⟨y, h1⟩
      · exact ih r' h2 hx

/-! ### termination -/

theorem Walk.cons' {out : Nat → List Nat} {a b c : Nat} {n : Nat} (h : b ∈ out a) (w : Walk out n b c) : Walk out (n + 1) a c := by
  induction w with
  | nil a' => exact .snoc (.nil _) h
  | snoc w hc ih => exact .snoc (ih h) hc

theorem walk_of_follows {out : Nat → List Nat} (a : Nat) (l : List Nat) (h : Follows out a l) (x : Nat) (hx : x ∈ l) :
    ReachPlus out a x := by
  induction l generalizing a with
  | nil => cases hx
  | cons b l ih =>
    obtain ⟨hb, hl⟩ := h
    rcases List.mem_cons.1 hx with rfl | hx
    · exact ⟨0, .snoc (.nil _) hb⟩
    · obtain ⟨n, w⟩ := ih b hl hx
      exact ⟨n + 1, Walk.cons' hb w⟩

theorem follows_nodup {out : Nat → List Nat} (ha : Acyclic out) (a : Nat) (l : List Nat) (h : Follows out a l) : (a :: l).Nodup := by
  induction l generalizing a with
  | nil => simp
  | cons b l ih =>
    rw [List.nodup_cons]
    exact ⟨fun hm => ha a (walk_of_follows a _ h a hm), ih b h.2⟩

theorem follows_snoc {out : Nat → List Nat} (a : Nat) (l : List Nat) (x : Nat) :
    Follows out a (l ++ [x]) ↔ Follows out a l ∧ x ∈ out ((a :: l).getLast (by simp)) := by
  induction l generalizing a with
  | nil => simp [Follows]
  | cons b l ih => simp [Follows, ih, and_assoc]

theorem fill_some (infos : List Info) (g : SRG) (ha : Acyclic g.succ) (hk : ∀ r s, s ∈ g.succ r → s < infos.length)
    (f : Nat) (hf : f < infos.length) (fuel r : Nat) (ir : IR) (A : List Nat) (hir : ir.srs = f :: A)
    (hfo : Follows g.succ f (A ++ [r])) (hfu : infos.length < fuel + ir.srs.length) :
    ∃ res, fill infos g fuel r ir = some res := by
  have hall : ∀ x ∈ f :: (A ++ [r]), x < infos.length := by
    intro x hx
    rcases List.mem_cons.1 hx with rfl | hx
    · exact hf
    · obtain ⟨n, w⟩ := walk_of_follows f _ hfo x hx
      cases w with
      | snoc _ hm => exact hk _ _ hm
  induction fuel generalizing r ir A with
  | zero =>
    have h1 := follows_nodup ha f _ hfo
    have h2 := OGraph.nodup_length_le _ infos.length h1 hall
    rw [hir] at hfu
    simp at h2 hfu
    omega
  | succ fuel ih =>
    have hr := List.getElem?_eq_getElem (hall r (by simp))
    rw [fill, hr]
    simp only
    split
    · exact ⟨_, rfl⟩
    · split
      · exact ⟨_, rfl⟩
      · obtain ⟨rs, hrs⟩ := mapM_some (fun n => fill infos g fuel n ⟨ir.start, ir.stop, ir.srs ++ [r]⟩) (g.succ r) (by
          intro n hn
          have hfo' : Follows g.succ f ((A ++ [r]) ++ [n]) := by
            rw [follows_snoc]
            refine ⟨hfo, ?_⟩
            have e : (f :: (A ++ [r])).getLast (by simp) = r := by rw [List.getLast_cons (by simp)]; simp
            rw [e]; exact hn
          refine ih n _ (A ++ [r]) (by simp [hir]) hfo' (by simp; omega) ?_
          intro x hx
          simp only [List.mem_cons, List.mem_append, List.not_mem_nil, or_false] at hx
          rcases hx with rfl | (hx | rfl) | rfl
          · exact hf
          · exact hall x (by simp [hx])
          · exact hall x (by simp)
          · exact hk _ _ hn)
        exact ⟨rs.flatten, by rw [hrs]; rfl⟩

theorem getRoutes_some (infos : List Info) (g : SRG) (ha : Acyclic g.succ) (hk : ∀ r s, s ∈ g.succ r → s < infos.length) :
    ∃ l, getRoutes infos g = some l := by
  have : ∀ r ∈ List.range infos.length, ∃ l, routesOf infos g r = some l := by
    intro r hr
    obtain ⟨i, hi⟩ : ∃ i, infos[r]? = some i := ⟨_, List.getElem?_eq_getElem (List.mem_range.1 hr)⟩
    obtain ⟨l, hl⟩ : ∃ l, routesFromSr infos g r i = some l := by
      unfold routesFromSr
      obtain ⟨rs, hrs⟩ := mapM_some (fun n => fill infos g (infos.length + 1) n
          ⟨(i.signals.getLast?).getD 0, i.size, [r]⟩) (g.succ r) (by
        intro n hn
        exact fill_some infos g ha hk r (List.mem_range.1 hr) _ n _ [] rfl ⟨hn, trivial⟩ (by simp; omega))
      exact ⟨_, by simp only [hrs]; rfl⟩
    unfold routesOf
    rw [hi]
    simp only [hl]
    by_cases hc : (canStart g r i && !i.etcs) = true
    · rw [if_pos hc]; exact ⟨_, rfl⟩
    · rw [if_neg hc]; exact ⟨_, rfl⟩
  obtain ⟨l, hl⟩ := mapM_some _ _ this
  exact ⟨l.flatten, by unfold getRoutes; rw [hl]; rfl⟩

/-! ### the generated routes -/

theorem mem_internal (r : Nat) (l : List Nat) (x : IR) :
    x ∈ internal r l ↔ ∃ i a b, l[i]? = some a ∧ l[i + 1]? = some b ∧ x = ⟨a, b + 1, [r]⟩ := by
  induction l with
  | nil => simp [internal]
  | cons a l ih =>
    cases l with
    | nil => simp [internal]
    | cons b l =>
      rw [internal, List.mem_cons, ih]
      constructor
      · rintro (rfl | ⟨i, c, d, h1, h2, h3⟩)
        · exact ⟨0, a, b, rfl, rfl, rfl⟩
        · exact ⟨i + 1, c, d, by simpa using h1, by simpa using h2, h3⟩
      · rintro ⟨i, c, d, h1, h2, h3⟩
        cases i with
        | zero => simp at h1 h2; subst h1 h2; exact .inl h3
        | succ i => exact .inr ⟨i, c, d, by simpa using h1, by simpa using h2, h3⟩

/-- the four ways to generate a route -/
inductive Gen (infos : List Info) (g : SRG) : IR → Prop
  | chain (r n : Nat) (i : Info) (rest : List Nat) (stop : Nat) : infos[r]? = some i → canStart g r i = true → i.etcs = false →
      n ∈ g.succ r → EC infos g n rest stop → Gen infos g ⟨(i.signals.getLast?).getD 0, stop, r :: n :: rest⟩
  | internal (r : Nat) (i : Info) (k a b : Nat) : infos[r]? = some i → i.signals[k]? = some a → i.signals[k + 1]? = some b →
      Gen infos g ⟨a, b + 1, [r]⟩
  | leading (r : Nat) (i : Info) (s : Nat) : infos[r]? = some i → i.signals.head? = some s → g.pred r = [] →
      Gen infos g ⟨0, s + 1, [r]⟩
  | trailing (r : Nat) (i : Info) (s : Nat) : infos[r]? = some i → i.signals.getLast? = some s → g.succ r = [] →
      Gen infos g ⟨s, i.size, [r]⟩

theorem getRoutes_mem (infos : List Info) (g : SRG) (l : List IR) (h : getRoutes infos g = some l) (x : IR) :
    x ∈ l ↔ Gen infos g x := by
  unfold getRoutes at h
  obtain ⟨rs, h1, rfl⟩ := Option.map_eq_some_iff.1 h
  rw [mapM_flatten_mem _ _ _ h1]
  have hsome : ∀ r < infos.length, ∃ b, routesOf infos g r = some b := fun r hr =>
    fill_mem.mapM_mem_some _ _ _ h1 r (List.mem_range.2 hr)
  have key : ∀ r i b, infos[r]? = some i → routesOf infos g r = some b → (x ∈ b ↔
      (canStart g r i = true ∧ i.etcs = false ∧ ∃ n rest, n ∈ g.succ r ∧ EC infos g n rest x.stop ∧
        x.start = (i.signals.getLast?).getD 0 ∧ x.srs = r :: n :: rest) ∨
      (∃ k a b, i.signals[k]? = some a ∧ i.signals[k + 1]? = some b ∧ x = ⟨a, b + 1, [r]⟩) ∨
      (∃ s, i.signals.head? = some s ∧ g.pred r = [] ∧ x = ⟨0, s + 1, [r]⟩) ∨
      (∃ s, i.signals.getLast? = some s ∧ g.succ r = [] ∧ x = ⟨s, i.size, [r]⟩)) := by
    intro r i b hi hb
    unfold routesOf at hb
    rw [hi] at hb
    simp only at hb
    obtain ⟨a, ha, rfl⟩ := Option.map_eq_some_iff.1 hb
    rw [List.mem_append, List.mem_append, List.mem_append, or_assoc, or_assoc]
    have e1 : x ∈ a ↔ (canStart g r i = true ∧ i.etcs = false ∧ ∃ n rest, n ∈ g.succ r ∧ EC infos g n rest x.stop ∧
        x.start = (i.signals.getLast?).getD 0 ∧ x.srs = r :: n :: rest) := by
      by_cases hc : (canStart g r i && !i.etcs) = true
      · rw [if_pos hc] at ha
        simp only [Bool.and_eq_true, Bool.not_eq_true'] at hc
        unfold routesFromSr at ha
        obtain ⟨ys, h2, rfl⟩ := Option.map_eq_some_iff.1 ha
        rw [mapM_flatten_mem _ _ _ h2]
        constructor
        · rintro ⟨n, hn, c, hc', hx⟩
          obtain ⟨h3, rest, h4, h5⟩ := (fill_mem infos g _ _ _ _ hc' x).1 hx
          exact ⟨hc.1, hc.2, n, rest, hn, h5, h3, h4⟩
        · rintro ⟨-, -, n, rest, hn, h3, h4, h5⟩
          obtain ⟨c, hc'⟩ := fill_mem.mapM_mem_some _ _ _ h2 n hn
          exact ⟨n, hn, c, hc', (fill_mem infos g _ _ _ _ hc' x).2 ⟨h4, rest, h5, h3⟩⟩
      · rw [if_neg hc] at ha
        cases ha
        simp only [List.not_mem_nil, false_iff]
        rintro ⟨h2, h3, -⟩
        exact hc (by simp [h2, h3])
    have e2 : (x ∈ if i.signals.length > 1 then internal r i.signals else []) ↔
        ∃ k a b, i.signals[k]? = some a ∧ i.signals[k + 1]? = some b ∧ x = ⟨a, b + 1, [r]⟩ := by
      split
      · exact mem_internal _ _ _
      · rename_i hlen
        simp only [List.not_mem_nil, false_iff]
        rintro ⟨k, a, b, -, hb, -⟩
        have := (List.getElem?_eq_some_iff.1 hb).1
        omega
    rw [e1, e2]
    refine or_congr Iff.rfl (or_congr Iff.rfl (or_congr ?_ ?_))
    · cases hsig : i.signals with
      | nil => simp
      | cons s ss =>
        simp only [List.head?_cons, Option.some.injEq]
        by_cases hp : g.pred r = []
        · simp [hp]
        · simp [hp]
    · cases hsig : i.signals.getLast? with
      | none => simp
      | some s =>
        by_cases hp : g.succ r = []
        · simp [hp]
        · simp [hp]
  constructor
  · rintro ⟨r, hr, b, hb, hx⟩
    have hi := List.getElem?_eq_getElem (List.mem_range.1 hr)
    rcases (key r _ b hi hb).1 hx with ⟨h2, h3, n, rest, h4, h5, h6, h7⟩ | ⟨k, a, b, h2, h3, rfl⟩ | ⟨s, h2, h3, rfl⟩ | ⟨s, h2, h3, rfl⟩
    · obtain ⟨xs, xe, xr⟩ := x
      simp only at h5 h6 h7
      subst h6 h7
      exact .chain r n _ rest xe hi h2 h3 h4 h5
    · exact .internal r _ k a b hi h2 h3
    · exact .leading r _ s hi h2 h3
    · exact .trailing r _ s hi h2 h3
  · intro hg
    have fin : ∀ r i, infos[r]? = some i → ∃ b, routesOf infos g r = some b ∧ r ∈ List.range infos.length := by
      intro r i hi
      have := (List.getElem?_eq_some_iff.1 hi).1
      obtain ⟨b, hb⟩ := hsome r this
      exact ⟨b, hb, List.mem_range.2 this⟩
    cases hg with
    | chain r n i rest stop h2 h3 h4 h5 h6 =>
      obtain ⟨b, hb, hr⟩ := fin r i h2
      exact ⟨r, hr, b, hb, (key r i b h2 hb).2 (.inl ⟨h3, h4, n, rest, h5, h6, rfl, rfl⟩)⟩
    | internal r i k a b' h2 h3 h4 =>
      obtain ⟨b, hb, hr⟩ := fin r i h2
      exact ⟨r, hr, b, hb, (key r i b h2 hb).2 (.inr (.inl ⟨k, a, b', h3, h4, rfl⟩))⟩
    | leading r i s h2 h3 h4 =>
      obtain ⟨b, hb, hr⟩ := fin r i h2
      exact ⟨r, hr, b, hb, (key r i b h2 hb).2 (.inr (.inr (.inl ⟨s, h3, h4, rfl⟩)))⟩
    | trailing r i s h2 h3 h4 =>
      obtain ⟨b, hb, hr⟩ := fin r i h2
      exact ⟨r, hr, b, hb, (key r i b h2 hb).2 (.inr (.inr (.inr ⟨s, h3, h4, rfl⟩)))⟩

end Soro.Interlocking
