import Verif.Proof.ReverseAhead
import Verif.Proof.PathLength
import Verif.Spec.RoutePath
import Verif.Props.ReverseAhead
import Mathlib.Data.Finset.Card
import Mathlib.Data.Finset.Prod

/-! Paths of station routes, see `Model/RoutePath.lean`. -/

namespace Soro.Infra

theorem isSwitch_iff (e : Elem) : e.isSwitch = decide (Decides e) := by
  rw [Bool.eq_iff_iff, decide_eq_true_iff]
  unfold Elem.isSwitch Decides
  simp

/-- steps from decision `k` on -/
def Steps (L : Links) (el : Nat → Elem) (course : List Bool) (k : Nat) (l : List Node) : Prop :=
  ∀ (i : Nat) n m, l[i]? = some n → l[i + 1]? = some m → Step L course (k + passed el (l.take i)) n m

theorem passed_cons (el : Nat → Elem) (n : Node) (l : List Node) :
    passed el (n :: l) = (if (el n.1).isSwitch then 1 else 0) + passed el l := by
  unfold passed
  rw [List.countP_cons, isSwitch_iff, Nat.add_comm]

theorem passed_append (el : Nat → Elem) (l r : List Node) : passed el (l ++ r) = passed el l + passed el r := List.countP_append

theorem steps_cons {L : Links} {el : Nat → Elem} {course : List Bool} {k : Nat} {n m : Node} {l : List Node} :
    Steps L el course k (n :: m :: l) ↔ Step L course k n m ∧ Steps L el course (k + if (el n.1).isSwitch then 1 else 0) (m :: l) := by
  constructor
  · intro h
    refine ⟨by simpa [passed] using h 0 n m rfl rfl, ?_⟩
    intro i a b ha hb
    have := h (i + 1) a b ha hb
    rw [List.take_succ_cons, passed_cons, ← Nat.add_assoc] at this
    exact this
  · rintro ⟨h1, h2⟩ i a b ha hb
    cases i with
    | zero =>
      injection ha with ha
      injection hb with hb
      subst ha hb
      simpa [passed] using h1
    | succ i =>
      have := h2 i a b ha hb
      rw [List.take_succ_cons, passed_cons, ← Nat.add_assoc]
      exact this

theorem steps_one {L : Links} {el : Nat → Elem} {course : List Bool} {k : Nat} {n : Node} : Steps L el course k [n] := by
  intro i a b ha hb
  simp at hb

theorem steps_drop {L : Links} {el : Nat → Elem} {course : List Bool} {k : Nat} {l : List Node} (h : Steps L el course k l) (a : Nat) :
    Steps L el course (k + passed el (l.take a)) (l.drop a) := by
  intro i n m hn hm
  rw [List.getElem?_drop] at hn hm
  have := h (a + i) n m hn (by rw [← hm]; congr 1)
  rw [List.take_add, passed_append, ← Nat.add_assoc] at this
  exact this

theorem steps_take {L : Links} {el : Nat → Elem} {course : List Bool} {k : Nat} {l : List Node} (h : Steps L el course k l) (c : Nat) :
    Steps L el course k (l.take c) := by
  intro i n m hn hm
  rw [List.getElem?_take] at hn hm
  split at hn
  · split at hm
    · have := h i n m hn hm
      rw [List.take_take, Nat.min_eq_left (by omega)]
      exact this
    · cases hm
  · cases hn

theorem getPath_follows {L : Links} {el : Nat → Elem} {course : List Bool} {last : Node} : ∀ (fuel : Nat) (s : Node) (k : Nat) (nodes : List Node),
    getPath L el course last fuel (some s) k = .ok nodes →
    ∃ t, nodes = s :: t ∧ nodes.getLast? = some last ∧ last ∉ nodes.dropLast ∧ Steps L el course k nodes
  | 0, s, k, nodes, h => by simp [getPath] at h
  | fuel + 1, s, k, nodes, h => by
    unfold getPath at h
    by_cases he : s = last
    · rw [if_pos he] at h
      injection h with h
      subst h he
      exact ⟨[], rfl, rfl, by simp, steps_one⟩
    · rw [if_neg he] at h
      dsimp only at h
      have key : ∀ m, (getPath L el course last fuel m (k + if (el s.1).isSwitch then 1 else 0)).cons s = .ok nodes →
          (∀ m', m = some m' → Step L course k s m') →
          ∃ t, nodes = s :: t ∧ nodes.getLast? = some last ∧ last ∉ nodes.dropLast ∧ Steps L el course k nodes := by
        intro m hm hs
        cases hg : getPath L el course last fuel m (k + if (el s.1).isSwitch then 1 else 0) with
        | ok l =>
          rw [hg] at hm
          injection hm with hm
          cases m with
          | none =>
            cases fuel with
            | zero => simp [getPath] at hg
            | succ f => simp [getPath] at hg
          | some m' =>
            obtain ⟨t, rfl, h1, h2, h3⟩ := getPath_follows fuel m' _ l hg
            refine ⟨m' :: t, hm.symm, ?_, ?_, ?_⟩
            · rw [← hm, List.getLast?_cons_cons]; exact h1
            · rw [← hm, List.dropLast_cons_cons, List.mem_cons]
              rintro (e | e)
              · exact he e.symm
              · exact h2 e
            · rw [← hm]
              exact steps_cons.2 ⟨hs m' rfl, h3⟩
        | fail => rw [hg] at hm; cases hm
        | ub => rw [hg] at hm; cases hm
        | running => rw [hg] at hm; cases hm
      cases hb : L.branch s with
      | none =>
        rw [hb] at h
        exact key _ h fun m' hm' => Or.inl ⟨hb, hm'⟩
      | some b =>
        rw [hb] at h
        dsimp only at h
        cases hc : course[k]? with
        | none => rw [hc] at h; cases h
        | some c =>
          rw [hc] at h
          cases c
          · exact key _ h fun m' hm' => Or.inr ⟨b, hb, Or.inr ⟨hc, (Option.some.inj hm').symm⟩⟩
          · exact key _ h fun m' hm' => Or.inr ⟨b, hb, Or.inl ⟨hc, hm'⟩⟩

theorem follows_getPath {L : Links} {el : Nat → Elem} {course : List Bool} {last : Node} : ∀ (t : List Node) (s : Node) (k fuel : Nat),
    (s :: t).getLast? = some last → last ∉ (s :: t).dropLast → Steps L el course k (s :: t) → t.length < fuel →
    getPath L el course last fuel (some s) k = .ok (s :: t)
  | _, _, _, 0, _, _, _, h => by omega
  | [], s, k, fuel + 1, h1, _, _, _ => by
    have h1 : s = last := by simpa using h1
    unfold getPath
    rw [if_pos h1]
  | m :: t, s, k, fuel + 1, h1, h2, h3, h4 => by
    rw [List.dropLast_cons_cons, List.mem_cons, not_or] at h2
    rw [List.getLast?_cons_cons] at h1
    obtain ⟨h5, h6⟩ := steps_cons.1 h3
    have ih := follows_getPath t m _ fuel h1 h2.2 h6 (by simp at h4; omega)
    unfold getPath
    rw [if_neg (fun e => h2.1 e.symm)]
    dsimp only
    rcases h5 with ⟨e1, e2⟩ | ⟨b, e1, ⟨e2, e3⟩ | ⟨e2, e3⟩⟩
    · rw [e1, e2]; dsimp only; rw [ih]; rfl
    · rw [e1]; dsimp only; rw [e2]; dsimp only; rw [e3, ih]; rfl
    · rw [e1]; dsimp only; rw [e2]; dsimp only; rw [← e3, ih]; rfl

/-! ### termination -/

/-- one round of `get_path`: the state is the node and the number of decisions used, at most all of them -/
def pathStep (L : Links) (el : Nat → Elem) (course : List Bool) (last : Node) (x : Option Node × Nat) : Option (Option Node × Nat) :=
  match x.1 with
  | none => none
  | some n =>
    if n = last then none
    else
      let k := min (x.2 + if (el n.1).isSwitch then 1 else 0) course.length
      match L.branch n with
      | none => some (L.next n, k)
      | some b =>
        match course[x.2]? with
        | none => none
        | some true => some (L.next n, k)
        | some false => some (some b, k)

/-- `f` rounds -/
def iter {α : Type} (f : α → Option α) : Nat → α → Option α
  | 0, x => some x
  | k + 1, x => (iter f k x).bind f

theorem iter_add {α : Type} (f : α → Option α) (x : α) (a : Nat) : ∀ b, iter f (a + b) x = (iter f a x).bind (iter f b)
  | 0 => by simp [iter]
  | b + 1 => by
    rw [← Nat.add_assoc, iter, iter_add f x a b, Option.bind_assoc]
    rfl

theorem iter_le {α : Type} {f : α → Option α} {x : α} {a b : Nat} (h : a ≤ b) (hb : iter f b x ≠ none) : iter f a x ≠ none := by
  obtain ⟨c, rfl⟩ := Nat.exists_eq_add_of_le h
  rw [iter_add] at hb
  intro e
  rw [e] at hb
  exact hb rfl

/-- a state that is met twice is met for ever -/
theorem iter_loop {α : Type} {f : α → Option α} {x y : α} {i d : Nat} (hd : 0 < d) (h1 : iter f i x = some y) (h2 : iter f d y = some y) :
    ∀ k, iter f k x ≠ none := by
  have key : ∀ c, iter f (i + c * d) x = some y := by
    intro c
    induction c with
    | zero => simpa using h1
    | succ c ih =>
      rw [Nat.succ_mul, ← Nat.add_assoc, iter_add, ih]
      exact h2
  intro k
  refine iter_le (b := i + k * d) ?_ (by rw [key k]; simp)
  have : k ≤ k * d := Nat.le_mul_of_pos_right k hd
  omega

theorem iter_bound {α : Type} {f : α → Option α} {x : α} (S : Finset α) (hS : ∀ y, f y ≠ none → y ∈ S)
    (h : iter f (S.card + 1) x ≠ none) : ∀ k, iter f k x ≠ none := by
  classical
  have hdef : ∀ i, i ≤ S.card → ∃ y, iter f i x = some y ∧ y ∈ S := by
    intro i hi
    have := iter_le (a := i + 1) (by omega) h
    cases hy : iter f i x with
    | none => rw [iter, hy] at this; exact absurd rfl this
    | some y =>
      rw [iter, hy] at this
      exact ⟨y, rfl, hS y this⟩
  let F : Nat → α := fun i => (iter f i x).getD x
  obtain ⟨i, hi, j, hj, hne, he⟩ := Finset.exists_ne_map_eq_of_card_lt_of_maps_to (s := Finset.range (S.card + 1)) (t := S) (f := F)
    (by simp) (by
      intro i hi
      obtain ⟨y, h1, h2⟩ := hdef i (by simpa [Nat.lt_succ_iff] using hi)
      simpa [F, h1] using h2)
  have main : ∀ i j, i < j → j ≤ S.card → F i = F j → ∀ k, iter f k x ≠ none := by
    intro i j hij hj he
    obtain ⟨y, h1, _⟩ := hdef i (by omega)
    obtain ⟨y', h1', _⟩ := hdef j hj
    have : y = y' := by simpa [F, h1, h1'] using he
    subst this
    refine iter_loop (d := j - i) (by omega) h1 ?_
    have := iter_add f x i (j - i)
    rw [show i + (j - i) = j by omega, h1, h1'] at this
    exact this.symm
  simp only [Finset.mem_range] at hi hj
  rcases Nat.lt_or_gt_of_ne hne with hlt | hlt
  · exact main i j hlt (by omega) he
  · exact main j i hlt (by omega) he.symm

theorem getPath_running {L : Links} {el : Nat → Elem} {course : List Bool} {last : Node} : ∀ (fuel : Nat) (s : Option Node) (k : Nat),
    getPath L el course last fuel s k = .running ↔ iter (pathStep L el course last) fuel (s, min k course.length) ≠ none := by
  have cons_running : ∀ (n : Node) r, PathRes.cons n r = .running ↔ r = .running := by intro n r; cases r <;> simp [PathRes.cons]
  intro fuel
  induction fuel with
  | zero => intro s k; simp [getPath, iter]
  | succ fuel ih =>
    intro s k
    rw [Nat.add_comm fuel 1, iter_add, Nat.add_comm 1 fuel]
    have h1 : iter (pathStep L el course last) 1 (s, min k course.length) = pathStep L el course last (s, min k course.length) := by simp [iter]
    rw [h1]
    cases s with
    | none => simp [getPath, pathStep]
    | some n =>
      unfold getPath pathStep
      by_cases he : n = last
      · simp [he]
      · simp only [he, if_false]
        have hk : min (min k course.length + if (el n.1).isSwitch then 1 else 0) course.length =
            min (k + if (el n.1).isSwitch then 1 else 0) course.length := by omega
        have hc : course[min k course.length]? = course[k]? := by
          by_cases hl : k ≤ course.length
          · rw [Nat.min_eq_left hl]
          · rw [Nat.min_eq_right (by omega), List.getElem?_eq_none (by omega), List.getElem?_eq_none (by omega)]
        rw [hk, hc]
        cases L.branch n with
        | none => simp only [cons_running, Option.bind_some]; exact ih _ _
        | some b =>
          cases course[k]? with
          | none => simp
          | some c =>
            cases c
            · simp only [cons_running, Option.bind_some]; exact ih _ _
            · simp only [cons_running, Option.bind_some]; exact ih _ _

/-! ### identical paths -/

/-- why the search stops -/
def Stop (L : Links) (course : List Bool) (n : Node) (k : Nat) : PathRes → Prop
  | .fail => L.next n = none ∧ (L.branch n = none ∨ course[k]? = some true)
  | .ub => L.branch n ≠ none ∧ course[k]? = none
  | _ => False

theorem cons_stop {n : Node} {r q : PathRes} (hq : q = .fail ∨ q = .ub) : PathRes.cons n r = q ↔ r = q := by
  rcases hq with rfl | rfl <;> cases r <;> simp [PathRes.cons]

theorem getPath_none {L : Links} {el : Nat → Elem} {course : List Bool} {last : Node} {fuel k : Nat} {q : PathRes} (hq : q = .fail ∨ q = .ub)
    (h : getPath L el course last fuel none k = q) : q = .fail := by
  cases fuel with
  | zero => rcases hq with rfl | rfl <;> simp [getPath] at h
  | succ f => simp [getPath] at h; exact h.symm

/-- one more node -/
theorem stop_cons {L : Links} {el : Nat → Elem} {course : List Bool} {last : Node} {q : PathRes} {s m : Node} {k : Nat} (he : s ≠ last)
    (hst : Step L course k s m)
    (h : ∃ t n, (m :: t).getLast? = some n ∧ last ∉ m :: t ∧ Steps L el course (k + if (el s.1).isSwitch then 1 else 0) (m :: t) ∧
      Stop L course n (k + (if (el s.1).isSwitch then 1 else 0) + passed el (m :: t).dropLast) q) :
    ∃ t n, (s :: t).getLast? = some n ∧ last ∉ s :: t ∧ Steps L el course k (s :: t) ∧ Stop L course n (k + passed el (s :: t).dropLast) q := by
  obtain ⟨t, n, h1, h2, h3, h4⟩ := h
  refine ⟨m :: t, n, by rw [List.getLast?_cons_cons]; exact h1, ?_, steps_cons.2 ⟨hst, h3⟩, ?_⟩
  · rw [List.mem_cons, not_or]; exact ⟨Ne.symm he, h2⟩
  · rw [List.dropLast_cons_of_ne_nil (by simp), passed_cons, ← Nat.add_assoc]
    exact h4

theorem getPath_stop {L : Links} {el : Nat → Elem} {course : List Bool} {last : Node} {q : PathRes} (hq : q = .fail ∨ q = .ub) :
    ∀ (fuel : Nat) (s : Node) (k : Nat), getPath L el course last fuel (some s) k = q →
    ∃ t n, (s :: t).getLast? = some n ∧ last ∉ s :: t ∧ Steps L el course k (s :: t) ∧ Stop L course n (k + passed el (s :: t).dropLast) q
  | 0, s, k, h => by rcases hq with rfl | rfl <;> simp [getPath] at h
  | fuel + 1, s, k, h => by
    unfold getPath at h
    by_cases he : s = last
    · rw [if_pos he] at h
      rcases hq with rfl | rfl <;> cases h
    rw [if_neg he] at h
    dsimp only at h
    have here : Stop L course s k q →
        ∃ t n, (s :: t).getLast? = some n ∧ last ∉ s :: t ∧ Steps L el course k (s :: t) ∧ Stop L course n (k + passed el (s :: t).dropLast) q :=
      fun hs => ⟨[], s, rfl, by simpa using Ne.symm he, steps_one, by simpa [passed] using hs⟩
    cases hb : L.branch s with
    | none =>
      rw [hb] at h
      simp only [cons_stop hq] at h
      cases hn : L.next s with
      | none =>
        rw [hn] at h
        obtain rfl := getPath_none hq h
        exact here ⟨hn, Or.inl hb⟩
      | some m =>
        rw [hn] at h
        exact stop_cons he (Or.inl ⟨hb, hn⟩) (getPath_stop hq fuel m _ h)
    | some b =>
      rw [hb] at h
      dsimp only at h
      cases hc : course[k]? with
      | none =>
        rw [hc] at h
        dsimp only at h
        rw [← h] at here ⊢
        exact here ⟨by simp [hb], hc⟩
      | some d =>
        rw [hc] at h
        cases d with
        | true =>
          simp only [cons_stop hq] at h
          cases hn : L.next s with
          | none =>
            rw [hn] at h
            obtain rfl := getPath_none hq h
            exact here ⟨hn, Or.inr hc⟩
          | some m =>
            rw [hn] at h
            exact stop_cons he (Or.inr ⟨b, hb, Or.inl ⟨hc, hn⟩⟩) (getPath_stop hq fuel m _ h)
        | false =>
          simp only [cons_stop hq] at h
          exact stop_cons he (Or.inr ⟨b, hb, Or.inr ⟨hc, rfl⟩⟩) (getPath_stop hq fuel b _ h)

theorem stop_getPath {L : Links} {el : Nat → Elem} {course : List Bool} {last : Node} {q : PathRes} (hq : q = .fail ∨ q = .ub) :
    ∀ (t : List Node) (s n : Node) (k : Nat), (s :: t).getLast? = some n → last ∉ s :: t → Steps L el course k (s :: t) →
      Stop L course n (k + passed el (s :: t).dropLast) q → getPath L el course last (t.length + 2) (some s) k = q
  | [], s, n, k, h1, h2, _, h4 => by
    obtain rfl : s = n := by simpa using h1
    have he : s ≠ last := by rintro rfl; simp at h2
    have h4 : Stop L course s k q := by simpa [passed] using h4
    unfold getPath
    rw [if_neg he]
    dsimp only
    rcases hq with rfl | rfl
    · obtain ⟨h5, h6⟩ := h4
      cases hb : L.branch s with
      | none => simp [h5, getPath, PathRes.cons]
      | some b =>
        rw [hb] at h6
        simp at h6
        simp [h6, h5, getPath, PathRes.cons]
    · obtain ⟨h5, h6⟩ := h4
      obtain ⟨b, hb⟩ := Option.ne_none_iff_exists'.1 h5
      simp [hb, h6]
  | m :: t, s, n, k, h1, h2, h3, h4 => by
    rw [List.getLast?_cons_cons] at h1
    rw [List.mem_cons, not_or] at h2
    rw [List.dropLast_cons_of_ne_nil (by simp), passed_cons, ← Nat.add_assoc] at h4
    obtain ⟨hst, h3⟩ := steps_cons.1 h3
    have ih := stop_getPath hq t m n _ h1 h2.2 h3 h4
    show getPath L el course last (t.length + 2 + 1) (some s) k = q
    unfold getPath
    rw [if_neg (Ne.symm h2.1)]
    dsimp only
    rcases hst with ⟨hb, hn⟩ | ⟨b, hb, ⟨hc, hn⟩ | ⟨hc, rfl⟩⟩
    · simp only [hb, hn, cons_stop hq]; exact ih
    · simp only [hb, hc, hn, cons_stop hq]; exact ih
    · simp only [hb, hc, cons_stop hq]; exact ih

theorem getPath_gets {L : Links} {el : Nat → Elem} {course : List Bool} {s last : Node} {q : PathRes} (hq : q = .fail ∨ q = .ub) :
    (∃ fuel, getPath L el course last fuel (some s) 0 = q) ↔ ∃ n k, Gets L el course s last n k ∧ Stop L course n k q := by
  constructor
  · rintro ⟨fuel, h⟩
    obtain ⟨t, n, h1, h2, h3, h4⟩ := getPath_stop hq fuel s 0 h
    refine ⟨n, _, ⟨s :: t, rfl, h1, h2, rfl, ?_⟩, by simpa using h4⟩
    intro i u v hu hv
    simpa using h3 i u v hu hv
  · rintro ⟨n, k, ⟨nodes, h1, h2, h3, rfl, h5⟩, h6⟩
    cases nodes with
    | nil => cases h1
    | cons a t =>
      obtain rfl : a = s := by simpa using h1
      refine ⟨_, stop_getPath hq t a n 0 h2 h3 ?_ (by simpa using h6)⟩
      intro i u v hu hv
      simpa using h5 i u v hu hv

/-- the search does not end, if it has not ended in as many rounds as there are nodes and decisions -/
theorem getPath_bound {L : Links} {el : Nat → Elem} {course : List Bool} {last s : Node} {nodes : List Node} (hn : AllNodes L nodes)
    (h : getPath L el course last (nodes.length * (course.length + 1) + 2) (some s) 0 = .running) (fuel : Nat) :
    getPath L el course last fuel (some s) 0 = .running := by
  classical
  let f : Option Node × Nat → Option (Option Node × Nat) := fun x =>
    if x.2 ≤ course.length then (pathStep L el course last x).bind fun y => if y.1 = none then none else some y else none
  have hsnd : ∀ x y, pathStep L el course last x = some y → y.2 ≤ course.length := by
    intro x y hy
    unfold pathStep at hy
    cases hx : x.1 with
    | none => rw [hx] at hy; cases hy
    | some n =>
      rw [hx] at hy
      dsimp only at hy
      split at hy
      · cases hy
      · split at hy
        · injection hy with hy; rw [← hy]; exact Nat.min_le_right _ _
        · split at hy
          · cases hy
          · injection hy with hy; rw [← hy]; exact Nat.min_le_right _ _
          · injection hy with hy; rw [← hy]; exact Nat.min_le_right _ _
  have sub : ∀ (k : Nat) x y, iter f k x = some y → iter (pathStep L el course last) k x = some y := by
    intro k
    induction k with
    | zero => intro x y h; exact h
    | succ k ih =>
      intro x y h
      unfold iter at h ⊢
      obtain ⟨z, hz, hy⟩ := Option.bind_eq_some_iff.1 h
      rw [ih x z hz, Option.bind_some]
      simp only [f] at hy
      split at hy
      · obtain ⟨y', hy', e⟩ := Option.bind_eq_some_iff.1 hy
        split at e
        · cases e
        · rw [hy', ← e]
      · cases hy
  have snd : ∀ (k : Nat) (x y : Option Node × Nat), x.2 ≤ course.length → iter (pathStep L el course last) k x = some y → y.2 ≤ course.length := by
    intro k
    cases k with
    | zero => intro x y hx h; injection h with h; rw [← h]; exact hx
    | succ k =>
      intro x y _ h
      obtain ⟨z, _, hy⟩ := Option.bind_eq_some_iff.1 h
      exact hsnd z y hy
  have sup : ∀ (k : Nat) (x : Option Node × Nat), x.2 ≤ course.length → iter (pathStep L el course last) (k + 1) x ≠ none →
      iter f k x = iter (pathStep L el course last) k x := by
    intro k
    induction k with
    | zero => intro x _ _; rfl
    | succ k ih =>
      intro x hx h
      have hk := ih x hx (iter_le (Nat.le_succ _) h)
      unfold iter
      rw [hk]
      cases hz : iter (pathStep L el course last) k x with
      | none => rfl
      | some z =>
        have hz2 := snd k x z hx hz
        simp only [Option.bind_some, f, if_pos hz2]
        cases hy : pathStep L el course last z with
        | none => rfl
        | some y =>
          simp only [Option.bind_some]
          rw [if_neg]
          intro e
          apply h
          have e2 : iter (pathStep L el course last) (k + 1) x = some y := by
            show (iter (pathStep L el course last) k x).bind _ = _
            rw [hz, Option.bind_some, hy]
          show (iter (pathStep L el course last) (k + 1) x).bind _ = _
          rw [e2, Option.bind_some]
          unfold pathStep
          rw [e]
  have h1 := (getPath_running _ _ _).1 h
  have hx : min 0 course.length ≤ course.length := Nat.min_le_right _ _
  let S : Finset (Option Node × Nat) := (nodes.map some).toFinset ×ˢ Finset.range (course.length + 1)
  have hcard : S.card ≤ nodes.length * (course.length + 1) := by
    simp only [S]
    rw [Finset.card_product, Finset.card_range]
    refine Nat.mul_le_mul_right _ ?_
    have := List.toFinset_card_le (nodes.map some)
    rwa [List.length_map] at this
  have hS : ∀ y, f y ≠ none → y ∈ S := by
    rintro ⟨y1, y2⟩ hy
    simp only [f] at hy
    split at hy
    · rename_i hle
      obtain ⟨z, hz⟩ := Option.ne_none_iff_exists'.1 hy
      obtain ⟨z', hz', e⟩ := Option.bind_eq_some_iff.1 hz
      split at e
      · cases e
      rename_i hne
      refine Finset.mem_product.2 ⟨?_, Finset.mem_range.2 (by show y2 < _; exact Nat.lt_succ_of_le hle)⟩
      unfold pathStep at hz'
      cases y1 with
      | none => cases hz'
      | some n =>
        dsimp only at hz'
        have : ∃ m, L.Pred n m := by
          split at hz'
          · cases hz'
          · split at hz'
            · injection hz' with hz'
              rw [← hz'] at hne
              obtain ⟨m, hm⟩ := Option.ne_none_iff_exists'.1 hne
              exact ⟨m, Or.inl hm⟩
            · rename_i b hb
              exact ⟨b, Or.inr hb⟩
        obtain ⟨m, hm⟩ := this
        simp only [List.mem_toFinset, List.mem_map]
        exact ⟨n, hn.all n m hm, rfl⟩
    · exact absurd rfl hy
  have h2 : iter f (S.card + 1) (some s, min 0 course.length) ≠ none := by
    rw [sup _ _ hx (iter_le (by omega) h1)]
    exact iter_le (by omega) h1
  have h3 := iter_bound S hS h2 fuel
  obtain ⟨y, hy⟩ := Option.ne_none_iff_exists'.1 h3
  rw [getPath_running, sub _ _ _ hy]
  simp

theorem mem_relevant {r : IRoute} {x : Nat} : x ∈ r.relevant ↔ (x, Ty.mainSignal) ∈ r.omitted := by
  unfold IRoute.relevant
  simp

theorem samePath_iff {a b : IRoute} : samePath a b = true ↔ SamePath a b := by
  unfold samePath SamePath sameSet
  simp only [Bool.and_eq_true, decide_eq_true_eq, List.all_eq_true, List.contains_iff_mem, ← mem_relevant]
  constructor
  · rintro ⟨⟨⟨h1, h2⟩, h3⟩, h4, h5⟩
    exact ⟨h1, h2, h3, fun x => ⟨h4 x, h5 x⟩⟩
  · rintro ⟨h1, h2, h3, h4⟩
    exact ⟨⟨⟨h1, h2⟩, h3⟩, fun x => (h4 x).1, fun x => (h4 x).2⟩

theorem SamePath.symm {a b : IRoute} (h : SamePath a b) : SamePath b a := ⟨h.1.symm, h.2.1.symm, h.2.2.1.symm, fun x => (h.2.2.2 x).symm⟩
theorem SamePath.trans {a b c : IRoute} (h : SamePath a b) (h' : SamePath b c) : SamePath a c :=
  ⟨h.1.trans h'.1, h.2.1.trans h'.2.1, h.2.2.1.trans h'.2.2.1, fun x => (h.2.2.2 x).trans (h'.2.2.2 x)⟩
theorem SamePath.refl (a : IRoute) : SamePath a a := ⟨rfl, rfl, rfl, fun _ => Iff.rfl⟩

theorem mapM_mem {α β : Type} {f : α → Option β} : ∀ {l : List α} {r : List β}, l.mapM f = some r → ∀ y, y ∈ r ↔ ∃ x ∈ l, f x = some y
  | [], r, h, y => by
    simp at h
    simp [h]
  | a :: l, r, h, y => by
    rw [List.mapM_cons] at h
    cases ha : f a with
    | none => rw [ha] at h; cases h
    | some b =>
      cases hl : l.mapM f with
      | none => rw [ha, hl] at h; cases h
      | some t =>
        rw [ha, hl] at h
        injection h with h
        rw [← h, List.mem_cons, mapM_mem hl]
        simp only [List.mem_cons, exists_eq_or_imp, ha, Option.some.injEq]
        constructor
        · rintro (e | e)
          · exact Or.inl e.symm
          · exact Or.inr e
        · rintro (e | e)
          · exact Or.inl e.symm
          · exact Or.inr e

theorem mapM_none {f : Nat → Option Nat} : ∀ {l : List Nat}, l.mapM f = none ↔ ∃ x ∈ l, f x = none
  | [] => by simp
  | a :: l => by
    rw [List.mapM_cons]
    simp only [List.mem_cons, exists_eq_or_imp]
    cases ha : f a with
    | none => simp
    | some b =>
      have ih := mapM_none (f := f) (l := l)
      cases hl : l.mapM f with
      | none => simp [← ih, hl]
      | some t =>
        rw [hl] at ih
        simp at ih
        simp
        exact ih

theorem newPath_congr (L : Links) (el : Nat → Elem) (rp : Nat → Option Nat) (fuel : Nat) {a b : IRoute} (h : SamePath a b) :
    newPath L el rp fuel a = newPath L el rp fuel b := by
  obtain ⟨h1, h2, h3, h4⟩ := h
  have hm : ∀ nodes, mainSignals el rp a nodes = mainSignals el rp b nodes := by
    intro nodes
    unfold mainSignals
    have hr : ∀ x, x ∈ a.relevant ↔ x ∈ b.relevant := fun x => by rw [mem_relevant, mem_relevant]; exact h4 x
    cases ha : a.relevant.mapM rp with
    | none =>
      obtain ⟨x, hx, hn⟩ := mapM_none.1 ha
      rw [mapM_none.2 ⟨x, (hr x).1 hx, hn⟩]
    | some ra =>
      cases hb : b.relevant.mapM rp with
      | none =>
        obtain ⟨x, hx, hn⟩ := mapM_none.1 hb
        rw [mapM_none.2 ⟨x, (hr x).2 hx, hn⟩] at ha
        cases ha
      | some rb =>
        have hab : ∀ y, y ∈ ra ↔ y ∈ rb := fun y => by
          rw [mapM_mem ha, mapM_mem hb]
          exact ⟨fun ⟨x, hx, e⟩ => ⟨x, (hr x).1 hx, e⟩, fun ⟨x, hx, e⟩ => ⟨x, (hr x).2 hx, e⟩⟩
        have hc : ∀ n : Node, (ra.map fun e => ((e, 0) : Node)).contains n = (rb.map fun e => ((e, 0) : Node)).contains n := by
          intro n
          rw [Bool.eq_iff_iff]
          simp only [List.contains_iff_mem, List.mem_map, hab]
        simp only [Option.map_some, hc]
  unfold newPath
  rw [h1, h2, h3]
  simp only [hm]

/-- state of the loop after the routes `done` -/
structure DedupInv {α : Type} (rp : Nat → Option Nat) (make : IRoute → Option α) (done : List IRoute) (st : Dedup α) : Prop where
  len : st.ids.length = done.length
  made : ∀ (i : Nat) r, done[i]? = some r → ∃ k a, st.ids[i]? = some k ∧ st.store[k]? = some a ∧ make r = some a
  same : ∀ (i j : Nat) r r', done[i]? = some r → done[j]? = some r' → (st.ids[i]? = st.ids[j]? ↔ SamePath r r')
  known : ∀ s, ∀ p ∈ st.known s, ∃ r, done[p.1]? = some r ∧ st.ids[p.1]? = some p.2
  all : ∀ (i : Nat) r s, done[i]? = some r → rp r.start = some s → ∃ p ∈ st.known s, st.ids[i]? = some p.2
  used : ∀ k, k < st.store.length → ∃ i : Nat, st.ids[i]? = some k

theorem DedupInv.step {α : Type} {rp : Nat → Option Nat} {make : IRoute → Option α} (hmake : ∀ a b, SamePath a b → make a = make b)
    {done rest : List IRoute} {r : IRoute} {st st' : Dedup α} (h : DedupInv rp make done st)
    (hs : dedupStep rp make (done ++ r :: rest) st r = some st') : DedupInv rp make (done ++ [r]) st' := by
  unfold dedupStep at hs
  cases hrp : rp r.start with
  | none => rw [hrp] at hs; cases hs
  | some s =>
    rw [hrp, Option.bind_some] at hs
    have hlt : ∀ {i : Nat} {q}, done[i]? = some q → i < done.length := fun e => (List.getElem?_eq_some_iff.1 e).1
    have hold : ∀ {i : Nat} {q}, done[i]? = some q → (done ++ r :: rest)[i]? = some q := fun e => by
      rw [List.getElem?_append_left (hlt e)]; exact e
    have idlt : ∀ {i : Nat} {k}, st.ids[i]? = some k → i < done.length := fun e => by
      rw [← h.len]; exact (List.getElem?_eq_some_iff.1 e).1
    have split : ∀ {i : Nat} {q}, (done ++ [r])[i]? = some q → done[i]? = some q ∨ i = done.length ∧ q = r := by
      intro i q e
      by_cases hi : i < done.length
      · rw [List.getElem?_append_left hi] at e; exact Or.inl e
      · rw [List.getElem?_append_right (by omega)] at e
        cases hd : i - done.length with
        | zero => rw [hd] at e; simp at e; exact Or.inr ⟨by omega, e.symm⟩
        | succ n => rw [hd] at e; simp at e
    have app : ∀ (x : Nat) {i : Nat} {k}, st.ids[i]? = some k → (st.ids ++ [x])[i]? = some k := fun x {i k} e => by
      rw [List.getElem?_append_left (by rw [h.len]; exact idlt e)]; exact e
    have new : ∀ x : Nat, (st.ids ++ [x])[done.length]? = some x := fun x => by
      rw [← h.len, List.getElem?_append_right (Nat.le_refl _)]; simp
    cases hf : (st.known s).find? fun p => ((done ++ r :: rest)[p.1]?).any fun q => samePath q r with
    | some p =>
      rw [hf] at hs
      injection hs with hs
      subst hs
      have hp := List.mem_of_find?_eq_some hf
      have hq := List.find?_some hf
      obtain ⟨q, q1, q2⟩ := h.known s p hp
      rw [hold q1] at hq
      have hqr : SamePath q r := samePath_iff.1 (by simpa using hq)
      obtain ⟨k, a, m1, m2, m3⟩ := h.made _ _ q1
      rw [q2] at m1
      injection m1 with m1
      refine ⟨by simp [h.len], ?_, ?_, ?_, ?_, ?_⟩
      · intro i x e
        rcases split e with e | ⟨rfl, rfl⟩
        · obtain ⟨k, a, e1, e2, e3⟩ := h.made i x e
          exact ⟨k, a, app _ e1, e2, e3⟩
        · exact ⟨p.2, a, new _, by rw [m1]; exact m2, by rw [← m3]; exact (hmake _ _ hqr).symm⟩
      · intro i j x y ei ej
        dsimp only
        rcases split ei with fi | ⟨rfl, rfl⟩ <;> rcases split ej with fj | ⟨rfl, rfl⟩
        · obtain ⟨k1, _, e1, _, _⟩ := h.made i x fi
          obtain ⟨k2, _, e2, _, _⟩ := h.made j y fj
          rw [app _ e1, app _ e2, ← e1, ← e2]
          exact h.same i j x y fi fj
        · obtain ⟨k1, _, e1, _, _⟩ := h.made i x fi
          rw [app _ e1, new, ← e1, ← q2, h.same i p.1 x q fi q1]
          exact ⟨fun e => e.trans hqr, fun e => e.trans hqr.symm⟩
        · obtain ⟨k1, _, e1, _, _⟩ := h.made j y fj
          rw [app _ e1, new, ← e1, ← q2, h.same p.1 j q y q1 fj]
          exact ⟨fun e => hqr.symm.trans e, fun e => hqr.trans e⟩
        · exact ⟨fun _ => SamePath.refl _, fun _ => rfl⟩
      · intro s' p' hp'
        obtain ⟨x, e1, e2⟩ := h.known s' p' hp'
        exact ⟨x, by rw [List.getElem?_append_left (hlt e1)]; exact e1, app _ e2⟩
      · intro i x s' e hx
        rcases split e with e | ⟨rfl, rfl⟩
        · obtain ⟨p', e1, e2⟩ := h.all i x s' e hx
          exact ⟨p', e1, app _ e2⟩
        · rw [hrp] at hx
          injection hx with hx
          subst hx
          exact ⟨p, hp, new _⟩
      · intro k hk
        obtain ⟨i, hi⟩ := h.used k hk
        exact ⟨i, app _ hi⟩
    | none =>
      rw [hf] at hs
      cases hm : make r with
      | none => rw [hm] at hs; cases hs
      | some a =>
        rw [hm] at hs
        injection hs with hs
        subst hs
        have hno : ∀ p ∈ st.known s, ∀ q, done[p.1]? = some q → ¬ SamePath q r := by
          intro p hp q hq hc
          have := List.find?_eq_none.1 hf p hp
          rw [hold hq] at this
          exact this (by simpa using samePath_iff.2 hc)
        have hidlt : ∀ {i : Nat} {k}, st.ids[i]? = some k → k < st.store.length := by
          intro i k e
          obtain ⟨k', a', e1, e2, _⟩ := h.made i _ (List.getElem?_eq_getElem (idlt e))
          rw [e] at e1
          injection e1 with e1
          subst e1
          exact (List.getElem?_eq_some_iff.1 e2).1
        have hdiff : ∀ {i : Nat} {x}, done[i]? = some x → ¬ SamePath x r := by
          intro i x e hc
          obtain ⟨p, e1, e2⟩ := h.all i x s e (by rw [hc.1]; exact hrp)
          obtain ⟨q, e3, e4⟩ := h.known s p e1
          have := (h.same p.1 i q x e3 e).1 (by rw [e4, e2])
          exact hno p e1 q e3 (this.trans hc)
        have stapp : ∀ {k : Nat} {y}, st.store[k]? = some y → (st.store ++ [a])[k]? = some y := fun e => by
          rw [List.getElem?_append_left (List.getElem?_eq_some_iff.1 e).1]; exact e
        refine ⟨by simp [h.len], ?_, ?_, ?_, ?_, ?_⟩
        · intro i x e
          rcases split e with e | ⟨rfl, rfl⟩
          · obtain ⟨k, a, e1, e2, e3⟩ := h.made i x e
            exact ⟨k, a, app _ e1, stapp e2, e3⟩
          · exact ⟨_, a, new _, by simp, hm⟩
        · intro i j x y ei ej
          dsimp only
          rcases split ei with fi | ⟨rfl, rfl⟩ <;> rcases split ej with fj | ⟨rfl, rfl⟩
          · obtain ⟨k1, _, e1, _, _⟩ := h.made i x fi
            obtain ⟨k2, _, e2, _, _⟩ := h.made j y fj
            rw [app _ e1, app _ e2, ← e1, ← e2]
            exact h.same i j x y fi fj
          · obtain ⟨k1, _, e1, _, _⟩ := h.made i x fi
            rw [app _ e1, new]
            have := hidlt e1
            constructor
            · intro e; injection e with e; omega
            · intro e; exact absurd e (hdiff fi)
          · obtain ⟨k1, _, e1, _, _⟩ := h.made j y fj
            rw [app _ e1, new]
            have := hidlt e1
            constructor
            · intro e; injection e with e; omega
            · intro e; exact absurd e.symm (hdiff fj)
          · exact ⟨fun _ => SamePath.refl _, fun _ => rfl⟩
        · intro s' p' hp'
          dsimp only at hp'
          have hold' : p' ∈ st.known s' → ∃ x, (done ++ [r])[p'.1]? = some x ∧ (st.ids ++ [st.store.length])[p'.1]? = some p'.2 := by
            intro hp'
            obtain ⟨x, e1, e2⟩ := h.known s' p' hp'
            exact ⟨x, by rw [List.getElem?_append_left (hlt e1)]; exact e1, app _ e2⟩
          unfold Soro.Infra.set at hp'
          split at hp'
          · rename_i e
            rw [List.mem_append, List.mem_singleton] at hp'
            rcases hp' with hp' | rfl
            · exact hold' (by rw [e]; exact hp')
            · exact ⟨r, by rw [h.len]; simp, by rw [h.len]; exact new _⟩
          · exact hold' hp'
        · intro i x s' e hx
          dsimp only
          rcases split e with e | ⟨rfl, rfl⟩
          · obtain ⟨p', e1, e2⟩ := h.all i x s' e hx
            refine ⟨p', ?_, app _ e2⟩
            unfold Soro.Infra.set
            split
            · rename_i es; rw [es] at e1; exact List.mem_append_left _ e1
            · exact e1
          · rw [hrp] at hx
            injection hx with hx
            subst hx
            exact ⟨_, by unfold Soro.Infra.set; rw [if_pos rfl]; exact List.mem_append_right _ (List.mem_singleton.2 rfl), new _⟩
        · intro k hk
          rw [List.length_append, List.length_singleton] at hk
          by_cases e : k < st.store.length
          · obtain ⟨i, hi⟩ := h.used k e
            exact ⟨i, app _ hi⟩
          · exact ⟨done.length, by rw [show k = st.store.length by omega]; exact new _⟩

theorem dedup_inv {α : Type} {rp : Nat → Option Nat} {make : IRoute → Option α} (hmake : ∀ a b, SamePath a b → make a = make b)
    {rs : List IRoute} {st : Dedup α} (h : dedup rp make rs = some st) : DedupInv rp make rs st := by
  have key : ∀ (rest done : List IRoute) (st0 st : Dedup α), rs = done ++ rest → DedupInv rp make done st0 →
      rest.foldlM (dedupStep rp make rs) st0 = some st → DedupInv rp make rs st := by
    intro rest
    induction rest with
    | nil =>
      intro done st0 st e hi hf
      simp at e
      simp at hf
      rw [e, ← hf]; exact hi
    | cons r rest ih =>
      intro done st0 st e hi hf
      rw [List.foldlM_cons] at hf
      cases h1 : dedupStep rp make rs st0 r with
      | none => rw [h1] at hf; cases hf
      | some st1 =>
        rw [h1] at hf
        have h2 := h1
        rw [e] at h2
        exact ih (done ++ [r]) st1 st (by rw [e]; simp) (hi.step hmake h2) hf
  refine key rs [] _ st rfl ⟨rfl, ?_, ?_, ?_, ?_, ?_⟩ h <;> simp

theorem dedup_none {α : Type} {rp : Nat → Option Nat} {make : IRoute → Option α} {rs : List IRoute}
    (hrp : ∀ r, rp r.start = none → make r = none) (h : dedup rp make rs = none) : ∃ r ∈ rs, make r = none := by
  have key : ∀ (rest : List IRoute) (st0 : Dedup α), rest.foldlM (dedupStep rp make rs) st0 = none → ∃ r ∈ rest, make r = none := by
    intro rest
    induction rest with
    | nil => intro st0 hf; simp at hf
    | cons r rest ih =>
      intro st0 hf
      rw [List.foldlM_cons] at hf
      cases h1 : dedupStep rp make rs st0 r with
      | none =>
        refine ⟨r, List.mem_cons_self, ?_⟩
        unfold dedupStep at h1
        cases hr : rp r.start with
        | none => exact hrp r hr
        | some s =>
          rw [hr, Option.bind_some] at h1
          split at h1
          · cases h1
          · simpa using h1
      | some st1 =>
        rw [h1] at hf
        obtain ⟨x, hx, hm⟩ := ih st1 hf
        exact ⟨x, List.mem_cons_of_mem _ hx, hm⟩
  exact key rs _ h

/-! ### courses over sections -/

/-- the nodes of a train running over the sections, behind the element it starts at -/
def body (g : Graph) : List (SecOut × Bool) → List Node
  | [] => []
  | (o, b) :: l => o.nodes g.el b ++ arrive (o.x.elem b) (g.el (o.x.elem b)) (o.x.pt b) b :: body g l

/-- over the nodes of a section -/
theorem steps_section {L : Links} {el : Nat → Elem} {course : List Bool} {k : Nat} {x : Node} {r : List Node} : ∀ (T : List Node),
    (∀ n ∈ T, (el n.1).isSwitch = false) → (∀ (j : Nat) n, T[j]? = some n → L.branch n = none ∧ L.next n = some ((T[j + 1]?).getD x)) →
    Steps L el course k (x :: r) → Steps L el course k (T ++ x :: r)
  | [], _, _, h => h
  | [t], h1, h2, h => by
    obtain ⟨e1, e2⟩ := h2 0 t rfl
    exact steps_cons.2 ⟨Or.inl ⟨e1, e2⟩, by rw [h1 t (by simp)]; exact h⟩
  | t :: t' :: T, h1, h2, h => by
    obtain ⟨e1, e2⟩ := h2 0 t rfl
    refine steps_cons.2 ⟨Or.inl ⟨e1, e2⟩, ?_⟩
    rw [h1 t (by simp)]
    exact steps_section (t' :: T) (fun n hn => h1 n (List.mem_cons_of_mem _ hn)) (fun j n hn => h2 (j + 1) n hn) h

theorem track_switch {e : Elem} (h : e.ty.isTrack = true) : e.isSwitch = false := by
  unfold Elem.isSwitch
  revert h; cases e.ty <;> simp [Ty.isTrack, Ty.id]

section
variable {g0 : Graph} {xs : List SecIn} {bs : List (Nat × Bool × Nat)} {L : Links}

theorem steps_nodes (v : ValidNet g0 xs bs) (hL : connectAll (netGraph g0 xs bs).el (netGraph g0 xs bs).n = some L) {course : List Bool}
    {o : SecOut} (ho : o ∈ (parseAll xs g0).2) (b : Bool) {k : Nat} {r : List Node}
    (hs : Steps L (netGraph g0 xs bs).el course k (arrive (o.x.elem b) ((netGraph g0 xs bs).el (o.x.elem b)) (o.x.pt b) b :: r)) :
    Steps L (netGraph g0 xs bs).el course k (o.nodes (netGraph g0 xs bs).el b ++
      arrive (o.x.elem b) ((netGraph g0 xs bs).el (o.x.elem b)) (o.x.pt b) b :: r) := by
  have h := netCtx v
  refine steps_section _ ?_ ?_ hs
  · intro n hn
    exact track_switch (h.node_track ho hn).1
  · intro j n hn
    exact (h.chain hL ho hn).symm

theorem steps_body (v : ValidNet g0 xs bs) (w : WellLaid g0 xs bs) (hL : connectAll (netGraph g0 xs bs).el (netGraph g0 xs bs).n = some L)
    {course : List Bool} : ∀ (ps : List (SecOut × Bool)) (k : Nat), ps ≠ [] → (∀ p ∈ ps, p.1 ∈ (parseAll xs g0).2) → Turns g0.el course k ps →
      Steps L (netGraph g0 xs bs).el course k (body (netGraph g0 xs bs) ps)
  | [], _, h, _, _ => absurd rfl h
  | [(o, b)], k, _, ho, _ => steps_nodes v hL (ho (o, b) (by simp)) b steps_one
  | (o, b) :: (o', b') :: l, k, _, ho, ht => by
    have h := netCtx v
    have ho1 := ho (o, b) (by simp)
    have ho2 := ho (o', b') (by simp)
    obtain ⟨t1, t2, t3, t4⟩ := ht
    have ih := steps_body v w hL ((o', b') :: l) _ (by simp) (fun p hp => ho p (List.mem_cons_of_mem _ hp)) t4
    have hi := h.elem o ho1 b
    obtain ⟨n, hn, hid, c1, c2⟩ := C82_pass_partial v hL ho1 b t2 (w.oriented _ hi)
    rw [last_next h hL ho1 b] at hn
    injection hn with hn
    rw [body]
    refine steps_nodes v hL ho1 b ?_
    have hne : o'.nodes (netGraph g0 xs bs).el b' ≠ [] := by unfold SecOut.nodes; simpa using h.ne o' ho2 b'
    obtain ⟨m, T, hm⟩ := List.exists_cons_of_ne_nil hne
    have hb : body (netGraph g0 xs bs) ((o', b') :: l) = m :: (T ++ arrive (o'.x.elem b') ((netGraph g0 xs bs).el (o'.x.elem b')) (o'.x.pt b') b' ::
        body (netGraph g0 xs bs) l) := by rw [body, hm]; rfl
    rw [hb] at ih ⊢
    rw [steps_cons, hn]
    have hsw : (if ((netGraph g0 xs bs).el n.1).isSwitch = true then 1 else 0) =
        if Decides (g0.el (o.x.elem b)) then 1 else 0 := by
      have hd : Decides ((netGraph g0 xs bs).el (o.x.elem b)) ↔ Decides (g0.el (o.x.elem b)) := by
        unfold Decides
        rw [(h.ty _ hi).1, (h.ty _ hi).2.1, (h.ty _ hi).2.2]
      rw [hid, isSwitch_iff]
      simp only [decide_eq_true_eq, hd]
    rw [hsw]
    refine ⟨?_, ih⟩
    have lead : ∀ (f : Node → Option Node), Leads (parseAll xs g0).2 (netGraph g0 xs bs).el (o.x.elem b) f n (some (o'.x.pt (!b'))) → f n = some m := by
      rintro f ⟨s, hs, c, e1, e2, m', e3, e4⟩
      obtain ⟨rfl, rfl⟩ := h.uniq s hs o' ho2 c (!b') (by rw [e1, t1]) e2
      rw [Bool.not_not, hm] at e3
      injection e3 with e3
      rw [e4, ← e3]
    rcases t3 with ⟨e1, e2⟩ | ⟨e1, ⟨e2, e3⟩ | ⟨e2, e3⟩⟩
    · rw [e1] at c2
      rw [e2] at c1
      exact Or.inl ⟨c2, lead _ c1⟩
    · rw [e3] at c1
      cases hx : (exits (g0.el (o.x.elem b)).ty (g0.el (o.x.elem b)).arcL (g0.el (o.x.elem b)).arcR (o.x.pt b)).2 with
      | none => exact absurd hx e1
      | some q =>
        rw [hx] at c2
        obtain ⟨_, _, _, _, _, m', _, e⟩ := c2
        exact Or.inr ⟨m', e, Or.inl ⟨e2, lead _ c1⟩⟩
    · rw [e3] at c2
      exact Or.inr ⟨m, lead _ c2, Or.inr ⟨e2, rfl⟩⟩

theorem nodes_fst (o : SecOut) (el : Nat → Elem) (b : Bool) : (o.nodes el b).map (·.1) = o.towards b := by
  unfold SecOut.nodes
  rw [List.map_map]
  have : ((fun n : Node => n.1) ∘ fun i => trackNode el i (!b)) = id := by funext i; exact trackNode_id el i (!b)
  rw [this, List.map_id]

theorem body_fst (g : Graph) (el : Nat → Elem) (course : List Bool) : ∀ (l : List (SecOut × Bool)) (o : SecOut) (b : Bool) (k : Nat) (x : Node),
    x.1 = o.x.elem (!b) → Turns el course k ((o, b) :: l) → (x :: body g ((o, b) :: l)).map (·.1) = pathElems ((o, b) :: l)
  | [], o, b, k, x, hx, _ => by
    simp [body, pathElems, nodes_fst, arrive_id, hx]
  | (o', b') :: l, o, b, k, x, hx, ht => by
    obtain ⟨t1, _, _, t4⟩ := ht
    have ih := body_fst g el course l o' b' _ (arrive (o.x.elem b) (g.el (o.x.elem b)) (o.x.pt b) b) (by rw [arrive_id, t1]) t4
    rw [pathElems, if_pos t1, List.nil_append, ← ih, body]
    simp [nodes_fst, hx]

theorem Terminal.points {t : Ty} (h : Terminal t) : t.points = [.only] := by rcases h with rfl | rfl | rfl <;> rfl

theorem terminal_rising (v : ValidNet g0 xs bs) {o : SecOut} (ho : o ∈ (parseAll xs g0).2) {b : Bool} (h : Terminal (g0.el (o.x.elem b)).ty) :
    Terminal ((netGraph g0 xs bs).el (o.x.elem b)).ty ∧ o.x.pt b = .only ∧ ((netGraph g0 xs bs).el (o.x.elem b)).rising = !b := by
  have hc := netCtx v
  have hat := hc.att o ho b
  have ht := (hc.ty _ (hc.elem o ho b)).1
  rw [← ht] at h
  have hp : o.x.pt b = .only := by simpa [h.points] using hat.pt
  refine ⟨h, hp, ?_⟩
  rcases hat.flag with ⟨e, _⟩ | e
  · rw [e] at h; rcases h with h | h | h <;> cases h
  · rw [hp] at e; exact e

theorem terminal_start (v : ValidNet g0 xs bs) {o : SecOut} (ho : o ∈ (parseAll xs g0).2) {b : Bool} (h : Terminal (g0.el (o.x.elem b)).ty) :
    routeNode (netGraph g0 xs bs).el (o.x.elem b) true = some (tb (o.x.elem b) b) ∧
    routeNode (netGraph g0 xs bs).el (o.x.elem b) false = some (tb (o.x.elem b) (!b)) ∧
    o.leave (netGraph g0 xs bs) b = tb (o.x.elem b) b ∧
    arrive (o.x.elem b) ((netGraph g0 xs bs).el (o.x.elem b)) (o.x.pt b) b = tb (o.x.elem b) (!b) := by
  obtain ⟨h1, h2, h3⟩ := terminal_rising v ho h
  unfold routeNode SecOut.leave leaveNode arrive
  rw [h2, h3]
  rcases h1 with h1 | h1 | h1 <;> simp [h1, Ty.isEnd, Ty.id] <;> cases b <;> simp [h3]

theorem terminal_branch (v : ValidNet g0 xs bs) (hL : connectAll (netGraph g0 xs bs).el (netGraph g0 xs bs).n = some L) {o : SecOut}
    (ho : o ∈ (parseAll xs g0).2) {b : Bool} (h : Terminal (g0.el (o.x.elem b)).ty) : L.branch (tb (o.x.elem b) b) = none := by
  obtain ⟨h1, _⟩ := terminal_rising v ho h
  refine link_none (br := true) hL ?_
  intro t ht
  rw [tb_id] at ht
  unfold entries at ht
  rcases h1 with h1 | h1 | h1
  · simp [h1, Ty.isEnd, Ty.isSimple, Ty.isUndirected, Ty.id] at ht
  · simp [h1, Ty.isEnd, Ty.id] at ht
  · simp [h1, Ty.isEnd, Ty.id] at ht

/-- the whole way with the start -/
theorem steps_start (v : ValidNet g0 xs bs) (w : WellLaid g0 xs bs) (hL : connectAll (netGraph g0 xs bs).el (netGraph g0 xs bs).n = some L)
    {o : SecOut} {b : Bool} {l : List (SecOut × Bool)} {course : List Bool} (hs : ∀ p ∈ (o, b) :: l, p.1 ∈ (parseAll xs g0).2)
    (ht : Turns g0.el course 0 ((o, b) :: l)) (hb : Terminal (g0.el (o.x.elem (!b))).ty) :
    Steps L (netGraph g0 xs bs).el course 0 (o.leave (netGraph g0 xs bs) (!b) :: body (netGraph g0 xs bs) ((o, b) :: l)) := by
  have h := netCtx v
  have ho := hs (o, b) (by simp)
  have hst := steps_body v w hL _ 0 (by simp) hs ht
  have hne : o.nodes (netGraph g0 xs bs).el b ≠ [] := by unfold SecOut.nodes; simpa using h.ne o ho b
  obtain ⟨m, T, hm⟩ := List.exists_cons_of_ne_nil hne
  have hg := h.leave_get (kmOk v w) hL ho (!b)
  rw [body, hm] at hst ⊢
  rw [Bool.not_not, hm] at hg
  obtain ⟨t1, t2, _⟩ := terminal_rising v ho hb
  have hn : ¬ (((netGraph g0 xs bs).el (o.x.elem (!b))).ty = .simpleSwitch ∧ o.x.pt (!b) = .branch) := by
    rw [t2]; simp
  rw [decide_eq_false hn] at hg
  refine steps_cons.2 ⟨Or.inl ⟨?_, hg⟩, ?_⟩
  · rw [(terminal_start v ho hb).2.2.1]
    exact terminal_branch v hL ho hb
  · have : ((netGraph g0 xs bs).el (o.leave (netGraph g0 xs bs) (!b)).1).isSwitch = false := by
      rw [SecOut.leave_id]
      unfold Elem.isSwitch
      rcases t1 with t1 | t1 | t1 <;> rw [t1] <;> rfl
    rw [this]
    exact hst

theorem terminal_exits {t : Ty} (h : Terminal t) (a c : Bool) (p : Pt) : exits t a c p = (none, none) := by
  rcases h with rfl | rfl | rfl <;> rfl

/-- the nodes before the last one -/
theorem body_inner (v : ValidNet g0 xs bs) {course : List Bool} : ∀ (l : List (SecOut × Bool)) (k : Nat), (∀ p ∈ l, p.1 ∈ (parseAll xs g0).2) →
    Turns g0.el course k l → ∀ n ∈ (body (netGraph g0 xs bs) l).dropLast, g0.n ≤ n.1 ∨ ¬ Terminal (g0.el n.1).ty
  | [], _, _, _, n, hn => by simp [body] at hn
  | [(o, b)], k, ho, _, n, hn => by
    rw [body, body, List.dropLast_concat] at hn
    exact Or.inl ((netCtx v).node_track (ho (o, b) (by simp)) hn).2
  | (o, b) :: (o', b') :: l, k, ho, ht, n, hn => by
    obtain ⟨t1, t2, t3, t4⟩ := ht
    have hne : body (netGraph g0 xs bs) ((o', b') :: l) ≠ [] := by rw [body]; simp
    rw [body, List.dropLast_append_of_ne_nil (by simp), List.dropLast_cons_of_ne_nil hne, List.mem_append, List.mem_cons] at hn
    rcases hn with hn | hn | hn
    · exact Or.inl ((netCtx v).node_track (ho (o, b) (by simp)) hn).2
    · right
      rw [hn, arrive_id]
      intro hterm
      rw [terminal_exits hterm] at t3
      simp at t3
    · exact body_inner v ((o', b') :: l) _ (fun p hp => ho p (List.mem_cons_of_mem _ hp)) t4 n hn

theorem body_last (g : Graph) : ∀ (l : List (SecOut × Bool)) (o : SecOut) (b : Bool), ∃ q, ((o, b) :: l).getLast? = some q ∧
    (body g ((o, b) :: l)).getLast? = some (arrive (q.1.x.elem q.2) (g.el (q.1.x.elem q.2)) (q.1.x.pt q.2) q.2)
  | [], o, b => ⟨(o, b), rfl, by simp [body]⟩
  | (o', b') :: l, o, b => by
    obtain ⟨q, h1, h2⟩ := body_last g l o' b'
    refine ⟨q, by rw [List.getLast?_cons_cons]; exact h1, ?_⟩
    have hne : body g ((o', b') :: l) ≠ [] := by rw [body]; simp
    obtain ⟨m, T, hm⟩ := List.exists_cons_of_ne_nil hne
    rw [body, List.getLast?_append_of_ne_nil _ (by simp)]
    rw [hm] at h2 ⊢
    rw [List.getLast?_cons_cons]
    exact h2

theorem directed_points {t : Ty} (h : t.isDirected = true) : t.points = [] := by
  revert h; cases t <;> simp [Ty.isDirected, Ty.id, Ty.points]

/-- directed elements have one node -/
theorem body_directed (v : ValidNet g0 xs bs) : ∀ (l : List (SecOut × Bool)), (∀ p ∈ l, p.1 ∈ (parseAll xs g0).2) →
    ∀ n ∈ body (netGraph g0 xs bs) l, ((netGraph g0 xs bs).el n.1).ty.isDirected = true → n = (n.1, 0)
  | [], _, n, hn, _ => by simp [body] at hn
  | (o, b) :: l, hs, n, hn, hd => by
    rw [body, List.mem_append, List.mem_cons] at hn
    rcases hn with hn | hn | hn
    · unfold SecOut.nodes at hn
      obtain ⟨i, _, rfl⟩ := List.mem_map.1 hn
      unfold trackNode at hd ⊢
      by_cases hi : ((netGraph g0 xs bs).el i).ty.isDirected = true
      · rw [if_pos hi]
      · rw [if_neg hi] at hd; exact absurd hd hi
    · exfalso
      have h := netCtx v
      have ho := hs (o, b) (by simp)
      rw [hn, arrive_id] at hd
      have := (h.att o ho b).pt
      rw [directed_points hd] at this
      cases this
    · exact body_directed v l (fun p hp => hs p (List.mem_cons_of_mem _ hp)) n hn hd

theorem routeNode_directed {el : Nat → Elem} {i : Nat} (h : (el i).ty.isDirected = true) (c : Bool) : routeNode el i c = some (i, 0) := by
  have h1 : (el i).ty ≠ .border ∧ (el i).ty.isEnd = false := by
    revert h
    cases (el i).ty <;> simp [Ty.isDirected, Ty.id, Ty.isEnd]
  unfold routeNode
  dsimp only
  rw [if_neg h1.1, h1.2, if_pos h]
  rfl

theorem body_head (g : Graph) (o : SecOut) (b : Bool) (l : List (SecOut × Bool)) :
    body g ((o, b) :: l) = o.nodes g.el b ++ arrive (o.x.elem b) (g.el (o.x.elem b)) (o.x.pt b) b :: body g l := rfl

theorem slice {W : List Node} {a c : Nat} {s e : Node} (hac : a ≤ c) (ha : W[a]? = some s) (hc : W[c]? = some e) :
    ∃ t, (W.take (c + 1)).drop a = s :: t ∧ (s :: t).getLast? = some e ∧ (s :: t).dropLast = (W.take c).drop a := by
  have hlt := (List.getElem?_eq_some_iff.1 hc).1
  have e1 : (W.take (c + 1)).drop a = (W.take c).drop a ++ [e] := by
    rw [List.take_add_one, hc, Option.toList_some, List.drop_append_of_le_length]
    rw [List.length_take]; omega
  have e2 : ((W.take (c + 1)).drop a).head? = some s := by
    rw [List.head?_drop, List.getElem?_take, if_pos (by omega), ha]
  obtain ⟨t, ht⟩ : ∃ t, (W.take (c + 1)).drop a = s :: t := by
    cases h : (W.take (c + 1)).drop a with
    | nil => rw [h] at e2; cases e2
    | cons x t => rw [h] at e2; exact ⟨t, by rw [Option.some.inj e2]⟩
  refine ⟨t, ht, ?_, ?_⟩
  · rw [← ht, e1, List.getLast?_concat]
  · rw [← ht, e1, List.dropLast_concat]

/-- the nodes of the way over sections -/
def wayNodes (g : Graph) (o : SecOut) (b : Bool) (l : List (SecOut × Bool)) : List Node := o.leave g (!b) :: body g ((o, b) :: l)

theorem wayNodes_fst (g : Graph) {el : Nat → Elem} {o : SecOut} {b : Bool} {l : List (SecOut × Bool)} {course : List Bool}
    (ht : Turns el course 0 ((o, b) :: l)) : (wayNodes g o b l).map (·.1) = pathElems ((o, b) :: l) :=
  body_fst g el course l o b 0 _ (SecOut.leave_id o g (!b)) ht

/-- from a position in the first section on -/
theorem way_steps (v : ValidNet g0 xs bs) (w : WellLaid g0 xs bs) (hL : connectAll (netGraph g0 xs bs).el (netGraph g0 xs bs).n = some L)
    {o : SecOut} {b : Bool} {l : List (SecOut × Bool)} {course : List Bool} (hs : ∀ p ∈ (o, b) :: l, p.1 ∈ (parseAll xs g0).2)
    (ht : Turns g0.el course 0 ((o, b) :: l)) {a : Nat} (ha : a ≤ (o.towards b).length) (h0 : a = 0 → Terminal (g0.el (o.x.elem (!b))).ty) :
    Steps L (netGraph g0 xs bs).el course 0 ((wayNodes (netGraph g0 xs bs) o b l).drop a) := by
  cases a with
  | zero => exact steps_start v w hL hs ht (h0 rfl)
  | succ a =>
    have := steps_drop (steps_body v w hL _ 0 (by simp) hs ht) a
    have hz : passed (netGraph g0 xs bs).el ((body (netGraph g0 xs bs) ((o, b) :: l)).take a) = 0 := by
      unfold passed
      rw [List.countP_eq_zero]
      intro n hn
      have hlen : (o.nodes (netGraph g0 xs bs).el b).length = (o.towards b).length := by unfold SecOut.nodes; simp
      rw [body_head, List.take_append_of_le_length (by omega)] at hn
      have := ((netCtx v).node_track (hs (o, b) (by simp)) (List.mem_of_mem_take hn)).1
      have := track_switch this
      rw [isSwitch_iff] at this
      simpa using this
    rw [hz] at this
    exact this

/-- the last node, if it is terminal, is met once -/
theorem way_fresh (v : ValidNet g0 xs bs) {o : SecOut} {b : Bool} {l : List (SecOut × Bool)} {course : List Bool}
    (hs : ∀ p ∈ (o, b) :: l, p.1 ∈ (parseAll xs g0).2) (ht : Turns g0.el course 0 ((o, b) :: l)) {q : SecOut × Bool}
    (hq : ((o, b) :: l).getLast? = some q) (hterm : Terminal (g0.el (q.1.x.elem q.2)).ty) :
    (wayNodes (netGraph g0 xs bs) o b l).getLast? = some (tb (q.1.x.elem q.2) (!q.2)) ∧
    tb (q.1.x.elem q.2) (!q.2) ∉ (wayNodes (netGraph g0 xs bs) o b l).dropLast := by
  have h := netCtx v
  obtain ⟨q', h1, h2⟩ := body_last (netGraph g0 xs bs) l o b
  obtain rfl : q = q' := Option.some.inj (hq.symm.trans h1)
  have hqm := hs q (List.mem_of_getLast? hq)
  rw [(terminal_start v hqm hterm).2.2.2] at h2
  have hne : body (netGraph g0 xs bs) ((o, b) :: l) ≠ [] := by rw [body_head]; simp
  refine ⟨?_, ?_⟩
  · unfold wayNodes
    obtain ⟨m, T, hm⟩ := List.exists_cons_of_ne_nil hne
    rw [hm, List.getLast?_cons_cons, ← hm]
    exact h2
  · unfold wayNodes
    rw [List.dropLast_cons_of_ne_nil hne, List.mem_cons, not_or]
    constructor
    · intro e
      have e1 := congrArg Prod.fst e
      rw [tb_id, SecOut.leave_id] at e1
      have ho := hs (o, b) (by simp)
      have hterm' : Terminal (g0.el (o.x.elem (!b))).ty := by rw [← e1]; exact hterm
      rw [(terminal_start v ho hterm').2.2.1] at e
      obtain ⟨e2, e3⟩ := h.uniq _ hqm _ ho _ _ e1
        (by rw [(terminal_rising v hqm hterm).2.1, (terminal_rising v ho hterm').2.1])
      rw [e1, tb_inj, e3] at e
      revert e; cases b <;> simp
    · intro hm
      rcases body_inner v _ 0 hs ht _ hm with h' | h'
      · rw [tb_id] at h'
        have := h.elem _ hqm q.2
        omega
      · exact h' hterm

end

end Soro.Infra
