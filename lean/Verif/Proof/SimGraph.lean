import Mathlib.Order.WellFounded
import Mathlib.Data.Fintype.Card
import Mathlib.Data.Finite.Defs
import Mathlib.Order.RelClasses
import Mathlib.Data.Fintype.EquivFin
import Verif.Spec.SimGraph

/-
The simulation graph and the order of the simulation.
-/

namespace Soro.Sim

open Soro.Sim.Spec

theorem outsOf_eq (nodes : List SimNode) : outsOf nodes = next nodes := by
  funext i
  unfold outsOf next
  cases nodes[i]? with
  | none => rfl
  | some n =>
    simp only [Option.map_some, Option.getD_some, SimNode.outs]
    cases n.succ <;> rfl

theorem insOf_eq (nodes : List SimNode) : insOf nodes = waits nodes := by
  funext i
  unfold insOf waits
  cases nodes[i]? with
  | none => rfl
  | some n =>
    simp only [Option.map_some, Option.getD_some, SimNode.ins]
    cases n.pred <;> rfl

/-! ### the set -/

theorem mem_emplace (x y : Nat) (l : List Nat) : y ∈ emplace x l ↔ y = x ∨ y ∈ l := by
  induction l with
  | nil => simp [emplace]
  | cons z l ih =>
    unfold emplace
    split
    · simp
    · split
      · rename_i h
        subst h
        simp
      · simp only [List.mem_cons, ih]
        tauto

theorem sorted_emplace (x : Nat) (l : List Nat) (h : l.Pairwise (· < ·)) : (emplace x l).Pairwise (· < ·) := by
  induction l with
  | nil => simp [emplace]
  | cons z l ih =>
    unfold emplace
    rw [List.pairwise_cons] at h
    split
    · rename_i hx
      rw [List.pairwise_cons]
      refine ⟨fun y hy => ?_, List.pairwise_cons.mpr h⟩
      rcases List.mem_cons.mp hy with rfl | hy
      · exact hx
      · exact hx.trans (h.1 y hy)
    · split
      · exact List.pairwise_cons.mpr h
      · rw [List.pairwise_cons]
        refine ⟨fun y hy => ?_, ih h.2⟩
        rcases (mem_emplace x y l).mp hy with rfl | hy
        · omega
        · exact h.1 y hy

theorem fold_emplace {α : Type} (f : α → Nat) (c : α → Bool) (l : List α) (todo : List Nat) (h : todo.Pairwise (· < ·)) :
    (l.foldl (fun todo o => if c o then emplace (f o) todo else todo) todo).Pairwise (· < ·) ∧
    ∀ y, y ∈ l.foldl (fun todo o => if c o then emplace (f o) todo else todo) todo ↔ y ∈ todo ∨ ∃ o ∈ l, c o = true ∧ f o = y := by
  induction l generalizing todo with
  | nil => simpa using h
  | cons o l ih =>
    rw [List.foldl_cons]
    have hs : (if c o = true then emplace (f o) todo else todo).Pairwise (· < ·) := by
      split
      · exact sorted_emplace _ _ h
      · exact h
    refine ⟨(ih _ hs).1, fun y => ?_⟩
    rw [(ih _ hs).2 y]
    by_cases hc : c o = true
    · rw [if_pos hc, mem_emplace]
      simp only [List.mem_cons]
      constructor
      · rintro ((rfl | h1) | ⟨o', h1, h2⟩)
        · exact Or.inr ⟨o, Or.inl rfl, hc, rfl⟩
        · exact Or.inl h1
        · exact Or.inr ⟨o', Or.inr h1, h2⟩
      · rintro (h1 | ⟨o', rfl | h1, h2⟩)
        · exact Or.inl (Or.inr h1)
        · exact Or.inl (Or.inl h2.2.symm)
        · exact Or.inr ⟨o', h1, h2⟩
    · rw [if_neg hc]
      simp only [List.mem_cons]
      constructor
      · rintro (h1 | ⟨o', h1, h2⟩)
        · exact Or.inl h1
        · exact Or.inr ⟨o', Or.inr h1, h2⟩
      · rintro (h1 | ⟨o', rfl | h1, h2⟩)
        · exact Or.inl h1
        · exact absurd h2.1 hc
        · exact Or.inr ⟨o', h1, h2⟩

/-! ### the loop -/

variable {ρ : Type} {finished : ρ → Nat → Bool} {compute : Nat → ρ → ρ} {nodes : List SimNode}

/-- nodes to be computed: exactly those that are ready and not finished -/
def Exact (finished : ρ → Nat → Bool) (nodes : List SimNode) (r : ρ) (todo : List Nat) : Prop :=
  ∀ x, x ∈ todo ↔ x < nodes.length ∧ finished r x = false ∧ ∀ p ∈ waits nodes x, finished r p = true

theorem ready_iff (r : ρ) (i : Nat) : ready finished nodes r i = true ↔ ∀ p ∈ waits nodes i, finished r p = true := by
  simp [ready, insOf_eq]

theorem initialTodo_exact (hw : WellFormed nodes) (r : ρ) :
    (initialTodo finished nodes r).Pairwise (· < ·) ∧ Exact finished nodes r (initialTodo finished nodes r) := by
  have heq : initialTodo finished nodes r
      = nodes.foldl (fun todo n => if (!finished r n.id && ready finished nodes r n.id) then emplace n.id todo else todo) [] := by
    unfold initialTodo
    congr 1
    funext todo n
    cases finished r n.id <;> simp
  rw [heq]
  obtain ⟨h1, h2⟩ := fold_emplace SimNode.id (fun n => !finished r n.id && ready finished nodes r n.id) nodes []
    List.Pairwise.nil
  refine ⟨h1, fun x => ?_⟩
  rw [h2 x]
  constructor
  · rintro (h | ⟨n, hn, hc, rfl⟩)
    · cases h
    · obtain ⟨i, hi, hx⟩ := List.mem_iff_getElem.mp hn
      have hid := hw.ids i n (by rw [List.getElem?_eq_getElem hi, hx])
      simp only [Bool.and_eq_true, Bool.not_eq_true'] at hc
      exact ⟨by omega, hc.1, (ready_iff r n.id).mp hc.2⟩
  · rintro ⟨hx, hf, hp⟩
    refine Or.inr ⟨nodes[x], List.getElem_mem hx, ?_, ?_⟩
    · rw [hw.ids x nodes[x] (List.getElem?_eq_getElem hx)]
      simp only [Bool.and_eq_true, Bool.not_eq_true']
      exact ⟨hf, (ready_iff r x).mpr hp⟩
    · exact hw.ids x nodes[x] (List.getElem?_eq_getElem hx)

/-- computing a node finishes it and no other one -/
def Finishes (finished : ρ → Nat → Bool) (compute : Nat → ρ → ρ) : Prop :=
  ∀ x r y, finished (compute x r) y = (finished r y || y == x)

theorem step_exact (hw : WellFormed nodes) (hc : Finishes finished compute) {r : ρ} {x : Nat} {todo : List Nat}
    (hs : (x :: todo).Pairwise (· < ·)) (he : Exact finished nodes r (x :: todo)) (hcl : Closed nodes (finished r)) :
    (addReady finished nodes (compute x r) x todo).Pairwise (· < ·) ∧
    Exact finished nodes (compute x r) (addReady finished nodes (compute x r) x todo) ∧
    Closed nodes (finished (compute x r)) := by
  rw [List.pairwise_cons] at hs
  obtain ⟨hxn, hxf, hxp⟩ := (he x).mp (by simp)
  have hx0 : x ∉ todo := fun h => lt_irrefl x (hs.1 x h)
  have hsplit : ∀ y, finished (compute x r) y = true ↔ finished r y = true ∨ y = x := by
    intro y
    rw [hc x r y]
    simp
  obtain ⟨h1, h2⟩ := fold_emplace (fun o : Nat => o) (fun o => ready finished nodes (compute x r) o) (outsOf nodes x) todo hs.2
  refine ⟨h1, fun y => ?_, ?_⟩
  · unfold addReady
    rw [h2 y]
    constructor
    · rintro (h | ⟨o, ho, hr, rfl⟩)
      · obtain ⟨hy1, hy2, hy3⟩ := (he y).mp (by simp [h])
        refine ⟨hy1, ?_, fun p hp => (hsplit p).mpr (Or.inl (hy3 p hp))⟩
        rw [hc x r y, hy2]
        simp only [Bool.false_or, beq_eq_false_iff_ne, ne_eq]
        rintro rfl
        exact hx0 h
      · rw [outsOf_eq] at ho
        have hxo := (hw.both x o).mp ho
        refine ⟨hw.inside x o ho, ?_, (ready_iff _ o).mp hr⟩
        rw [hc x r o]
        simp only [Bool.or_eq_false_iff, beq_eq_false_iff_ne, ne_eq]
        constructor
        · cases hf : finished r o with
          | false => rfl
          | true =>
            have := hcl o hf x hxo
            rw [hxf] at this
            cases this
        · rintro rfl
          have := hxp _ hxo
          rw [hxf] at this
          cases this
    · rintro ⟨hy1, hy2, hy3⟩
      rw [hc x r y] at hy2
      simp only [Bool.or_eq_false_iff, beq_eq_false_iff_ne, ne_eq] at hy2
      by_cases hxy : x ∈ waits nodes y
      · exact Or.inr ⟨y, by rw [outsOf_eq]; exact (hw.both x y).mpr hxy, (ready_iff _ y).mpr hy3, rfl⟩
      · left
        have := (he y).mpr ⟨hy1, hy2.1, fun p hp => by
          rcases (hsplit p).mp (hy3 p hp) with h | rfl
          · exact h
          · exact absurd hp hxy⟩
        rcases List.mem_cons.mp this with h | h
        · exact absurd h hy2.2
        · exact h
  · intro i hi p hp
    rcases (hsplit i).mp hi with h | rfl
    · exact (hsplit p).mpr (Or.inl (hcl i h p hp))
    · exact (hsplit p).mpr (Or.inl (hxp p hp))

/-- nodes not finished -/
def open_ (finished : ρ → Nat → Bool) (nodes : List SimNode) (r : ρ) : Nat :=
  ((List.range nodes.length).filter (fun x => !finished r x)).length

theorem filter_less (n x : Nat) (f g : Nat → Bool) (hx : x < n) (hf : f x = true) (hg : ∀ y, g y = (f y && !(y == x))) :
    ((List.range n).filter g).length < ((List.range n).filter f).length := by
  have h1 : ∀ l : List Nat, (l.filter g).length ≤ (l.filter f).length ∧ (x ∈ l → (l.filter g).length < (l.filter f).length) := by
    intro l
    induction l with
    | nil => simp
    | cons y l ih =>
      by_cases hyx : y = x
      · subst hyx
        have hgy : g y = false := by rw [hg]; simp
        rw [List.filter_cons_of_neg (by simp [hgy]), List.filter_cons_of_pos (by simpa using hf)]
        simp only [List.length_cons]
        exact ⟨by omega, fun _ => by omega⟩
      · have hgy : g y = f y := by rw [hg]; simp [hyx]
        rw [List.filter_cons, List.filter_cons, hgy]
        split
        · simp only [List.length_cons]
          refine ⟨by omega, fun h => ?_⟩
          rcases List.mem_cons.mp h with h | h
          · exact absurd h.symm hyx
          · have := ih.2 h
            omega
        · refine ⟨ih.1, fun h => ?_⟩
          rcases List.mem_cons.mp h with h | h
          · exact absurd h.symm hyx
          · exact ih.2 h
  exact (h1 _).2 (List.mem_range.mpr hx)

theorem simLoop_spec (hw : WellFormed nodes) (hc : Finishes finished compute) (fuel : Nat) (r : ρ) (todo : List Nat)
    (hs : todo.Pairwise (· < ·)) (he : Exact finished nodes r todo) (hcl : Closed nodes (finished r))
    (hfuel : open_ finished nodes r < fuel) :
    ∃ order, simLoop finished compute nodes fuel todo r = some (order, order.foldl (fun r x => compute x r) r) ∧
      order.Nodup ∧ Scheduled nodes (finished r) order ∧ (∀ x ∈ order, x < nodes.length ∧ finished r x = false) ∧
      Exact finished nodes (order.foldl (fun r x => compute x r) r) [] := by
  induction fuel generalizing r todo with
  | zero => omega
  | succ fuel ih =>
    cases todo with
    | nil =>
      refine ⟨[], rfl, List.nodup_nil, ?_, by simp, he⟩
      intro pre x post h
      simp at h
    | cons x todo =>
      obtain ⟨hxn, hxf, hxp⟩ := (he x).mp (by simp)
      obtain ⟨h1, h2, h3⟩ := step_exact hw hc hs he hcl
      have hless : open_ finished nodes (compute x r) < open_ finished nodes r := by
        refine filter_less _ x _ _ hxn (by simp [hxf]) (fun y => ?_)
        rw [hc x r y]
        simp
      obtain ⟨order, ho1, ho2, ho3, ho4, ho5⟩ := ih (compute x r) _ h1 h2 h3 (by omega)
      refine ⟨x :: order, ?_, ?_, ?_, ?_, ho5⟩
      · simp only [simLoop, ho1, Option.map_some, List.foldl_cons]
      · refine List.nodup_cons.mpr ⟨fun hx => ?_, ho2⟩
        have := (ho4 x hx).2
        rw [hc x r x] at this
        simp at this
      · intro pre y post h
        cases pre with
        | nil =>
          simp only [List.nil_append, List.cons.injEq] at h
          obtain ⟨rfl, -⟩ := h
          exact ⟨hxf, fun p hp => Or.inl (hxp p hp)⟩
        | cons z pre =>
          simp only [List.cons_append, List.cons.injEq] at h
          obtain ⟨rfl, h⟩ := h
          obtain ⟨g1, g2⟩ := ho3 pre y post h
          rw [hc x r y] at g1
          simp only [Bool.or_eq_false_iff] at g1
          refine ⟨g1.1, fun p hp => ?_⟩
          rcases g2 p hp with g | g
          · rw [hc x r p] at g
            simp only [Bool.or_eq_true, beq_iff_eq] at g
            rcases g with g | rfl
            · exact Or.inl g
            · exact Or.inr (by simp)
          · exact Or.inr (by simp [g])
      · intro y hy
        rcases List.mem_cons.mp hy with rfl | hy
        · exact ⟨hxn, hxf⟩
        · obtain ⟨g1, g2⟩ := ho4 y hy
          rw [hc x r y] at g2
          simp only [Bool.or_eq_false_iff] at g2
          exact ⟨g1, g2.1⟩

theorem finished_fold (hc : Finishes finished compute) (order : List Nat) (r : ρ) (y : Nat) :
    finished (order.foldl (fun r x => compute x r) r) y = true ↔ finished r y = true ∨ y ∈ order := by
  induction order generalizing r with
  | nil => simp
  | cons x order ih =>
    rw [List.foldl_cons, ih, hc x r y]
    simp only [Bool.or_eq_true, beq_iff_eq, List.mem_cons]
    tauto

/-! ### acyclic graphs -/

theorem insOf_inside (hw : WellFormed nodes) {p x : Nat} (h : p ∈ waits nodes x) : p < nodes.length := by
  have := (hw.both p x).mpr h
  by_contra hn
  rw [← outsOf_eq] at this
  unfold outsOf at this
  rw [List.getElem?_eq_none (by omega)] at this
  simp at this

theorem walk_append {α : Type} {out : α → List α} {n m : Nat} {a b c : α} (h1 : Walk out n a b) (h2 : Walk out m b c) :
    Walk out (n + m) a c := by
  induction h2 with
  | nil => exact h1
  | snoc _ hc ih => exact .snoc (ih h1) hc

theorem acyclic_wf (hac : Acyclic (next nodes)) :
    WellFounded (fun a b : Fin nodes.length => ReachPlus (next nodes) (a : Nat) (b : Nat)) := by
  have ht : IsTrans (Fin nodes.length) (fun a b => ReachPlus (next nodes) (a : Nat) (b : Nat)) :=
    ⟨fun a b c h1 h2 => by
      obtain ⟨n, h1⟩ := h1
      obtain ⟨m, h2⟩ := h2
      exact ⟨n + 1 + m, by
        have := walk_append h1 h2
        rwa [show n + 1 + (m + 1) = n + 1 + m + 1 by omega] at this⟩⟩
  have hi : Std.Irrefl (fun a b : Fin nodes.length => ReachPlus (next nodes) (a : Nat) (b : Nat)) :=
    ⟨fun a => hac a⟩
  exact Finite.wellFounded_of_trans_of_irrefl _

theorem all_finished (hw : WellFormed nodes) (hac : Acyclic (next nodes)) {r : ρ} (he : Exact finished nodes r []) (x : Nat)
    (hx : x < nodes.length) : finished r x = true := by
  have key : ∀ y : Fin nodes.length, finished r (y : Nat) = true := by
    intro y
    induction y using (acyclic_wf hac).induction with
    | _ y ih =>
      cases hf : finished r (y : Nat) with
      | true => rfl
      | false =>
        have := (he y).mpr ⟨y.2, hf, fun p hp => ih ⟨p, insOf_inside hw hp⟩ ⟨0, ?_⟩⟩
        · cases this
        · exact .snoc (.nil p) ((hw.both p y).mpr hp)
  exact key ⟨x, hx⟩

/-! ### the graph of a timetable -/

/-- the nodes before they are connected -/
def plain (trains : List Nat) : List SimNode :=
  (List.range (3 * trains.length)).map (fun i => freshNode i (trains.getD (i / 3) 0))

theorem plain_append (pre : List Nat) (t : Nat) :
    plain (pre ++ [t]) = plain pre ++ [freshNode (3 * pre.length) t, freshNode (3 * pre.length + 1) t, freshNode (3 * pre.length + 2) t] := by
  unfold plain
  rw [List.length_append, List.length_singleton, show 3 * (pre.length + 1) = 3 * pre.length + 1 + 1 + 1 by omega,
    List.range_succ, List.range_succ, List.range_succ]
  simp only [List.map_append, List.map_cons, List.map_nil, List.append_assoc, List.cons_append, List.nil_append]
  congr 1
  · refine List.map_congr_left (fun i hi => ?_)
    have : i / 3 < pre.length := by
      have := List.mem_range.mp hi
      omega
    simp [List.getD, List.getElem?_append_left this]
  · have h0 : (3 * pre.length) / 3 = pre.length := by omega
    have h1 : (3 * pre.length + 1) / 3 = pre.length := by omega
    have h2 : (3 * pre.length + 1 + 1) / 3 = pre.length := by omega
    simp [List.getD, h0, h1, h2]

theorem addTrains_spec (n : Nat) (trains : List Nat) (hnd : trains.Nodup) (hlt : ∀ t ∈ trains, t < n) :
    ∃ b, trains.foldlM addTrain { nodes := [], ranges := List.replicate n (0, 0) } = some b ∧ b.nodes = plain trains ∧
      b.ranges.length = n ∧ ∀ (k t : Nat), trains[k]? = some t → b.ranges[t]? = some (3 * k, 3 * k + 3) := by
  induction trains using List.reverseRecOn with
  | nil => exact ⟨_, rfl, rfl, by simp, by simp⟩
  | append_singleton pre t ih =>
    rw [List.nodup_append] at hnd
    obtain ⟨b, h1, h2, h3, h4⟩ := ih hnd.1 (fun t h => hlt t (by simp [h]))
    have ht : t < n := hlt t (by simp)
    have hlen : b.nodes.length = 3 * pre.length := by
      rw [h2]
      simp [plain]
    rw [List.foldlM_append, h1]
    simp only [Option.bind_eq_bind, Option.bind_some, List.foldlM_cons, List.foldlM_nil]
    have hadd : addTrain b t = some
        { nodes := plain (pre ++ [t]), ranges := b.ranges.set t (3 * pre.length, 3 * pre.length + 3) } := by
      unfold addTrain
      simp only
      rw [if_pos (by omega), plain_append, ← h2]
      simp [hlen]
    rw [hadd]
    refine ⟨_, rfl, rfl, by simpa using h3, ?_⟩
    intro k u hu
    rcases Nat.lt_or_ge k pre.length with hk | hk
    · rw [List.getElem?_append_left hk] at hu
      have hne : t ≠ u := fun h => hnd.2.2 u (List.mem_of_getElem? hu) t (by simp) h.symm
      rw [List.getElem?_set_ne hne]
      exact h4 k u hu
    · rw [List.getElem?_append_right hk] at hu
      have hk0 : k - pre.length = 0 := by
        have := (List.getElem?_eq_some_iff.mp hu).1
        simp at this
        omega
      rw [hk0] at hu
      simp only [List.getElem?_cons_zero, Option.some.injEq] at hu
      subst hu
      rw [List.getElem?_set_self (by omega), show k = pre.length by omega]

/-- the nodes of the graph -/
def linked (trains : List Nat) : List SimNode :=
  (List.range (3 * trains.length)).map (fun i =>
    { freshNode i (trains.getD (i / 3) 0) with
      pred := if i % 3 ≠ 0 then some (i - 1) else none
      succ := if i % 3 ≠ 2 then some (i + 1) else none })

theorem mapM_map {α β : Type} (f : α → Option β) (g : α → β) (l : List α) (h : ∀ x ∈ l, f x = some (g x)) :
    l.mapM f = some (l.map g) := by
  induction l with
  | nil => rfl
  | cons x l ih =>
    rw [List.mapM_cons, h x (by simp), ih (fun y hy => h y (by simp [hy]))]
    rfl

theorem simGraph_spec (trains : List Nat) (hnd : trains.Nodup) (hlt : ∀ t ∈ trains, t < trains.length) :
    ∃ b, simGraph trains = some b ∧ b.nodes = linked trains ∧
      ∀ (k t : Nat), trains[k]? = some t → b.ranges[t]? = some (3 * k, 3 * k + 3) := by
  obtain ⟨b, h1, h2, h3, h4⟩ := addTrains_spec trains.length trains hnd hlt
  refine ⟨{ b with nodes := linked trains }, ?_, rfl, h4⟩
  unfold simGraph
  rw [h1]
  simp only [Option.bind_eq_bind, Option.bind_some]
  have : b.nodes.mapM (connectTrain b.ranges) = some (linked trains) := by
    rw [h2]
    unfold plain linked
    rw [List.mapM_map]
    refine mapM_map _ _ _ (fun i hi => ?_)
    have hi' : i / 3 < trains.length := by
      have := List.mem_range.mp hi
      omega
    have hr := h4 (i / 3) (trains.getD (i / 3) 0) (by simp [List.getD, List.getElem?_eq_getElem hi'])
    unfold connectTrain freshNode
    simp only [Function.comp]
    rw [hr]
    simp only [Option.some.injEq, SimNode.mk.injEq, true_and, and_true]
    constructor
    · by_cases h : i % 3 = 0
      · rw [if_neg (by omega), if_neg (by omega)]
      · rw [if_pos (by omega), if_pos (by omega)]
    · by_cases h : i % 3 = 2
      · rw [if_neg (by omega), if_neg (by omega)]
      · rw [if_pos (by omega), if_pos (by omega)]
  rw [this]
  rfl

theorem linked_get (trains : List Nat) (i : Nat) (n : SimNode) (h : (linked trains)[i]? = some n) :
    i < 3 * trains.length ∧ n.id = i ∧ trains[i / 3]? = some n.train ∧ n.pred = (if i % 3 ≠ 0 then some (i - 1) else none) ∧
      n.succ = (if i % 3 ≠ 2 then some (i + 1) else none) ∧ n.orderIn = [] ∧ n.orderOut = [] := by
  unfold linked at h
  rw [List.getElem?_map] at h
  rcases Nat.lt_or_ge i (3 * trains.length) with hi | hi
  · rw [List.getElem?_range hi] at h
    simp only [Option.map_some, Option.some.injEq] at h
    subst h
    have : i / 3 < trains.length := by omega
    refine ⟨hi, rfl, ?_, rfl, rfl, rfl, rfl⟩
    simp [freshNode, List.getD, List.getElem?_eq_getElem this]
  · rw [List.getElem?_eq_none (by simpa using hi)] at h
    cases h

theorem linked_length (trains : List Nat) : (linked trains).length = 3 * trains.length := by simp [linked]

theorem linked_outs (trains : List Nat) (i j : Nat) :
    j ∈ next (linked trains) i ↔ i < 3 * trains.length ∧ i % 3 ≠ 2 ∧ j = i + 1 := by
  rw [← outsOf_eq]
  unfold outsOf
  cases h : (linked trains)[i]? with
  | none =>
    have := List.getElem?_eq_none_iff.mp h
    rw [linked_length] at this
    simp
    omega
  | some n =>
    obtain ⟨h1, -, -, -, h5, -, h7⟩ := linked_get trains i n h
    simp only [Option.map_some, Option.getD_some, SimNode.outs, h5, h7, List.append_nil]
    by_cases hi : i % 3 = 2
    · simp [hi]
    · simp [hi, h1, eq_comm]

theorem linked_ins (trains : List Nat) (i j : Nat) :
    i ∈ waits (linked trains) j ↔ j < 3 * trains.length ∧ j % 3 ≠ 0 ∧ i + 1 = j := by
  rw [← insOf_eq]
  unfold insOf
  cases h : (linked trains)[j]? with
  | none =>
    have := List.getElem?_eq_none_iff.mp h
    rw [linked_length] at this
    simp
    omega
  | some n =>
    obtain ⟨h1, -, -, h4, -, h6, -⟩ := linked_get trains j n h
    simp only [Option.map_some, Option.getD_some, SimNode.ins, h4, h6, List.append_nil]
    by_cases hi : j % 3 = 0
    · simp [hi]
    · simp [hi, h1]
      omega

theorem linked_wellFormed (trains : List Nat) : WellFormed (linked trains) where
  ids i n h := (linked_get trains i n h).2.1
  both i j := by
    rw [linked_outs, linked_ins]
    omega
  inside i j h := by
    rw [linked_outs] at h
    rw [linked_length]
    omega

end Soro.Sim
