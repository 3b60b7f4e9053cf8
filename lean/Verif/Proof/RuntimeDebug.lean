import Verif.Spec.RuntimeDebug
import Verif.Proof.RuntimeList
import Mathlib.Algebra.Order.BigOperators.Group.List

/-! Lemmas about the running time calculation in a build with assertions. -/

namespace Soro.Runtime
open Soro.Physics Soro.Runtime.Spec

/-- the calculation returns `a` if `ok` holds, and is stopped otherwise -/
def Verdict {α : Type} (ok : Prop) (x : Chk α) (a : α) : Prop :=
  (ok → x = .done (.ok a)) ∧ (¬ ok → ∃ line, x = .done (.error line))

namespace Verdict

theorem bind {α β : Type} {ok1 ok2 : Prop} {x : Chk α} {f : α → Chk β} {a : α} {b : β} (h1 : Verdict ok1 x a)
    (h2 : Verdict ok2 (f a) b) : Verdict (ok1 ∧ ok2) (x.bind f) b := by
  by_cases h : ok1
  · have hx := h1.1 h
    have : x.bind f = f a := by rw [hx]; rfl
    rw [this]
    exact ⟨fun hh => h2.1 hh.2, fun hh => h2.2 fun h3 => hh ⟨h, h3⟩⟩
  · obtain ⟨n, hx⟩ := h1.2 h
    have : x.bind f = .done (.error n) := by rw [hx]; rfl
    rw [this]
    exact ⟨fun hh => absurd hh.1 h, fun _ => ⟨n, rfl⟩⟩

theorem imp {α : Type} {ok ok' : Prop} {x : Chk α} {a : α} (h : Verdict ok x a) (hi : ok ↔ ok') : Verdict ok' x a :=
  ⟨fun h' => h.1 (hi.2 h'), fun h' => h.2 fun h'' => h' (hi.1 h'')⟩

theorem check (line : Nat) (c : Prop) [Decidable c] : Verdict c (Chk.check line c) () :=
  ⟨fun h => by rw [Chk.check, if_pos h], fun h => ⟨line, by rw [Chk.check, if_neg h]⟩⟩

theorem lift {α : Type} {o : Outcome α} {a : α} (h : o = .done a) : Verdict True (Chk.lift o) a :=
  ⟨fun _ => by rw [h]; rfl, fun h => absurd trivial h⟩

theorem ok {α : Type} (a : α) : Verdict True (.done (.ok a)) a := ⟨fun _ => rfl, fun h => absurd trivial h⟩

end Verdict

/-- what is asserted of the timestamps one after the other -/
def okFrom : Bool → List Stamp → Prop
  | _, [] => True
  | first, s :: l => (first = true ∨ s.arrival ≠ INVALID) ∧ s.arrival ≤ s.departure ∧ okFrom false l

theorem okFrom_append (first : Bool) (a b : List Stamp) :
    okFrom first (a ++ b) ↔ okFrom first a ∧ okFrom (first && a.isEmpty) b := by
  induction a generalizing first with
  | nil => simp [okFrom]
  | cons s a ih =>
    rw [List.cons_append, okFrom, okFrom, ih]
    simp [and_assoc]

theorem okFrom_false (l : List Stamp) : okFrom false l ↔ (∀ s ∈ l, Known s.arrival) ∧ ∀ s ∈ l, s.arrival ≤ s.departure := by
  induction l with
  | nil => simp [okFrom]
  | cons s l ih =>
    rw [okFrom, ih]
    simp only [List.forall_mem_cons, Known, INVALID]
    constructor
    · rintro ⟨h1 | h1, h2, h3, h4⟩
      · cases h1
      · exact ⟨⟨h1, h3⟩, h2, h4⟩
    · rintro ⟨⟨h1, h3⟩, h2, h4⟩
      exact ⟨.inr h1, h2, h3, h4⟩

theorem okFrom_true (l : List Stamp) : okFrom true l ↔ Sensible l := by
  cases l with
  | nil => simp [okFrom, Sensible]
  | cons s l =>
    rw [okFrom, okFrom_false, Sensible]
    simp only [List.forall_mem_cons, List.tail_cons]
    constructor
    · rintro ⟨-, h2, h3, h4⟩
      exact ⟨h3, h2, h4⟩
    · rintro ⟨h3, h2, h4⟩
      exact ⟨.inl trivial, h2, h3, h4⟩

theorem reachedD_spec (first : Bool) (s : Stamp) :
    Verdict ((first = true ∨ s.arrival ≠ INVALID) ∧ s.arrival ≤ s.departure) (reachedD first s) () :=
  (Verdict.check _ _).bind (Verdict.check _ _)

theorem eventStampsD_spec {limit : Option Nat} {prevDist dist : Rat} {startDep endArr endDep : Nat} {p : Phases}
    (first : Bool) (es : List Event) {l : List Stamp}
    (h : eventStamps limit prevDist dist startDep endArr endDep p es = .done l) :
    Verdict (okFrom first l) (eventStampsD limit prevDist dist startDep endArr endDep p first es) l := by
  induction es generalizing first l with
  | nil =>
    unfold eventStamps at h
    cases h
    exact Verdict.ok []
  | cons e es ih =>
    unfold eventStamps at h
    unfold eventStampsD
    split at h
    · rename_i he
      rw [if_pos he]
      obtain ⟨m, hm, rfl⟩ := Outcome.map_eq_done h
      refine ((reachedD_spec first _).bind ((ih false hm).bind (Verdict.ok _))).imp ?_
      rw [okFrom]; simp [and_assoc]
    · rename_i he
      rw [if_neg he]
      cases ht : eventTime p (e.dist - prevDist) with
      | none => rw [ht] at h; cases h
      | some t =>
        rw [ht] at h
        simp only at h ⊢
        cases hr : toRelative limit t with
        | bad => rw [hr] at h; cases h
        | running => rw [hr] at h; cases h
        | done r =>
          rw [hr] at h
          simp only [Outcome.bind] at h
          obtain ⟨m, hm, rfl⟩ := Outcome.map_eq_done h
          refine ((Verdict.lift rfl).bind ((reachedD_spec first _).bind ((ih false hm).bind (Verdict.ok _)))).imp ?_
          rw [okFrom]; simp [and_assoc]

theorem runIntervalD_spec {fuel : Nat} {tp : Train} {limit : Option Nat} {start : Nat} (first : Bool) {speed time prevDist : Rat}
    {i : Interval} {r : (Rat × Rat) × List Stamp} (hz : Units.eqVal (i.dist - prevDist) 0 = false)
    (h : runInterval fuel tp limit start speed time prevDist i = .done r) :
    Verdict (okFrom first r.2) (runIntervalD fuel tp limit start first speed time prevDist i) r := by
  unfold runInterval at h
  unfold runIntervalD
  cases hp : getPhases fuel tp speed prevDist i with
  | bad => rw [hp] at h; cases h
  | running => rw [hp] at h; cases h
  | done p =>
    rw [hp] at h
    simp only [Outcome.bind] at h
    cases hb : toRelative limit time with
    | bad => rw [hb] at h; cases h
    | running => rw [hb] at h; cases h
    | done before =>
      rw [hb] at h
      simp only at h
      cases ha : toRelative limit (time + (p.accel.time + p.coast.time + p.deaccel.time)) with
      | bad => rw [ha] at h; cases h
      | running => rw [ha] at h; cases h
      | done after =>
        rw [ha] at h
        simp only at h
        cases he : eventStamps limit prevDist i.dist (wrap limit (start + before)) (wrap limit (start + after))
            (endDeparture limit i.halt (wrap limit (start + after))) p i.events with
        | bad => rw [he] at h; cases h
        | running => rw [he] at h; cases h
        | done stamps =>
          rw [he] at h
          simp only at h
          split at h
          · rename_i hle
            cases h
            have last : Verdict True (if endSpeed p ≤ i.right then
                (.done (.ok ((endSpeed p, time + (p.accel.time + p.coast.time + p.deaccel.time) +
                  (minus limit (endDeparture limit i.halt (wrap limit (start + after))) (wrap limit (start + after)) : Nat)), stamps)) :
                  Chk ((Rat × Rat) × List Stamp)) else .bad)
                ((endSpeed p, time + (p.accel.time + p.coast.time + p.deaccel.time) +
                  (minus limit (endDeparture limit i.halt (wrap limit (start + after))) (wrap limit (start + after)) : Nat)), stamps) := by
              rw [if_pos hle]; exact Verdict.ok _
            refine ((Verdict.check _ _).bind ((Verdict.lift rfl).bind ((Verdict.lift rfl).bind ((Verdict.lift ha).bind
              ((eventStampsD_spec first _ he).bind last))))).imp ?_
            simp [hz]
          · cases h

theorem runFromD_spec {fuel : Nat} {tp : Train} {limit : Option Nat} {start : Nat} (first : Bool) {speed time prevDist : Rat}
    {l : List Interval} {q : Rat × List Stamp}
    (hz : ∀ i ∈ l, prevDist + 1 / 100 ≤ i.dist) (hl : l.Pairwise (fun a b => a.dist + 1 / 100 ≤ b.dist))
    (h : runFrom fuel tp limit start speed time prevDist l = .done q) :
    Verdict (okFrom first q.2) (runFromD fuel tp limit start first speed time prevDist l) q := by
  induction l generalizing first speed time prevDist q with
  | nil =>
    unfold runFrom at h
    cases h
    exact Verdict.ok _
  | cons i l ih =>
    unfold runFrom at h
    unfold runFromD
    cases hr : runInterval fuel tp limit start speed time prevDist i with
    | bad => rw [hr] at h; cases h
    | running => rw [hr] at h; cases h
    | done r =>
      rw [hr] at h
      simp only [Outcome.bind] at h
      obtain ⟨q', hq, rfl⟩ := Outcome.map_eq_done h
      have hne : Units.eqVal (i.dist - prevDist) 0 = false := by
        rw [← Bool.not_eq_true, eqVal_iff, abs_lt]
        have := hz i (by simp)
        rintro ⟨h1, h2⟩
        linarith
      obtain ⟨h1, h2⟩ := List.pairwise_cons.1 hl
      refine ((runIntervalD_spec first hne hr).bind ((ih (first && r.2.isEmpty) h1 h2 hq).bind (Verdict.ok _))).imp ?_
      rw [okFrom_append]; simp

theorem firstStampsD_spec (start : Nat) (halt : Bool) (first : Bool) (es : List Event) :
    Verdict ((es = [] ∨ halt = true) ∧ okFrom first (es.map fun e => { arrival := start, departure := start, node := e.node }))
      (firstStampsD start halt first es) (es.map fun e => { arrival := start, departure := start, node := e.node }) := by
  induction es generalizing first with
  | nil => exact (Verdict.ok _).imp (by simp [okFrom])
  | cons e es ih =>
    unfold firstStampsD
    refine ((Verdict.check _ _).bind ((reachedD_spec first _).bind ((ih false).bind (Verdict.ok _)))).imp ?_
    simp only [List.map_cons, okFrom, reduceCtorEq, false_or]
    constructor
    · rintro ⟨h1, ⟨h2, h3⟩, ⟨-, h4⟩, -⟩
      exact ⟨h1, h2, h3, h4⟩
    · rintro ⟨h1, h2, h3, h4⟩
      exact ⟨h1, ⟨h2, h3⟩, ⟨.inr h1, h4⟩, trivial⟩

theorem runIntervalsD_spec {fuel : Nat} {tp : Train} {limit : Option Nat} {start : Nat} {p : Interval} {l : List Interval}
    {q : Rat × List Stamp} (hl : (p :: l).Pairwise (fun a b => a.dist + 1 / 100 ≤ b.dist))
    (h : runIntervals fuel tp limit start (p :: l) = .done q) :
    Verdict (Known start ∧ (p.events = [] ∨ p.halt.isSome = true) ∧ Sensible q.2)
      (runIntervalsD fuel tp limit start (p :: l)) q := by
  unfold runIntervals at h
  obtain ⟨q', hq, rfl⟩ := Outcome.map_eq_done h
  obtain ⟨h1, h2⟩ := List.pairwise_cons.1 hl
  unfold runIntervalsD
  refine ((Verdict.check _ _).bind ((firstStampsD_spec start p.halt.isSome true p.events).bind
    ((runFromD_spec _ h1 h2 hq).bind (Verdict.ok _)))).imp ?_
  rw [← okFrom_true, okFrom_append]
  simp [Known, INVALID, and_assoc]

/-! ### Merging of halts -/

theorem rawIntervalsD_concat (initial : Rat) (pre : List TNode) (n : TNode) :
    rawIntervalsD initial (pre ++ [n]) = (rawIntervalsD initial pre).bind fun s => nodeStepD s n := by
  unfold rawIntervalsD
  rw [List.foldlM_append]
  congr 1
  funext s
  show (nodeStepD s n >>= fun s' => pure s') = _
  cases nodeStepD s n <;> rfl

/-- the node is merged with an interval although both are halts -/
def clash (s : State) (n : TNode) : Prop :=
  n.omitted = false ∧ closes n = true ∧ n.stop.isSome = true ∧
    ∃ b, (skel s).list.getLast? = some b ∧ Units.eqVal b.1 (s.dist + n.gap) = true ∧ b.2.1.isSome = true

theorem nodeStepD_spec (s : State) (n : TNode) :
    (¬ clash s n → nodeStepD s n = .ok (nodeStep s n)) ∧ (clash s n → nodeStepD s n = .error 35) := by
  unfold nodeStepD nodeStep clash
  by_cases ho : n.omitted = true
  · simp [ho]
  · simp only [ho]
    simp only [Bool.false_eq_true, if_false]
    have h1 := (applyLastSignal_skel { s with dist := s.dist + n.gap } (getSpeedLimit n)).1
    have h2 := (applyHere_skel (applyLastSignal { s with dist := s.dist + n.gap } (getSpeedLimit n)) (getSpeedLimit n)).1
    rw [h1] at h2
    revert h2
    generalize applyHere (applyLastSignal { s with dist := s.dist + n.gap } (getSpeedLimit n)) (getSpeedLimit n) = t
    intro h2
    simp only [skel, Skel.mk.injEq] at h2
    obtain ⟨hl, hd, -⟩ := h2
    unfold closeIntervalD closeInterval
    by_cases hc : closes n = true
    · have hc' := hc
      unfold closes at hc'
      simp only [hc', if_true, hc, true_and, skel, ← hl]
      unfold pushIntervalD pushInterval
      simp only [noteNode, List.getLast?_map]
      cases hb : t.list.getLast? with
      | none => simp [Except.map]
      | some b =>
        simp only [Option.map_some, Option.some.injEq, exists_eq_left', key, hd]
        by_cases he : Units.eqVal b.dist (s.dist + n.gap) = true
        · simp only [he, if_true, true_and]
          cases hbh : b.halt with
          | none => simp [Except.map]
          | some x => cases hn : n.stop <;> simp [Except.map]
        · simp [he, Except.map]
    · have hc' := hc
      unfold closes at hc'
      simp [hc', hc]

theorem rawIntervals_dist (initial : Rat) (nodes : List TNode) : (rawIntervals initial nodes).dist = (nodes.map TNode.gap).sum := by
  rw [← skelRun_dist, ← skel_rawIntervals initial]; rfl

/-- the halt of an interval is that of a stop less than a centimetre behind its border -/
theorem skelRun_halts (nodes : List TNode) (hf : Forward nodes) : ∀ i ∈ (skelRun nodes).list, i.2.1.isSome = true →
    ∃ (k : Nat) (n : TNode), nodes[k]? = some n ∧ Stopping n ∧ i.1 ≤ pos nodes k := by
  induction nodes using List.reverseRecOn with
  | nil => intro i hi; simp [skelRun] at hi
  | append_singleton pre n ih =>
    obtain ⟨hf', hg⟩ := forward_prefix hf
    have old : ∀ i ∈ (skelRun pre).list, i.2.1.isSome = true → ∃ (k : Nat) (m : TNode), (pre ++ [n])[k]? = some m ∧ Stopping m ∧
        i.1 ≤ pos (pre ++ [n]) k := by
      intro i hi hh
      obtain ⟨k, m, h1, h2, h3⟩ := ih hf' i hi hh
      exact ⟨k, m, getElem?_prefix h1, h2, by rw [pos_prefix _ _ _ (List.getElem?_eq_some_iff.mp h1).1]; exact h3⟩
    have hbound := (skelRun_order pre hf').2.1
    rw [skelRun_concat]
    unfold skelStep
    by_cases ho : n.omitted = true
    · simpa only [ho, if_true] using old
    · simp only [ho]
      by_cases hc : closes n = true
      · simp only [hc, if_true, Bool.false_eq_true, if_false]
        intro i hi hh
        have new : ∀ x : Rat, x ≤ (skelRun pre).dist + n.gap → n.stop.isSome = true →
            ∃ (k : Nat) (m : TNode), (pre ++ [n])[k]? = some m ∧ Stopping m ∧ x ≤ pos (pre ++ [n]) k := fun x hx hs =>
          ⟨pre.length, n, by simp, ⟨(closes_iff n).mp ⟨by simpa using ho, hc⟩, hs⟩, by rw [pos_last, ← skelRun_dist]; exact hx⟩
        unfold pushKey at hi
        cases hl : (skelRun pre).list.getLast? with
        | none =>
          rw [hl] at hi
          simp only [List.mem_singleton] at hi
          subst hi
          exact new _ (le_refl _) hh
        | some b =>
          rw [hl] at hi
          simp only at hi
          have hb := List.mem_of_getLast? hl
          split at hi
          · rcases List.mem_append.mp hi with hi | hi
            · exact old i (List.dropLast_subset _ hi) hh
            · simp only [List.mem_singleton] at hi
              subst hi
              cases hn : n.stop with
              | some x => exact new _ (by have := hbound b hb; simp only; linarith) (by rw [hn]; rfl)
              | none => exact old b hb (by simpa [hn] using hh)
          · rcases List.mem_append.mp hi with hi | hi
            · exact old i hi hh
            · simp only [List.mem_singleton] at hi
              subst hi
              exact new _ (le_refl _) hh
      · simpa only [hc, Bool.false_eq_true, if_false] using old

/-- with stops apart no halts are merged -/
theorem rawIntervalsD_apart (initial : Rat) (nodes : List TNode) (hf : Forward nodes) (hs : StopsApart nodes) :
    rawIntervalsD initial nodes = .ok (rawIntervals initial nodes) := by
  induction nodes using List.reverseRecOn with
  | nil => rfl
  | append_singleton pre n ih =>
    obtain ⟨hf', hg⟩ := forward_prefix hf
    have hs' : StopsApart pre := by
      intro i j a b hij ha hb h1 h2
      have hj := (List.getElem?_eq_some_iff.mp hb).1
      have := hs i j a b hij (getElem?_prefix ha) (getElem?_prefix hb) h1 h2
      rwa [pos_prefix _ _ _ (by omega), pos_prefix _ _ _ hj] at this
    rw [rawIntervalsD_concat, ih hf' hs', rawIntervals_concat]
    refine (nodeStepD_spec _ n).1 ?_
    rintro ⟨h1, h2, h3, b, hb, he, hh⟩
    rw [skel_rawIntervals] at hb
    rw [rawIntervals_dist, eqVal_iff, abs_lt] at he
    obtain ⟨k, m, hk, hm, hle⟩ := skelRun_halts pre hf' b (List.mem_of_getLast? hb) hh
    have hlt := (List.getElem?_eq_some_iff.mp hk).1
    have := hs k pre.length m n hlt (getElem?_prefix hk) (by simp) hm ⟨(closes_iff n).1 ⟨h1, h2⟩, h3⟩
    rw [pos_last, pos_prefix _ _ _ hlt] at this
    linarith [he.1]

theorem rawIntervalsD_ok {initial : Rat} {nodes : List TNode} {s : State} (h : rawIntervalsD initial nodes = .ok s) :
    s = rawIntervals initial nodes := by
  induction nodes using List.reverseRecOn generalizing s with
  | nil => cases h; rfl
  | append_singleton pre n ih =>
    rw [rawIntervalsD_concat] at h
    cases hp : rawIntervalsD initial pre with
    | error e => rw [hp] at h; cases h
    | ok t =>
      rw [hp] at h
      simp only [Except.bind] at h
      by_cases hc : clash t n
      · rw [(nodeStepD_spec t n).2 hc] at h; cases h
      · rw [(nodeStepD_spec t n).1 hc] at h
        cases h
        rw [rawIntervals_concat, ih hp]

theorem pos_le_sum (nodes : List TNode) (hf : Forward nodes) (k : Nat) : pos nodes k ≤ (nodes.map TNode.gap).sum := by
  unfold pos
  conv_rhs => rw [← List.take_append_drop (k + 1) nodes]
  rw [List.map_append, List.sum_append]
  have : 0 ≤ ((nodes.drop (k + 1)).map TNode.gap).sum := by
    apply List.sum_nonneg
    intro x hx
    obtain ⟨m, hm, rfl⟩ := List.mem_map.1 hx
    exact hf m (List.mem_of_mem_drop hm)
  linarith

/-- as long as the train is where it stopped, the last interval is a halt there -/
theorem skelRun_here (nodes : List TNode) (hf : Forward nodes) (k : Nat) (n : TNode) (hk : nodes[k]? = some n)
    (hn : Stopping n) (hp : pos nodes k = (nodes.map TNode.gap).sum) :
    ∃ b, (skelRun nodes).list.getLast? = some b ∧ Units.eqVal b.1 (pos nodes k) = true ∧ b.2.1.isSome = true := by
  induction nodes using List.reverseRecOn with
  | nil => simp at hk
  | append_singleton pre m ih =>
    obtain ⟨hf', hg⟩ := forward_prefix hf
    have hself : Units.eqVal (pos (pre ++ [m]) k) (pos (pre ++ [m]) k) = true := by
      rw [eqVal_iff]; simp
    have hdist : (skelRun pre).dist + m.gap = pos (pre ++ [m]) k := by
      rw [skelRun_dist, hp]; simp
    rw [skelRun_concat]
    unfold skelStep
    by_cases hlt : k < pre.length
    · have hk' : pre[k]? = some n := by rwa [List.getElem?_append_left hlt] at hk
      have h1 : pos (pre ++ [m]) k = pos pre k := pos_prefix _ _ _ hlt
      have h2 := pos_le_sum pre hf' k
      have h3 : m.gap = 0 := by
        rw [h1] at hp
        simp only [List.map_append, List.sum_append, List.map_cons, List.map_nil, List.sum_cons, List.sum_nil] at hp
        linarith
      have h4 : pos pre k = (pre.map TNode.gap).sum := by
        rw [h1] at hp
        simp only [List.map_append, List.sum_append, List.map_cons, List.map_nil, List.sum_cons, List.sum_nil] at hp
        linarith
      obtain ⟨b, hb, he, hh⟩ := ih hf' hk' h4
      rw [← h1] at he
      by_cases ho : m.omitted = true
      · simp only [ho, if_true]
        exact ⟨b, hb, he, hh⟩
      · simp only [ho, Bool.false_eq_true, if_false]
        by_cases hc : closes m = true
        · simp only [hc, if_true, hdist]
          unfold pushKey
          rw [hb]
          simp only [he, if_true, List.getLast?_append, List.getLast?_singleton, Option.some_or]
          refine ⟨_, rfl, he, ?_⟩
          cases hm : m.stop <;> simp [hh]
        · simp only [hc, Bool.false_eq_true, if_false]
          exact ⟨b, hb, he, hh⟩
    · have hlen := (List.getElem?_eq_some_iff.mp hk).1
      simp at hlen
      obtain rfl : k = pre.length := by omega
      obtain rfl : m = n := by simpa using hk
      obtain ⟨h5, h6⟩ := (closes_iff m).2 hn.1
      simp only [h5, Bool.false_eq_true, if_false, h6, if_true, hdist]
      unfold pushKey
      have hs := hn.2
      cases hb : (skelRun pre).list.getLast? with
      | none => exact ⟨_, rfl, hself, hs⟩
      | some b =>
        simp only
        split
        · rename_i he
          rw [List.getLast?_append]
          exact ⟨_, rfl, he, by simp [hs]⟩
        · rw [List.getLast?_append]
          exact ⟨_, rfl, hself, hs⟩

/-- two stops at the same place are merged, which an assertion forbids -/
theorem rawIntervalsD_together (initial : Rat) (nodes : List TNode) (hf : Forward nodes) (i j : Nat) (a b : TNode) (hij : i < j)
    (ha : nodes[i]? = some a) (hb : nodes[j]? = some b) (hsa : Stopping a) (hsb : Stopping b) (hp : pos nodes i = pos nodes j) :
    ∃ line, rawIntervalsD initial nodes = .error line := by
  have herr : ∀ (post pre : List TNode), (∃ line, rawIntervalsD initial pre = .error line) →
      ∃ line, rawIntervalsD initial (pre ++ post) = .error line := by
    intro post
    induction post with
    | nil => intro pre h; simpa using h
    | cons m post ih =>
      rintro pre ⟨line, h⟩
      have := ih (pre ++ [m]) ⟨line, by rw [rawIntervalsD_concat, h]; rfl⟩
      simpa using this
  have hj := (List.getElem?_eq_some_iff.mp hb).1
  have hsplit : nodes = (nodes.take j ++ [b]) ++ nodes.drop (j + 1) := by
    conv_lhs => rw [← List.take_append_drop (j + 1) nodes]
    congr 1
    rw [List.take_succ, hb]; rfl
  rw [hsplit]
  refine herr _ _ ?_
  rw [rawIntervalsD_concat]
  cases hd : rawIntervalsD initial (nodes.take j) with
  | error e => exact ⟨e, rfl⟩
  | ok s =>
    have hs := rawIntervalsD_ok hd
    subst hs
    have hft : Forward (nodes.take j) := fun m hm => hf m (List.mem_of_mem_take hm)
    have hposj : pos nodes j = ((nodes.take j).map TNode.gap).sum + b.gap := by
      unfold pos
      rw [List.take_succ, hb]; simp
    have hposi : pos (nodes.take j) i = pos nodes i := by
      unfold pos
      rw [List.take_take, min_eq_left (by omega)]
    have hle := pos_le_sum _ hft i
    have hg := hf b (List.mem_of_getElem? hb)
    obtain ⟨c, hc, he, hh⟩ := skelRun_here (nodes.take j) hft i a (by rw [List.getElem?_take, if_pos hij]; exact ha) hsa (by linarith)
    obtain ⟨h5, h6⟩ := (closes_iff b).2 hsb.1
    refine ⟨35, (nodeStepD_spec _ b).2 ⟨h5, h6, hsb.2, c, ?_, ?_, hh⟩⟩
    · rw [skel_rawIntervals]; exact hc
    · rw [rawIntervals_dist, ← hposj, ← hp, ← hposi]; exact he

/-- the first interval of a train that begins at a stop is a halt -/
theorem skelRun_first (nodes : List TNode) (h : StartsAtStop nodes) :
    ∃ i, (skelRun nodes).list.head? = some i ∧ i.2.1.isSome = true := by
  induction nodes using List.reverseRecOn with
  | nil => obtain ⟨n, hn, -⟩ := h; cases hn
  | append_singleton pre m ih =>
    rw [skelRun_concat]
    unfold skelStep
    cases pre with
    | nil =>
      obtain ⟨n, hn, hs⟩ := h
      obtain rfl : m = n := by simpa using hn
      obtain ⟨h5, h6⟩ := (closes_iff m).2 hs.1
      simp only [h5, Bool.false_eq_true, if_false, h6, if_true]
      exact ⟨_, rfl, hs.2⟩
    | cons x pre =>
      obtain ⟨i, hi, hh⟩ := ih (by obtain ⟨n, hn, hs⟩ := h; exact ⟨n, by simpa using hn, hs⟩)
      generalize (skelRun (x :: pre)).list = l at hi ⊢
      split
      · exact ⟨i, hi, hh⟩
      · simp only
        split
        · unfold pushKey
          cases hb : l.getLast? with
          | none => rw [List.getLast?_eq_none_iff.1 hb] at hi; cases hi
          | some b =>
            simp only
            split
            · cases l with
              | nil => cases hi
              | cons y l =>
                cases l with
                | nil =>
                  obtain rfl : y = i := by simpa using hi
                  obtain rfl : y = b := by simpa using hb
                  refine ⟨_, rfl, ?_⟩
                  cases hm : m.stop <;> simp [hh]
                | cons z l => exact ⟨i, by simpa using hi, hh⟩
            · cases l with
              | nil => cases hi
              | cons y l => exact ⟨i, by simpa using hi, hh⟩
        · exact ⟨i, hi, hh⟩

end Soro.Runtime
