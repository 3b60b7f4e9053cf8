import Verif.Proof.Interval

/-
The list of intervals without its limits: distances, halts, events.
-/

namespace Soro.Runtime

open Soro.Runtime.Spec

/-- what is left of an interval without its limits -/
def key (i : Interval) : Rat × Option Halt × List Event :=
  (i.dist, i.halt, i.events)

/-- `pushInterval` without limits -/
def pushKey (l : List (Rat × Option Halt × List Event)) (k : Rat × Option Halt × List Event) :
    List (Rat × Option Halt × List Event) :=
  match l.getLast? with
  | some b =>
    if Units.eqVal b.1 k.1 then l.dropLast ++ [(b.1, if k.2.1.isSome then k.2.1 else b.2.1, b.2.2 ++ k.2.2)] else l ++ [k]
  | none => [k]

theorem pushInterval_key (l : List Interval) (i : Interval) :
    (pushInterval l i).map key = pushKey (l.map key) (key i) := by
  unfold pushInterval pushKey
  rw [List.getLast?_map]
  cases l.getLast? with
  | none => rfl
  | some b =>
    simp only [Option.map_some]
    by_cases h : Units.eqVal b.dist i.dist = true
    · rw [if_pos h, if_pos (show Units.eqVal (key b).1 (key i).1 = true from h)]
      simp [List.map_append, List.map_dropLast, Interval.append, key]
      rfl
    · rw [if_neg h, if_neg (show ¬ Units.eqVal (key b).1 (key i).1 = true from h)]
      simp [key]

/-- a state without limits -/
structure Skel where
  list : List (Rat × Option Halt × List Event)
  dist : Rat
  events : List Event

def skel (s : State) : Skel :=
  { list := s.list.map key, dist := s.dist, events := s.events }

/-- an interval ends at the node -/
def closes (n : TNode) : Bool :=
  n.mainSignal || n.halt || (getSpeedLimit n).here.isSome

def skelStep (s : Skel) (n : TNode) : Skel :=
  if n.omitted then { s with dist := s.dist + n.gap }
  else
    let events := if n.isEvent then s.events ++ [{ node := n.id, dist := s.dist + n.gap }] else s.events
    if closes n then { list := pushKey s.list (s.dist + n.gap, n.stop, events), dist := s.dist + n.gap, events := [] }
    else { s with dist := s.dist + n.gap, events := events }

theorem insert_same (new : Rat) (list : List Interval) (k : Nat) :
    (insertLastSignal new list k).1.map key = list.map key := by
  unfold insertLastSignal
  cases h : list[k]? with
  | none => rfl
  | some i =>
    simp only [List.map_append]
    have := rewrite_same new i.right false (list.drop k)
    unfold key
    rw [this, ← List.map_append, List.take_append_drop]

theorem applyLastSignal_skel (s : State) (d : Duo) : skel (applyLastSignal s d) = skel s ∧ (applyLastSignal s d).lastMs = s.lastMs := by
  unfold applyLastSignal
  cases d.lastSignal with
  | none => exact ⟨rfl, rfl⟩
  | some v =>
    simp only
    split
    · simp [skel, insert_same]
    · simp [skel, insert_same]

theorem applyHere_skel (s : State) (d : Duo) : skel (applyHere s d) = skel s ∧ (applyHere s d).lastMs = s.lastMs := by
  unfold applyHere
  cases d.here with
  | none => exact ⟨rfl, rfl⟩
  | some v => exact ⟨rfl, rfl⟩

theorem nodeStep_skel (s : State) (n : TNode) : skel (nodeStep s n) = skelStep (skel s) n := by
  unfold nodeStep skelStep
  by_cases ho : n.omitted = true
  · simp only [ho, if_true]
    rfl
  · simp only [ho]
    simp only [Bool.false_eq_true, if_false]
    have h1 := (applyLastSignal_skel { s with dist := s.dist + n.gap } (getSpeedLimit n)).1
    have h2 := (applyHere_skel (applyLastSignal { s with dist := s.dist + n.gap } (getSpeedLimit n)) (getSpeedLimit n)).1
    rw [h1] at h2
    revert h2
    generalize applyHere (applyLastSignal { s with dist := s.dist + n.gap } (getSpeedLimit n)) (getSpeedLimit n) = t
    intro h2
    simp only [skel, Skel.mk.injEq] at h2
    obtain ⟨hl, hd, he⟩ := h2
    unfold closeInterval
    by_cases hc : closes n = true
    · have hc' := hc
      unfold closes at hc'
      simp only [hc, hc', if_true, noteNode, skel, pushInterval_key, hl, key, hd, he]
    · have hc' := hc
      unfold closes at hc'
      simp only [hc]
      rw [if_neg hc']
      simp only [noteNode, skel, hl, hd, he]
      rfl

def skelRun (nodes : List TNode) : Skel :=
  nodes.foldl skelStep { list := [], dist := 0, events := [] }

theorem skel_rawIntervals (initial : Rat) (nodes : List TNode) : skel (rawIntervals initial nodes) = skelRun nodes := by
  unfold rawIntervals skelRun
  have : ∀ (s : State), skel (nodes.foldl nodeStep s) = nodes.foldl skelStep (skel s) := by
    induction nodes with
    | nil => intro s; rfl
    | cons n l ih =>
      intro s
      rw [List.foldl_cons, List.foldl_cons, ih, nodeStep_skel]
  exact this _

theorem skelRun_concat (pre : List TNode) (n : TNode) : skelRun (pre ++ [n]) = skelStep (skelRun pre) n := by
  simp [skelRun, List.foldl_append]

/-! ### Borders -/

theorem closes_here (n : TNode) : (getSpeedLimit n).here = broughtLimit n := by
  unfold getSpeedLimit broughtLimit hereValue
  cases hs : n.spl with
  | none =>
    cases he : n.extra with
    | none => rfl
    | some e =>
      simp only [Duo.handle]
      cases e.effective <;> cases e.here <;> rfl
  | some l =>
    cases he : n.extra with
    | none =>
      simp only [Duo.handle]
      cases l.effective <;> cases l.here <;> rfl
    | some e =>
      simp only [Duo.handle]
      cases e.effective <;> cases e.here <;> cases l.effective <;> cases l.here <;> rfl

theorem brought_iff (n : TNode) : (broughtLimit n).isSome = true ↔ HereLimit n := by
  unfold broughtLimit hereValue HereLimit
  constructor
  · intro h
    cases he : n.extra with
    | none =>
      cases hs : n.spl with
      | none => simp [he, hs] at h
      | some l =>
        refine ⟨l, Or.inl rfl, ?_⟩
        rw [he, hs] at h
        cases h1 : l.effective <;> cases h2 : l.here <;> simp [h1, h2] at h ⊢
    | some e =>
      by_cases hh : (e.effective && e.here) = true
      · exact ⟨e, Or.inr rfl, by simpa using hh⟩
      · cases hs : n.spl with
        | none => simp [he, hs, hh] at h
        | some l =>
          refine ⟨l, Or.inl rfl, ?_⟩
          rw [he, hs] at h
          simp only [hh] at h
          cases h1 : l.effective <;> cases h2 : l.here <;> simp [h1, h2] at h ⊢
  · rintro ⟨l, hl | hl, h1, h2⟩
    · rw [hl]
      cases he : n.extra with
      | none => simp [h1, h2]
      | some e => cases h3 : e.effective <;> cases h4 : e.here <;> simp [h1, h2, h3, h4]
    · rw [hl]
      simp [h1, h2]

theorem closes_iff (n : TNode) : n.omitted = false ∧ closes n = true ↔ Border n := by
  unfold closes Border
  rw [closes_here, ← brought_iff]
  simp [or_assoc]

/-! ### Positions -/

theorem pos_prefix (pre : List TNode) (n : TNode) (k : Nat) (hk : k < pre.length) : pos (pre ++ [n]) k = pos pre k := by
  unfold pos
  rw [List.take_append_of_le_length (by omega)]

theorem pos_last (pre : List TNode) (n : TNode) : pos (pre ++ [n]) pre.length = (pre.map TNode.gap).sum + n.gap := by
  unfold pos
  rw [List.take_of_length_le (by simp)]
  simp

theorem skelRun_dist (nodes : List TNode) : (skelRun nodes).dist = (nodes.map TNode.gap).sum := by
  induction nodes using List.reverseRecOn with
  | nil => rfl
  | append_singleton pre n ih =>
    rw [skelRun_concat]
    have : (skelStep (skelRun pre) n).dist = (skelRun pre).dist + n.gap := by
      unfold skelStep
      split
      · rfl
      · simp only
        split <;> rfl
    rw [this, ih]
    simp

theorem forward_prefix {pre : List TNode} {n : TNode} (h : Forward (pre ++ [n])) : Forward pre ∧ 0 ≤ n.gap :=
  ⟨fun m hm => h m (by simp [hm]), h n (by simp)⟩

theorem getElem?_prefix {pre : List TNode} {n a : TNode} {k : Nat} (h : pre[k]? = some a) : (pre ++ [n])[k]? = some a := by
  rw [List.getElem?_append_left (List.getElem?_eq_some_iff.mp h).1]
  exact h

/-- every interval stands at a border -/
theorem skelRun_borders (nodes : List TNode) :
    ∀ i ∈ (skelRun nodes).list, ∃ (k : Nat) (n : TNode), nodes[k]? = some n ∧ Border n ∧ i.1 = pos nodes k := by
  induction nodes using List.reverseRecOn with
  | nil => intro i hi; simp [skelRun] at hi
  | append_singleton pre n ih =>
    have old : ∀ i ∈ (skelRun pre).list, ∃ (k : Nat) (m : TNode), (pre ++ [n])[k]? = some m ∧ Border m ∧
        i.1 = pos (pre ++ [n]) k := by
      intro i hi
      obtain ⟨k, m, h1, h2, h3⟩ := ih i hi
      exact ⟨k, m, getElem?_prefix h1, h2, by rw [pos_prefix _ _ _ (List.getElem?_eq_some_iff.mp h1).1]; exact h3⟩
    rw [skelRun_concat]
    unfold skelStep
    by_cases ho : n.omitted = true
    · simpa only [ho, if_true] using old
    · simp only [ho]
      by_cases hc : closes n = true
      · simp only [hc, if_true, Bool.false_eq_true, if_false]
        intro i hi
        have new : ∃ (k : Nat) (m : TNode), (pre ++ [n])[k]? = some m ∧ Border m ∧
            (skelRun pre).dist + n.gap = pos (pre ++ [n]) k :=
          ⟨pre.length, n, by simp, (closes_iff n).mp ⟨by simpa using ho, hc⟩, by rw [pos_last, skelRun_dist]⟩
        unfold pushKey at hi
        cases hg : (skelRun pre).list.getLast? with
        | none =>
          rw [hg] at hi
          simp only [List.mem_singleton] at hi
          subst hi
          exact new
        | some b =>
          rw [hg] at hi
          simp only at hi
          split at hi
          · rcases List.mem_append.mp hi with hi | hi
            · exact old i (List.dropLast_subset _ hi)
            · simp only [List.mem_singleton] at hi
              subst hi
              exact old b (List.mem_of_getLast? hg)
          · rcases List.mem_append.mp hi with hi | hi
            · exact old i hi
            · simp only [List.mem_singleton] at hi
              subst hi
              exact new
      · simpa only [hc, Bool.false_eq_true, if_false] using old

/-- order of the distances and the events -/
theorem skelRun_order (nodes : List TNode) (hf : Forward nodes) :
    (skelRun nodes).list.Pairwise (fun a b => a.1 + 1 / 100 ≤ b.1) ∧
    (∀ i ∈ (skelRun nodes).list, i.1 ≤ (skelRun nodes).dist) ∧
    (∀ e ∈ (skelRun nodes).events, e.dist ≤ (skelRun nodes).dist ∧ ∀ i ∈ (skelRun nodes).list, i.1 ≤ e.dist) ∧
    (∀ i ∈ (skelRun nodes).list, ∀ e ∈ i.2.2, e.dist < i.1 + 1 / 100) ∧
    (skelRun nodes).list.Pairwise (fun a b => ∀ e ∈ b.2.2, a.1 ≤ e.dist) := by
  induction nodes using List.reverseRecOn with
  | nil => simp [skelRun]
  | append_singleton pre n ih =>
    obtain ⟨hf', hg⟩ := forward_prefix hf
    obtain ⟨h1, h2, h3, h4, h5⟩ := ih hf'
    rw [skelRun_concat]
    unfold skelStep
    have h2' : ∀ i ∈ (skelRun pre).list, i.1 ≤ (skelRun pre).dist + n.gap := fun i hi => by
      have := h2 i hi
      linarith
    by_cases ho : n.omitted = true
    · simp only [ho, if_true]
      refine ⟨h1, h2', ?_, h4, h5⟩
      intro e he
      refine ⟨?_, (h3 e he).2⟩
      have := (h3 e he).1
      linarith
    · simp only [ho]
      simp only [Bool.false_eq_true, if_false]
      -- the pending events with the node's own one
      have hev : ∀ e ∈ (if n.isEvent = true then (skelRun pre).events ++ [{ node := n.id, dist := (skelRun pre).dist + n.gap }]
          else (skelRun pre).events : List Event), e.dist ≤ (skelRun pre).dist + n.gap ∧ ∀ i ∈ (skelRun pre).list, i.1 ≤ e.dist := by
        intro e he
        have hold : e ∈ (skelRun pre).events → e.dist ≤ (skelRun pre).dist + n.gap ∧ ∀ i ∈ (skelRun pre).list, i.1 ≤ e.dist := by
          intro he
          refine ⟨?_, (h3 e he).2⟩
          have := (h3 e he).1
          linarith
        split at he
        · rcases List.mem_append.mp he with he | he
          · exact hold he
          · simp only [List.mem_singleton] at he
            subst he
            exact ⟨le_refl _, h2'⟩
        · exact hold he
      by_cases hc : closes n = true
      · simp only [hc, if_true]
        unfold pushKey
        cases hl : (skelRun pre).list.getLast? with
        | none =>
          simp only
          refine ⟨List.pairwise_singleton _ _, ?_, by simp, ?_, List.pairwise_singleton _ _⟩
          · intro i hi
            simp only [List.mem_singleton] at hi
            subst hi
            exact le_refl _
          · intro i hi e he
            simp only [List.mem_singleton] at hi
            subst hi
            have := (hev e he).1
            simp only
            linarith
        | some b =>
          simp only
          have hb : b ∈ (skelRun pre).list := List.mem_of_getLast? hl
          have hne : (skelRun pre).list ≠ [] := List.ne_nil_of_mem hb
          have hsplit : (skelRun pre).list = (skelRun pre).list.dropLast ++ [b] := by
            rw [List.getLast?_eq_getLast_of_ne_nil hne] at hl
            rw [← Option.some.inj hl, List.dropLast_concat_getLast hne]
          have hdrop : ∀ i ∈ (skelRun pre).list.dropLast, i ∈ (skelRun pre).list := fun i hi => List.dropLast_subset _ hi
          split
          · rename_i heq
            rw [eqVal_iff, abs_lt] at heq
            have h1' := h1
            have h5' := h5
            rw [hsplit, List.pairwise_append] at h1' h5'
            refine ⟨?_, ?_, by simp, ?_, ?_⟩
            · refine List.pairwise_append.mpr ⟨h1'.1, List.pairwise_singleton _ _, ?_⟩
              intro x hx y hy
              simp only [List.mem_singleton] at hy
              subst hy
              exact h1'.2.2 x hx b (by simp)
            · intro i hi
              rcases List.mem_append.mp hi with hi | hi
              · exact h2' i (hdrop i hi)
              · simp only [List.mem_singleton] at hi
                subst hi
                exact h2' b hb
            · intro i hi e he
              rcases List.mem_append.mp hi with hi | hi
              · exact h4 i (hdrop i hi) e he
              · simp only [List.mem_singleton] at hi
                subst hi
                rcases List.mem_append.mp he with he | he
                · exact h4 b hb e he
                · have := (hev e he).1
                  simp only at heq ⊢
                  linarith
            · refine List.pairwise_append.mpr ⟨h5'.1, List.pairwise_singleton _ _, ?_⟩
              intro x hx y hy e he
              simp only [List.mem_singleton] at hy
              subst hy
              rcases List.mem_append.mp he with he | he
              · exact h5'.2.2 x hx b (by simp) e he
              · exact (hev e he).2 x (hdrop x hx)
          · rename_i hneq
            rw [eqVal_iff, not_lt] at hneq
            have hbd : b.1 + 1 / 100 ≤ (skelRun pre).dist + n.gap := by
              have h6 := h2' b hb
              rw [abs_of_nonpos (by linarith)] at hneq
              linarith
            refine ⟨?_, ?_, by simp, ?_, ?_⟩
            · refine List.pairwise_append.mpr ⟨h1, List.pairwise_singleton _ _, ?_⟩
              intro x hx y hy
              simp only [List.mem_singleton] at hy
              subst hy
              rw [hsplit] at hx
              rcases List.mem_append.mp hx with hx | hx
              · have h1' := h1
                rw [hsplit, List.pairwise_append] at h1'
                have := h1'.2.2 x hx b (by simp)
                simp only
                linarith
              · simp only [List.mem_singleton] at hx
                subst hx
                exact hbd
            · intro i hi
              rcases List.mem_append.mp hi with hi | hi
              · exact h2' i hi
              · simp only [List.mem_singleton] at hi
                subst hi
                exact le_refl _
            · intro i hi e he
              rcases List.mem_append.mp hi with hi | hi
              · exact h4 i hi e he
              · simp only [List.mem_singleton] at hi
                subst hi
                have := (hev e he).1
                simp only
                linarith
            · refine List.pairwise_append.mpr ⟨h5, List.pairwise_singleton _ _, ?_⟩
              intro x hx y hy e he
              simp only [List.mem_singleton] at hy
              subst hy
              exact (hev e he).2 x hx
      · simp only [hc, Bool.false_eq_true, if_false]
        exact ⟨h1, h2', hev, h4, h5⟩

/-- no event is lost, none is invented -/
theorem eventsOf_concat (d : Rat) (pre : List TNode) (n : TNode) :
    eventsOf d (pre ++ [n]) = eventsOf d pre ++
      (if n.omitted = false ∧ n.isEvent = true then [{ node := n.id, dist := d + (pre.map TNode.gap).sum + n.gap }] else []) := by
  induction pre generalizing d with
  | nil => simp [eventsOf]
  | cons m pre ih =>
    rw [List.cons_append, eventsOf, ih, eventsOf]
    simp only [List.map_cons, List.sum_cons, List.append_assoc]
    have : d + m.gap + (pre.map TNode.gap).sum = d + (m.gap + (pre.map TNode.gap).sum) := by ring
    rw [this]

theorem pushKey_events (l : List (Rat × Option Halt × List Event)) (k : Rat × Option Halt × List Event) :
    (pushKey l k).flatMap (fun i => i.2.2) = l.flatMap (fun i => i.2.2) ++ k.2.2 := by
  unfold pushKey
  cases hl : l.getLast? with
  | none =>
    rw [List.getLast?_eq_none_iff] at hl
    subst hl
    simp
  | some b =>
    simp only
    split
    · have hne : l ≠ [] := by
        intro h0
        simp [h0] at hl
      rw [List.getLast?_eq_getLast_of_ne_nil hne] at hl
      have hsplit : l = l.dropLast ++ [b] := by rw [← Option.some.inj hl, List.dropLast_concat_getLast hne]
      conv => rhs; rw [hsplit]
      simp
    · simp

theorem skelRun_events (nodes : List TNode) :
    (skelRun nodes).list.flatMap (fun i => i.2.2) ++ (skelRun nodes).events = eventsOf 0 nodes := by
  induction nodes using List.reverseRecOn with
  | nil => rfl
  | append_singleton pre n ih =>
    rw [skelRun_concat, eventsOf_concat, ← ih]
    unfold skelStep
    by_cases ho : n.omitted = true
    · simp [ho]
    · have ho' : n.omitted = false := by simpa using ho
      simp only [ho', Bool.false_eq_true, if_false, true_and, zero_add]
      rw [← skelRun_dist]
      by_cases hc : closes n = true
      · simp only [hc, if_true, pushKey_events, List.append_nil]
        split <;> simp
      · simp only [hc, Bool.false_eq_true, if_false]
        split <;> simp

theorem skelRun_pending (nodes : List TNode) (n : TNode) (hl : nodes.getLast? = some n) (hb : Border n) :
    (skelRun nodes).events = [] := by
  obtain ⟨pre, rfl⟩ : ∃ pre, nodes = pre ++ [n] := by
    have hne : nodes ≠ [] := by
      intro h0
      simp [h0] at hl
    rw [List.getLast?_eq_getLast_of_ne_nil hne] at hl
    exact ⟨nodes.dropLast, by rw [← Option.some.inj hl, List.dropLast_concat_getLast hne]⟩
  rw [skelRun_concat]
  obtain ⟨ho, hc⟩ := (closes_iff n).mpr hb
  unfold skelStep
  simp [ho, hc]

/-! ### The index of the last signal -/

theorem nodeStep_lastMs (s : State) (n : TNode) :
    (nodeStep s n).lastMs = if n.omitted = false ∧ n.mainSignal = true then s.list.length else s.lastMs := by
  unfold nodeStep
  by_cases ho : n.omitted = true
  · simp [ho]
  · have ho' : n.omitted = false := by simpa using ho
    simp only [ho', Bool.false_eq_true, if_false, true_and]
    have h1 := applyLastSignal_skel { s with dist := s.dist + n.gap } (getSpeedLimit n)
    have h2 := applyHere_skel (applyLastSignal { s with dist := s.dist + n.gap } (getSpeedLimit n)) (getSpeedLimit n)
    rw [h1.1, h1.2] at h2
    revert h2
    generalize applyHere (applyLastSignal { s with dist := s.dist + n.gap } (getSpeedLimit n)) (getSpeedLimit n) = t
    intro h2
    have hlen : t.list.length = s.list.length := by
      have := congrArg (fun k : Skel => k.list.length) h2.1
      simpa [skel] using this
    have : ∀ d, (closeInterval (noteNode t n) n d).lastMs = (noteNode t n).lastMs := by
      intro d
      unfold closeInterval
      split <;> rfl
    rw [this]
    simp only [noteNode, hlen, h2.2]

theorem signalsApart_prefix {pre : List TNode} {n : TNode} (h : SignalsApart (pre ++ [n])) : SignalsApart pre := by
  intro i j a b hij ha hb hba ho hm
  have hj := (List.getElem?_eq_some_iff.mp hb).1
  have := h i j a b hij (getElem?_prefix ha) (getElem?_prefix hb) hba ho hm
  rwa [pos_prefix _ _ _ (by omega), pos_prefix _ _ _ hj] at this

theorem rawIntervals_concat (initial : Rat) (pre : List TNode) (n : TNode) :
    rawIntervals initial (pre ++ [n]) = nodeStep (rawIntervals initial pre) n := by
  simp [rawIntervals, List.foldl_append]

theorem pushKey_length (l : List (Rat × Option Halt × List Event)) (k : Rat × Option Halt × List Event) :
    l.length ≤ (pushKey l k).length ∧ 0 < (pushKey l k).length := by
  unfold pushKey
  cases hl : l.getLast? with
  | none =>
    rw [List.getLast?_eq_none_iff] at hl
    subst hl
    simp
  | some b =>
    have hne : l ≠ [] := by
      intro h0
      simp [h0] at hl
    have := List.length_pos_iff.mpr hne
    simp only
    split
    · simp
      omega
    · simp

/-- a border apart from all earlier ones gets an interval of its own -/
theorem pushKey_new {pre : List TNode} {n : TNode}
    (h : ∀ (i : Nat) (a : TNode), pre[i]? = some a → Border a → pos pre i + 1 / 100 ≤ pos (pre ++ [n]) pre.length)
    (k : Option Halt × List Event) :
    pushKey (skelRun pre).list ((skelRun pre).dist + n.gap, k) = (skelRun pre).list ++ [((skelRun pre).dist + n.gap, k)] := by
  unfold pushKey
  cases hl : (skelRun pre).list.getLast? with
  | none =>
    rw [List.getLast?_eq_none_iff] at hl
    rw [hl]
    rfl
  | some b =>
    simp only
    obtain ⟨i, a, ha, hb, hpos⟩ := skelRun_borders pre b (List.mem_of_getLast? hl)
    have h1 := h i a ha hb
    rw [pos_last, ← skelRun_dist, ← hpos] at h1
    have : ¬ Units.eqVal b.1 ((skelRun pre).dist + n.gap) = true := by
      rw [eqVal_iff, not_lt, abs_of_nonpos (by linarith)]
      linarith
    rw [if_neg this]

theorem rawIntervals_index' (initial : Rat) (nodes : List TNode) (h : SignalsApart nodes) :
    (rawIntervals initial nodes).lastMs < (rawIntervals initial nodes).list.length ∨
      ((rawIntervals initial nodes).list = [] ∧ (rawIntervals initial nodes).lastMs = 0) := by
  induction nodes using List.reverseRecOn with
  | nil => exact Or.inr ⟨rfl, rfl⟩
  | append_singleton pre n ih =>
    have hi := ih (signalsApart_prefix h)
    rw [rawIntervals_concat, nodeStep_lastMs]
    have hlen : (nodeStep (rawIntervals initial pre) n).list.length = (skelRun (pre ++ [n])).list.length := by
      rw [← skel_rawIntervals initial, rawIntervals_concat]
      simp [skel]
    have hlen' : (rawIntervals initial pre).list.length = (skelRun pre).list.length := by
      rw [← skel_rawIntervals initial]
      simp [skel]
    rw [hlen, ← List.length_eq_zero_iff, hlen, skelRun_concat]
    by_cases hm : n.omitted = false ∧ n.mainSignal = true
    · rw [if_pos hm, hlen']
      left
      have hc : closes n = true := by simp [closes, hm.2]
      have hpush := pushKey_new (pre := pre) (n := n) (fun i a ha hb => by
        have := h i pre.length a n (List.getElem?_eq_some_iff.mp ha).1 (getElem?_prefix ha) (by simp) hb hm.1 hm.2
        rwa [pos_prefix _ _ _ (List.getElem?_eq_some_iff.mp ha).1] at this)
      unfold skelStep
      simp only [hm.1, Bool.false_eq_true, if_false, hc, if_true, hpush]
      simp
    · rw [if_neg hm]
      have hmono : (skelRun pre).list.length ≤ (skelStep (skelRun pre) n).list.length := by
        unfold skelStep
        split
        · exact le_refl _
        · simp only
          split
          · exact (pushKey_length _ _).1
          · exact le_refl _
      rcases hi with hi | ⟨hi, hi0⟩
      · left
        omega
      · rw [hi0]
        omega

theorem rawIntervals_index (initial : Rat) (nodes : List TNode) (h : SignalsApart nodes) :
    IndexInv (rawIntervals initial nodes) := by
  rcases rawIntervals_index' initial nodes h with h | h
  · exact Or.inl h
  · exact Or.inr h.1

theorem rawIntervals_limits (initial : Rat) (nodes : List TNode) (h : SignalsApart nodes) :
    LimitInv (rawIntervals initial nodes) := by
  induction nodes using List.reverseRecOn with
  | nil => exact ⟨by simp [rawIntervals, ChainR], by simp [rawIntervals]⟩
  | append_singleton pre n ih =>
    rw [rawIntervals_concat]
    exact nodeStep_limits _ _ (ih (signalsApart_prefix h)) (rawIntervals_index initial pre (signalsApart_prefix h))

/-! ### One interval per border -/

theorem bordersApart_prefix {pre : List TNode} {n : TNode} (h : BordersApart (pre ++ [n])) : BordersApart pre := by
  intro i j a b hij ha hb hba hbb
  have hj := (List.getElem?_eq_some_iff.mp hb).1
  have := h i j a b hij (getElem?_prefix ha) (getElem?_prefix hb) hba hbb
  rwa [pos_prefix _ _ _ (by omega), pos_prefix _ _ _ hj] at this

/-- the limit behind the nodes -/
def limitBehind (cur : Rat) : List TNode → Rat
  | [] => cur
  | n :: l => limitBehind (if n.omitted then cur else (broughtLimit n).getD cur) l

theorem bordersOf_concat (d cur : Rat) (pre : List TNode) (n : TNode) :
    bordersOf d cur (pre ++ [n]) = bordersOf d cur pre ++
      (if n.omitted = false ∧ closes n = true then
        [(d + (pre.map TNode.gap).sum + n.gap, n.stop, (broughtLimit n).getD (limitBehind cur pre))] else []) := by
  induction pre generalizing d cur with
  | nil =>
    simp only [List.nil_append, bordersOf, closes, closes_here, limitBehind]
    cases n.omitted <;> simp
  | cons m pre ih =>
    simp only [List.cons_append, bordersOf, limitBehind]
    have he : ∀ x : Rat, d + m.gap + (pre.map TNode.gap).sum + x = d + ((m :: pre).map TNode.gap).sum + x := by
      intro x
      simp only [List.map_cons, List.sum_cons]
      ring
    by_cases hm : m.omitted = true
    · simp only [hm, if_true, ih, he]
    · simp only [hm, ih, he]
      simp [List.append_assoc]

theorem limitBehind_concat (cur : Rat) (pre : List TNode) (n : TNode) :
    limitBehind cur (pre ++ [n]) = if n.omitted then limitBehind cur pre else (broughtLimit n).getD (limitBehind cur pre) := by
  induction pre generalizing cur with
  | nil => rfl
  | cons m pre ih => rw [List.cons_append, limitBehind, ih, limitBehind]

theorem noSignalLimit (n : TNode) (h : ¬ SignalLimit n) : (getSpeedLimit n).lastSignal = none := by
  unfold SignalLimit at h
  have hno : ∀ l, (n.spl = some l ∨ n.extra = some l) → ∀ d : Duo, (d.handle l).lastSignal = d.lastSignal := by
    intro l hl d
    unfold Duo.handle
    cases h1 : l.effective with
    | false => rfl
    | true =>
      cases h2 : l.here with
      | true => rfl
      | false => exact absurd ⟨l, hl, h1, h2⟩ h
  unfold getSpeedLimit
  cases hs : n.spl with
  | none =>
    cases he : n.extra with
    | none => rfl
    | some e => exact hno e (Or.inr he) _
  | some l =>
    cases he : n.extra with
    | none => exact hno l (Or.inl hs) _
    | some e =>
      simp only
      rw [hno e (Or.inr he), hno l (Or.inl hs)]

/-- with borders apart no event is beyond the border of its interval -/
theorem skelRun_inside (nodes : List TNode) (hf : Forward nodes) (hb : BordersApart nodes) :
    ∀ i ∈ (skelRun nodes).list, ∀ e ∈ i.2.2, e.dist ≤ i.1 := by
  induction nodes using List.reverseRecOn with
  | nil => intro i hi; simp [skelRun] at hi
  | append_singleton pre n ih =>
    have old := ih (forward_prefix hf).1 (bordersApart_prefix hb)
    have hpend := (skelRun_order pre (forward_prefix hf).1).2.2.1
    have hg := (forward_prefix hf).2
    rw [skelRun_concat]
    unfold skelStep
    by_cases ho : n.omitted = true
    · simpa only [ho, if_true] using old
    · have ho' : n.omitted = false := by simpa using ho
      simp only [ho', Bool.false_eq_true, if_false]
      by_cases hc : closes n = true
      · simp only [hc, if_true]
        have hpush := pushKey_new (pre := pre) (n := n) (fun i a ha hba => by
          have := hb i pre.length a n (List.getElem?_eq_some_iff.mp ha).1 (getElem?_prefix ha) (by simp) hba
            ((closes_iff n).mp ⟨ho', hc⟩)
          rwa [pos_prefix _ _ _ (List.getElem?_eq_some_iff.mp ha).1] at this)
        rw [hpush]
        intro i hi e he
        rcases List.mem_append.mp hi with hi | hi
        · exact old i hi e he
        · simp only [List.mem_singleton] at hi
          subst hi
          simp only at he ⊢
          have hold : e ∈ (skelRun pre).events → e.dist ≤ (skelRun pre).dist + n.gap := by
            intro he
            have := (hpend e he).1
            linarith
          split at he
          · rcases List.mem_append.mp he with he | he
            · exact hold he
            · simp only [List.mem_singleton] at he
              subst he
              exact le_refl _
          · exact hold he
      · simpa only [hc, Bool.false_eq_true, if_false] using old

/-- distance, halt and right limit of an interval -/
def row (i : Interval) : Rat × Option Halt × Rat :=
  (i.dist, i.halt, i.right)

theorem rawIntervals_rows (initial : Rat) (nodes : List TNode) (hs : ∀ n ∈ nodes, n.omitted = false → ¬ SignalLimit n)
    (hb : BordersApart nodes) :
    (rawIntervals initial nodes).list.map row = bordersOf 0 initial nodes ∧
    (rawIntervals initial nodes).cur = limitBehind initial nodes := by
  induction nodes using List.reverseRecOn with
  | nil => exact ⟨rfl, rfl⟩
  | append_singleton pre n ih =>
    obtain ⟨h1, h2⟩ := ih (fun m hm => hs m (by simp [hm])) (bordersApart_prefix hb)
    have hdist : (rawIntervals initial pre).dist = (pre.map TNode.gap).sum := by
      rw [← skelRun_dist, ← skel_rawIntervals initial]
      rfl
    rw [rawIntervals_concat, bordersOf_concat, limitBehind_concat, ← h1, ← h2]
    unfold nodeStep
    by_cases ho : n.omitted = true
    · simp [ho]
    · have ho' : n.omitted = false := by simpa using ho
      have hsig := noSignalLimit n (hs n (by simp) ho')
      have hls : applyLastSignal { (rawIntervals initial pre) with dist := (rawIntervals initial pre).dist + n.gap }
          (getSpeedLimit n) = { (rawIntervals initial pre) with dist := (rawIntervals initial pre).dist + n.gap } := by
        unfold applyLastSignal
        rw [hsig]
      simp only [ho', Bool.false_eq_true, if_false, true_and, hls]
      have hcur : (applyHere { (rawIntervals initial pre) with dist := (rawIntervals initial pre).dist + n.gap }
          (getSpeedLimit n)).cur = (broughtLimit n).getD (rawIntervals initial pre).cur ∧
          (applyHere { (rawIntervals initial pre) with dist := (rawIntervals initial pre).dist + n.gap }
          (getSpeedLimit n)).list = (rawIntervals initial pre).list ∧
          (applyHere { (rawIntervals initial pre) with dist := (rawIntervals initial pre).dist + n.gap }
          (getSpeedLimit n)).dist = (rawIntervals initial pre).dist + n.gap := by
        unfold applyHere
        rw [closes_here]
        cases broughtLimit n <;> exact ⟨rfl, rfl, rfl⟩
      revert hcur
      generalize applyHere { (rawIntervals initial pre) with dist := (rawIntervals initial pre).dist + n.gap }
          (getSpeedLimit n) = t
      rintro ⟨hc1, hc2, hc3⟩
      unfold closeInterval
      by_cases hc : closes n = true
      · have hc' := hc
        unfold closes at hc'
        simp only [hc, hc', if_true]
        refine ⟨?_, hc1⟩
        simp only [noteNode]
        rw [hc2, hc3]
        have hnew : ∀ i : Interval, i.dist = (rawIntervals initial pre).dist + n.gap →
            pushInterval (rawIntervals initial pre).list i = (rawIntervals initial pre).list ++ [i] := by
          intro i hi
          unfold pushInterval
          cases hl : (rawIntervals initial pre).list.getLast? with
          | none =>
            rw [List.getLast?_eq_none_iff] at hl
            rw [hl]
            rfl
          | some b =>
            simp only
            have hbm : key b ∈ (skelRun pre).list := by
              rw [← skel_rawIntervals initial]
              exact List.mem_map.mpr ⟨b, List.mem_of_getLast? hl, rfl⟩
            obtain ⟨k, a, ha, hba, hpos⟩ := skelRun_borders pre (key b) hbm
            have h3 := hb k pre.length a n (List.getElem?_eq_some_iff.mp ha).1 (getElem?_prefix ha) (by simp) hba
              ((closes_iff n).mp ⟨ho', hc⟩)
            rw [pos_last, pos_prefix _ _ _ (List.getElem?_eq_some_iff.mp ha).1, ← hpos, ← hdist] at h3
            have : ¬ Units.eqVal b.dist i.dist = true := by
              simp only [key] at h3
              rw [eqVal_iff, not_lt, hi, abs_of_nonpos (by linarith)]
              linarith
            rw [if_neg this]
        rw [hnew _ rfl]
        simp only [List.map_append, List.map_cons, List.map_nil, row, hc1, hdist, zero_add]
      · have hc' := hc
        unfold closes at hc'
        rw [if_neg hc']
        simp only [hc, Bool.false_eq_true, if_false, List.append_nil, noteNode, hc2, hc1, and_self]

end Soro.Runtime
