import Verif.Spec.Tabs
import Mathlib.Data.List.Perm.Basic
import Mathlib.Data.List.Nodup
import Mathlib.Data.Finset.Card
import Mathlib.Tactic.SplitIfs

/-
C196, C197: tabs of the web client show their own components.
-/

namespace Soro.Tabs
open Spec

variable {κ : Type}

/-! ### the map of components -/

theorem has_iff (m : List (Nat × κ)) (i : Nat) : has m i = true ↔ (get m i).isSome := by
  induction m with
  | nil => simp [has, get]
  | cons e m ih =>
    unfold has get at ih ⊢
    by_cases h : e.1 = i <;> simp [h, List.find?_cons] at ih ⊢

theorem get_remove (m : List (Nat × κ)) (i j : Nat) : get (remove m i) j = if j = i then none else get m j := by
  induction m with
  | nil => simp [get, remove]
  | cons e m ih =>
    unfold get remove at ih ⊢
    by_cases h : e.1 = i <;> by_cases h2 : e.1 = j <;> simp [h, h2, List.find?_cons, List.filter_cons] at ih ⊢ <;> grind

theorem get_put (m : List (Nat × κ)) (i j : Nat) (k : κ) : get (put m i k) j = if j = i then some k else get m j := by
  have h := get_remove m i j
  unfold put
  unfold get at h ⊢
  by_cases e : i = j
  · simp [List.find?_cons, e]
  · have e' : ¬ j = i := fun h => e h.symm
    rw [if_neg e'] at h ⊢
    rw [← h]
    simp [List.find?_cons, e]

theorem has_false (m : List (Nat × κ)) (i : Nat) : has m i = false ↔ get m i = none := by
  rw [← Bool.not_eq_true, has_iff]; simp

/-- all indexes that the loop passes are in the map -/
theorem nextFree_spec (m : List (Nat × κ)) (f c : Nat) :
    has m (nextFree m f c) = false ∨ ∀ i, i < f → has m (c + i) = true := by
  induction f generalizing c with
  | zero => right; intro i h; omega
  | succ f ih =>
    unfold nextFree
    by_cases h : has m c
    · rw [if_pos h]
      rcases ih (c + 1) with h2 | h2
      · exact Or.inl h2
      · right
        intro i hi
        cases i with
        | zero => simpa using h
        | succ i =>
          have := h2 i (by omega)
          rwa [show c + (i + 1) = c + 1 + i by omega]
    · rw [if_neg h]
      left; simpa using h

theorem nextFree_free (m : List (Nat × κ)) (c : Nat) : get m (nextFree m (m.length + 1) c) = none := by
  rw [← has_false]
  rcases nextFree_spec m (m.length + 1) c with h | h
  · exact h
  · exfalso
    have hs : (Finset.range (m.length + 1)).image (fun i => c + i) ⊆ (m.map (·.1)).toFinset := by
      intro x hx
      rw [Finset.mem_image] at hx
      obtain ⟨i, hi, rfl⟩ := hx
      have := h i (Finset.mem_range.1 hi)
      unfold has at this
      rw [List.any_eq_true] at this
      obtain ⟨e, he, h2⟩ := this
      rw [List.mem_toFinset, List.mem_map]
      exact ⟨e, he, by simpa using h2⟩
    have hc := Finset.card_le_card hs
    rw [Finset.card_image_of_injective _ (fun a b h => by simpa using h), Finset.card_range] at hc
    have := List.toFinset_card_le (m.map (·.1))
    rw [List.length_map] at this
    omega

/-! ### the walk over a layout -/

theorem leavesIn_append (a b : List (Item κ)) : leavesIn (a ++ b) = leavesIn a ++ leavesIn b := by
  induction a with
  | nil => simp [leavesIn]
  | cons i l ih => simp [leavesIn, ih]

theorem leaves_split (c : List (Item κ)) : (leavesIn c).Perm (tabsOf c ++ (groupsOf c).flatMap leavesIn) := by
  induction c with
  | nil => simp [leavesIn, tabsOf, groupsOf]
  | cons i l ih =>
    cases i with
    | tab k r => simpa [leavesIn, leaves, tabsOf, groupsOf] using ih
    | group c =>
      simp only [leavesIn, leaves, tabsOf, groupsOf, List.flatMap_cons]
      refine (List.Perm.append_left _ ih).trans ?_
      rw [← List.append_assoc, ← List.append_assoc]
      exact List.Perm.append_right _ List.perm_append_comm

theorem groups_split (c : List (Item κ)) : groupsIn c = (groupsOf c).length + ((groupsOf c).map groupsIn).sum := by
  induction c with
  | nil => simp [groupsIn, groupsOf]
  | cons i l ih =>
    cases i with
    | tab k r => simpa [groupsIn, Item.groups, groupsOf] using ih
    | group c => simp [groupsIn, Item.groups, groupsOf, ih]; omega

theorem walk_perm (f : Nat) (q : List (List (Item κ))) (h : q.length + (q.map groupsIn).sum ≤ f) :
    (walk f q).Perm (q.flatMap leavesIn) := by
  induction f generalizing q with
  | zero =>
    cases q with
    | nil => simp [walk]
    | cons c q => simp at h
  | succ f ih =>
    cases q with
    | nil => simp [walk]
    | cons c q =>
      unfold walk
      have hg := groups_split c
      have := ih (q ++ groupsOf c) (by simp at h ⊢; omega)
      refine (List.Perm.append_left _ this).trans ?_
      rw [List.flatMap_append, List.flatMap_cons]
      refine List.Perm.trans ?_ (List.Perm.append_right _ (leaves_split c).symm)
      rw [List.append_assoc]
      exact List.Perm.append_left _ List.perm_append_comm

theorem walk_layout (c : List (Item κ)) : (walk (groupsIn c + 1) [c]).Perm (leavesIn c) := by
  have := walk_perm (groupsIn c + 1) [c] (by simp; omega)
  simpa using this

/-! ### the invariant -/

/-- indexes to be used again are used for no tab -/
structure Good (s : State κ) : Prop where
  tabs : ShowsOwn s.tabs (get s.shown)
  fresh : s.unused.Nodup
  free : ∀ i ∈ s.unused, get s.shown i = none

theorem Good.init : Good (State.init : State κ) := by
  refine ⟨⟨?_, ?_⟩, ?_, ?_⟩ <;> simp [State.init]

/-- an index that is not in use -/
theorem add_none (s : State κ) (k : κ) (h1 : s.unused.Nodup) (h2 : ∀ i ∈ s.unused, get s.shown i = none) :
    get s.shown (s.add k none).1 = none ∧ (s.add k none).2.shown = put s.shown (s.add k none).1 k ∧
    (s.add k none).2.tabs = s.tabs ∧ (s.add k none).2.unused.Nodup ∧
    ∀ i ∈ (s.add k none).2.unused, i ∈ s.unused ∧ i ≠ (s.add k none).1 := by
  unfold State.add
  cases hu : s.unused with
  | nil => simp [nextFree_free, hu]
  | cons i rest =>
    rw [hu, List.nodup_cons] at h1
    simp only
    refine ⟨h2 i (by simp [hu]), trivial, trivial, h1.2, ?_⟩
    intro j hj
    exact ⟨by simp [hj], fun e => h1.1 (e ▸ hj)⟩

theorem ShowsOwn.add {tabs : List (κ × Nat)} {m : List (Nat × κ)} {i : Nat} {k : κ} (h : ShowsOwn tabs (get m))
    (hi : get m i = none) : ShowsOwn (tabs ++ [(k, i)]) (get (put m i k)) := by
  have hn : ∀ t ∈ tabs, t.2 ≠ i := by
    intro t ht e
    have := h.2 t ht
    rw [e, hi] at this
    cases this
  refine ⟨?_, ?_⟩
  · rw [List.map_append, List.nodup_append]
    refine ⟨h.1, by simp, ?_⟩
    intro a ha b hb
    obtain ⟨t, ht, rfl⟩ := List.mem_map.1 ha
    simp at hb
    subst hb
    exact hn t ht
  · intro t ht
    rw [get_put]
    rcases List.mem_append.1 ht with h3 | h3
    · rw [if_neg (hn t h3)]; exact h.2 t h3
    · simp at h3; subst h3; simp

theorem Good.open {s : State κ} (h : Good s) (k : κ) :
    ∃ i s', s.open k = some s' ∧ Good s' ∧ s'.tabs = s.tabs ++ [(k, i)] ∧ (∀ t ∈ s.tabs, t.2 ≠ i) := by
  obtain ⟨a1, a2, a3, a4, a5⟩ := add_none s k h.fresh h.free
  have hh : has (s.add k none).2.shown (s.add k none).1 = true := by rw [has_iff, a2, get_put]; simp
  refine ⟨(s.add k none).1, { (s.add k none).2 with tabs := (s.add k none).2.tabs ++ [(k, (s.add k none).1)] },
    ?_, ⟨?_, a4, ?_⟩, ?_, ?_⟩
  · unfold State.open State.bind
    simp [hh]
  · show ShowsOwn ((s.add k none).2.tabs ++ _) (get (s.add k none).2.shown)
    rw [a2, a3]
    exact ShowsOwn.add h.tabs a1
  · intro i hi
    show get (s.add k none).2.shown i = none
    rw [a2, get_put, if_neg (a5 i hi).2]
    exact h.free i (a5 i hi).1
  · show (s.add k none).2.tabs ++ _ = _
    rw [a3]
  · intro t ht e
    have := h.tabs.2 t ht
    rw [e, a1] at this
    cases this

theorem Good.close {s : State κ} (h : Good s) (j : Nat) :
    Good (s.close j) ∧ (s.close j).tabs = s.tabs.eraseIdx j := by
  unfold State.close
  cases hj : s.tabs[j]? with
  | none =>
    refine ⟨h, ?_⟩
    rw [List.getElem?_eq_none_iff] at hj
    exact (List.eraseIdx_of_length_le hj).symm
  | some t =>
    have htm : t ∈ s.tabs := List.mem_of_getElem? hj
    have hl : j < s.tabs.length := (List.getElem?_eq_some_iff.1 hj).1
    have hother : ∀ u ∈ s.tabs.eraseIdx j, u.2 ≠ t.2 := by
      intro u hu e
      rw [List.mem_eraseIdx_iff_getElem?] at hu
      obtain ⟨i, hi, hu⟩ := hu
      have hil : i < s.tabs.length := (List.getElem?_eq_some_iff.1 hu).1
      have hn := h.tabs.1
      apply hi
      refine (List.Nodup.getElem_inj_iff hn (i := i) (j := j) (hi := by simpa using hil) (hj := by simpa using hl)).1 ?_
      rw [List.getElem_map, List.getElem_map, (List.getElem?_eq_some_iff.1 hu).2, (List.getElem?_eq_some_iff.1 hj).2, e]
    refine ⟨⟨⟨?_, ?_⟩, ?_, ?_⟩, rfl⟩
    · exact ((List.eraseIdx_sublist s.tabs j).map _).nodup h.tabs.1
    · intro u hu
      show get (remove s.shown t.2) u.2 = _
      rw [get_remove, if_neg (hother u hu)]
      exact h.tabs.2 u (List.mem_of_mem_eraseIdx hu)
    · show (t.2 :: s.unused).Nodup
      refine List.nodup_cons.2 ⟨fun hm => ?_, h.fresh⟩
      have := h.free _ hm
      rw [h.tabs.2 t htm] at this
      cases this
    · intro i hi
      show get (remove s.shown t.2) i = none
      rw [get_remove]
      split
      · rfl
      · rename_i hne
        rcases List.mem_cons.1 hi with e | e
        · exact absurd e hne
        · exact h.free i e

theorem Good.step {s s' : State κ} (h : Good s) (a : Act κ) (e : s.step a = some s') : Good s' := by
  cases a with
  | «open» k =>
    obtain ⟨i, s2, h1, h2, -⟩ := h.open k
    have : some s' = some s2 := e.symm.trans h1
    cases this
    exact h2
  | close j =>
    have : s.close j = s' := by simpa [State.step] using e
    rw [← this]
    exact (h.close j).1

/-! ### clearing -/

theorem foldl_unbind (l : List (κ × Nat)) (s : State κ) :
    (l.foldl (fun s t => s.unbind t.2) s).unused = (l.map (·.2)).reverse ++ s.unused := by
  induction l generalizing s with
  | nil => simp
  | cons t l ih =>
    rw [List.foldl_cons, ih]
    simp [State.unbind]

theorem clear_unused (s : State κ) : s.clear.unused = (s.tabs.map (·.2)).reverse ++ s.unused := by
  show (s.tabs.foldl (fun s t => s.unbind t.2) s).unused = _
  exact foldl_unbind s.tabs s

theorem Good.clear {s : State κ} (h : Good s) : Good s.clear := by
  refine ⟨⟨?_, ?_⟩, ?_, ?_⟩
  · simp [State.clear]
  · simp [State.clear]
  · rw [clear_unused, List.nodup_append]
    refine ⟨List.nodup_reverse.2 h.tabs.1, h.fresh, ?_⟩
    intro a ha b hb e
    rw [List.mem_reverse] at ha
    obtain ⟨t, ht, rfl⟩ := List.mem_map.1 ha
    have := h.free b hb
    rw [← e, h.tabs.2 t ht] at this
    cases this
  · intro i _
    rfl

/-! ### loading without saved indexes -/

/-- what adding tabs without indexes does to a map without duplicates -/
theorem addAll_none (l : List (κ × Option Nat)) (hl : ∀ t ∈ l, t.2 = none) (s : State κ) (acc : List (κ × Nat))
    (h0 : ShowsOwn acc (get s.shown)) (h1 : s.unused.Nodup) (h2 : ∀ i ∈ s.unused, get s.shown i = none) :
    ShowsOwn (acc ++ (l.map (·.1)).zip (s.addAll l).1) (get (s.addAll l).2.shown) ∧ (s.addAll l).1.length = l.length ∧
    (s.addAll l).2.tabs = s.tabs ∧ (s.addAll l).2.unused.Nodup ∧
    ∀ i ∈ (s.addAll l).2.unused, get (s.addAll l).2.shown i = none := by
  induction l generalizing s acc with
  | nil => simp only [State.addAll]; simp; exact ⟨h0, h1, h2⟩
  | cons t l ih =>
    obtain ⟨k, r⟩ := t
    have hr : r = none := hl (k, r) (by simp)
    subst hr
    obtain ⟨a1, a2, a3, a4, a5⟩ := add_none s k h1 h2
    have hs := ShowsOwn.add (k := k) h0 a1
    rw [← a2] at hs
    obtain ⟨b1, b2, b3, b4, b5⟩ := ih (fun t ht => hl t (List.mem_cons_of_mem _ ht)) (s.add k none).2 _ hs a4 (by
      intro i hi
      rw [a2, get_put, if_neg (a5 i hi).2]
      exact h2 i (a5 i hi).1)
    simp only [State.addAll, List.map_cons, List.zip_cons_cons, List.length_cons]
    refine ⟨?_, by rw [b2], b3.trans a3, b4, b5⟩
    simpa using b1

theorem bindAll_some (l : List (κ × Nat)) (s : State κ) (h : ∀ t ∈ l, has s.shown t.2 = true) :
    s.bindAll (l.map fun t => (t.1, some t.2)) = some { s with tabs := s.tabs ++ l } := by
  induction l generalizing s with
  | nil => simp [State.bindAll]
  | cons t l ih =>
    simp only [List.map_cons, State.bindAll, State.bind]
    rw [if_pos (h t (by simp))]
    simp only [Option.bind_some]
    refine (ih { s with tabs := s.tabs ++ [(t.1, t.2)] } (fun u hu => h u (List.mem_cons_of_mem _ hu))).trans ?_
    simp

theorem zip_map_some (a : List κ) (b : List Nat) : a.zip (b.map some) = (a.zip b).map fun t => (t.1, some t.2) := by
  rw [List.zip_map_right]; rfl

theorem Good.load_plain {s : State κ} (h : Good s) (c : List (Item κ)) (hc : ∀ t ∈ leavesIn c, t.2 = none) :
    ∃ s', s.load false c = some s' ∧ Good s' ∧ (s'.tabs.map (·.1)).Perm ((leavesIn c).map (·.1)) := by
  have hp := walk_layout c
  set ts := walk (groupsIn c + 1) [c] with hts
  have hcl := h.clear
  obtain ⟨b1, b2, b3, b4, b5⟩ := addAll_none ts (fun t ht => hc t (hp.mem_iff.1 ht)) s.clear [] hcl.tabs hcl.fresh hcl.free
  rw [List.nil_append] at b1
  have hb := bindAll_some ((ts.map (·.1)).zip (s.clear.addAll ts).1) (s.clear.addAll ts).2 (by
    intro t ht
    rw [has_iff, b1.2 t ht]; rfl)
  have hnil : s.clear.tabs = [] := rfl
  rw [b3, hnil, List.nil_append] at hb
  refine ⟨{ (s.clear.addAll ts).2 with tabs := (ts.map (·.1)).zip (s.clear.addAll ts).1 }, ?_, ⟨b1, b4, b5⟩, ?_⟩
  · unfold State.load
    simp only [← hts, Bool.false_eq_true, if_false]
    rw [zip_map_some]
    exact hb
  · show ((List.zip _ _).map (·.1)).Perm _
    have : (List.map (·.1) ((ts.map (·.1)).zip (s.clear.addAll ts).1)) = ts.map (·.1) := by
      have := List.map_fst_zip (l₁ := ts.map (·.1)) (l₂ := (s.clear.addAll ts).1) (by simp [b2])
      simpa using this
    rw [this]
    exact hp.map _

/-! ### the start of the client -/

/-- adding tabs with the indexes they have, where 0 alone may be given out -/
theorem addAll_saved (l : List (κ × Nat)) (s : State κ) (acc : List (κ × Nat))
    (h0 : ShowsOwn acc (get s.shown)) (hn : ((acc ++ l).map (·.2)).Nodup)
    (ha : ∀ i, (get s.shown i).isSome → i ∈ acc.map (·.2))
    (hu : s.unused = [0] ∧ 0 ∉ acc.map (·.2) ∨ s.unused = [] ∧ 0 ∈ acc.map (·.2)) :
    let r := s.addAll (l.map fun t => (t.1, some t.2))
    ShowsOwn (acc ++ l) (get r.2.shown) ∧ r.2.tabs = s.tabs ∧
    (∀ i, (get r.2.shown i).isSome → i ∈ (acc ++ l).map (·.2)) ∧
    (r.2.unused = [0] ∧ 0 ∉ (acc ++ l).map (·.2) ∨ r.2.unused = [] ∧ 0 ∈ (acc ++ l).map (·.2)) := by
  induction l generalizing s acc with
  | nil =>
    simp only [List.map_nil, State.addAll, List.append_nil]
    exact ⟨h0, trivial, ha, hu⟩
  | cons t l ih =>
    obtain ⟨k, i⟩ := t
    have hni : i ∉ acc.map (·.2) := by
      rw [List.map_append, List.nodup_append] at hn
      intro hi
      exact hn.2.2 i hi i (by simp) rfl
    have hget : get s.shown i = none := by
      cases hg : get s.shown i with
      | none => rfl
      | some x => exact absurd (ha i (by simp [hg])) hni
    have key : (s.add k (some i)).2.shown = put s.shown i k ∧ (s.add k (some i)).2.tabs = s.tabs ∧
        ((s.add k (some i)).2.unused = [0] ∧ 0 ∉ (acc ++ [(k, i)]).map (·.2) ∨
          (s.add k (some i)).2.unused = [] ∧ 0 ∈ (acc ++ [(k, i)]).map (·.2)) := by
      cases i with
      | zero =>
        rcases hu with hu | hu
        · simp [State.add, hu.1]
        · exact absurd hu.2 hni
      | succ i =>
        refine ⟨rfl, rfl, ?_⟩
        rcases hu with hu | hu
        · left; exact ⟨hu.1, by simpa using hu.2⟩
        · right; exact ⟨hu.1, by simpa using hu.2⟩
    obtain ⟨k1, k2, k3⟩ := key
    have hs := ShowsOwn.add (k := k) h0 hget
    rw [← k1] at hs
    have := ih (s.add k (some i)).2 (acc ++ [(k, i)]) hs (by simpa using hn) (by
      intro j hj
      rw [k1, get_put] at hj
      by_cases e : j = i
      · simp [e]
      · rw [if_neg e] at hj
        have := ha j hj
        rw [List.map_append]
        exact List.mem_append_left _ this) k3
    simp only [List.map_cons, State.addAll]
    simp only [List.append_assoc, List.singleton_append, k2] at this
    exact this

theorem start_none (first : κ) : start first none = some ⟨[(0, first)], [], 0, [(first, 0)]⟩ := by
  rfl

theorem perm_unmap {l : List (κ × Option Nat)} {ts : List (κ × Nat)} (h : l.Perm (ts.map fun t => (t.1, some t.2))) :
    ∃ us : List (κ × Nat), l = us.map (fun t => (t.1, some t.2)) ∧ us.Perm ts := by
  refine ⟨l.map fun t => (t.1, t.2.getD 0), ?_, ?_⟩
  · rw [List.map_map]
    conv_lhs => rw [← List.map_id l]
    apply List.map_congr_left
    intro t ht
    obtain ⟨u, -, rfl⟩ := List.mem_map.1 (h.mem_iff.1 ht)
    rfl
  · have := h.map fun t => (t.1, t.2.getD 0)
    rw [List.map_map] at this
    have e : ((fun t : κ × Option Nat => (t.1, t.2.getD 0)) ∘ fun t : κ × Nat => (t.1, some t.2)) = id := by
      funext t; rfl
    rw [e, List.map_id] at this
    exact this

theorem start_saved (first : κ) (c : List (Item κ)) (tabs : List (κ × Nat)) (hc : IsLayoutOf c tabs)
    (hn : (tabs.map (·.2)).Nodup) :
    ∃ s', start first (some c) = some s' ∧ Good s' ∧ s'.tabs.Perm tabs := by
  obtain ⟨us, hus, hup⟩ := perm_unmap ((walk_layout c).trans hc)
  have hun : (us.map (·.2)).Nodup := (hup.map _).nodup_iff.2 hn
  let s0 : State κ := ⟨[(0, first)], [], 0, [(first, 0)]⟩
  have hstart : start first (some c) = s0.load true c := rfl
  have h := addAll_saved us s0.clear [] ⟨by simp, by simp⟩ (by simpa using hun) (by
    intro i hi; simp [s0, State.clear, get] at hi) (by left; simp [s0, State.clear, State.unbind])
  simp only [List.nil_append] at h
  obtain ⟨b1, b2, b3, b4⟩ := h
  have hb := bindAll_some us (s0.clear.addAll (us.map fun t => (t.1, some t.2))).2 (by
    intro t ht
    rw [has_iff, b1.2 t ht]; rfl)
  have hnil : s0.clear.tabs = [] := rfl
  rw [b2, hnil, List.nil_append] at hb
  refine ⟨{ (s0.clear.addAll (us.map fun t => (t.1, some t.2))).2 with tabs := us }, ?_, ⟨b1, ?_, ?_⟩, hup⟩
  · rw [hstart]
    unfold State.load
    simp only [if_true]
    rw [hus]
    exact hb
  · rcases b4 with b4 | b4 <;> simp [b4.1]
  · intro i hi
    rcases b4 with b4 | b4
    · rw [b4.1] at hi
      have : i = 0 := by simpa using hi
      subst this
      cases hg : get (s0.clear.addAll (us.map fun t => (t.1, some t.2))).2.shown 0 with
      | none => rfl
      | some x => exact absurd (b3 0 (by simp [hg])) b4.2
    · rw [b4.1] at hi; cases hi

theorem reach_good {first : κ} {s : State κ} (h : Reach first s) : Good s := by
  induction h with
  | first h =>
    rw [start_none] at h
    cases h
    refine ⟨⟨by simp, ?_⟩, by simp, by simp⟩
    simp [get]
  | act a _ h ih => exact ih.step a h
  | restart c _ hc h ih =>
    obtain ⟨s2, h1, h2, -⟩ := start_saved first c _ hc ih.tabs.1
    rw [h] at h1
    cases h1
    exact h2

/-! ### C196 -/

/-- C196: in every session of the client, after any tabs were opened and closed in it and in the sessions before, each tab has its
own component, of the kind the tab was opened for. -/
theorem C196_own {first : κ} {s : State κ} (h : Reach first s) : ShowsOwn s.tabs (get s.shown) := (reach_good h).tabs

/-- C196: opening a tab succeeds and adds one tab of the kind asked for; the others keep their components. -/
theorem C196_open {first : κ} {s : State κ} (h : Reach first s) (k : κ) :
    ∃ i s', s.step (.open k) = some s' ∧ s'.tabs = s.tabs ++ [(k, i)] ∧ get s'.shown i = some k ∧
      ∀ t ∈ s.tabs, t.2 ≠ i ∧ get s'.shown t.2 = get s.shown t.2 := by
  obtain ⟨i, s', h1, h2, h3, h4⟩ := (reach_good h).open k
  refine ⟨i, s', h1, h3, h2.tabs.2 (k, i) (by simp [h3]), fun t ht => ⟨h4 t ht, ?_⟩⟩
  rw [(reach_good h).tabs.2 t ht, h2.tabs.2 t (by rw [h3]; exact List.mem_append_left _ ht)]

/-- C196: closing a tab removes this tab; the others keep their components. -/
theorem C196_close {first : κ} {s : State κ} (h : Reach first s) (j : Nat) :
    ∃ s', s.step (.close j) = some s' ∧ s'.tabs = s.tabs.eraseIdx j ∧
      ∀ t ∈ s'.tabs, get s'.shown t.2 = get s.shown t.2 := by
  obtain ⟨h1, h2⟩ := (reach_good h).close j
  refine ⟨s.close j, rfl, h2, fun t ht => ?_⟩
  rw [h1.tabs.2 t ht, (reach_good h).tabs.2 t (by rw [h2] at ht; exact List.mem_of_mem_eraseIdx ht)]

/-- C196: when the client is started again it has the tabs that were open, however they were arranged. -/
theorem C196_restart {first : κ} {s : State κ} (h : Reach first s) (c : List (Item κ)) (hc : IsLayoutOf c s.tabs) :
    ∃ s', start first (some c) = some s' ∧ s'.tabs.Perm s.tabs ∧ ShowsOwn s'.tabs (get s'.shown) := by
  obtain ⟨s', h1, h2, h3⟩ := start_saved first c _ hc (reach_good h).tabs.1
  exact ⟨s', h1, h3, h2.tabs⟩

/-- a second session with two tabs in two stacks, the first tab of which was closed and opened again -/
example : ∃ s : State String, Reach "infrastructure" s ∧ s.tabs = [("timetable", 1), ("graph", 0)] ∧
    IsLayoutOf [.group [.group [.tab "graph" (some 0)], .tab "timetable" (some 1)]] s.tabs := by
  refine ⟨⟨[(0, "graph"), (1, "timetable")], [], 1, [("timetable", 1), ("graph", 0)]⟩, ?_, rfl, ?_⟩
  · refine .act (s := ⟨[(1, "timetable")], [0], 1, [("timetable", 1)]⟩) (.open "graph") ?_ (by decide)
    refine .act (s := ⟨[(1, "timetable"), (0, "infrastructure")], [], 1, [("infrastructure", 0), ("timetable", 1)]⟩)
      (.close 0) ?_ (by decide)
    exact .act (.open "timetable") (.first (start_none _)) (by decide)
  · show List.Perm _ _
    exact List.Perm.swap _ _ _

/-! ### C197 -/

/-- C197, full statement: each tab has its own component, also if layouts that were saved are loaded while the client runs. -/
def C197_full : Prop := ∀ (κ : Type) (s : State κ), Loads s → ShowsOwn s.tabs (get s.shown)

/-- C197: a layout without indexes can be loaded at any time: it succeeds, and the tabs are those of the layout. -/
theorem C197_partial {s : State κ} (h : Plain s) : ShowsOwn s.tabs (get s.shown) ∧
    ∀ c : List (Item κ), (∀ t ∈ leavesIn c, t.2 = none) → ∃ s', s.load false c = some s' ∧
      (s'.tabs.map (·.1)).Perm ((leavesIn c).map (·.1)) ∧ ShowsOwn s'.tabs (get s'.shown) := by
  have hg : Good s := by
    induction h with
    | init => exact Good.init
    | act a _ h ih => exact ih.step a h
    | plain c _ hc h ih =>
      obtain ⟨s2, h1, h2, -⟩ := ih.load_plain c hc
      rw [h] at h1
      cases h1
      exact h2
  refine ⟨hg.tabs, fun c hc => ?_⟩
  obtain ⟨s', h1, h2, h3⟩ := hg.load_plain c hc
  exact ⟨s', h1, h3, h2.tabs⟩

/-- C197 fails: two tabs are open and the layout with them is loaded again; the tab that is opened next takes the component of one
of them. -/
theorem C197_reload_negation : (∃ s : State Nat, Loads s ∧ ¬ ShowsOwn s.tabs (get s.shown)) ∧ ¬ C197_full := by
  have h : ∃ s : State Nat, Loads s ∧ ¬ ShowsOwn s.tabs (get s.shown) := by
    have h1 : Loads (⟨[(1, 20), (0, 10)], [], 1, [(10, 0), (20, 1)]⟩ : State Nat) :=
      .act (s := ⟨[(0, 10)], [], 0, [(10, 0)]⟩) (.open 20) (.act (.open 10) .init (by decide)) (by decide)
    have h2 : Loads (⟨[(2, 30), (1, 20), (0, 10)], [], 2, [(10, 0), (20, 1), (30, 2)]⟩ : State Nat) :=
      .act (.open 30) h1 (by decide)
    have h4 : Loads (⟨[(2, 30), (1, 20)], [0], 2, [(20, 1), (30, 2)]⟩ : State Nat) := .act (.close 0) h2 (by decide)
    have h5 : Loads (⟨[(2, 30), (1, 20)], [2, 1, 0], 2, [(20, 1), (30, 2)]⟩ : State Nat) :=
      .load [.tab 20 (some 1), .tab 30 (some 2)] [(20, 1), (30, 2)] h4 (.refl _) (by decide) (by decide)
    refine ⟨⟨[(2, 40), (1, 20)], [1, 0], 2, [(20, 1), (30, 2), (40, 2)]⟩, .act (.open 40) h5 (by decide), ?_⟩
    intro h
    exact absurd h.1 (by decide)
  exact ⟨h, fun f => by obtain ⟨s, h1, h2⟩ := h; exact h2 (f _ s h1)⟩

/-- C197 fails: if the tab with index 0 is loaded while others are open, it is given another index than the one it is bound to,
and the loading ends with an error. -/
theorem C197_zero_negation : ∃ (s : State Nat) (c : List (Item Nat)), Loads s ∧ IsLayoutOf c s.tabs ∧
    (s.tabs.map (·.2)).Nodup ∧ s.load true c = none := by
  have h1 : Loads (⟨[(1, 20), (0, 10)], [], 1, [(10, 0), (20, 1)]⟩ : State Nat) :=
    .act (s := ⟨[(0, 10)], [], 0, [(10, 0)]⟩) (.open 20) (.act (.open 10) .init (by decide)) (by decide)
  exact ⟨_, [.tab 10 (some 0), .tab 20 (some 1)], h1, .refl _, by decide, by decide⟩

example : ∃ s : State Nat, Plain s ∧ s.tabs = [(30, 2), (10, 1), (20, 0)] := by
  refine ⟨⟨[(0, 20), (1, 10), (2, 30)], [], 2, [(30, 2), (10, 1), (20, 0)]⟩, ?_, rfl⟩
  refine .plain (s := ⟨[(2, 3), (1, 2), (0, 1)], [], 2, [(1, 0), (2, 1), (3, 2)]⟩)
    [.tab 30 none, .group [.tab 10 none, .tab 20 none]] ?_ (by simp [leavesIn, leaves]) (by decide)
  exact .act (.open 3) (.act (.open 2) (.act (.open 1) .init rfl) rfl) rfl

end Soro.Tabs
