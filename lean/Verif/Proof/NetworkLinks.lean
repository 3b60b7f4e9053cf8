import Verif.Proof.NetworkAll

/-! Links between nodes, see `Model/Network.lean`. -/

namespace Soro.Infra

theorem assigns_map : ∀ (l : List (Bool × Node × Option Node)) (as : List Assign), assigns l = some as →
    l = as.map fun a => (a.branch, a.node, some a.target)
  | [], as, h => by simp [assigns] at h; subst h; rfl
  | (b, n, none) :: l, as, h => by simp [assigns] at h
  | (b, n, some t) :: l, as, h => by
    simp only [assigns, Option.bind_some, Option.map_eq_some_iff] at h
    obtain ⟨as', h1, rfl⟩ := h
    rw [assigns_map l as' h1]
    rfl

theorem assigns_some (l : List (Bool × Node × Option Node)) (h : ∀ e ∈ l, e.2.2 ≠ none) : ∃ as, assigns l = some as := by
  induction l with
  | nil => exact ⟨[], rfl⟩
  | cons e l ih =>
    obtain ⟨as, has⟩ := ih fun e he => h e (by simp [he])
    obtain ⟨b, n, t⟩ := e
    cases ht : t with
    | none => exact absurd ht (h (b, n, t) (by simp))
    | some t => exact ⟨_, by simp only [assigns, Option.bind_some, has]; rfl⟩

/-- next or branch -/
def Links.get (l : Links) (br : Bool) : Node → Option Node := if br then l.branch else l.next

theorem Links.apply_get (l : Links) (a : Assign) (br : Bool) (n : Node) :
    (l.apply a).get br n = if a.branch = br ∧ n = a.node then some a.target else l.get br n := by
  unfold Links.apply Links.get
  cases ha : a.branch <;> cases br <;> simp [set]

theorem fold_other (as : List Assign) (l : Links) (br : Bool) (n : Node) (h : ∀ a ∈ as, ¬(a.branch = br ∧ a.node = n)) :
    (as.foldl Links.apply l).get br n = l.get br n := by
  induction as generalizing l with
  | nil => rfl
  | cons a as ih =>
    rw [List.foldl_cons, ih _ fun a ha => h a (by simp [ha]), Links.apply_get, if_neg]
    rintro ⟨h1, h2⟩
    exact h a (by simp) ⟨h1, h2.symm⟩

theorem fold_mem (as : List Assign) (l : Links) (a : Assign) (ha : a ∈ as)
    (hu : (as.map fun a => (a.branch, a.node)).Nodup) : (as.foldl Links.apply l).get a.branch a.node = some a.target := by
  induction as generalizing l with
  | nil => simp at ha
  | cons c as ih =>
    rw [List.map_cons, List.nodup_cons] at hu
    rw [List.foldl_cons]
    rcases List.mem_cons.1 ha with rfl | ha
    · rw [fold_other, Links.apply_get, if_pos ⟨rfl, rfl⟩]
      rintro c hc ⟨h1, h2⟩
      exact hu.1 (List.mem_map.2 ⟨c, hc, by rw [h1, h2]⟩)
    · exact ih _ ha hu.2

theorem tb_id (i : Nat) (b : Bool) : (tb i b).1 = i := rfl
theorem lr_id (i : Nat) (b : Bool) : (lr i b).1 = i := rfl

theorem entries_id (el : Nat → Elem) (i : Nat) : ∀ e ∈ entries el i, e.2.1.1 = i := by
  unfold entries
  dsimp only
  repeat' split
  all_goals simp [tb_id, lr_id]

theorem entries_nodup (el : Nat → Elem) (i : Nat) : ((entries el i).map fun e => (e.1, e.2.1)).Nodup := by
  unfold entries
  dsimp only
  have h1 : ∀ b, tb i b ≠ tb i (!b) := by intro b; cases b <;> simp [tb]
  have h2 : ∀ b, lr i b ≠ lr i (!b) := by intro b; cases b <;> simp [lr]
  have h3 : ∀ b c, tb i b ≠ lr i c := by intro b c; cases b <;> cases c <;> simp [lr, tb]
  have h4 : tb i true ≠ tb i false := h1 true
  repeat' split
  all_goals simp [h1, h2, h3, h4, Ne.symm (h1 _), Ne.symm (h2 _), Ne.symm (h3 _ _)]

/-- the links of an element -/
theorem connectAll_get {el : Nat → Elem} : ∀ {n : Nat} {L : Links}, connectAll el n = some L →
    (∀ i, i < n → ∃ as, connectElem el i = some as ∧
      ∀ br node, node.1 = i → L.get br node = (as.foldl Links.apply ⟨fun _ => none, fun _ => none⟩).get br node) ∧
    (∀ br node, n ≤ node.1 → L.get br node = none)
  | 0, L, h => by
    simp [connectAll] at h; subst h
    exact ⟨fun i hi => absurd hi (by omega), fun br node _ => by cases br <;> rfl⟩
  | n + 1, L, h => by
    simp only [connectAll, Option.bind_eq_some_iff, Option.map_eq_some_iff] at h
    obtain ⟨L0, h0, as, has, rfl⟩ := h
    obtain ⟨i1, i2⟩ := connectAll_get h0
    have hid : ∀ a ∈ as, a.node.1 = n := by
      intro a ha
      have hm := assigns_map _ _ has
      exact entries_id el n (a.branch, a.node, some a.target) (by rw [hm]; exact List.mem_map.2 ⟨a, ha, rfl⟩)
    constructor
    · intro i hi
      by_cases hin : i = n
      · subst hin
        refine ⟨as, has, ?_⟩
        intro br node hnode
        have h0' : L0.get br node = none := i2 br node (by omega)
        clear has h0 i1 i2 hid hi
        have : ∀ (as : List Assign) (l l' : Links), l.get br node = l'.get br node →
            (as.foldl Links.apply l).get br node = (as.foldl Links.apply l').get br node := by
          intro as
          induction as with
          | nil => intro l l' h; exact h
          | cons a as ih =>
            intro l l' h
            rw [List.foldl_cons, List.foldl_cons]
            apply ih
            rw [Links.apply_get, Links.apply_get, h]
        apply this
        rw [h0']
        cases br <;> rfl
      · obtain ⟨as', ha', hh⟩ := i1 i (by omega)
        refine ⟨as', ha', ?_⟩
        intro br node hnode
        rw [← hh br node hnode]
        apply fold_other
        rintro a ha ⟨_, h2⟩
        have := hid a ha
        rw [h2] at this; omega
    · intro br node hn
      rw [fold_other, i2 br node (by omega)]
      rintro a ha ⟨_, h2⟩
      have := hid a ha
      rw [h2] at this; omega

/-- an entry determines a link -/
theorem link_of_entry {el : Nat → Elem} {n : Nat} {L : Links} (h : connectAll el n = some L) {i : Nat} (hi : i < n) {br : Bool} {node : Node}
    {t : Option Node} (he : (br, node, t) ∈ entries el i) : L.get br node = t := by
  obtain ⟨as, has, hh⟩ := (connectAll_get h).1 i hi
  have hm := assigns_map _ _ has
  have hu := entries_nodup el i
  rw [hm] at he hu
  obtain ⟨a, ha, e⟩ := List.mem_map.1 he
  injection e with e1 e2
  injection e2 with e2 e3
  have hid : node.1 = i := entries_id el i (br, node, t) (by rw [hm]; exact he)
  rw [hh br node hid, ← e1, ← e2, ← e3]
  rw [List.map_map] at hu
  exact fold_mem as _ a ha hu

theorem link_none {el : Nat → Elem} {n : Nat} {L : Links} (h : connectAll el n = some L) {br : Bool} {node : Node}
    (he : ∀ t, (br, node, t) ∉ entries el node.1) : L.get br node = none := by
  by_cases hi : node.1 < n
  · obtain ⟨as, has, hh⟩ := (connectAll_get h).1 _ hi
    have hm := assigns_map _ _ has
    rw [hh br node rfl, fold_other]
    · cases br <;> rfl
    · rintro a ha ⟨rfl, rfl⟩
      exact he (some a.target) (by rw [hm]; exact List.mem_map.2 ⟨a, ha, rfl⟩)
  · exact (connectAll_get h).2 br node (by omega)

theorem connectAll_some {el : Nat → Elem} : ∀ (n : Nat), (∀ i, i < n → ∀ e ∈ entries el i, e.2.2 ≠ none) → ∃ L, connectAll el n = some L
  | 0, _ => ⟨_, rfl⟩
  | n + 1, h => by
    obtain ⟨L, hL⟩ := connectAll_some n fun i hi => h i (by omega)
    obtain ⟨as, has⟩ := assigns_some (entries el n) (h n (by omega))
    exact ⟨_, by simp only [connectAll, hL, connectElem, has, Option.bind_some]; rfl⟩

end Soro.Infra
