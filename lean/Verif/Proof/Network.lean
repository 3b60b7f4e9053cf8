import Verif.Spec.Network

/-! Lemmas about the construction of the node graph, see `Model/Network.lean`. -/

namespace Soro.Infra

@[simp] theorem set_same {α β : Type} [DecidableEq α] (f : α → β) (i : α) (x : β) : set f i x i = x := by simp [set]
theorem set_ne {α β : Type} [DecidableEq α] (f : α → β) {i j : α} (x : β) (h : j ≠ i) : set f i x j = f j := by simp [set, h]

theorem Ty.track_iff (t : Ty) : t.isTrack = (t.isDirected || t.isUndirected) := by cases t <;> decide
theorem Ty.not_und {t : Ty} (h : t.isDirected = true) : t.isUndirected = false := by cases t <;> revert h <;> decide
theorem Ty.dir_kinds {t : Ty} (h : t.isTrack = true) :
    t.isEnd = false ∧ t.isSimple = false ∧ t ≠ .simpleSwitch ∧ t ≠ .cross ∧ t ≠ .lineSwitch := by
  cases t <;> revert h <;> decide

/-- the neighbour ahead of a track element in a direction -/
def Elem.ahead (e : Elem) (dir : Bool) : Option Nat :=
  if e.ty.isDirected then e.nb 1 else if dir then e.nb 0 else e.nb 3

/-- the neighbour behind a track element in a direction -/
def Elem.behind (e : Elem) (dir : Bool) : Option Nat :=
  if e.ty.isDirected then e.nb 0 else if dir then e.nb 2 else e.nb 1

@[simp] theorem Elem.setSlot_ty (e : Elem) k x : (e.setSlot k x).ty = e.ty := rfl
@[simp] theorem Elem.setSlot_rising (e : Elem) k x : (e.setSlot k x).rising = e.rising := rfl
@[simp] theorem Elem.setSlot_flag (e : Elem) k x : (e.setSlot k x).flag = e.flag := rfl
@[simp] theorem Elem.setSlot_line (e : Elem) k x : (e.setSlot k x).line = e.line := rfl
@[simp] theorem Elem.setSlot_arcL (e : Elem) k x : (e.setSlot k x).arcL = e.arcL := rfl
@[simp] theorem Elem.setSlot_arcR (e : Elem) k x : (e.setSlot k x).arcR = e.arcR := rfl
@[simp] theorem Elem.setSlot_slot (e : Elem) k x pt : (e.setSlot k x).slot pt = e.slot pt := rfl
theorem Elem.setSlot_nb (e : Elem) k x j : (e.setSlot k x).nb j = if j = k then x else e.nb j := rfl

theorem Elem.setNeighbour_dir {e : Elem} (h : e.ty.isDirected = true) (pt : Pt) (x : Nat) (up : Bool) :
    e.setNeighbour pt x up = e.setSlot (if up then 1 else 0) (some x) := by simp [Elem.setNeighbour, h]

theorem Elem.setNeighbour_sec {e : Elem} (h : e.ty.isTrack = false) {pt : Pt} {k : Nat} (hk : e.slot pt = some k) (x : Nat) (up : Bool) :
    e.setNeighbour pt x up = e.setSlot (k + if up then 0 else 1) (some x) := by
  rw [Ty.track_iff, Bool.or_eq_false_iff] at h
  simp [Elem.setNeighbour, h.1, h.2, hk]

@[simp] theorem Elem.setNeighbour_ty (e : Elem) pt x up : (e.setNeighbour pt x up).ty = e.ty := by
  unfold Elem.setNeighbour; repeat' split
  all_goals rfl
@[simp] theorem Elem.setNeighbour_rising (e : Elem) pt x up : (e.setNeighbour pt x up).rising = e.rising := by
  unfold Elem.setNeighbour; repeat' split
  all_goals rfl

theorem Graph.setNb_el (g : Graph) (i : Nat) (pt : Pt) (x : Nat) (up : Bool) (j : Nat) :
    (g.setNb i pt x up).el j = if j = i then (g.el i).setNeighbour pt x up else g.el j := rfl
@[simp] theorem Graph.setNb_n (g : Graph) (i : Nat) (pt : Pt) (x : Nat) (up : Bool) : (g.setNb i pt x up).n = g.n := rfl
theorem Graph.modify_el (g : Graph) (i : Nat) (f : Elem → Elem) (j : Nat) :
    (g.modify i f).el j = if j = i then f (g.el i) else g.el j := rfl
@[simp] theorem Graph.modify_n (g : Graph) (i : Nat) (f : Elem → Elem) : (g.modify i f).n = g.n := rfl

/-- a new element -/
def blank (ty : Ty) (rising : Bool) : Elem := ⟨ty, rising, fun _ => none, fun _ => false, fun _ => 0, false, false⟩
theorem Graph.create_el (g : Graph) (ty : Ty) (r : Bool) (j : Nat) : (g.create ty r).el j = if j = g.n then blank ty r else g.el j := rfl
@[simp] theorem Graph.create_n (g : Graph) (ty : Ty) (r : Bool) : (g.create ty r).n = g.n + 1 := rfl

/-! ### rising scan -/

/-- state of the rising scan after the track elements `done` (already filtered); `g0` the graph before -/
structure UpInv (g0 : Graph) (start : Nat) (pt0 : Pt) (k : Nat) (done : List TNode) (s : Scan) : Prop where
  seq : s.seq = List.range' g0.n done.length
  n : s.g.n = g0.n + done.length
  ty : ∀ (j : Nat) nd, done[j]? = some nd → (s.g.el (g0.n + j)).ty = nd.ty ∧ (nd.ty.isDirected = true → (s.g.el (g0.n + j)).rising = true)
  prev : s.prev = if done.length = 0 then start else g0.n + (done.length - 1)
  pt : s.pt = if done.length = 0 then pt0 else .only
  link : ∀ j, j + 1 < done.length → (s.g.el (g0.n + j)).ahead true = some (g0.n + (j + 1))
  und2 : ∀ (j : Nat) nd, done[j]? = some nd → nd.ty.isDirected = false →
    (s.g.el (g0.n + j)).nb 2 ≠ none ∧ (s.g.el (g0.n + j)).nb 1 = none ∧ (s.g.el (g0.n + j)).nb 3 = none ∧
    (j + 1 = done.length → (s.g.el (g0.n + j)).nb 0 = none)
  st : s.g.el start = if done.length = 0 then g0.el start else (g0.el start).setSlot k (some g0.n)
  frame : ∀ i, i < g0.n → i ≠ start → s.g.el i = g0.el i
  und : ∀ x i, s.und.lookup x = some i ↔ ∃ (j : Nat) (nd : TNode), done[j]? = some nd ∧ nd.ty.isDirected = false ∧ nd.xid = x ∧ i = g0.n + j
  back : ∀ j, j < done.length → (s.g.el (g0.n + j)).behind true = some (if j = 0 then start else g0.n + (j - 1))

theorem UpInv.init (g0 : Graph) (start : Nat) (pt0 : Pt) (k : Nat) : UpInv g0 start pt0 k [] ⟨g0, start, pt0, [], []⟩ := by
  constructor <;> simp

/-- the graph after a new element is put behind `prev` -/
def linkNew (g : Graph) (prev : Nat) (pt : Pt) (e : Elem) (up : Bool) : Graph :=
  ⟨fun j => if j = g.n then e.setSlot (if e.ty.isDirected then 0 else 2) (some prev)
    else if j = prev then (g.el prev).setNeighbour pt g.n up else g.el j, g.n + 1⟩

theorem Scan.step_up {s : Scan} {nd : TNode} (hp : s.prev ≠ s.g.n) (hnd : nd.ty.isTrack = true)
    (hr : nd.ty.isDirected = true → nd.rising = true) (hu : nd.ty.isDirected = false → s.und.lookup nd.xid = none) :
    Scan.step true s nd =
      ⟨linkNew s.g s.prev s.pt (blank nd.ty (nd.ty.isDirected)) true, s.g.n, .only,
        if nd.ty.isDirected then s.und else (nd.xid, s.g.n) :: s.und, s.seq ++ [s.g.n]⟩ := by
  by_cases hd : nd.ty.isDirected = true
  · simp only [Scan.step, hd, hr hd, Scan.directed, Scan.mk.injEq, linkNew, Graph.setNb, Graph.modify, Graph.create, blank,
      Graph.mk.injEq, and_true, true_and]
    simp
    funext j
    by_cases h1 : j = s.g.n
    · subst h1
      rw [set_same, set_ne _ _ (Ne.symm hp), set_same, Elem.setNeighbour_dir (by simpa using hd)]
      simp
    · by_cases h2 : j = s.prev
      · subst h2; rw [set_ne _ _ h1, set_same, set_ne _ _ h1]; simp [h1]
      · rw [set_ne _ _ h1, set_ne _ _ h2, set_ne _ _ h1]; simp [h1, h2]
  · have hd' : nd.ty.isDirected = false := by simpa using hd
    have hun : nd.ty.isUndirected = true := by rw [Ty.track_iff, hd'] at hnd; simpa using hnd
    simp only [Scan.step, hd', hu hd', Scan.undirected, Scan.mk.injEq, linkNew, Graph.setNb, Graph.modify, Graph.create, blank,
      Graph.mk.injEq, and_true, true_and]
    simp
    funext j
    by_cases h1 : j = s.g.n
    · subst h1
      rw [set_same, set_ne _ _ (Ne.symm hp), set_same]
      simp [Elem.setNeighbour, hd', hun]
    · by_cases h2 : j = s.prev
      · subst h2; rw [set_ne _ _ h1, set_same, set_ne _ _ h1]; simp [h1]
      · rw [set_ne _ _ h1, set_ne _ _ h2, set_ne _ _ h1]; simp [h1, h2]

theorem snoc_at {α : Type} {l : List α} {a b : α} {j : Nat} (hj : ¬ j < l.length) (h : [a][j - l.length]? = some b) :
    j = l.length ∧ a = b := by
  have h0 : j - l.length < 1 := (List.getElem?_eq_some_iff.1 h).1
  have : j = l.length := by omega
  subst this
  exact ⟨rfl, by simpa using h⟩

/-- what linking the previous element to a new element does -/
theorem UpInv.step {g0 : Graph} {start : Nat} {pt0 : Pt} {k : Nat} {done : List TNode} {s : Scan} (h : UpInv g0 start pt0 k done s)
    (hs : start < g0.n) (hst : (g0.el start).ty.isTrack = false) (hk : (g0.el start).slot pt0 = some k)
    (nd : TNode) (hnd : nd.ty.isTrack = true) (hr : nd.ty.isDirected = true → nd.rising = true)
    (hx : ∀ m ∈ done, m.xid ≠ nd.xid) (hdone : ∀ m ∈ done, m.ty.isTrack = true) :
    UpInv g0 start pt0 k (done ++ [nd]) (Scan.step true s nd) := by
  have hn := h.n
  have hpl : s.prev < s.g.n := by rw [h.prev, hn]; split <;> omega
  have hlk : nd.ty.isDirected = false → s.und.lookup nd.xid = none := by
    intro _
    cases hl : s.und.lookup nd.xid with
    | none => rfl
    | some i =>
      obtain ⟨j, m, hm, _, hxm, _⟩ := (h.und _ _).1 hl
      exact absurd hxm (hx m (List.mem_of_getElem? hm))
  rw [Scan.step_up (by omega) hnd hr hlk]
  have hel : ∀ j, (linkNew s.g s.prev s.pt (blank nd.ty nd.ty.isDirected) true).el j =
      if j = s.g.n then (blank nd.ty nd.ty.isDirected).setSlot (if nd.ty.isDirected then 0 else 2) (some s.prev)
      else if j = s.prev then (s.g.el s.prev).setNeighbour s.pt s.g.n true else s.g.el j := fun j => rfl
  -- what the new graph does to an old element
  have hold : ∀ j, j < done.length → (linkNew s.g s.prev s.pt (blank nd.ty nd.ty.isDirected) true).el (g0.n + j) =
      if j + 1 = done.length then (s.g.el (g0.n + j)).setSlot (if (s.g.el (g0.n + j)).ty.isDirected then 1 else 0) (some s.g.n)
      else s.g.el (g0.n + j) := by
    intro j hj
    rw [hel, if_neg (by omega)]
    by_cases hl : j + 1 = done.length
    · have hp : s.prev = g0.n + j := by rw [h.prev, if_neg (by omega)]; omega
      rw [if_pos hl, if_pos hp.symm, hp]
      obtain ⟨m, hm⟩ : ∃ m, done[j]? = some m := ⟨done[j], List.getElem?_eq_getElem hj⟩
      obtain ⟨hty, _⟩ := h.ty j m hm
      have htr := hdone m (List.mem_of_getElem? hm)
      cases hd : m.ty.isDirected with
      | true => rw [Elem.setNeighbour_dir (by rw [hty, hd]), hty, hd]
      | false =>
        obtain ⟨a, b, c, d⟩ := h.und2 j m hm hd
        rw [Ty.track_iff, hd, Bool.false_or] at htr
        simp [Elem.setNeighbour, hty, hd, htr, a, d hl]
    · have hp : g0.n + j ≠ s.prev := by rw [h.prev]; split <;> omega
      rw [if_neg hp, if_neg hl]
  have hnew : (linkNew s.g s.prev s.pt (blank nd.ty nd.ty.isDirected) true).el s.g.n =
      (blank nd.ty nd.ty.isDirected).setSlot (if nd.ty.isDirected then 0 else 2) (some s.prev) := by rw [hel, if_pos rfl]
  constructor
  · simp [h.seq, hn, List.range'_1_concat]
  · simp [linkNew, hn]; omega
  · intro j m hm
    rw [List.getElem?_append] at hm
    split at hm
    · rename_i hj
      obtain ⟨h1, h2⟩ := h.ty j m hm
      show ((linkNew s.g s.prev s.pt (blank nd.ty nd.ty.isDirected) true).el (g0.n + j)).ty = m.ty ∧ _
      rw [hold j hj]
      split
      · exact ⟨by simpa using h1, by simpa using h2⟩
      · exact ⟨h1, h2⟩
    · rename_i hj
      obtain ⟨rfl, rfl⟩ := snoc_at hj hm
      dsimp only
      rw [← hn, hnew]
      simp [blank]
  · simp [hn]
  · simp
  · intro j hj
    simp at hj
    dsimp only
    rw [hold j hj]
    by_cases hl : j + 1 = done.length
    · rw [if_pos hl]
      unfold Elem.ahead
      cases hd : (s.g.el (g0.n + j)).ty.isDirected <;> simp [hd, Elem.setSlot_nb, hn, hl]
    · rw [if_neg hl]; exact h.link j (by omega)
  · intro j m hm hd
    rw [List.getElem?_append] at hm
    split at hm
    · rename_i hj
      obtain ⟨h1, _⟩ := h.ty j m hm
      obtain ⟨a, b, c, d⟩ := h.und2 j m hm hd
      dsimp only
      rw [hold j hj]
      split
      · simp [Elem.setSlot_nb, h1, hd, a, b, c]; omega
      · refine ⟨a, b, c, ?_⟩
        simp; omega
    · rename_i hj
      obtain ⟨rfl, rfl⟩ := snoc_at hj hm
      dsimp only
      rw [← hn, hnew]
      simp [blank, hd, Elem.setSlot_nb]
  · dsimp only
    rw [if_neg (show ¬ (done ++ [nd]).length = 0 by simp), hel, if_neg (by omega)]
    have hst' := h.st
    by_cases h0 : done.length = 0
    · have hp : s.prev = start := by rw [h.prev, if_pos h0]
      have hpt : s.pt = pt0 := by rw [h.pt, if_pos h0]
      rw [if_pos h0] at hst'
      rw [if_pos hp.symm, hp, hst', hpt, Elem.setNeighbour_sec hst hk]
      simp [hn, h0]
    · have hp : start ≠ s.prev := by rw [h.prev, if_neg h0]; omega
      rw [if_neg hp, hst', if_neg h0]
  · intro i hi hne
    dsimp only
    rw [hel, if_neg (by omega), if_neg, h.frame i hi hne]
    rw [h.prev]; split <;> omega
  · intro x i
    dsimp only
    have key : (∃ (j : Nat) (m : TNode), (done ++ [nd])[j]? = some m ∧ m.ty.isDirected = false ∧ m.xid = x ∧ i = g0.n + j) ↔
        (∃ (j : Nat) (m : TNode), done[j]? = some m ∧ m.ty.isDirected = false ∧ m.xid = x ∧ i = g0.n + j) ∨
        (nd.ty.isDirected = false ∧ nd.xid = x ∧ i = g0.n + done.length) := by
      constructor
      · rintro ⟨j, m, hm, r⟩
        rw [List.getElem?_append] at hm
        split at hm
        · exact Or.inl ⟨j, m, hm, r⟩
        · rename_i hj
          obtain ⟨rfl, rfl⟩ := snoc_at hj hm
          exact Or.inr r
      · rintro (⟨j, m, hm, r⟩ | r)
        · exact ⟨j, m, by rw [List.getElem?_append_left (List.getElem?_eq_some_iff.1 hm).1]; exact hm, r⟩
        · exact ⟨done.length, nd, by simp, r⟩
    rw [key]
    cases hd : nd.ty.isDirected with
    | true => simpa using h.und x i
    | false =>
      simp only [Bool.false_eq_true, if_false, List.lookup_cons, true_and]
      by_cases hxx : x = nd.xid
      · subst hxx
        simp only [beq_self_eq_true, Option.some.injEq, true_and]
        constructor
        · intro hh; right; omega
        · rintro (⟨j, m, hm, _, hxm, _⟩ | hh)
          · exact absurd hxm (hx m (List.mem_of_getElem? hm))
          · omega
      · have : (x == nd.xid) = false := by simpa using hxx
        simp only [this]
        rw [h.und x i]
        constructor
        · exact Or.inl
        · rintro (hh | hh)
          · exact hh
          · exact absurd hh.1.symm hxx
  · intro j hj
    dsimp only
    by_cases hj' : j < done.length
    · have hb := h.back j hj'
      rw [hold j hj', ← hb]
      split
      · unfold Elem.behind
        cases hd : (s.g.el (g0.n + j)).ty.isDirected <;> simp [hd, Elem.setSlot_nb]
      · rfl
    · have hj2 : j = done.length := by simp at hj; omega
      subst hj2
      have hp := h.prev
      rw [← hn, hnew]
      unfold Elem.behind
      cases hd : nd.ty.isDirected <;> simp [blank, hd, Elem.setSlot_nb, hp]

theorem Scan.step_skip {s : Scan} {nd : TNode} {dir : Bool} (h : nd.kept dir = false) : Scan.step dir s nd = s := by
  unfold TNode.kept at h
  have : (nd.ty.isDirected && decide (nd.rising ≠ dir)) = true := by simpa using h
  unfold Scan.step; rw [if_pos this]

theorem TNode.kept_rising {nd : TNode} {dir : Bool} (h : nd.kept dir = true) (hd : nd.ty.isDirected = true) : nd.rising = dir := by
  simpa [TNode.kept, hd] using h

/-- the rising scan over all track elements -/
theorem UpInv.run {g0 : Graph} {start : Nat} {pt0 : Pt} {k : Nat} (hs : start < g0.n) (hst : (g0.el start).ty.isTrack = false)
    (hk : (g0.el start).slot pt0 = some k) : ∀ (l done : List TNode) (s : Scan), UpInv g0 start pt0 k done s →
    (∀ m ∈ done, m.ty.isTrack = true) → (∀ m ∈ l, m.ty.isTrack = true) → ((done ++ l).map (·.xid)).Nodup →
    UpInv g0 start pt0 k (done ++ l.filter (·.kept true)) (l.foldl (Scan.step true) s)
  | [], done, s, h, _, _, _ => by simpa using h
  | nd :: l, done, s, h, hd, hl, hx => by
    rw [List.foldl_cons]
    cases hkp : nd.kept true with
    | false =>
      rw [Scan.step_skip hkp, List.filter_cons, hkp]
      exact UpInv.run hs hst hk l done s h hd (fun m hm => hl m (by simp [hm]))
        (hx.sublist (List.Sublist.map _ (List.Sublist.append_left (List.sublist_cons_self _ _) _)))
    | true =>
      rw [List.filter_cons, hkp, if_pos rfl]
      have hx' : ∀ m ∈ done, m.xid ≠ nd.xid := by
        rw [List.map_append, List.nodup_append] at hx
        intro m hm
        exact hx.2.2 _ (List.mem_map_of_mem hm) _ (by simp)
      have := UpInv.run hs hst hk l (done ++ [nd]) _
        (h.step hs hst hk nd (hl nd (by simp)) (fun hdir => TNode.kept_rising hkp hdir) hx' hd)
        (by intro m hm; rcases List.mem_append.1 hm with hm | hm
            · exact hd m hm
            · rw [List.mem_singleton.1 hm]; exact hl nd (by simp))
        (fun m hm => hl m (by simp [hm])) (by simpa using hx)
      simpa using this

/-! ### falling scan -/

/-- the graph after element `i`, with contents `e`, is put behind `prev` in falling direction -/
def linkDown (g : Graph) (prev : Nat) (pt : Pt) (i : Nat) (e : Elem) (n : Nat) : Graph :=
  ⟨fun j => if j = i then e.setSlot (if e.ty.isDirected then 0 else 1) (some prev)
    else if j = prev then (g.el prev).setNeighbour pt i (g.el prev).ty.isTrack else g.el j, n⟩

/-- an undirected element that the rising scan has linked and the falling scan has not -/
def Elem.half (e : Elem) : Prop :=
  e.ty.isUndirected = true ∧ e.nb 2 ≠ none ∧ e.nb 0 ≠ none ∧ e.nb 1 = none ∧ e.nb 3 = none

theorem Scan.step_down_dir {s : Scan} {nd : TNode} (hp : s.prev ≠ s.g.n) (hd : nd.ty.isDirected = true) (hr : nd.rising = false) :
    Scan.step false s nd =
      ⟨linkDown s.g s.prev s.pt s.g.n (blank nd.ty false) (s.g.n + 1), s.g.n, .only, s.und, s.seq ++ [s.g.n]⟩ := by
  simp only [Scan.step, hd, hr, Scan.directed, Scan.mk.injEq, linkDown, Graph.setNb, Graph.modify, Graph.create, blank,
    Graph.mk.injEq, and_true, true_and]
  simp
  funext j
  by_cases h1 : j = s.g.n
  · subst h1
    rw [set_same, set_ne _ _ (Ne.symm hp), set_same, Elem.setNeighbour_dir (by simpa using hd)]
    simp [hd]
  · by_cases h2 : j = s.prev
    · subst h2; rw [set_ne _ _ h1, set_same, set_ne _ _ h1]; simp [h1]
    · rw [set_ne _ _ h1, set_ne _ _ h2, set_ne _ _ h1]; simp [h1, h2]

theorem Scan.step_down_und {s : Scan} {nd : TNode} {i : Nat} (hp : s.prev ≠ i) (hd : nd.ty.isDirected = false)
    (hl : s.und.lookup nd.xid = some i) (he : (s.g.el i).half) :
    Scan.step false s nd =
      ⟨linkDown s.g s.prev s.pt i (s.g.el i) s.g.n, i, .only, s.und, s.seq ++ [i]⟩ := by
  obtain ⟨h1, h2, h3, h4, h5⟩ := he
  have hd' : (s.g.el i).ty.isDirected = false := by
    cases h : (s.g.el i).ty.isDirected with
    | false => rfl
    | true => rw [Ty.not_und h] at h1; simp at h1
  simp only [Scan.step, hd, hl, Scan.undirected, Scan.mk.injEq, linkDown, Graph.setNb, Graph.modify, Graph.mk.injEq, and_true, true_and]
  simp
  funext j
  by_cases e1 : j = i
  · subst e1
    rw [set_same, set_ne _ _ (Ne.symm hp)]
    simp [Elem.setNeighbour, hd', h1, h2, h3, h4]
  · by_cases e2 : j = s.prev
    · subst e2; rw [set_ne _ _ e1, set_same]; simp [e1]
    · rw [set_ne _ _ e1, set_ne _ _ e2]; simp [e1, e2]

/-- state of the falling scan after the track elements `done` (filtered); `g1` the graph before -/
structure DownInv (g1 : Graph) (lo fin : Nat) (pt0 : Pt) (k : Nat) (und : List (Nat × Nat)) (done : List TNode) (s : Scan) : Prop where
  n : g1.n ≤ s.g.n
  undEq : s.und = und
  len : s.seq.length = done.length
  rel : ∀ (j : Nat) nd i, done[j]? = some nd → s.seq[j]? = some i → (s.g.el i).ty = nd.ty ∧
    (nd.ty.isDirected = true → (s.g.el i).rising = false ∧ g1.n ≤ i) ∧
    (nd.ty.isDirected = false → und.lookup nd.xid = some i)
  bound : ∀ i ∈ s.seq, lo ≤ i ∧ i < s.g.n ∧ (s.g.el i).ty.isTrack = true
  nodup : s.seq.Nodup
  link : ∀ (j : Nat) a b, s.seq[j]? = some a → s.seq[j + 1]? = some b → (s.g.el a).ahead false = some b
  prev : s.prev = s.seq.getLast?.getD fin
  pt : s.pt = if s.seq = [] then pt0 else .only
  undl : ∀ i ∈ s.seq, (s.g.el i).ty.isDirected = false →
    (s.g.el i).nb 2 ≠ none ∧ (s.g.el i).nb 0 ≠ none ∧ (s.g.el i).nb 1 ≠ none ∧ (s.seq.getLast? = some i → (s.g.el i).nb 3 = none)
  keep : ∀ i, i < g1.n → i ≠ fin → (s.g.el i).ty = (g1.el i).ty ∧ (s.g.el i).rising = (g1.el i).rising ∧
    (s.g.el i).ahead true = (g1.el i).ahead true
  frame : ∀ i, i < g1.n → i ≠ fin → i ∉ s.seq → s.g.el i = g1.el i
  back : ∀ (j : Nat) a, s.seq[j]? = some a → (s.g.el a).behind false = (fin :: s.seq)[j]?
  keepB : ∀ i, i < g1.n → i ≠ fin → (s.g.el i).behind true = (g1.el i).behind true
  fin : s.g.el fin = if s.seq = [] then g1.el fin else (g1.el fin).setSlot (k + 1) s.seq.head?
  new : ∀ i, g1.n ≤ i → i < s.g.n → i ∈ s.seq

theorem cons_at_length (a : Nat) (l : List Nat) : (a :: l)[l.length]? = some (l.getLast?.getD a) := by
  have := List.getLast?_cons (a := a) (l := l)
  rw [List.getLast?_eq_getElem?] at this
  simpa using this

theorem DownInv.init (g1 : Graph) (lo fin : Nat) (pt0 : Pt) (k : Nat) (und : List (Nat × Nat)) :
    DownInv g1 lo fin pt0 k und [] ⟨g1, fin, pt0, und, []⟩ := by
  constructor <;> simp

theorem DownInv.step {g1 : Graph} {lo fin : Nat} {pt0 : Pt} {k : Nat} {und : List (Nat × Nat)} {done : List TNode} {s : Scan}
    (h : DownInv g1 lo fin pt0 k und done s) (hfl : fin < lo) (hlo : lo ≤ g1.n) (hft : (g1.el fin).ty.isTrack = false)
    (hk : (g1.el fin).slot pt0 = some k)
    (hund : ∀ x i, und.lookup x = some i → lo ≤ i ∧ i < g1.n ∧ (g1.el i).half)
    (hinj : ∀ x y i, und.lookup x = some i → und.lookup y = some i → x = y)
    (nd : TNode) (hnd : nd.ty.isTrack = true) (hr : nd.ty.isDirected = true → nd.rising = false)
    (hu : nd.ty.isDirected = false → ∃ i, und.lookup nd.xid = some i ∧ (g1.el i).ty = nd.ty)
    (hx : ∀ m ∈ done, m.xid ≠ nd.xid) :
    DownInv g1 lo fin pt0 k und (done ++ [nd]) (Scan.step false s nd) := by
  -- the element that is put behind `prev`
  obtain ⟨i, e, n', hstep, hie, hty, hri, hbd, hdir, hundi, hnew, hn', hnn⟩ : ∃ i e n',
      Scan.step false s nd = ⟨linkDown s.g s.prev s.pt i e n', i, .only, s.und, s.seq ++ [i]⟩ ∧
      (i ∉ s.seq ∧ i ≠ fin) ∧ e.ty = nd.ty ∧ (nd.ty.isDirected = true → e.rising = false ∧ g1.n ≤ i) ∧
      (lo ≤ i ∧ i < n') ∧ (nd.ty.isDirected = true → i = s.g.n) ∧
      (nd.ty.isDirected = false → und.lookup nd.xid = some i ∧ e = g1.el i ∧ i < g1.n ∧ e.half) ∧
      (∀ j, s.g.n ≤ j → j < n' → j = i) ∧ s.g.n ≤ n' ∧ (i < g1.n ∨ i = s.g.n) := by
    cases hd : nd.ty.isDirected with
    | true =>
      have hpn : s.prev ≠ s.g.n := by
        rw [h.prev]
        cases hl : s.seq.getLast? with
        | none => have := h.n; simp; omega
        | some l => have := (h.bound l (List.mem_of_getLast? hl)).2.1; simp; omega
      refine ⟨s.g.n, _, _, Scan.step_down_dir hpn hd (hr hd), ⟨?_, ?_⟩, rfl, fun _ => ⟨rfl, h.n⟩, ⟨?_, by omega⟩, fun _ => rfl, by simp,
        fun j h1 h2 => by omega, by omega, Or.inr rfl⟩
      · intro hm; have := (h.bound _ hm).2.1; omega
      · have := h.n; omega
      · have := h.n; omega
    | false =>
      obtain ⟨i, hl, hti⟩ := hu hd
      obtain ⟨hlo', hlt, hhalf⟩ := hund _ _ hl
      have hni : i ∉ s.seq := by
        intro hm
        obtain ⟨j, hj⟩ := List.mem_iff_getElem?.1 hm
        have hjl : j < done.length := by rw [← h.len]; exact (List.getElem?_eq_some_iff.1 hj).1
        obtain ⟨m, hm'⟩ : ∃ m, done[j]? = some m := ⟨done[j], List.getElem?_eq_getElem hjl⟩
        obtain ⟨r1, r2, r3⟩ := h.rel j m i hm' hj
        cases hmd : m.ty.isDirected with
        | true => have := (r2 hmd).2; omega
        | false => exact hx m (List.mem_of_getElem? hm') (hinj _ _ _ (r3 hmd) hl)
      have hfi : i ≠ fin := by omega
      have heq : s.g.el i = g1.el i := h.frame i hlt hfi hni
      have hpi : s.prev ≠ i := by
        rw [h.prev]
        cases hl : s.seq.getLast? with
        | none => simp; omega
        | some l => simp; intro he; exact hni (he ▸ List.mem_of_getLast? hl)
      refine ⟨i, _, _, Scan.step_down_und hpi hd (by rw [h.undEq]; exact hl) (by rw [heq]; exact hhalf), ⟨hni, hfi⟩, by rw [heq, hti], by simp,
        ⟨hlo', by have := h.n; omega⟩, by simp, fun _ => ⟨hl, heq, hlt, by rw [heq]; exact hhalf⟩, fun j h1 h2 => by omega, Nat.le_refl _, Or.inl hlt⟩
  rw [hstep]
  have hel : ∀ j, (linkDown s.g s.prev s.pt i e n').el j = if j = i then e.setSlot (if e.ty.isDirected then 0 else 1) (some s.prev)
    else if j = s.prev then (s.g.el s.prev).setNeighbour s.pt i (s.g.el s.prev).ty.isTrack else s.g.el j := fun j => rfl
  have hlast : ∀ l, s.seq.getLast? = some l → s.prev = l ∧ s.seq ≠ [] := by
    intro l hl
    refine ⟨by rw [h.prev, hl]; rfl, by rintro h0; simp [h0] at hl⟩
  -- elements of the sequence so far
  have hold : ∀ j, j ∈ s.seq → (linkDown s.g s.prev s.pt i e n').el j =
      if s.seq.getLast? = some j then (s.g.el j).setSlot (if (s.g.el j).ty.isDirected then 1 else 3) (some i) else s.g.el j := by
    intro j hj
    rw [hel, if_neg (by rintro rfl; exact hie.1 hj)]
    by_cases hl : s.seq.getLast? = some j
    · obtain ⟨hp, hne⟩ := hlast j hl
      rw [if_pos hp.symm, if_pos hl, hp]
      obtain ⟨_, _, htr⟩ := h.bound j hj
      cases hd : (s.g.el j).ty.isDirected with
      | true => rw [Elem.setNeighbour_dir hd]; simp [htr]
      | false =>
        obtain ⟨a, b, c, d⟩ := h.undl j hj hd
        have htu := htr
        rw [Ty.track_iff, hd, Bool.false_or] at htu
        simp [Elem.setNeighbour, hd, htu, a, b, c, d hl]
    · rw [if_neg hl, if_neg]
      intro he
      cases hl' : s.seq.getLast? with
      | none => rw [List.getLast?_eq_none_iff] at hl'; simp [hl'] at hj
      | some l => exact hl (by rw [hl', he, (hlast l hl').1])
  have hnewel : (linkDown s.g s.prev s.pt i e n').el i = e.setSlot (if e.ty.isDirected then 0 else 1) (some s.prev) := by
    rw [hel, if_pos rfl]
  constructor
  · show g1.n ≤ n'
    have := h.n; omega
  · exact h.undEq
  · simp [h.len]
  · intro j m a hm ha
    dsimp only at ha ⊢
    rw [List.getElem?_append] at hm ha
    split at hm
    · rename_i hj
      rw [if_pos (by rw [h.len]; exact hj)] at ha
      obtain ⟨r1, r2, r3⟩ := h.rel j m a hm ha
      rw [hold a (List.mem_of_getElem? ha)]
      split
      · exact ⟨r1, r2, r3⟩
      · exact ⟨r1, r2, r3⟩
    · rename_i hj
      rw [if_neg (by rw [h.len]; exact hj)] at ha
      obtain ⟨_, rfl⟩ := snoc_at hj hm
      obtain ⟨_, rfl⟩ := snoc_at (by rw [h.len]; exact hj) ha
      rw [hnewel]
      exact ⟨hty, hri, fun hd => (hundi hd).1⟩
  · intro a ha
    dsimp only at ha ⊢
    rcases List.mem_append.1 ha with ha | ha
    · obtain ⟨b1, b2, b3⟩ := h.bound a ha
      refine ⟨b1, by show a < n'; omega, ?_⟩
      rw [hold a ha]
      split <;> simpa using b3
    · obtain rfl := List.mem_singleton.1 ha
      rw [hnewel]
      exact ⟨hbd.1, hbd.2, by simpa [hty] using hnd⟩
  · dsimp only
    rw [List.nodup_append]
    refine ⟨h.nodup, by simp, ?_⟩
    intro a ha b hb
    obtain rfl := List.mem_singleton.1 hb
    rintro rfl; exact hie.1 ha
  · intro j a b ha hb
    dsimp only at ha hb ⊢
    have hjlt : j + 1 < s.seq.length + 1 := by simpa using (List.getElem?_eq_some_iff.1 hb).1
    rw [List.getElem?_append_left (by omega)] at ha
    rw [List.getElem?_append] at hb
    have ham := List.mem_of_getElem? ha
    rw [hold a ham]
    split at hb
    · rename_i hj
      have hne : s.seq.getLast? ≠ some a := by
        intro hl
        rw [List.getLast?_eq_getElem?] at hl
        have := (List.getElem?_inj (by omega) h.nodup).1 (ha.trans hl.symm)
        omega
      rw [if_neg hne]
      exact h.link j a b ha hb
    · rename_i hj
      obtain ⟨hj', rfl⟩ := snoc_at hj hb
      have hl : s.seq.getLast? = some a := by
        rw [List.getLast?_eq_getElem?, show s.seq.length - 1 = j by omega, ha]
      rw [if_pos hl]
      unfold Elem.ahead
      cases hd : (s.g.el a).ty.isDirected <;> simp [hd, Elem.setSlot_nb]
  · simp
  · simp
  · intro a ha hd
    dsimp only at ha hd ⊢
    rcases List.mem_append.1 ha with ha | ha
    · rw [hold a ha] at hd ⊢
      have hd' : (s.g.el a).ty.isDirected = false := by
        split at hd <;> simpa using hd
      obtain ⟨b1, b2, b3, b4⟩ := h.undl a ha hd'
      have hlst : (s.seq ++ [i]).getLast? ≠ some a := by
        simp; rintro rfl; exact hie.1 ha
      split
      · refine ⟨?_, ?_, ?_, fun hh => absurd hh hlst⟩ <;> simp [hd', Elem.setSlot_nb, b1, b2, b3]
      · exact ⟨b1, b2, b3, fun hh => absurd hh hlst⟩
    · obtain rfl := List.mem_singleton.1 ha
      rw [hnewel] at hd ⊢
      have hd' : nd.ty.isDirected = false := by simpa [hty] using hd
      obtain ⟨_, _, _, q1, q2, q3, q4, q5⟩ := hundi hd'
      simp [hty, hd', Elem.setSlot_nb, q2, q3, q5]
  · intro j hj hjf
    dsimp only
    obtain ⟨k1, k2, k3⟩ := h.keep j hj hjf
    by_cases hji : j = i
    · subst hji
      have hd : nd.ty.isDirected = false := by
        cases hd : nd.ty.isDirected with
        | false => rfl
        | true => have := hdir hd; have := h.n; omega
      obtain ⟨_, he, _, q1, q2, q3, q4, q5⟩ := hundi hd
      rw [hnewel]
      refine ⟨by simp [he], by simp [he], ?_⟩
      unfold Elem.ahead
      simp [hty, hd, Elem.setSlot_nb, ← he]
    · by_cases hjm : j ∈ s.seq
      · rw [hold j hjm]
        split
        · refine ⟨by simp [k1], by simp [k2], ?_⟩
          rw [← k3]
          unfold Elem.ahead
          cases hd : (s.g.el j).ty.isDirected with
          | false => simp [hd, Elem.setSlot_nb]
          | true =>
            exfalso
            obtain ⟨t, ht⟩ := List.mem_iff_getElem?.1 hjm
            have htl : t < done.length := by rw [← h.len]; exact (List.getElem?_eq_some_iff.1 ht).1
            obtain ⟨r1, r2, r3⟩ := h.rel t done[t] j (List.getElem?_eq_getElem htl) ht
            rw [r1] at hd
            have := (r2 hd).2; omega
        · exact ⟨k1, k2, k3⟩
      · rw [hel, if_neg hji, if_neg]
        · exact ⟨k1, k2, k3⟩
        · rw [h.prev]
          cases hl : s.seq.getLast? with
          | none => simpa using hjf
          | some l => simp; rintro rfl; exact hjm (List.mem_of_getLast? hl)
  · intro j hj hjf hjm
    dsimp only at hjm ⊢
    simp only [List.mem_append, List.mem_singleton, not_or] at hjm
    rw [hel, if_neg hjm.2, if_neg, h.frame j hj hjf hjm.1]
    rw [h.prev]
    cases hl : s.seq.getLast? with
    | none => simpa using hjf
    | some l => simp; rintro rfl; exact hjm.1 (List.mem_of_getLast? hl)
  · intro j a ha
    dsimp only at ha ⊢
    rw [List.getElem?_append] at ha
    split at ha
    · rename_i hj
      have hb := h.back j a ha
      have e : (fin :: (s.seq ++ [i]))[j]? = (fin :: s.seq)[j]? := by
        rw [← List.cons_append, List.getElem?_append_left (by simp; omega)]
      rw [e, ← hb, hold a (List.mem_of_getElem? ha)]
      split
      · unfold Elem.behind
        cases hd : (s.g.el a).ty.isDirected <;> simp [hd, Elem.setSlot_nb]
      · rfl
    · rename_i hj
      obtain ⟨hj', rfl⟩ := snoc_at hj ha
      have e' : (fin :: (s.seq ++ [i]))[j]? = some s.prev := by
        rw [hj', h.prev, ← List.cons_append, List.getElem?_append_left (by simp), cons_at_length]
      rw [hnewel, e']
      unfold Elem.behind
      cases hd : nd.ty.isDirected <;> simp [hty, hd, Elem.setSlot_nb]
  · intro j hj hjf
    dsimp only
    rw [← h.keepB j hj hjf]
    by_cases hji : j = i
    · subst hji
      have hd : nd.ty.isDirected = false := by
        cases hd : nd.ty.isDirected with
        | false => rfl
        | true => have := hdir hd; have := h.n; omega
      obtain ⟨_, he, _⟩ := hundi hd
      rw [hnewel, h.frame j hj hjf hie.1, ← he]
      unfold Elem.behind
      simp [hty, hd, Elem.setSlot_nb]
    · by_cases hjm : j ∈ s.seq
      · rw [hold j hjm]
        split
        · unfold Elem.behind
          cases hd : (s.g.el j).ty.isDirected <;> simp [hd, Elem.setSlot_nb]
        · rfl
      · rw [hel, if_neg hji, if_neg]
        rw [h.prev]
        cases hl : s.seq.getLast? with
        | none => simpa using hjf
        | some l => simp; rintro rfl; exact hjm (List.mem_of_getLast? hl)
  · dsimp only
    rw [if_neg (by simp), hel, if_neg (Ne.symm hie.2)]
    have hf := h.fin
    by_cases h0 : s.seq = []
    · rw [if_pos h0] at hf
      have hp : s.prev = fin := by rw [h.prev, h0]; rfl
      rw [if_pos hp.symm, hp, hf, h.pt, if_pos h0, Elem.setNeighbour_sec hft hk, hft]
      simp [h0]
    · rw [if_neg h0] at hf
      have hp : fin ≠ s.prev := by
        rw [h.prev]
        cases hl : s.seq.getLast? with
        | none => rw [List.getLast?_eq_none_iff] at hl; exact absurd hl h0
        | some l => have := (h.bound l (List.mem_of_getLast? hl)).1; simp; omega
      rw [if_neg hp, hf]
      congr 1
      cases hq : s.seq with
      | nil => exact absurd hq h0
      | cons q qs => rfl
  · intro j h1 h2
    dsimp only at h2 ⊢
    by_cases hj : j < s.g.n
    · exact List.mem_append_left _ (h.new j h1 hj)
    · exact List.mem_append_right _ (by simp [hnew j (by omega) h2])

theorem DownInv.run {g1 : Graph} {lo fin : Nat} {pt0 : Pt} {k : Nat} {und : List (Nat × Nat)}
    (hfl : fin < lo) (hlo : lo ≤ g1.n) (hft : (g1.el fin).ty.isTrack = false)
    (hk : (g1.el fin).slot pt0 = some k)
    (hund : ∀ x i, und.lookup x = some i → lo ≤ i ∧ i < g1.n ∧ (g1.el i).half)
    (hinj : ∀ x y i, und.lookup x = some i → und.lookup y = some i → x = y) :
    ∀ (l done : List TNode) (s : Scan), DownInv g1 lo fin pt0 k und done s →
    (∀ m ∈ l, m.ty.isTrack = true) → (∀ m ∈ l, m.ty.isDirected = false → ∃ i, und.lookup m.xid = some i ∧ (g1.el i).ty = m.ty) →
    ((done ++ l).map (·.xid)).Nodup →
    DownInv g1 lo fin pt0 k und (done ++ l.filter (·.kept false)) (l.foldl (Scan.step false) s)
  | [], done, s, h, _, _, _ => by simpa using h
  | nd :: l, done, s, h, hl, hu, hx => by
    rw [List.foldl_cons]
    cases hkp : nd.kept false with
    | false =>
      rw [Scan.step_skip hkp, List.filter_cons, hkp]
      exact DownInv.run hfl hlo hft hk hund hinj l done s h (fun m hm => hl m (by simp [hm])) (fun m hm => hu m (by simp [hm]))
        (hx.sublist (List.Sublist.map _ (List.Sublist.append_left (List.sublist_cons_self _ _) _)))
    | true =>
      rw [List.filter_cons, hkp, if_pos rfl]
      have hx' : ∀ m ∈ done, m.xid ≠ nd.xid := by
        rw [List.map_append, List.nodup_append] at hx
        intro m hm
        exact hx.2.2 _ (List.mem_map_of_mem hm) _ (by simp)
      have := DownInv.run hfl hlo hft hk hund hinj l (done ++ [nd]) _
        (h.step hfl hlo hft hk hund hinj nd (hl nd (by simp)) (fun hdir => TNode.kept_rising hkp hdir) (hu nd (by simp)) hx')
        (fun m hm => hl m (by simp [hm])) (fun m hm => hu m (by simp [hm])) (by simpa using hx)
      simpa using this

/-! ### a section -/

/-- what is required of a section and the graph it is added to; `ks` and `kf` are the slots of its points -/
structure SecIn.Wf (x : SecIn) (g : Graph) (ks kf : Nat) : Prop where
  start : x.start < g.n
  fin : x.fin < g.n
  ne : x.start ≠ x.fin
  startTy : (g.el x.start).ty.isTrack = false
  finTy : (g.el x.fin).ty.isTrack = false
  ks : ((g.el x.start).setPoint x.ptS true x.line).slot x.ptS = some ks
  kf : ((g.el x.fin).setPoint x.ptF false x.line).slot x.ptF = some kf
  nbS : ∀ k, (g.el x.start).nb k ≠ some x.fin
  nbF : ∀ k, (g.el x.fin).nb k ≠ some x.start
  track : ∀ m ∈ x.up, m.ty.isTrack = true
  nodup : (x.up.map (·.xid)).Nodup
  perm : x.down.Perm x.up

/-- every element of `l` has the next one, the last one `fin`, ahead -/
def Linked (el : Nat → Elem) (dir : Bool) (l : List Nat) (fin : Nat) : Prop :=
  ∀ (j : Nat) a, l[j]? = some a → (el a).ahead dir = some ((l[j + 1]?).getD fin)

/-- every element of `l` has the one before, the first one `st`, behind -/
def Backed (el : Nat → Elem) (dir : Bool) (l : List Nat) (st : Nat) : Prop :=
  ∀ (j : Nat) a, l[j]? = some a → (el a).behind dir = (st :: l)[j]?

@[simp] theorem Elem.setPoint_ty (e : Elem) pt b l : (e.setPoint pt b l).ty = e.ty := by
  unfold Elem.setPoint; cases pt <;> simp <;> split <;> rfl
@[simp] theorem Elem.setPoint_nb (e : Elem) pt b l : (e.setPoint pt b l).nb = e.nb := by
  unfold Elem.setPoint; cases pt <;> simp <;> split <;> rfl

theorem replaceNb_setSlot {e : Elem} {a b k : Nat} (h : ∀ j, e.nb j ≠ some a) :
    replaceNb a b (e.setSlot k (some a)) = e.setSlot k (some b) := by
  unfold replaceNb Elem.setSlot
  congr 1
  funext j
  by_cases hj : j = k
  · subst hj; simp
  · simp [set_ne _ _ hj, h j]

theorem replaceNb_setSlot2 {e : Elem} {a b k c d : Nat} (h : ∀ j, e.nb j ≠ some a) (hc : c ≠ a) :
    replaceNb a b ((e.setSlot d (some c)).setSlot k (some a)) = (e.setSlot d (some c)).setSlot k (some b) := by
  apply replaceNb_setSlot
  intro j
  rw [Elem.setSlot_nb]
  split
  · simpa using hc
  · exact h j

/-- the graph between the two scans -/
structure Mid (x : SecIn) (g : Graph) (ks kf : Nat) (g1 : Graph) (up : List Nat) (und : List (Nat × Nat)) : Prop where
  n : g.n ≤ g1.n
  ids : up = List.range' g.n (g1.n - g.n)
  ne : up ≠ []
  link : Linked g1.el true up x.fin
  kinds : up.map (fun i => (g1.el i).ty) = kinds true x.up
  rising : ∀ i ∈ up, (g1.el i).ty.isDirected = true → (g1.el i).rising = true
  st : g1.el x.start = ((g.el x.start).setPoint x.ptS true x.line).setSlot ks up.head?
  fn : g1.el x.fin = ((g.el x.fin).setPoint x.ptF false x.line).setSlot kf up.getLast?
  frame : ∀ i, i < g.n → i ≠ x.start → i ≠ x.fin → g1.el i = g.el i
  half : ∀ i ∈ up, (g1.el i).ty.isDirected = false → (g1.el i).half
  und : ∀ y i, und.lookup y = some i ↔ ∃ (j : Nat) (nd : TNode), (x.up.filter (·.kept true))[j]? = some nd ∧
    nd.ty.isDirected = false ∧ nd.xid = y ∧ up[j]? = some i
  back : Backed g1.el true up x.start

theorem mid {x : SecIn} {g : Graph} {ks kf : Nat} (w : x.Wf g ks kf) :
    let g0 := (g.modify x.start fun e => e.setPoint x.ptS true x.line).modify x.fin fun e => e.setPoint x.ptF false x.line
    let r := x.up.foldl (Scan.step true) ⟨g0, x.start, x.ptS, [], []⟩
    let ga := (r.g.setNb r.prev r.pt x.fin true).setNb x.fin x.ptF r.prev true
    Mid x g ks kf (if r.prev = x.start then insertMeta ga x.start x.fin true else ga) (if r.prev = x.start then [ga.n] else r.seq) r.und := by
  intro g0 r ga
  have w1 := w.start
  have w2 := w.fin
  have w3 := w.ne
  have h0s : g0.el x.start = (g.el x.start).setPoint x.ptS true x.line := by
    simp [g0, Graph.modify_el, w3]
  have h0f : g0.el x.fin = (g.el x.fin).setPoint x.ptF false x.line := by
    simp [g0, Graph.modify_el, Ne.symm w3]
  have h0 : ∀ i, i ≠ x.start → i ≠ x.fin → g0.el i = g.el i := by
    intro i h1 h2; simp [g0, Graph.modify_el, h1, h2]
  have h0n : g0.n = g.n := rfl
  have hI : UpInv g0 x.start x.ptS ks (x.up.filter (·.kept true)) r := by
    have := UpInv.run (g0 := g0) (start := x.start) (pt0 := x.ptS) (k := ks) w.start (by rw [h0s]; simpa using w.startTy) (by rw [h0s]; exact w.ks)
      x.up [] _ (UpInv.init _ _ _ _) (by simp) w.track (by simpa using w.nodup)
    simpa using this
  generalize hR : x.up.filter (·.kept true) = R at hI
  have hRt : ∀ m ∈ R, m.ty.isTrack = true := by
    intro m hm; rw [← hR] at hm; exact w.track m (List.mem_filter.1 hm).1
  have hfinr : r.g.el x.fin = g0.el x.fin := hI.frame x.fin w.fin (Ne.symm w3)
  have hfs : (g0.el x.fin).ty.isTrack = false := by rw [h0f]; simpa using w.finTy
  have hss : (g0.el x.start).ty.isTrack = false := by rw [h0s]; simpa using w.startTy
  have gael : ∀ j, ga.el j = if j = x.fin then (if x.fin = r.prev then (r.g.el r.prev).setNeighbour r.pt x.fin true else
      r.g.el x.fin).setNeighbour x.ptF r.prev true
      else if j = r.prev then (r.g.el r.prev).setNeighbour r.pt x.fin true else r.g.el j := fun j => rfl
  by_cases hL : R.length = 0
  · -- nothing between the ends
    have hRn : R = [] := List.length_eq_zero_iff.1 hL
    subst hRn
    have hp : r.prev = x.start := by rw [hI.prev]; rfl
    have hpt : r.pt = x.ptS := by rw [hI.pt]; rfl
    have hst : r.g.el x.start = g0.el x.start := by rw [hI.st]; rfl
    have hrn : r.g.n = g.n := by rw [hI.n]; rfl
    rw [if_pos hp, if_pos hp]
    have gas : ga.el x.start = (g0.el x.start).setSlot ks (some x.fin) := by
      rw [gael, if_neg w3, hp, if_pos rfl, hst, hpt, Elem.setNeighbour_sec hss (by rw [h0s]; exact w.ks)]; rfl
    have gaf : ga.el x.fin = (g0.el x.fin).setSlot kf (some x.start) := by
      rw [gael, if_pos rfl, hp, if_neg (Ne.symm w3), hfinr, Elem.setNeighbour_sec hfs (by rw [h0f]; exact w.kf)]; rfl
    have gan : ga.n = g.n := by simp [ga, hrn]
    have gao : ∀ i, i < g.n → i ≠ x.start → i ≠ x.fin → ga.el i = g.el i := by
      intro i hi h1 h2
      rw [gael, if_neg h2, hp, if_neg h1, hI.frame i hi h1, h0 i h1 h2]
    have hm : ∀ j, (insertMeta ga x.start x.fin true).el j =
        if j = x.fin then replaceNb x.start g.n (ga.el x.fin) else if j = x.start then replaceNb x.fin g.n (ga.el x.start)
        else if j = g.n then ((blank .metaElement true).setSlot 1 (some x.fin)).setSlot 0 (some x.start) else ga.el j := by
      intro j
      have a1 : x.start ≠ g.n := by omega
      have a2 : x.fin ≠ g.n := by omega
      simp only [insertMeta, gan, Graph.modify_el, Graph.create_el]
      by_cases h1 : j = x.fin
      · subst h1; simp [Ne.symm w3, a2]
      · by_cases h2 : j = x.start
        · subst h2; simp [h1, a1]
        · by_cases h3 : j = g.n <;> simp [h1, h2, h3]
          rw [h3] at h1 h2; simp [h1, h2]
    have hmm : (insertMeta ga x.start x.fin true).el g.n = ((blank .metaElement true).setSlot 1 (some x.fin)).setSlot 0 (some x.start) := by
      rw [hm, if_neg (by omega), if_neg (by omega), if_pos rfl]
    have hmn : (insertMeta ga x.start x.fin true).n = g.n + 1 := by simp [insertMeta, gan]
    rw [gan]
    constructor
    · rw [hmn]; omega
    · rw [hmn]; simp [show g.n + 1 - g.n = 1 by omega]
    · simp
    · intro j a ha
      have hj : j = 0 := by
        have := (List.getElem?_eq_some_iff.1 ha).1
        simp at this; exact this
      subst hj
      obtain rfl : g.n = a := by simpa using ha
      rw [hmm]; rfl
    · have : kinds true x.up = [.metaElement] := by simp [kinds, hR]
      rw [this, List.map_cons, hmm]; rfl
    · intro i hi _
      obtain rfl := List.mem_singleton.1 hi
      rw [hmm]; rfl
    · rw [hm, if_neg w3, if_pos rfl, gas, ← h0s]
      apply replaceNb_setSlot
      rw [h0s]; simpa using w.nbS
    · rw [hm, if_pos rfl, gaf, ← h0f]
      apply replaceNb_setSlot
      rw [h0f]; simpa using w.nbF
    · intro i hi h1 h2
      rw [hm, if_neg h2, if_neg h1, if_neg (by omega), gao i hi h1 h2]
    · intro i hi hd
      obtain rfl := List.mem_singleton.1 hi
      rw [hmm] at hd
      simp [blank] at hd; exact absurd hd (by decide)
    · intro y i
      rw [hI.und y i, hR]
      simp
    · intro j a ha
      have hj : j = 0 := by
        have := (List.getElem?_eq_some_iff.1 ha).1
        simp at this; exact this
      subst hj
      obtain rfl : g.n = a := by simpa using ha
      rw [hmm]; rfl
  · -- the last element
    have hp : r.prev = g.n + (R.length - 1) := by rw [hI.prev, if_neg hL, h0n]
    have hps : r.prev ≠ x.start := by omega
    have hpf : r.prev ≠ x.fin := by omega
    have hpt : r.pt = .only := by rw [hI.pt, if_neg hL]
    have hst : r.g.el x.start = (g0.el x.start).setSlot ks (some g.n) := by rw [hI.st, if_neg hL, h0n]
    have hrn : r.g.n = g.n + R.length := by rw [hI.n, h0n]
    rw [if_neg hps, if_neg hps]
    have gan : ga.n = g.n + R.length := by simp [ga, hrn]
    have gaf : ga.el x.fin = (g0.el x.fin).setSlot kf (some r.prev) := by
      rw [gael, if_pos rfl, if_neg (Ne.symm hpf), hfinr, Elem.setNeighbour_sec hfs (by rw [h0f]; exact w.kf)]; rfl
    have gai : ∀ j, j < R.length → ga.el (g.n + j) =
        if j + 1 = R.length then (r.g.el (g.n + j)).setSlot (if (r.g.el (g.n + j)).ty.isDirected then 1 else 0) (some x.fin)
        else r.g.el (g.n + j) := by
      intro j hj
      rw [gael, if_neg (by omega)]
      by_cases hl : j + 1 = R.length
      · have hpj : r.prev = g.n + j := by omega
        rw [if_pos hl, if_pos hpj.symm, hpj, hpt]
        obtain ⟨m, hm⟩ : ∃ m, R[j]? = some m := ⟨R[j], List.getElem?_eq_getElem hj⟩
        obtain ⟨hty, _⟩ := hI.ty j m hm
        rw [h0n] at hty
        have htr := hRt m (List.mem_of_getElem? hm)
        cases hd : m.ty.isDirected with
        | true => rw [Elem.setNeighbour_dir (by rw [hty, hd]), hty, hd]
        | false =>
          obtain ⟨a, b, c, d⟩ := hI.und2 j m hm hd
          rw [Ty.track_iff, hd, Bool.false_or] at htr
          rw [h0n] at a d
          simp [Elem.setNeighbour, hty, hd, htr, a, d hl]
      · rw [if_neg (by omega), if_neg hl]
    have hseq : r.seq = List.range' g.n R.length := hI.seq
    have hget : ∀ (j a : Nat), r.seq[j]? = some a ↔ j < R.length ∧ a = g.n + j := by
      intro j a
      rw [hseq, List.getElem?_eq_some_iff]
      simp only [List.length_range', List.getElem_range', Nat.one_mul]
      constructor
      · rintro ⟨h1, h2⟩; exact ⟨h1, h2.symm⟩
      · rintro ⟨h1, h2⟩; exact ⟨h1, h2.symm⟩
    have hmem : ∀ i, i ∈ r.seq ↔ ∃ j, j < R.length ∧ i = g.n + j := by
      intro i
      rw [List.mem_iff_getElem?]
      constructor
      · rintro ⟨j, hj⟩; exact ⟨j, (hget j i).1 hj⟩
      · rintro ⟨j, hj⟩; exact ⟨j, (hget j i).2 hj⟩
    have gaty : ∀ j (hj : j < R.length), (ga.el (g.n + j)).ty = R[j].ty ∧ (R[j].ty.isDirected = true → (ga.el (g.n + j)).rising = true) := by
      intro j hj
      obtain ⟨h1, h2⟩ := hI.ty j R[j] (List.getElem?_eq_getElem hj)
      rw [gai j hj]
      split
      · exact ⟨h1, h2⟩
      · exact ⟨h1, h2⟩
    constructor
    · omega
    · rw [hseq, gan, Nat.add_sub_cancel_left]
    · rw [hseq]; intro h; exact hL (by simpa using congrArg List.length h)
    · intro j a ha
      obtain ⟨hj, rfl⟩ := (hget j a).1 ha
      rw [gai j hj]
      by_cases hl : j + 1 = R.length
      · rw [if_pos hl]
        have : r.seq[j + 1]? = none := by rw [hseq]; simp; omega
        rw [this]
        unfold Elem.ahead
        cases hd : (r.g.el (g.n + j)).ty.isDirected <;> simp [hd, Elem.setSlot_nb]
      · rw [if_neg hl, (hget (j + 1) (g.n + (j + 1))).2 ⟨by omega, rfl⟩]
        exact hI.link j (by omega)
    · have : kinds true x.up = R.map (·.ty) := by
        have : R ≠ [] := fun h => hL (by rw [h]; rfl)
        simp [kinds, hR, this]
      rw [this]
      apply List.ext_getElem
      · simp [hseq]
      · intro j h1 h2
        simp only [List.length_map] at h2
        simp only [List.getElem_map]
        have : r.seq[j]'(by simpa using h1) = g.n + j := ((hget j _).1 (List.getElem?_eq_getElem (by simpa using h1))).2
        rw [this]
        exact (gaty j h2).1
    · intro i hi hd
      obtain ⟨j, hj, rfl⟩ := (hmem i).1 hi
      obtain ⟨h1, h2⟩ := gaty j hj
      rw [h1] at hd
      exact h2 hd
    · rw [gael, if_neg w3, if_neg (Ne.symm hps), hst, h0s, hseq]
      congr 1
      cases hh : R.length with
      | zero => exact absurd hh hL
      | succ n => simp [List.range'_succ]
    · rw [gaf, h0f]
      congr 1
      rw [hseq, List.getLast?_eq_getElem?, hp]
      symm
      rw [List.getElem?_eq_some_iff]
      refine ⟨by simp; omega, by simp⟩
    · intro i hi h1 h2
      rw [gael, if_neg h2, if_neg (by omega), hI.frame i hi h1, h0 i h1 h2]
    · intro i hi hd
      obtain ⟨j, hj, rfl⟩ := (hmem i).1 hi
      obtain ⟨h1, _⟩ := gaty j hj
      obtain ⟨h1', _⟩ := hI.ty j R[j] (List.getElem?_eq_getElem hj)
      rw [h1] at hd
      obtain ⟨a, b, c, d⟩ := hI.und2 j R[j] (List.getElem?_eq_getElem hj) hd
      have htr := hRt R[j] (List.getElem_mem hj)
      rw [Ty.track_iff, hd, Bool.false_or] at htr
      unfold Elem.half
      rw [h1]
      refine ⟨htr, ?_⟩
      rw [h0n] at h1' a b c
      rw [gai j hj]
      split
      · simp [Elem.setSlot_nb, h1', hd, a, b, c]
      · rename_i hl
        refine ⟨a, ?_, b, c⟩
        have := hI.link j (by omega)
        rw [h0n] at this
        unfold Elem.ahead at this
        rw [h1', hd] at this
        simp at this
        simp [this]
    · intro y i
      rw [hI.und y i, hR]
      constructor
      · rintro ⟨j, nd, h1, h2, h3, h4⟩
        exact ⟨j, nd, h1, h2, h3, (hget j i).2 ⟨(List.getElem?_eq_some_iff.1 h1).1, h4⟩⟩
      · rintro ⟨j, nd, h1, h2, h3, h4⟩
        exact ⟨j, nd, h1, h2, h3, ((hget j i).1 h4).2⟩
    · intro j a ha
      obtain ⟨hj, rfl⟩ := (hget j a).1 ha
      have hb := hI.back j hj
      rw [h0n] at hb
      have e : (x.start :: r.seq)[j]? = some (if j = 0 then x.start else g.n + (j - 1)) := by
        cases j with
        | zero => rfl
        | succ j => rw [List.getElem?_cons_succ, (hget j (g.n + j)).2 ⟨by omega, rfl⟩]; simp
      rw [e, ← hb, gai j hj]
      split
      · unfold Elem.behind
        cases hd : (r.g.el (g.n + j)).ty.isDirected <;> simp [hd, Elem.setSlot_nb]
      · rfl

/-- the graph after a section was added -/
structure SecOK (x : SecIn) (g : Graph) (ks kf : Nat) (g' : Graph) (up down : List Nat) : Prop where
  n : g.n ≤ g'.n
  upNe : up ≠ []
  downNe : down ≠ []
  upBound : ∀ i ∈ up, g.n ≤ i ∧ i < g'.n ∧ (g'.el i).ty.isTrack = true
  downBound : ∀ i ∈ down, g.n ≤ i ∧ i < g'.n ∧ (g'.el i).ty.isTrack = true
  all : ∀ i, g.n ≤ i → i < g'.n → i ∈ up ∨ i ∈ down
  upNodup : up.Nodup
  downNodup : down.Nodup
  upLink : Linked g'.el true up x.fin
  downLink : Linked g'.el false down x.start
  upKinds : up.map (fun i => (g'.el i).ty) = kinds true x.up
  downKinds : down.map (fun i => (g'.el i).ty) = kinds false x.down
  upRising : ∀ i ∈ up, (g'.el i).ty.isDirected = true → (g'.el i).rising = true
  downRising : ∀ i ∈ down, (g'.el i).ty.isDirected = true → (g'.el i).rising = false
  shared : ∀ (j j' : Nat) nd, (x.up.filter (·.kept true))[j]? = some nd → (x.down.filter (·.kept false))[j']? = some nd →
    nd.ty.isDirected = false → up[j]? = down[j']?
  undBoth : ∀ i, (g'.el i).ty.isDirected = false → (i ∈ up ↔ i ∈ down)
  st : g'.el x.start = (((g.el x.start).setPoint x.ptS true x.line).setSlot ks up.head?).setSlot (ks + 1) down.getLast?
  fn : g'.el x.fin = (((g.el x.fin).setPoint x.ptF false x.line).setSlot kf up.getLast?).setSlot (kf + 1) down.head?
  frame : ∀ i, i < g.n → i ≠ x.start → i ≠ x.fin → g'.el i = g.el i
  upBack : Backed g'.el true up x.start
  downBack : Backed g'.el false down x.fin

theorem head?_mem {l : List Nat} (h : l ≠ []) : ∃ a ∈ l, l.head? = some a := by
  cases l with
  | nil => exact absurd rfl h
  | cons a l => exact ⟨a, by simp, rfl⟩

theorem getLast?_mem {l : List Nat} (h : l ≠ []) : ∃ a ∈ l, l.getLast? = some a :=
  ⟨l.getLast h, List.getLast_mem h, List.getLast?_eq_some_getLast h⟩

theorem Ty.dir_of_ne_und {t : Ty} (h : t.isTrack = true) (hd : t.isDirected = false) : t.isUndirected = true := by
  rwa [Ty.track_iff, hd, Bool.false_or] at h

theorem Mid.track {x : SecIn} {g : Graph} {ks kf : Nat} {g1 : Graph} {up : List Nat} {und : List (Nat × Nat)}
    (w : x.Wf g ks kf) (m : Mid x g ks kf g1 up und) {i : Nat} (hi : i ∈ up) : (g1.el i).ty.isTrack = true := by
  have hk := m.kinds
  have : (g1.el i).ty ∈ Soro.Infra.kinds true x.up := hk ▸ List.mem_map_of_mem (f := fun i => (g1.el i).ty) hi
  unfold Soro.Infra.kinds at this
  split at this
  · rw [List.mem_singleton.1 this]; rfl
  · obtain ⟨nd, hnd, e⟩ := List.mem_map.1 this
    rw [← e]; exact w.track nd (List.mem_filter.1 hnd).1

theorem parseSection_ok {x : SecIn} {g : Graph} {ks kf : Nat} (w : x.Wf g ks kf) :
    SecOK x g ks kf (parseSection x g).1 (parseSection x g).2.1 (parseSection x g).2.2 := by
  have hM := mid w
  unfold parseSection
  dsimp only at hM ⊢
  generalize List.foldl (Scan.step true) _ x.up = r at hM ⊢
  generalize hup : (if r.prev = x.start then [((r.g.setNb r.prev r.pt x.fin true).setNb x.fin x.ptF r.prev true).n] else r.seq) = up at hM ⊢
  generalize hg1 : (if r.prev = x.start then insertMeta ((r.g.setNb r.prev r.pt x.fin true).setNb x.fin x.ptF r.prev true) x.start x.fin true
    else (r.g.setNb r.prev r.pt x.fin true).setNb x.fin x.ptF r.prev true) = g1 at hM ⊢
  generalize r.und = und at hM ⊢
  clear hup hg1 r
  have w1 := w.start
  have w2 := w.fin
  have w3 := w.ne
  have hn := hM.n
  have umem : ∀ i, i ∈ up ↔ g.n ≤ i ∧ i < g1.n := by
    intro i; rw [hM.ids]; simp; omega
  have upnd : up.Nodup := by rw [hM.ids]; exact List.nodup_range'
  have hundl : ∀ y i, und.lookup y = some i → i ∈ up ∧ (g1.el i).half := by
    intro y i hl
    obtain ⟨j, nd, h1, h2, h3, h4⟩ := (hM.und y i).1 hl
    have hi := List.mem_of_getElem? h4
    have hty : (g1.el i).ty = nd.ty := by
      have hk := hM.kinds
      have h0 : x.up.filter (·.kept true) ≠ [] := by intro h0; rw [h0] at h1; simp at h1
      unfold kinds at hk
      rw [if_neg h0] at hk
      have := congrArg (·[j]?) hk
      simpa [h4, h1] using this
    exact ⟨hi, hM.half i hi (by rw [hty, h2])⟩
  have hsz : ∀ {nd}, nd ∈ x.up.filter (·.kept true) → up.length = (x.up.filter (·.kept true)).length := by
    intro nd hnd
    have hk := congrArg List.length hM.kinds
    have h0 : x.up.filter (·.kept true) ≠ [] := List.ne_nil_of_mem hnd
    unfold kinds at hk
    rw [if_neg h0] at hk
    simpa using hk
  have hlook : ∀ (j : Nat) nd, (x.up.filter (·.kept true))[j]? = some nd → nd.ty.isDirected = false →
      ∃ i, up[j]? = some i ∧ und.lookup nd.xid = some i ∧ (g1.el i).ty = nd.ty := by
    intro j nd h1 h2
    have hjl := (List.getElem?_eq_some_iff.1 h1).1
    have hlt : j < up.length := by rw [hsz (List.mem_of_getElem? h1)]; exact hjl
    refine ⟨up[j], List.getElem?_eq_getElem hlt, (hM.und _ _).2 ⟨j, nd, h1, h2, rfl, List.getElem?_eq_getElem hlt⟩, ?_⟩
    have hk := hM.kinds
    have h0 : x.up.filter (·.kept true) ≠ [] := by intro h0; rw [h0] at h1; simp at h1
    unfold kinds at hk
    rw [if_neg h0] at hk
    have := congrArg (·[j]?) hk
    simpa [h1, List.getElem?_eq_getElem hlt] using this
  have hinj : ∀ y z i, und.lookup y = some i → und.lookup z = some i → y = z := by
    intro y z i hy hz
    obtain ⟨j, nd, h1, h2, h3, h4⟩ := (hM.und y i).1 hy
    obtain ⟨j', nd', h1', h2', h3', h4'⟩ := (hM.und z i).1 hz
    have : j = j' := (List.getElem?_inj (List.getElem?_eq_some_iff.1 h4).1 upnd).1 (h4.trans h4'.symm)
    subst this
    rw [h1] at h1'
    rw [← h3, ← h3', Option.some.inj h1']
  have hkeptu : ∀ nd : TNode, nd.ty.isDirected = false → nd.kept true = true ∧ nd.kept false = true := by
    intro nd h; simp [TNode.kept, h]
  have hft : (g1.el x.fin).ty.isTrack = false := by rw [hM.fn]; simpa using w.finTy
  have hst : (g1.el x.start).ty.isTrack = false := by rw [hM.st]; simpa using w.startTy
  have hkf : (g1.el x.fin).slot x.ptF = some kf := by rw [hM.fn]; simpa using w.kf
  have hks : (g1.el x.start).slot x.ptS = some ks := by rw [hM.st]; simpa using w.ks
  have hD : DownInv g1 g.n x.fin x.ptF kf und (x.down.filter (·.kept false)) (x.down.foldl (Scan.step false) ⟨g1, x.fin, x.ptF, und, []⟩) := by
    have := DownInv.run (lo := g.n) w.fin hn hft hkf (und := und)
      (fun y i hl => ⟨((umem i).1 (hundl y i hl).1).1, ((umem i).1 (hundl y i hl).1).2, (hundl y i hl).2⟩) hinj
      x.down [] ⟨g1, x.fin, x.ptF, und, []⟩ (DownInv.init _ _ _ _ _ _) (fun m hm => w.track m (w.perm.mem_iff.1 hm))
      (by
        intro m hm hd
        have : m ∈ x.up.filter (·.kept true) := List.mem_filter.2 ⟨w.perm.mem_iff.1 hm, (hkeptu m hd).1⟩
        obtain ⟨j, hj⟩ := List.mem_iff_getElem?.1 this
        obtain ⟨i, _, h2, h3⟩ := hlook j m hj hd
        exact ⟨i, h2, h3⟩)
      (by simpa using (w.perm.map (·.xid)).nodup_iff.2 w.nodup)
    simpa using this
  generalize List.foldl (Scan.step false) _ x.down = f at hD ⊢
  have hfn := hD.n
  have upeq : ∀ i ∈ up, i < g1.n ∧ i ≠ x.fin ∧ i ≠ x.start := by
    intro i hi; have := (umem i).1 hi; exact ⟨this.2, by omega, by omega⟩
  -- undirected elements of the rising scan
  have undUp : ∀ i ∈ up, (g1.el i).ty.isDirected = false → ∃ nd ∈ x.down.filter (·.kept false), nd.ty.isDirected = false ∧ und.lookup nd.xid = some i := by
    intro i hi hd
    obtain ⟨j, hj⟩ := List.mem_iff_getElem?.1 hi
    have hk := hM.kinds
    unfold kinds at hk
    have hjj := congrArg (·[j]?) hk
    simp only [List.getElem?_map, hj, Option.map_some] at hjj
    split at hjj
    · cases j with
      | zero => simp at hjj; rw [hjj] at hd; exact absurd hd (by decide)
      | succ j => simp at hjj
    · simp only [List.getElem?_map] at hjj
      cases hq : (x.up.filter (·.kept true))[j]? with
      | none => rw [hq] at hjj; simp at hjj
      | some nd =>
        rw [hq] at hjj
        simp at hjj
        have hnd : nd.ty.isDirected = false := by rw [← hjj]; exact hd
        refine ⟨nd, List.mem_filter.2 ⟨w.perm.mem_iff.2 (List.mem_filter.1 (List.mem_of_getElem? hq)).1, (hkeptu nd hnd).2⟩, hnd, ?_⟩
        exact (hM.und _ _).2 ⟨j, nd, hq, hnd, rfl, hj⟩
  have hseqrel : ∀ (j : Nat) nd, (x.down.filter (·.kept false))[j]? = some nd → ∃ i, f.seq[j]? = some i := by
    intro j nd h
    have := (List.getElem?_eq_some_iff.1 h).1
    rw [← hD.len] at this
    exact ⟨f.seq[j], List.getElem?_eq_getElem this⟩
  by_cases hL : f.seq = []
  · -- nothing in falling direction
    have hD0 : x.down.filter (·.kept false) = [] := by
      have := hD.len; rw [hL] at this; exact List.length_eq_zero_iff.1 this.symm
    have hp : f.prev = x.fin := by rw [hD.prev, hL]; rfl
    have hpt : f.pt = x.ptF := by rw [hD.pt, if_pos hL]
    have hfg : ∀ i, i < g1.n → f.g.el i = g1.el i := by
      intro i hi
      by_cases hif : i = x.fin
      · subst hif; rw [hD.fin, if_pos hL]
      · exact hD.frame i hi hif (by rw [hL]; simp)
    have hfgn : f.g.n = g1.n := by
      rcases Nat.lt_or_ge g1.n f.g.n with h | h
      · have := hD.new g1.n (Nat.le_refl _) h; rw [hL] at this; simp at this
      · omega
    rw [if_pos hp, if_pos hp, hp, hpt]
    have gbs : (f.g.setNb x.start x.ptS x.fin false).el x.start = (g1.el x.start).setSlot (ks + 1) (some x.fin) := by
      rw [Graph.setNb_el, if_pos rfl, hfg _ (by omega), Elem.setNeighbour_sec hst hks]; rfl
    have gbf : (f.g.setNb x.start x.ptS x.fin false).el x.fin = g1.el x.fin := by
      rw [Graph.setNb_el, if_neg (Ne.symm w3), hfg _ (by omega)]
    rw [gbf, hft]
    generalize hgc : (f.g.setNb x.start x.ptS x.fin false).setNb x.fin x.ptF x.start false = gc
    have gcn : gc.n = g1.n := by rw [← hgc]; simp [hfgn]
    have gcs : gc.el x.start = (g1.el x.start).setSlot (ks + 1) (some x.fin) := by
      rw [← hgc, Graph.setNb_el, if_neg w3, gbs]
    have gcf : gc.el x.fin = (g1.el x.fin).setSlot (kf + 1) (some x.start) := by
      rw [← hgc, Graph.setNb_el, if_pos rfl, gbf, Elem.setNeighbour_sec hft hkf]; rfl
    have gco : ∀ i, i < g1.n → i ≠ x.start → i ≠ x.fin → gc.el i = g1.el i := by
      intro i hi h1 h2
      rw [← hgc, Graph.setNb_el, if_neg h2, Graph.setNb_el, if_neg h1, hfg i hi]
    have hm : ∀ j, (insertMeta gc x.fin x.start false).el j =
        if j = x.start then replaceNb x.fin g1.n (gc.el x.start) else if j = x.fin then replaceNb x.start g1.n (gc.el x.fin)
        else if j = g1.n then ((blank .metaElement false).setSlot 1 (some x.start)).setSlot 0 (some x.fin) else gc.el j := by
      intro j
      have a1 : x.start ≠ g1.n := by omega
      have a2 : x.fin ≠ g1.n := by omega
      simp only [insertMeta, gcn, Graph.modify_el, Graph.create_el]
      by_cases h1 : j = x.start
      · subst h1; simp [w3, a1]
      · by_cases h2 : j = x.fin
        · subst h2; simp [h1, a2]
        · by_cases h3 : j = g1.n <;> simp [h1, h2, h3]
          rw [h3] at h1 h2; simp [h1, h2]
    have hmm : (insertMeta gc x.fin x.start false).el g1.n = ((blank .metaElement false).setSlot 1 (some x.start)).setSlot 0 (some x.fin) := by
      rw [hm, if_neg (by omega), if_neg (by omega), if_pos rfl]
    have hmn : (insertMeta gc x.fin x.start false).n = g1.n + 1 := by simp [insertMeta, gcn]
    have hmo : ∀ i, i < g1.n → i ≠ x.start → i ≠ x.fin → (insertMeta gc x.fin x.start false).el i = g1.el i := by
      intro i hi h1 h2
      rw [hm, if_neg h1, if_neg h2, if_neg (by omega), gco i hi h1 h2]
    have hmu : ∀ i ∈ up, (insertMeta gc x.fin x.start false).el i = g1.el i := fun i hi =>
      hmo i (upeq i hi).1 (upeq i hi).2.2 (upeq i hi).2.1
    have noUnd : ∀ i ∈ up, (g1.el i).ty.isDirected = true := by
      intro i hi
      cases hd : (g1.el i).ty.isDirected with
      | true => rfl
      | false => obtain ⟨nd, h1, _⟩ := undUp i hi hd; rw [hD0] at h1; simp at h1
    rw [gcn]
    obtain ⟨uh, uhm, uhe⟩ := head?_mem hM.ne
    obtain ⟨ul, ulm, ule⟩ := getLast?_mem hM.ne
    have := upeq uh uhm
    have := upeq ul ulm
    constructor
    · rw [hmn]; omega
    · exact hM.ne
    · simp
    · intro i hi
      rw [hmu i hi, hmn]
      have := (umem i).1 hi
      exact ⟨this.1, by omega, hM.track w hi⟩
    · intro i hi
      obtain rfl := List.mem_singleton.1 hi
      rw [hmm, hmn]
      exact ⟨hn, by omega, rfl⟩
    · intro i h1 h2
      rw [hmn] at h2
      by_cases hi : i < g1.n
      · exact Or.inl ((umem i).2 ⟨h1, hi⟩)
      · right; simp; omega
    · exact upnd
    · simp
    · intro j a ha
      rw [hmu a (List.mem_of_getElem? ha)]
      exact hM.link j a ha
    · intro j a ha
      have hj : j = 0 := by
        have := (List.getElem?_eq_some_iff.1 ha).1
        simp at this; exact this
      subst hj
      obtain rfl : g1.n = a := by simpa using ha
      rw [hmm]; rfl
    · rw [← hM.kinds]
      apply List.map_congr_left
      intro i hi
      rw [hmu i hi]
    · have : kinds false x.down = [.metaElement] := by simp [kinds, hD0]
      rw [this, List.map_cons, hmm]; rfl
    · intro i hi hd
      rw [hmu i hi] at hd ⊢
      exact hM.rising i hi hd
    · intro i hi _
      obtain rfl := List.mem_singleton.1 hi
      rw [hmm]; rfl
    · intro j j' nd _ h2
      rw [hD0] at h2; simp at h2
    · intro i hd
      constructor
      · intro hi
        rw [hmu i hi, noUnd i hi] at hd; simp at hd
      · intro hi
        obtain rfl := List.mem_singleton.1 hi
        rw [hmm] at hd
        simp [blank] at hd; exact absurd hd (by decide)
    · rw [hm, if_pos rfl, gcs, hM.st, uhe]
      apply replaceNb_setSlot2
      · simpa using w.nbS
      · omega
    · rw [hm, if_neg (Ne.symm w3), if_pos rfl, gcf, hM.fn, ule]
      apply replaceNb_setSlot2
      · simpa using w.nbF
      · omega
    · intro i hi h1 h2
      rw [hmo i (by omega) h1 h2, hM.frame i hi h1 h2]
    · intro j a ha
      rw [hmu a (List.mem_of_getElem? ha)]
      exact hM.back j a ha
    · intro j a ha
      have hj : j = 0 := by
        have := (List.getElem?_eq_some_iff.1 ha).1
        simp at this; exact this
      subst hj
      obtain rfl : g1.n = a := by simpa using ha
      rw [hmm]; rfl
  · -- the last element
    obtain ⟨fl, flm, fle⟩ := getLast?_mem hL
    obtain ⟨fh, fhm, fhe⟩ := head?_mem hL
    obtain ⟨b1, b2, b3⟩ := hD.bound fl flm
    have hp : f.prev = fl := by rw [hD.prev, fle]; rfl
    have hpt : f.pt = .only := by rw [hD.pt, if_neg hL]
    have hpf : f.prev ≠ x.fin := by omega
    have hps : f.prev ≠ x.start := by omega
    rw [if_neg hpf, if_neg hpf]
    have hpty : ((f.g.setNb x.start x.ptS f.prev false).el f.prev).ty.isTrack = true := by
      rw [Graph.setNb_el, if_neg hps, hp, b3]
    rw [hpty, hpt, hp]
    generalize hgc : (f.g.setNb x.start x.ptS fl false).setNb fl .only x.start true = gc
    have gcn : gc.n = f.g.n := by rw [← hgc]; rfl
    have hfs : f.g.el x.start = g1.el x.start := hD.frame x.start (by omega) w3 (by intro hm; have := (hD.bound _ hm).1; omega)
    have gcs : gc.el x.start = (g1.el x.start).setSlot (ks + 1) (some fl) := by
      rw [← hgc, Graph.setNb_el, if_neg (by omega), Graph.setNb_el, if_pos rfl, hfs, Elem.setNeighbour_sec hst hks]; rfl
    have gcl : gc.el fl = (f.g.el fl).setSlot (if (f.g.el fl).ty.isDirected then 1 else 3) (some x.start) := by
      rw [← hgc, Graph.setNb_el, if_pos rfl, Graph.setNb_el, if_neg (by omega)]
      cases hd : (f.g.el fl).ty.isDirected with
      | true => rw [Elem.setNeighbour_dir hd]; simp
      | false =>
        obtain ⟨a, b, c, d⟩ := hD.undl fl flm hd
        have := Ty.dir_of_ne_und b3 hd
        simp [Elem.setNeighbour, hd, this, a, b, c, d fle]
    have gco : ∀ i, i ≠ x.start → i ≠ fl → gc.el i = f.g.el i := by
      intro i h1 h2
      rw [← hgc, Graph.setNb_el, if_neg h2, Graph.setNb_el, if_neg h1]
    have gcty : ∀ i, i ≠ x.start → (gc.el i).ty = (f.g.el i).ty ∧ (gc.el i).rising = (f.g.el i).rising := by
      intro i h1
      by_cases h2 : i = fl
      · subst h2; rw [gcl]; exact ⟨rfl, rfl⟩
      · rw [gco i h1 h2]; exact ⟨rfl, rfl⟩
    have seqs : ∀ i ∈ f.seq, i ≠ x.start ∧ i ≠ x.fin := by
      intro i hi; have := (hD.bound i hi).1; exact ⟨by omega, by omega⟩
    -- directed elements of the falling scan are new
    have hdnew : ∀ i ∈ f.seq, (f.g.el i).ty.isDirected = true → g1.n ≤ i ∧ (f.g.el i).rising = false := by
      intro i hi hd
      obtain ⟨t, ht⟩ := List.mem_iff_getElem?.1 hi
      have htl : t < (x.down.filter (·.kept false)).length := by rw [← hD.len]; exact (List.getElem?_eq_some_iff.1 ht).1
      obtain ⟨r1, r2, r3⟩ := hD.rel t _ i (List.getElem?_eq_getElem htl) ht
      rw [r1] at hd
      exact ⟨(r2 hd).2, (r2 hd).1⟩
    have gcup : ∀ i ∈ up, (gc.el i).ty = (g1.el i).ty ∧ (gc.el i).rising = (g1.el i).rising ∧ (gc.el i).ahead true = (g1.el i).ahead true := by
      intro i hi
      obtain ⟨u1, u2, u3⟩ := upeq i hi
      obtain ⟨k1, k2, k3⟩ := hD.keep i u1 u2
      by_cases h2 : i = fl
      · subst h2
        have hd : (f.g.el i).ty.isDirected = false := by
          cases hd : (f.g.el i).ty.isDirected with
          | false => rfl
          | true => have := (hdnew i flm hd).1; omega
        rw [gcl]
        refine ⟨k1, k2, ?_⟩
        rw [← k3]
        unfold Elem.ahead
        simp [hd, Elem.setSlot_nb]
      · rw [gco i u3 h2]; exact ⟨k1, k2, k3⟩
    have hund_iff : ∀ i, (gc.el i).ty.isDirected = false → (i ∈ up ↔ i ∈ f.seq) := by
      intro i hd
      constructor
      · intro hi
        rw [(gcup i hi).1] at hd
        obtain ⟨nd, h1, h2, h3⟩ := undUp i hi hd
        obtain ⟨t, ht⟩ := List.mem_iff_getElem?.1 h1
        obtain ⟨i', hi'⟩ := hseqrel t nd ht
        have := (hD.rel t nd i' ht hi').2.2 h2
        rw [h3] at this
        rw [Option.some.inj this]; exact List.mem_of_getElem? hi'
      · intro hi
        rw [(gcty i (seqs i hi).1).1] at hd
        obtain ⟨t, ht⟩ := List.mem_iff_getElem?.1 hi
        have htl : t < (x.down.filter (·.kept false)).length := by rw [← hD.len]; exact (List.getElem?_eq_some_iff.1 ht).1
        obtain ⟨r1, r2, r3⟩ := hD.rel t _ i (List.getElem?_eq_getElem htl) ht
        rw [r1] at hd
        exact (hundl _ _ (r3 hd)).1
    have hfk : (x.down.filter (·.kept false)) ≠ [] := by
      intro h0; have := hD.len; rw [h0] at this; exact hL (List.length_eq_zero_iff.1 this)
    constructor
    · rw [gcn]; omega
    · exact hM.ne
    · exact hL
    · intro i hi
      rw [(gcup i hi).1, gcn]
      have := (umem i).1 hi
      exact ⟨this.1, by omega, hM.track w hi⟩
    · intro i hi
      obtain ⟨c1, c2, c3⟩ := hD.bound i hi
      rw [gcn, (gcty i (seqs i hi).1).1]
      exact ⟨c1, c2, c3⟩
    · intro i h1 h2
      rw [gcn] at h2
      by_cases hi : i < g1.n
      · exact Or.inl ((umem i).2 ⟨h1, hi⟩)
      · exact Or.inr (hD.new i (by omega) h2)
    · exact upnd
    · exact hD.nodup
    · intro j a ha
      rw [(gcup a (List.mem_of_getElem? ha)).2.2]
      exact hM.link j a ha
    · intro j a ha
      have ham := List.mem_of_getElem? ha
      cases hb : f.seq[j + 1]? with
      | none =>
        have hjl : j + 1 = f.seq.length := by
          have h1 := (List.getElem?_eq_some_iff.1 ha).1
          have h2 := List.getElem?_eq_none_iff.1 hb
          omega
        have hl : a = fl := by
          have := fle
          rw [List.getLast?_eq_getElem?, show f.seq.length - 1 = j by omega, ha] at this
          exact Option.some.inj this
        subst hl
        rw [gcl]
        unfold Elem.ahead
        cases hd : (f.g.el a).ty.isDirected <;> simp [hd, Elem.setSlot_nb]
      | some b =>
        have hne : a ≠ fl := by
          rintro rfl
          have h1 := fle
          rw [List.getLast?_eq_getElem?] at h1
          have h2 := (List.getElem?_eq_some_iff.1 hb).1
          have := (List.getElem?_inj (by omega) hD.nodup).1 (ha.trans h1.symm)
          omega
        rw [gco a (seqs a ham).1 hne]
        exact hD.link j a b ha hb
    · rw [← hM.kinds]
      apply List.map_congr_left
      intro i hi
      rw [(gcup i hi).1]
    · have : kinds false x.down = (x.down.filter (·.kept false)).map (·.ty) := by
        unfold kinds; rw [if_neg hfk]
      rw [this]
      apply List.ext_getElem
      · simp [hD.len]
      · intro j h1 h2
        simp only [List.length_map] at h1 h2
        simp only [List.getElem_map]
        rw [(gcty _ (seqs _ (List.getElem_mem h1)).1).1]
        exact (hD.rel j _ _ (List.getElem?_eq_getElem h2) (List.getElem?_eq_getElem h1)).1
    · intro i hi hd
      rw [(gcup i hi).1] at hd
      rw [(gcup i hi).2.1]
      exact hM.rising i hi hd
    · intro i hi hd
      rw [(gcty i (seqs i hi).1).1] at hd
      rw [(gcty i (seqs i hi).1).2]
      exact (hdnew i hi hd).2
    · intro j j' nd h1 h2 h3
      obtain ⟨i, hi, hl, _⟩ := hlook j nd h1 h3
      obtain ⟨i', hi'⟩ := hseqrel j' nd h2
      have := (hD.rel j' nd i' h2 hi').2.2 h3
      rw [hl] at this
      rw [hi, hi', Option.some.inj this]
    · exact hund_iff
    · rw [gcs, hM.st, fle]
    · have := hD.fin
      rw [if_neg hL] at this
      rw [gco x.fin (Ne.symm w3) (by omega), this, hM.fn]
    · intro i hi h1 h2
      rw [gco i h1 (by omega), hD.frame i (by omega) h2 (by intro hm; have := (hD.bound _ hm).1; omega), hM.frame i hi h1 h2]
    · intro j a ha
      obtain ⟨u1, u2, u3⟩ := upeq a (List.mem_of_getElem? ha)
      rw [← hM.back j a ha, ← hD.keepB a u1 u2]
      by_cases h2 : a = fl
      · rw [h2, gcl]
        unfold Elem.behind
        cases hd : (f.g.el fl).ty.isDirected <;> simp [hd, Elem.setSlot_nb]
      · rw [gco a u3 h2]
    · intro j a ha
      rw [← hD.back j a ha]
      by_cases h2 : a = fl
      · rw [h2, gcl]
        unfold Elem.behind
        cases hd : (f.g.el fl).ty.isDirected <;> simp [hd, Elem.setSlot_nb]
      · rw [gco a (seqs a (List.mem_of_getElem? ha)).1 h2]

end Soro.Infra
