import Verif.Model.RouteBuild
import Verif.Spec.Trip
import Verif.Props.RoutePath
import Verif.Proof.StationRoute
import Verif.Props.Interlocking
import Mathlib.Data.Nat.Pairing

/-! Property C167: trains and the interlocking see the same main signals. -/

namespace Soro.RouteBuild.Props
open Soro.Infra Soro.Route Soro.Route.Spec Soro.RouteBuild Soro.Trip Soro.Trip.Spec

theorem mapM_get {α β : Type} {f : α → Option β} : ∀ {l : List α} {m : List β}, l.mapM f = some m →
    m.length = l.length ∧ ∀ (i : Nat) a, l[i]? = some a → ∃ b, m[i]? = some b ∧ f a = some b
  | [], m, h => by
    simp at h; subst h; simp
  | a :: l, m, h => by
    rw [List.mapM_cons] at h
    obtain ⟨b, hb, h⟩ := Option.bind_eq_some_iff.1 h
    obtain ⟨m', hm, h⟩ := Option.bind_eq_some_iff.1 h
    cases h
    obtain ⟨h1, h2⟩ := mapM_get hm
    refine ⟨by simp [h1], fun i x hx => ?_⟩
    cases i with
    | zero => cases hx; exact ⟨b, rfl, hb⟩
    | succ i => exact h2 i x hx

theorem mainSignal_directed {t : Ty} (h : t = .mainSignal) : t.isTrack = true := by subst h; rfl

variable {L : Links} {el : Nat → Elem} {rp : Nat → Option Nat} {fuel : Nat} {num : Node → Nat} {spls : Nat → List Nat}
  {etcs : Nat → Bool} {rs : List IRoute} {l : List (SRoute × Interlocking.Info)}

/-- what is known about every route that was built -/
theorem built_spec (h : buildAll L el rp fuel num spls etcs rs = some l) :
    l.length = rs.length ∧ ∀ (i : Nat) r, rs[i]? = some r → ∃ (p : SPath) (x : SRoute × Interlocking.Info), l[i]? = some x ∧
      newPath L el rp fuel r = some (some p) ∧ x.1.nodes = p.nodes.map num ∧ x.2.size = p.nodes.length ∧ x.2.signals = p.signals ∧
      ∀ k, k ∈ x.1.omitted ↔ ∃ n, p.nodes[k]? = some n ∧ (el n.1).ty.isTrack = true ∧
        ∃ y t e, (y, t) ∈ r.omitted ∧ rp y = some e ∧ n = (e, 0) := by
  unfold buildAll at h
  obtain ⟨st, hst, h⟩ := Option.bind_eq_some_iff.1 h
  obtain ⟨h1, h2⟩ := mapM_get h
  refine ⟨by simpa using h1, fun i r hr => ?_⟩
  obtain ⟨x, h3, h4⟩ := h2 i (r, i) (by rw [List.getElem?_zipIdx, hr]; simp)
  obtain ⟨k, q, h5, h6, h7⟩ := (C109_shared L el rp fuel rs st hst).2.1 i r hr
  unfold buildAt at h4
  simp only [h5, Option.bind_some, h6] at h4
  obtain ⟨p, rfl, h8⟩ := Option.bind_eq_some_iff.1 h4
  unfold buildRoute at h8
  obtain ⟨om, hom, rfl⟩ := Option.map_eq_some_iff.1 h8
  unfold omittedNodes at hom
  refine ⟨p, _, h3, h7, rfl, rfl, rfl, fun k => ?_⟩
  have hmem : ∀ n, n ∈ om ↔ ∃ y t e, (y, t) ∈ r.omitted ∧ rp y = some e ∧ (el e).ty.isDirected = true ∧ n = (e, 0) := by
    intro n
    rw [mapM_mem hom n]
    constructor
    · rintro ⟨⟨y, t⟩, ho, h9⟩
      obtain ⟨e, he, h9⟩ := Option.bind_eq_some_iff.1 h9
      split at h9
      · rename_i hd
        cases h9
        exact ⟨y, t, e, ho, he, hd, rfl⟩
      · cases h9
    · rintro ⟨y, t, e, ho, he, hd, rfl⟩
      exact ⟨(y, t), ho, by simp [he, hd]⟩
  have hall : ∀ y t e, (y, t) ∈ r.omitted → rp y = some e → (el e).ty.isDirected = true := by
    intro y t e ho he
    obtain ⟨j, hj⟩ := List.mem_iff_getElem?.1 ho
    obtain ⟨b, -, hb⟩ := (mapM_get hom).2 j _ hj
    simp only [he, Option.bind_some] at hb
    split at hb
    · assumption
    · cases hb
  unfold omittedAt
  rw [mem_omittedLoop]
  constructor
  · rintro ⟨j, n, hj, rfl, h9, h10⟩
    obtain ⟨hlt, rfl⟩ := List.getElem?_eq_some_iff.1 hj
    rw [List.length_range] at hlt
    simp only [List.getElem_range, List.getElem?_eq_getElem hlt, Option.any_some, Nat.zero_add, List.contains_eq_mem,
      decide_eq_true_eq] at h9 h10 ⊢
    obtain ⟨y, t, e, h11, h12, -, h13⟩ := (hmem _).1 h10
    exact ⟨_, rfl, h9, y, t, e, h11, h12, h13⟩
  · rintro ⟨n, hn, h9, y, t, e, h11, h12, rfl⟩
    have hlt := (List.getElem?_eq_some_iff.1 hn).1
    refine ⟨k, k, by simp [List.getElem?_range, hlt], by omega, by simp [hn, h9], ?_⟩
    simp only [hn, Option.any_some, List.contains_eq_mem, decide_eq_true_eq]
    exact (hmem _).2 ⟨y, t, e, h11, h12, hall y t e h11 h12, rfl⟩

/-- a main signal that a route of the files leaves out is called a main signal there -/
def Named (L : Links) (el : Nat → Elem) (rp : Nat → Option Nat) (fuel : Nat) (r : IRoute) : Prop :=
  ∀ p y t e (k : Nat), newPath L el rp fuel r = some (some p) → (y, t) ∈ r.omitted → rp y = some e → (el e).ty = .mainSignal →
    p.nodes[k]? = some (e, 0) → ∃ z, (z, Ty.mainSignal) ∈ r.omitted ∧ rp z = some e

/-- C167: the main signals the interlocking knows are the main signals trains see, exactly if every main signal left out by a
route of the files is called a main signal there. -/
theorem C167_same_signals (h : buildAll L el rp fuel num spls etcs rs = some l) (stops : List Train.Stops) (f : Facts)
    (hf : ∀ n : Node, f.kind (num n) = kindOf (el n.1).ty) :
    SameSignals ⟨l.map (·.1), stops⟩ f (l.map (·.2)) ↔ ∀ r ∈ rs, Named L el rp fuel r := by
  obtain ⟨hlen, hspec⟩ := built_spec h
  have hkind : ∀ n : Node, f.kind (num n) = .mainSignal ↔ (el n.1).ty = .mainSignal := by
    intro n
    rw [hf]
    cases (el n.1).ty <;> simp [kindOf]
  have hat : ∀ (i : Nat) r p x, rs[i]? = some r → l[i]? = some x → newPath L el rp fuel r = some (some p) →
      x.1.nodes = p.nodes.map num → x.2.signals = p.signals →
      (∀ k, k ∈ x.1.omitted ↔ ∃ n, p.nodes[k]? = some n ∧ (el n.1).ty.isTrack = true ∧
        ∃ y t e, (y, t) ∈ r.omitted ∧ rp y = some e ∧ n = (e, 0)) →
      ∀ k, (Interlocking.Spec.Signal (l.map (·.2)) i k ↔ ∃ n, p.nodes[k]? = some n ∧ (el n.1).ty = .mainSignal ∧
          ∀ y e, (y, Ty.mainSignal) ∈ r.omitted → rp y = some e → n ≠ (e, 0)) ∧
        (SignalAt ⟨l.map (·.1), stops⟩ f (i, k) ↔ ∃ n, p.nodes[k]? = some n ∧ (el n.1).ty = .mainSignal ∧
          ∀ y t e, (y, t) ∈ r.omitted → rp y = some e → n ≠ (e, 0)) := by
    intro i r p x hr hx hp hn hsig hom k
    constructor
    · rw [← (C108_route L el rp fuel r p hp).2.2.2.2.1 k, ← hsig]
      unfold Interlocking.Spec.Signal
      simp [hx]
    · unfold SignalAt shownAt shown
      simp only [List.getElem?_map, hx, Option.map_some, Option.bind_some, hn, Option.map_map]
      constructor
      · rintro ⟨m, h1, h2⟩
        obtain ⟨n, h3, h4⟩ := Option.map_eq_some_iff.1 h1
        simp only [Function.comp, Prod.mk.injEq, decide_eq_false_iff_not] at h4
        obtain ⟨rfl, h4⟩ := h4
        refine ⟨n, h3, (hkind n).1 h2, fun y t e ho he hne => h4 ((hom k).2 ⟨n, h3, ?_, y, t, e, ho, he, hne⟩)⟩
        exact mainSignal_directed ((hkind n).1 h2)
      · rintro ⟨n, h1, h2, h3⟩
        refine ⟨num n, ?_, (hkind n).2 h2⟩
        rw [h1]
        simp only [Option.map_some, Function.comp, Option.some.injEq, Prod.mk.injEq, true_and, decide_eq_false_iff_not]
        rintro h4
        obtain ⟨n', h5, -, y, t, e, h6, h7, rfl⟩ := (hom k).1 h4
        rw [h1] at h5
        cases h5
        exact h3 y t e h6 h7 rfl
  constructor
  · intro hs r hr p y t e k hp ho he hty hk
    obtain ⟨i, hi⟩ := List.mem_iff_getElem?.1 hr
    obtain ⟨p', x, hx, hp', hn, -, hsig, hom⟩ := hspec i r hi
    rw [hp] at hp'
    cases hp'
    obtain ⟨h1, h2⟩ := hat i r p x hi hx hp hn hsig hom k
    have h3 := hs i k
    rw [h1, h2] at h3
    by_contra hcon
    obtain ⟨n, h4, -, h5⟩ := h3.1 ⟨(e, 0), hk, hty, fun z e' hz he' hne => hcon ⟨z, hz, by cases hne; exact he'⟩⟩
    rw [hk] at h4
    cases h4
    exact h5 y t e ho he rfl
  · intro hnamed i k
    by_cases hlt : i < rs.length
    · have hi := List.getElem?_eq_getElem hlt
      obtain ⟨p, x, hx, hp, hn, -, hsig, hom⟩ := hspec i _ hi
      obtain ⟨h1, h2⟩ := hat i _ p x hi hx hp hn hsig hom k
      rw [h1, h2]
      constructor
      · rintro ⟨n, h3, h4, h5⟩
        refine ⟨n, h3, h4, fun y t e ho he hne => ?_⟩
        subst hne
        obtain ⟨z, hz, he'⟩ := hnamed _ (List.getElem_mem hlt) p y t e k hp ho he h4 h3
        exact h5 z e hz he' rfl
      · rintro ⟨n, h3, h4, h5⟩
        exact ⟨n, h3, h4, fun y e ho he => h5 y _ e ho he⟩
    · have hx : l[i]? = none := List.getElem?_eq_none (by omega)
      unfold Interlocking.Spec.Signal SignalAt shownAt
      simp [hx]

/-- C167: consequently what the interlocking reads about the routes is consistent. -/
theorem C167_consistent (h : buildAll L el rp fuel num spls etcs rs = some l) {g : Interlocking.SRG}
    (hlen : g.succs.length = l.length) (hknown : ∀ s ∈ g.succs, ∀ r ∈ s, r < l.length) :
    Interlocking.Spec.WellFormed (l.map (·.1)) (l.map (·.2)) g := by
  obtain ⟨hl, hspec⟩ := built_spec h
  have hmem : ∀ x ∈ l, ∃ (p : SPath) (r : IRoute), newPath L el rp fuel r = some (some p) ∧ x.1.nodes = p.nodes.map num ∧
      x.2.size = p.nodes.length ∧ x.2.signals = p.signals := by
    intro x hx
    obtain ⟨i, hi⟩ := List.mem_iff_getElem?.1 hx
    have hlt : i < rs.length := by have := (List.getElem?_eq_some_iff.1 hi).1; omega
    obtain ⟨p, x', h1, h2, h3, h4, h5, -⟩ := hspec i _ (List.getElem?_eq_getElem hlt)
    rw [hi] at h1
    cases h1
    exact ⟨p, _, h2, h3, h4, h5⟩
  refine ⟨?_, ?_, ?_, ?_, by simpa using hlen, by simpa using hknown⟩
  · rw [List.map_map, List.map_map]
    refine List.map_congr_left fun x hx => ?_
    obtain ⟨p, r, -, h1, h2, -⟩ := hmem x hx
    simp [h1, h2]
  all_goals
    intro x hx
    obtain ⟨y, hy, rfl⟩ := List.mem_map.1 hx
    obtain ⟨p, r, h1, h2, h3, h4⟩ := hmem y hy
    obtain ⟨-, -, -, ⟨s, e, -, -, h5⟩, h6, -, -, h7, -, -⟩ := C108_route L el rp fuel r p h1
  · rw [h3]
    have := h5.first
    cases hn : p.nodes with
    | nil => rw [hn] at this; cases this
    | cons a t => simp
  · rw [h4]; exact h7
  · intro k hk
    rw [h4] at hk
    rw [h3]
    obtain ⟨n, h8, -⟩ := (h6 k).1 hk
    exact (List.getElem?_eq_some_iff.1 h8).1

/-! ### Examples -/

/-- a number for every node -/
def exNum (n : Node) : Nat := Nat.pair n.1 n.2

/-- the routes built for a network -/
def builtIn (g0 : Graph) (xs : List SecIn) (bs : List (Nat × Bool × Nat)) (fuel : Nat) (rs : List IRoute) :
    Option (List (SRoute × Interlocking.Info)) :=
  (connectAll (netGraph g0 xs bs).el (netGraph g0 xs bs).n).bind fun L =>
    buildAll L (netGraph g0 xs bs).el some fuel exNum (fun _ => []) (fun _ => false) rs

/-- from bumper 0 over switch 1 and cross 2 to the border 5, without its first main signal, once as `ty` -/
def exRoute (ty : Ty) : IRoute := ⟨0, 5, [true, false], [(10, ty)]⟩

theorem exBuilt : builtIn (exGraph exTys) exSecs exBorders 20 [exRoute .mainSignal] = some
    [(⟨[0, 90, 110, 132, 2, 182, 8, 552, 600, 650, 30], [2], []⟩, ⟨11, [8], false⟩)] := by decide +kernel

theorem exMislabelled : builtIn (exGraph exTys) exSecs exBorders 20 [exRoute .approachSignal] = some
    [(⟨[0, 90, 110, 132, 2, 182, 8, 552, 600, 650, 30], [2], []⟩, ⟨11, [2, 8], false⟩)] := by decide +kernel

/-- the hypotheses of C167 hold for the example, and both sides are true -/
example : ∃ (L : Links) (f : Facts), buildAll L (netGraph (exGraph exTys) exSecs exBorders).el some 20 exNum (fun _ => []) (fun _ => false)
      [exRoute .mainSignal] = some [(⟨[0, 90, 110, 132, 2, 182, 8, 552, 600, 650, 30], [2], []⟩, ⟨11, [8], false⟩)] ∧
    (∀ n : Node, f.kind (exNum n) = kindOf ((netGraph (exGraph exTys) exSecs exBorders).el n.1).ty) ∧
    ∀ r ∈ [exRoute .mainSignal], Named L (netGraph (exGraph exTys) exSecs exBorders).el some 20 r := by
  obtain ⟨L, N⟩ := someNet exNet
  have h := exBuilt
  unfold builtIn at h
  rw [N.links, Option.bind_some] at h
  refine ⟨L, ⟨fun k => kindOf ((netGraph (exGraph exTys) exSecs exBorders).el (Nat.unpair k).1).ty, fun _ _ => 0, fun _ => none, fun _ _ => none⟩,
    h, fun n => ?_, ?_⟩
  · show kindOf ((netGraph (exGraph exTys) exSecs exBorders).el (Nat.unpair (Nat.pair n.1 n.2)).1).ty = _
    rw [Nat.unpair_pair]
  · intro r hr p y t e k _ ho he _ _
    simp at hr
    subst hr
    simp [exRoute] at ho
    obtain ⟨rfl, rfl⟩ := ho
    exact ⟨10, by simp [exRoute], he⟩

/-- C167 fails if a file calls a left out main signal anything else: the interlocking ends routes at this signal, but no train
sees it. -/
theorem C167_mislabelled : ¬ ∀ (g0 : Graph) (xs : List SecIn) (bs : List (Nat × Bool × Nat)) (L : Links) (nodes : List Node),
    Net g0 xs bs L nodes → WellLaid g0 xs bs → ∀ num rs l (stops : List Train.Stops) (f : Facts),
      buildAll L (netGraph g0 xs bs).el some 20 num (fun _ => []) (fun _ => false) rs = some l →
      (∀ n : Node, f.kind (num n) = kindOf ((netGraph g0 xs bs).el n.1).ty) → SameSignals ⟨l.map (·.1), stops⟩ f (l.map (·.2)) := by
  intro hall
  obtain ⟨L, N⟩ := someNet exNet
  have h := exMislabelled
  unfold builtIn at h
  rw [N.links, Option.bind_some] at h
  have hs := hall _ _ _ _ _ N exWellLaid exNum _ _ []
    ⟨fun k => kindOf ((netGraph (exGraph exTys) exSecs exBorders).el (Nat.unpair k).1).ty, fun _ _ => 0, fun _ => none, fun _ _ => none⟩
    h fun n => by
      show kindOf ((netGraph (exGraph exTys) exSecs exBorders).el (Nat.unpair (Nat.pair n.1 n.2)).1).ty = _
      rw [Nat.unpair_pair]
  obtain ⟨n, h1, -⟩ := (hs 0 2).1 ⟨_, rfl, by decide⟩
  revert h1
  simp [shownAt, shown]

end Soro.RouteBuild.Props
