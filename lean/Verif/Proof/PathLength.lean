import Verif.Proof.NetworkRun
import Verif.Spec.PathLength

/-! Kilometrages of points and lengths of paths, see `Model/PathLength.lean`. -/

namespace Soro.Infra

theorem absR_eq (x : Rat) : absR x = |x| := by
  unfold absR
  split
  · rename_i h; exact (abs_of_neg h).symm
  · rename_i h; exact (abs_of_nonneg (not_lt.1 h)).symm

section
variable {g0 : Graph} {out : List SecOut} {part : Nat → Option Nat} {g : Graph}

/-- which point a neighbour belongs to -/
theorem Ctx.at_nb (h : Ctx g0 out part g) {o : SecOut} (ho : o ∈ out) {b : Bool} {k : Nat} (hnb : (g.el (o.x.elem b)).ty ≠ .border)
    (hk : slotOf (g.el (o.x.elem b)).ty (o.x.pt b) b = some k) {a : Nat} (ha : o.arr b = some a ∨ o.dep b = some a) {k' : Nat} (hk' : k' % 2 = 0) :
    (decide ((g.el (o.x.elem b)).nb k' = some a) || decide ((g.el (o.x.elem b)).nb (k' + 1) = some a)) = decide (k' = k) := by
  obtain ⟨k2, h1, h2, h3⟩ := (h.att o ho b).slot
  rw [hk] at h1
  obtain rfl := Option.some.inj h1
  have ham : ∃ c, a ∈ o.towards c := by
    rcases ha with ha | ha
    · exact ⟨b, List.mem_of_getLast? ha⟩
    · exact ⟨!b, List.mem_of_head? ha⟩
  obtain ⟨c, ham⟩ := ham
  rw [Bool.eq_iff_iff]
  simp only [Bool.or_eq_true, decide_eq_true_eq]
  constructor
  · intro hh
    have hkey : ∀ j, (g.el (o.x.elem b)).nb j = some a → j = k ∨ j = k + 1 := by
      intro j hj
      obtain ⟨o', ho', b', q1, ⟨b'', q2⟩, k0, q3, q4⟩ := h.org _ (h.elem o ho b) hnb j a hj
      obtain rfl := h.disj o ho o' ho' c b'' a ham q2
      obtain rfl := h.end' o ho b' b q1
      rw [hk] at q3
      obtain rfl := Option.some.inj q3
      exact q4
    have he := slotOf_even hk
    rcases hh with hh | hh
    · have := hkey _ hh; omega
    · have := hkey _ hh; omega
  · rintro rfl
    rcases ha with ha | ha
    · rw [ha] at h3
      cases b with
      | true => right; exact h3
      | false => left; exact h3
    · rw [ha] at h2
      cases b with
      | true => left; exact h2
      | false => right; exact h2

/-- the kilometrage at a neighbour in a section is that of the point of the section -/
theorem Ctx.getKm_point (h : Ctx g0 out part g) (km : Kms) {o : SecOut} (ho : o ∈ out) {b : Bool} {a : Nat}
    (ha : o.arr b = some a ∨ o.dep b = some a) : getKm g.el km (o.x.elem b) a = km (o.x.elem b) (o.x.pt b) := by
  have hat := h.att o ho b
  have hp := hat.pt
  obtain ⟨k, hk, _, _⟩ := hat.slot
  unfold getKm
  dsimp only
  by_cases hnb : (g.el (o.x.elem b)).ty = .border
  · rw [hnb] at hp ⊢
    rw [border_pt hp]
    simp [Ty.isEnd, Ty.id]
  · have a0 := h.at_nb ho hnb hk ha (k' := 0) rfl
    have a2 := h.at_nb ho hnb hk ha (k' := 2) rfl
    have a4 := h.at_nb ho hnb hk ha (k' := 4) rfl
    simp only [a0, a2, a4]
    clear a0 a2 a4 hat
    generalize o.x.pt b = p at *
    cases hty : (g.el (o.x.elem b)).ty <;> rw [hty] at hp hk hnb <;> cases p <;>
      first | (exfalso; revert hp; decide) | (exact absurd rfl hnb) | skip
    all_goals
      simp only [slotOf, Option.some.injEq] at hk
      subst hk
      simp [Ty.isEnd, Ty.isSimple, Ty.id]

/-- the kilometrage of a track element -/
theorem getKm_track {el : Nat → Elem} (km : Kms) {i : Nat} (h : (el i).ty.isTrack = true) (a : Nat) : getKm el km i a = km i .only := by
  obtain ⟨h1, h2, h3, h4, h5⟩ := Ty.dir_kinds h
  unfold getKm
  have hb : (el i).ty ≠ .border := by intro e; rw [e] at h; simp [Ty.isTrack, Ty.id] at h
  have hs : (el i).ty ≠ .simpleSwitch := by intro e; rw [e] at h; simp [Ty.isTrack, Ty.id] at h
  have hc : (el i).ty ≠ .cross := by intro e; rw [e] at h; simp [Ty.isTrack, Ty.id] at h
  simp [h1, h2, hb, hs, hc]

end

/-! ### sums -/

/-- the sum of the distances of neighbours of a list -/
def travel : List Rat → Rat
  | a :: b :: l => |a - b| + travel (b :: l)
  | _ => 0

theorem travel_mono : ∀ (l : List Rat) (a b : Rat), (a :: (l ++ [b])).Pairwise (· ≤ ·) → travel (a :: (l ++ [b])) = b - a
  | [], a, b, h => by
    simp at h
    simp [travel]
    rw [abs_of_nonpos (by linarith)]; ring
  | c :: l, a, b, h => by
    rw [List.cons_append, travel]
    rw [List.cons_append, List.pairwise_cons] at h
    rw [travel_mono l c b h.2, abs_of_nonpos (by have := h.1 c (by simp); linarith)]
    ring

theorem travel_anti : ∀ (l : List Rat) (a b : Rat), (a :: (l ++ [b])).Pairwise (· ≥ ·) → travel (a :: (l ++ [b])) = a - b
  | [], a, b, h => by
    simp at h
    simp only [List.nil_append, travel]
    rw [abs_of_nonneg (by linarith)]; simp
  | c :: l, a, b, h => by
    rw [List.cons_append, travel]
    rw [List.cons_append, List.pairwise_cons] at h
    rw [travel_anti l c b h.2, abs_of_nonneg (by have := h.1 c (by simp); linarith)]
    ring

/-- the length of a path of elements without accumulator -/
def len (el : Nat → Elem) (km : Kms) : List Nat → Rat
  | a :: b :: l => |getKm el km a b - getKm el km b a| + len el km (b :: l)
  | _ => 0

theorem lengthLoop_eq (el : Nat → Elem) (km : Kms) : ∀ (l : List Nat) (a : Nat) (d : Rat), lengthLoop el km a d l = d + len el km (a :: l)
  | [], a, d => by simp [lengthLoop, len]
  | b :: l, a, d => by
    rw [lengthLoop, lengthLoop_eq el km l b, len, absR_eq]; ring

theorem len_append (el : Nat → Elem) (km : Kms) : ∀ (l : List Nat) (x : Nat) (r : List Nat),
    len el km (l ++ x :: r) = len el km (l ++ [x]) + len el km (x :: r)
  | [], x, r => by simp [len]
  | [a], x, r => by simp [len]
  | a :: b :: l, x, r => by
    have := len_append el km (b :: l) x r
    simp only [List.cons_append] at this ⊢
    rw [len, len, this]; ring

theorem len_nonneg (el : Nat → Elem) (km : Kms) : ∀ (l : List Nat), 0 ≤ len el km l
  | [] => by simp [len]
  | [a] => by simp [len]
  | a :: b :: l => by
    rw [len]
    have := len_nonneg el km (b :: l)
    have := abs_nonneg (getKm el km a b - getKm el km b a)
    linarith

/-- the length of a list of track elements between two elements -/
theorem len_tracks {el : Nat → Elem} (km : Kms) (f : Nat) (kf : Rat) : ∀ (T : List Nat) (s : Nat) (ks : Rat), T ≠ [] →
    (∀ t ∈ T, (el t).ty.isTrack = true) → (∀ t, T.head? = some t → getKm el km s t = ks) →
    (∀ t, T.getLast? = some t → getKm el km f t = kf) →
    len el km (s :: (T ++ [f])) = travel (ks :: (T.map (fun i => km i .only) ++ [kf]))
  | [], _, _, h, _, _, _ => absurd rfl h
  | [t], s, ks, _, ht, h1, h2 => by
    have e := getKm_track km (ht t (by simp))
    simp only [List.cons_append, List.nil_append, len, List.map_cons, List.map_nil, travel]
    rw [h1 t rfl, h2 t rfl, e, e]
  | t :: t' :: T, s, ks, _, ht, h1, h2 => by
    have e := getKm_track km (ht t (by simp))
    have ih := len_tracks km f kf (t' :: T) t (km t .only) (by simp) (fun x hx => ht x (List.mem_cons_of_mem _ hx)) (fun x _ => e x)
      (fun x hx => h2 x (by rw [List.getLast?_cons_cons]; exact hx))
    rw [List.cons_append, len, ih, h1 t rfl, e]
    rfl

theorem Ctx.len_section {g0 : Graph} {out : List SecOut} {part : Nat → Option Nat} {g : Graph} (h : Ctx g0 out part g) (km : Kms)
    {o : SecOut} (ho : o ∈ out) (b : Bool) :
    len g.el km (o.x.elem (!b) :: (o.towards b ++ [o.x.elem b])) = travel (o.kms km b) := by
  unfold SecOut.kms
  rw [len_tracks km (o.x.elem b) (km (o.x.elem b) (o.x.pt b)) (o.towards b) (o.x.elem (!b)) (km (o.x.elem (!b)) (o.x.pt (!b))) (h.ne o ho b)
    (fun t ht => (h.ids o ho b t ht).2.2.1)
    (fun t ht => h.getKm_point km ho (Or.inr (by unfold SecOut.dep; rw [Bool.not_not]; exact ht)))
    (fun t ht => h.getKm_point km ho (Or.inl ht))]
  rfl

theorem travel_section {o : SecOut} {km : Kms} {b : Bool} (h : Monotone (o.kms km b)) : travel (o.kms km b) = o.len km := by
  unfold SecOut.len
  have e : o.kms km b = km (o.x.elem (!b)) (o.x.pt (!b)) :: ((o.towards b).map (fun i => km i .only) ++ [km (o.x.elem b) (o.x.pt b)]) := by
    simp [SecOut.kms]
  rcases h with h | h
  · rw [e] at h ⊢
    rw [travel_mono _ _ _ h]
    have hle : km (o.x.elem (!b)) (o.x.pt (!b)) ≤ km (o.x.elem b) (o.x.pt b) := by
      rw [List.pairwise_cons] at h
      exact h.1 _ (by simp)
    cases b
    · rw [abs_of_nonpos (by simp at hle; linarith)]; simp
    · rw [abs_of_nonneg (by simp at hle; linarith)]; simp
  · rw [e] at h ⊢
    rw [travel_anti _ _ _ h]
    have hle : km (o.x.elem b) (o.x.pt b) ≤ km (o.x.elem (!b)) (o.x.pt (!b)) := by
      rw [List.pairwise_cons] at h
      exact h.1 _ (by simp)
    cases b
    · rw [abs_of_nonneg (by simp at hle; linarith)]; simp
    · rw [abs_of_nonpos (by simp at hle; linarith)]; simp

theorem pathElems_head (o : SecOut) (b : Bool) (l : List (SecOut × Bool)) : ∃ t, pathElems ((o, b) :: l) = o.x.elem (!b) :: t := by
  cases l <;> simp [pathElems]

theorem getKm_border {el : Nat → Elem} (km : Kms) {i : Nat} (h : (el i).ty = .border) (a : Nat) : getKm el km i a = km i .only := by
  unfold getKm
  simp [h]

theorem Ctx.len_path {g0 : Graph} {out : List SecOut} {part : Nat → Option Nat} {g : Graph} (h : Ctx g0 out part g) (km : Kms) :
    ∀ (ps : List (SecOut × Bool)), (∀ p ∈ ps, p.1 ∈ out) → Connected g.el km ps →
      len g.el km (pathElems ps) = (ps.map fun p => travel (p.1.kms km p.2)).sum
  | [], _, _ => by simp [pathElems, len]
  | [(o, b)], ho, _ => by
    have := h.len_section km (ho (o, b) (by simp)) b
    simpa [pathElems] using this
  | (o, b) :: (o', b') :: l, ho, hc => by
    have ih := h.len_path km ((o', b') :: l) (fun p hp => ho p (List.mem_cons_of_mem _ hp)) hc.2
    obtain ⟨t, ht⟩ := pathElems_head o' b' l
    have hs := h.len_section km (ho (o, b) (by simp)) b
    rw [pathElems, List.map_cons, List.sum_cons, ← ih]
    by_cases he : o.x.elem b = o'.x.elem (!b')
    · rw [if_pos he, List.nil_append, ht, ← List.cons_append, len_append, ← he, List.cons_append, hs]
    · rw [if_neg he]
      rcases hc.1 with e | ⟨e1, e2, e3⟩
      · exact absurd e he
      · rw [List.singleton_append, ← List.cons_append, len_append, List.cons_append, hs, ht, len, getKm_border km e1, getKm_border km e2, e3]
        simp

theorem distances_mono (el : Nat → Elem) (km : Kms) : ∀ (l : List Nat) (a : Nat) (d : Rat),
    (d :: distances el km a d l).Pairwise (· ≤ ·)
  | [], a, d => by simp [distances]
  | x :: l, a, d => by
    have ih := distances_mono el km l x (d + getDistance el km x a)
    have hn : 0 ≤ getDistance el km x a := by
      unfold getDistance; split
      · simp
      · rw [absR_eq]; exact abs_nonneg _
    unfold distances
    dsimp only
    rw [List.pairwise_cons]
    refine ⟨?_, ih⟩
    intro y hy
    rw [List.pairwise_cons] at ih
    rcases List.mem_cons.1 hy with rfl | hy
    · linarith
    · have := ih.1 y hy; linarith

theorem distances_eq (el : Nat → Elem) (km : Kms) : ∀ (l : List Nat) (a : Nat) (d : Rat) (n : Nat),
    (distances el km a d l)[n]? = if n < l.length then some (d + len el km (a :: l.take (n + 1))) else none
  | [], a, d, n => by simp [distances]
  | x :: l, a, d, n => by
    unfold distances
    dsimp only
    have hd : getDistance el km x a = |getKm el km a x - getKm el km x a| := by
      unfold getDistance
      split
      · rename_i e; rw [e]; simp
      · rw [absR_eq, abs_sub_comm]
    cases n with
    | zero => simp [len, hd]
    | succ n =>
      rw [List.getElem?_cons_succ, distances_eq el km l x _ n, hd]
      simp only [List.length_cons, Nat.add_lt_add_iff_right, List.take_succ_cons, len]
      split
      · congr 1; ring
      · rfl

theorem sectionLoop_some (el : Nat → Elem) : ∀ (rest : List Nat) (next prev : Nat) (r : List Nat × Nat × Nat), rest ≠ [] →
    sectionLoop el none rest next prev = some r → r.1 ≠ [] ∧ r.1.length ≤ rest.length
  | [], _, _, _, h, _ => absurd rfl h
  | x :: l, next, prev, r, _, h => by
    unfold sectionLoop at h
    split at h
    · cases l with
      | nil => cases h
      | cons y l =>
        have := sectionLoop_some el (y :: l) y next r (by simp) h
        exact ⟨this.1, by have := this.2; simp at this ⊢; omega⟩
    · injection h with h
      rw [← h]
      exact ⟨by simp, by simp⟩

theorem sectionsLoop_none (el : Nat → Elem) (km : Kms) : ∀ (fuel : Nat) (rest : List Nat) (a b c e : Nat) (d : Rat), rest ≠ [] →
    rest.length ≤ fuel → sectionsLoop el km none fuel rest a b c e d = none
  | 0, rest, _, _, _, _, _, h, hl => by
    cases rest with
    | nil => exact absurd rfl h
    | cons x l => simp at hl
  | fuel + 1, [], _, _, _, _, _, h, _ => absurd rfl h
  | fuel + 1, x :: rest, a, b, c, e, d, _, hl => by
    unfold sectionsLoop
    cases hr : sectionLoop el none (x :: rest) c e with
    | none => rfl
    | some r =>
      obtain ⟨q, next, prev⟩ := r
      have := sectionLoop_some el _ _ _ _ (by simp) hr
      match q, this with
      | [], this => exact absurd rfl this.1
      | [_], _ => rfl
      | _ :: y :: q, this =>
        apply sectionsLoop_none el km fuel (y :: q) _ _ _ _ _ (by simp)
        have := this.2
        simp at this hl ⊢
        omega

/-- over the track elements of a section -/
theorem sectionLoop_tracks (el : Nat → Elem) (past : Option Nat) (f : Nat) (r : List Nat) (hf : (el f).ty.isTrack = false) :
    ∀ (T : List Nat) (t prev : Nat), (∀ i ∈ t :: T, (el i).ty.isTrack = true) →
      ∃ a, (t :: T).getLast? = some a ∧ sectionLoop el past (t :: T ++ f :: r) t prev = some (f :: r, f, a)
  | [], t, prev, ht => by
    refine ⟨t, rfl, ?_⟩
    simp [sectionLoop, ht t, hf]
  | t' :: T, t, prev, ht => by
    obtain ⟨a, h1, h2⟩ := sectionLoop_tracks el past f r hf T t' t fun i hi => ht i (List.mem_cons_of_mem _ hi)
    refine ⟨a, by rw [List.getLast?_cons_cons]; exact h1, ?_⟩
    rw [List.cons_append, sectionLoop, if_pos (ht t (by simp)), ← h2]
    rfl

theorem points_track {t : Ty} (h : t.points ≠ []) : t.isTrack = false := by
  revert h; cases t <;> simp [Ty.points, Ty.isTrack, Ty.id]

/-- whatever the end yields, the sum is that of the sections -/
theorem Ctx.sections {g0 : Graph} {out : List SecOut} {part : Nat → Option Nat} {g : Graph} (h : Ctx g0 out part g) (km : Kms) (past : Nat) :
    ∀ (ps : List (SecOut × Bool)) (o : SecOut) (b : Bool) (fuel : Nat) (d : Rat) (y : Nat) (l : List Nat), (∀ p ∈ (o, b) :: ps, p.1 ∈ out) →
      Connected g.el km ((o, b) :: ps) → pathElems ((o, b) :: ps) = o.x.elem (!b) :: y :: l → (y :: l).length < fuel →
      sectionsLoop g.el km (some past) fuel (y :: l) (o.x.elem (!b)) y y (o.x.elem (!b)) d =
        some (some (d + (((o, b) :: ps).map fun p => p.1.len km).sum)) := by
  have one : ∀ (o : SecOut) (b : Bool) (fuel : Nat) (d : Rat) (y : Nat) (l r : List Nat), o ∈ out → y :: l = o.towards b ++ (o.x.elem b :: r) →
      sectionsLoop g.el km (some past) (fuel + 1) (y :: l) (o.x.elem (!b)) y y (o.x.elem (!b)) d =
        sectionsLoop g.el km (some past) fuel r (o.x.elem b) (r.head?.getD past) (r.head?.getD past) (o.x.elem b) (d + o.len km) := by
    intro o b fuel d y l r ho e
    obtain ⟨t, T, eT⟩ := List.exists_cons_of_ne_nil (h.ne o ho b)
    rw [eT, List.cons_append] at e
    obtain ⟨rfl, rfl⟩ := List.cons.inj e
    have hi := h.elem o ho b
    have hf : (g.el (o.x.elem b)).ty.isTrack = false := points_track (by rw [(h.ty _ hi).1]; exact h.sec _ hi)
    obtain ⟨a, h1, h2⟩ := sectionLoop_tracks g.el (some past) (o.x.elem b) r hf T y (o.x.elem (!b))
      fun i hi => (h.ids o ho b i (by rw [eT]; exact hi)).2.2.1
    have k1 := h.getKm_point km ho (b := !b) (a := y) (Or.inr (by unfold SecOut.dep; rw [Bool.not_not, eT]; rfl))
    have k2 := h.getKm_point km ho (b := b) (a := a) (Or.inl (by unfold SecOut.arr; rw [eT]; exact h1))
    rw [sectionsLoop]
    rw [List.cons_append] at h2
    rw [h2]
    have hd : absR (getKm g.el km (o.x.elem !b) y - getKm g.el km (o.x.elem b) a) = o.len km := by
      rw [absR_eq, k1, k2]
      unfold SecOut.len
      cases b
      · rfl
      · exact abs_sub_comm _ _
    simp only [Option.bind_some]
    rw [hd]
    cases r <;> rfl
  intro ps
  induction ps with
  | nil =>
    intro o b fuel d y l ho _ e hl
    rw [pathElems] at e
    injection e with _ e
    obtain ⟨fuel, rfl⟩ : ∃ k, fuel = k + 2 := ⟨fuel - 2, by
      have : 0 < l.length := by
        have hne := h.ne o (ho (o, b) (by simp)) b
        have := congrArg List.length e
        simp at this
        have := List.length_pos_iff.2 hne
        omega
      simp at hl; omega⟩
    rw [one o b (fuel + 1) d y l [] (ho (o, b) (by simp)) e.symm]
    simp [sectionsLoop]
  | cons p ps ih =>
    obtain ⟨o', b'⟩ := p
    intro o b fuel d y l ho hc e hl
    have ho1 := ho (o, b) (by simp)
    have ho2 := ho (o', b') (by simp)
    obtain ⟨t, ht⟩ := pathElems_head o' b' ps
    obtain ⟨y', l', rfl⟩ : ∃ y' l', t = y' :: l' := by
      cases t with
      | nil =>
        cases ps with
        | nil => simp [pathElems] at ht
        | cons q ps =>
          obtain ⟨q1, q2⟩ := q
          obtain ⟨t, ht'⟩ := pathElems_head q1 q2 ps
          rw [pathElems, ht'] at ht
          simp at ht
      | cons y' l' => exact ⟨_, _, rfl⟩
    rw [pathElems] at e
    injection e with _ e
    have hlen := congrArg List.length e
    obtain ⟨fuel, rfl⟩ : ∃ k, fuel = k + 1 := ⟨fuel - 1, by omega⟩
    have hpos := List.length_pos_iff.2 (h.ne o ho1 b)
    by_cases he : o.x.elem b = o'.x.elem (!b')
    · rw [if_pos he, List.nil_append, ht, ← he] at e
      rw [if_pos he, List.nil_append, ht, List.length_append, List.length_cons] at hlen
      rw [one o b fuel d y l _ ho1 e.symm, he]
      simp only [List.head?_cons, Option.getD_some]
      rw [ih o' b' fuel _ y' l' (fun p hp => ho p (List.mem_cons_of_mem _ hp)) hc.2 ht (by simp at hl hlen ⊢; omega)]
      simp [add_assoc]
    · rcases hc.1 with e' | ⟨e1, e2, e3⟩
      · exact absurd e' he
      · rw [if_neg he, ht, List.singleton_append] at e
        rw [if_neg he, ht, List.singleton_append, List.length_append, List.length_cons, List.length_cons] at hlen
        rw [one o b fuel d y l _ ho1 e.symm]
        obtain ⟨fuel, rfl⟩ : ∃ k, fuel = k + 1 := ⟨fuel - 1, by simp at hl hlen; omega⟩
        have hi := h.elem o' ho2 (!b')
        have hf : (g.el (o'.x.elem (!b'))).ty.isTrack = false := points_track (by rw [(h.ty _ hi).1]; exact h.sec _ hi)
        rw [sectionsLoop]
        simp only [List.head?_cons, Option.getD_some, sectionLoop, hf, Bool.false_eq_true, if_false, Option.bind_some, Option.some_or]
        rw [ih o' b' fuel _ y' l' (fun p hp => ho p (List.mem_cons_of_mem _ hp)) hc.2 ht (by simp at hl hlen ⊢; omega)]
        rw [absR_eq, getKm_border km e1, getKm_border km e2, e3]
        simp [add_assoc]

end Soro.Infra
