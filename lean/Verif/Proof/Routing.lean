import Verif.Spec.Routing

/-! Proofs about the routes of the server. -/

namespace Soro.Routing
open Spec

/-! ### characters -/

theorem isDigit_iff (c : Char) : isDigit c = c.isDigit := by
  simp [isDigit, Char.isDigit, Char.le_def]

theorem isName_iff (c : Char) : isName c = true ↔ c.isAlphanum = true ∨ c = '_' ∨ c = '-' := by
  simp [isName, Char.isAlphanum, Char.isAlpha, Char.isUpper, Char.isLower, Char.isDigit, Char.le_def, or_assoc]
  constructor <;> (rintro (h | h | h | h) <;> simp_all)

theorem isName_slash : isName '/' = false := by decide

/-! ### matching -/

/-- the texts differ before one of them ends -/
def mismatch : List Char → List Char → Bool
  | a :: l, b :: m => a != b || mismatch l m
  | _, _ => false

theorem match_lits (l : List Char) (is : List Item) (s : List Char) :
    matchItems (l.map .lit ++ is) (l ++ s) = matchItems is s := by
  induction l with
  | nil => rfl
  | cons c l ih => simpa [matchItems] using ih

theorem match_lits_none {l m : List Char} (h : mismatch l m = true) (is : List Item) (s : List Char) :
    matchItems (l.map .lit ++ is) (m ++ s) = none := by
  induction l generalizing m with
  | nil => simp [mismatch] at h
  | cons a l ih =>
    cases m with
    | nil => simp [mismatch] at h
    | cons b m =>
      simp only [List.map_cons, List.cons_append, matchItems]
      by_cases hab : a = b
      · subst hab
        rw [if_pos rfl]
        exact ih (by simpa [mismatch] using h)
      · rw [if_neg hab]

theorem down_le (n k : Nat) : k ∈ down n ↔ k ≤ n := by
  induction n with
  | zero => simp [down]
  | succ n ih => simp [down, ih]; omega

/-- the group takes the whole word -/
theorem match_plus_some {p : Char → Bool} {w t : List Char} {is : List Item} {cs : List (List Char)} (hw : w ≠ [])
    (hp : ∀ c ∈ w, p c = true) (ht : ∀ c ∈ t.head?, p c = false) (h : matchItems is t = some cs) :
    matchItems (.plus p :: is) (w ++ t) = some (w :: cs) := by
  have htw : (w ++ t).takeWhile p = w := by
    rw [List.takeWhile_append_of_pos hp]
    cases t with
    | nil => simp
    | cons c t => simp [ht c (by simp)]
  unfold matchItems
  rw [htw]
  cases hl : w.length with
  | zero => exact absurd (List.length_eq_zero_iff.1 hl) hw
  | succ n =>
    rw [down, List.findSome?_cons, if_neg (by omega), ← hl]
    simp [h]

/-- if nothing else than the whole word can be followed by the rest -/
theorem match_plus {p : Char → Bool} {w t : List Char} {is : List Item} (hw : w ≠ []) (hp : ∀ c ∈ w, p c = true)
    (ht : ∀ c ∈ t.head?, p c = false) (hr : ∀ c s, p c = true → matchItems is (c :: s) = none) :
    matchItems (.plus p :: is) (w ++ t) = (matchItems is t).map (w :: ·) := by
  cases h : matchItems is t with
  | some cs => exact match_plus_some hw hp ht h
  | none =>
    have htw : (w ++ t).takeWhile p = w := by
      rw [List.takeWhile_append_of_pos hp]
      cases t with
      | nil => simp
      | cons c t => simp [ht c (by simp)]
    unfold matchItems
    rw [htw]
    simp only [Option.map_none]
    rw [List.findSome?_eq_none_iff]
    intro k hk
    rw [down_le] at hk
    split
    · rfl
    · rcases Nat.lt_or_ge k w.length with hlt | hge
      · have : (w ++ t).drop k = w[k] :: (w.drop (k + 1) ++ t) := by
          rw [List.drop_append_of_le_length hk, List.drop_eq_getElem_cons hlt]
          rfl
        rw [this, hr _ _ (hp _ (List.getElem_mem hlt))]
        rfl
      · have : k = w.length := by omega
        subst this
        simp [h]

/-! ### the routes of an infrastructure -/

/-- what follows the name of the infrastructure -/
def tails : List (Handler × List Item) :=
  [(.tile, text "/tiles/" ++ (.plus isDigit :: (text "/" ++ (.plus isDigit :: (text "/" ++ (.plus isDigit :: .any :: text "mvt")))))),
   (.boundingBox, text "/bounding_box" ++ [.opt '/', .fin]),
   (.stations, text "/stations/" ++ [.fin]),
   (.station, text "/station/" ++ [.plus isDigit, .fin]),
   (.stationRoute, text "/station_route/" ++ [.plus isDigit, .fin]),
   (.interlockingRoute, text "/interlocking_route/" ++ [.plus isDigit, .fin]),
   (.exclusionSet, text "/exclusion_sets/" ++ [.plus isDigit, .fin]),
   (.element, text "/element/" ++ [.plus isDigit, .fin]),
   (.search, text "/search/" ++ [.plus isName, .fin]),
   (.timetables, text "/timetables" ++ [.opt '/', .fin]),
   (.timetable, text "/timetable/" ++ [.plus isName, .opt '/', .fin]),
   (.ordering, text "/timetable/" ++ (.plus isName :: (text "/ordering?from=" ++ (.plus isDigit :: (text "&to=" ++
     (.plus isDigit :: (text "&trainIds=" ++ [.ids, .fin])))))))]

theorem routes_eq : routes = (.names, text "/infrastructures" ++ [.opt '/', .fin]) ::
    tails.map fun r => (r.1, ofInfra r.2) := rfl

theorem tails_slash : ∀ r ∈ tails, ∃ is, r.2 = .lit '/' :: is := by
  intro r hr
  simp only [tails, List.mem_cons, List.not_mem_nil, or_false] at hr
  rcases hr with h | h | h | h | h | h | h | h | h | h | h | h <;> (subst h; exact ⟨_, rfl⟩)

theorem match_ofInfra {i t : List Char} {is : List Item} (hi : IsName i) (ht : ∃ t', t = '/' :: t') (his : ∃ is', is = .lit '/' :: is') :
    matchItems (ofInfra is) ("/infrastructure/".toList ++ (i ++ t)) = (matchItems is t).map (i :: ·) := by
  obtain ⟨t', rfl⟩ := ht
  obtain ⟨is', rfl⟩ := his
  unfold ofInfra text
  rw [match_lits]
  refine match_plus hi.1 (fun c hc => (isName_iff c).2 (hi.2 c hc)) ?_ ?_
  · intro c hc
    simp at hc
    subst hc
    exact isName_slash
  · intro c s hc
    simp only [matchItems]
    rw [if_neg]
    rintro rfl
    rw [isName_slash] at hc
    cases hc

theorem firstMatch_under {i t : List Char} (hi : IsName i) (ht : ∃ t', t = '/' :: t') (full : Bool)
    (rs : List (Handler × List Item)) (hrs : ∀ r ∈ rs, ∃ is, r.2 = .lit '/' :: is) :
    firstMatch full ("/infrastructure/".toList ++ (i ++ t)) (rs.map fun r => (r.1, ofInfra r.2)) =
      (firstMatch full t rs).map fun r => (r.1, i :: r.2) := by
  induction rs with
  | nil => rfl
  | cons r rs ih =>
    obtain ⟨h, is⟩ := r
    obtain ⟨is', h'⟩ := hrs _ (List.mem_cons_self ..)
    simp only at h'
    have key : matchItems (if full then ofInfra is ++ [.fin] else ofInfra is) ("/infrastructure/".toList ++ (i ++ t)) =
        (matchItems (if full then is ++ [.fin] else is) t).map (i :: ·) := by
      cases full with
      | false => exact match_ofInfra hi ht ⟨is', h'⟩
      | true =>
        have : ofInfra is ++ [Item.fin] = ofInfra (is ++ [.fin]) := by simp [ofInfra]
        simp only [if_true, this]
        exact match_ofInfra hi ht ⟨is' ++ [.fin], by simp [h']⟩
    simp only [List.map_cons, firstMatch, key]
    cases matchItems (if full then is ++ [.fin] else is) t with
    | some cs => rfl
    | none => exact ih fun r hr => hrs r (List.mem_cons_of_mem _ hr)

theorem dispatch_under {i t : List Char} (hi : IsName i) (ht : ∃ t', t = '/' :: t') (full : Bool) :
    dispatch full ("/infrastructure/".toList ++ (i ++ t)) =
      ((firstMatch full t tails).map fun r => (r.1, i :: r.2)).getD (.file, []) := by
  unfold dispatch
  rw [routes_eq, firstMatch]
  have : matchItems (if full then (text "/infrastructures" ++ [.opt '/', .fin]) ++ [Item.fin]
      else text "/infrastructures" ++ [.opt '/', .fin]) ("/infrastructure/".toList ++ (i ++ t)) = none := by
    cases full
    · exact match_lits_none (by decide) _ _
    · rw [if_pos rfl, List.append_assoc]
      exact match_lits_none (by decide) _ _
  rw [this]
  simp only
  rw [firstMatch_under hi ht full tails tails_slash]

theorem first_skip {full : Bool} {l m s : List Char} (h : mismatch l m = true) (hd : Handler) (is : List Item)
    (rs : List (Handler × List Item)) :
    firstMatch full (m ++ s) ((hd, l.map .lit ++ is) :: rs) = firstMatch full (m ++ s) rs := by
  rw [firstMatch]
  have : matchItems (if full then (l.map .lit ++ is) ++ [Item.fin] else l.map .lit ++ is) (m ++ s) = none := by
    cases full
    · exact match_lits_none h _ _
    · rw [if_pos rfl, List.append_assoc]
      exact match_lits_none h _ _
  rw [this]

theorem first_hit {full : Bool} {l s : List Char} {hd : Handler} {is : List Item} {rs : List (Handler × List Item)}
    {cs : List (List Char)} (h : matchItems is s = some cs) (hf : matchItems (is ++ [.fin]) s = some cs) :
    firstMatch full (l ++ s) ((hd, l.map .lit ++ is) :: rs) = some (hd, cs) := by
  rw [firstMatch]
  have : matchItems (if full then (l.map .lit ++ is) ++ [Item.fin] else l.map .lit ++ is) (l ++ s) = some cs := by
    cases full
    · exact (match_lits _ _ _).trans h
    · rw [if_pos rfl, List.append_assoc]
      exact (match_lits _ _ _).trans hf
  rw [this]

theorem first_none {full : Bool} {l s : List Char} {hd : Handler} {is : List Item} {rs : List (Handler × List Item)}
    (h : matchItems is s = none) (hf : matchItems (is ++ [.fin]) s = none) :
    firstMatch full (l ++ s) ((hd, l.map .lit ++ is) :: rs) = firstMatch full (l ++ s) rs := by
  rw [firstMatch]
  have : matchItems (if full then (l.map .lit ++ is) ++ [Item.fin] else l.map .lit ++ is) (l ++ s) = none := by
    cases full
    · exact (match_lits _ _ _).trans h
    · rw [if_pos rfl, List.append_assoc]
      exact (match_lits _ _ _).trans hf
  rw [this]

theorem match_plus_end {p : Char → Bool} {w : List Char} {is : List Item} {cs : List (List Char)} (hw : w ≠ [])
    (hp : ∀ c ∈ w, p c = true) (h : matchItems is [] = some cs) : matchItems (.plus p :: is) w = some (w :: cs) := by
  have := match_plus_some (t := []) hw hp (by simp) h
  rwa [List.append_nil] at this

/-! ### lists of numbers -/

theorem digits_of {s : List Char} (h : IsNumber s) : ∀ c ∈ s, isDigit c = true := fun c hc => by
  rw [isDigit_iff]
  exact h.2 c hc

theorem isIds_digits {s : List Char} (h : ∀ c ∈ s, isDigit c = true) : isIds true s = true := by
  induction s with
  | nil => rfl
  | cons c s ih =>
    rw [isIds, if_pos (h c (List.mem_cons_self ..))]
    exact ih fun d hd => h d (List.mem_cons_of_mem _ hd)

theorem isIds_comma {b : Bool} {s : List Char} (h : isIds b s = true) (t : List Char) :
    isIds b (s ++ ',' :: t) = isIds false t := by
  induction s generalizing b with
  | nil =>
    simp only [isIds] at h
    subst h
    simp [isIds, show isDigit ',' = false by decide]
  | cons c s ih =>
    rw [List.cons_append, isIds]
    rw [isIds] at h
    by_cases hc : isDigit c = true
    · rw [if_pos hc] at h ⊢
      exact ih h
    · rw [if_neg hc] at h ⊢
      by_cases hk : c = ','
      · rw [if_pos hk] at h ⊢
        rw [Bool.and_eq_true] at h
        rw [ih h.2, h.1, Bool.true_and]
      · rw [if_neg hk] at h
        cases h

theorem isIds_of_list {s : List Char} (h : IsList s) : isIds true s = true := by
  induction h with
  | nil => rfl
  | one s h => exact isIds_digits (digits_of h)
  | more s t _ ht ih =>
    rw [isIds_comma ih]
    obtain ⟨c, t', rfl⟩ := List.exists_cons_of_ne_nil ht.1
    rw [isIds, if_pos (digits_of ht c (List.mem_cons_self ..))]
    exact isIds_digits fun d hd => digits_of ht d (List.mem_cons_of_mem _ hd)

theorem number_snoc {s : List Char} {c : Char} (h : ∀ d ∈ s, d.isDigit = true) (hc : isDigit c = true) : IsNumber (s ++ [c]) := by
  rw [isDigit_iff] at hc
  refine ⟨by simp, fun d hd => ?_⟩
  rcases List.mem_append.1 hd with hd | hd
  · exact h d hd
  · rw [List.mem_singleton.1 hd]
    exact hc

theorem list_snoc {s : List Char} {c : Char} (h : IsList s) (hc : isDigit c = true) : IsList (s ++ [c]) := by
  cases h with
  | nil => exact .one _ (number_snoc (by simp) hc)
  | one _ h => exact .one _ (number_snoc h.2 hc)
  | more s t h ht =>
    rw [List.append_assoc]
    exact .more _ _ h (number_snoc ht.2 hc)

theorem list_of_isIds (s : List Char) : ∀ (b : Bool) (acc : List Char), (b = true → IsList acc) →
    (b = false → ∃ a, IsList a ∧ acc = a ++ [',']) → isIds b s = true → IsList (acc ++ s) := by
  induction s with
  | nil =>
    intro b acc h1 _ h
    simp only [isIds] at h
    simpa using h1 h
  | cons c s ih =>
    intro b acc h1 h2 h
    rw [isIds] at h
    have e : acc ++ c :: s = (acc ++ [c]) ++ s := by simp
    rw [e]
    by_cases hc : isDigit c = true
    · rw [if_pos hc] at h
      refine ih true _ (fun _ => ?_) (fun h => nomatch h) h
      cases b with
      | true => exact list_snoc (h1 rfl) hc
      | false =>
        obtain ⟨a, ha, rfl⟩ := h2 rfl
        rw [List.append_assoc]
        exact .more _ _ ha (number_snoc (s := []) (by simp) hc)
    · rw [if_neg hc] at h
      by_cases hk : c = ','
      · rw [if_pos hk, Bool.and_eq_true] at h
        subst hk
        exact ih false _ (fun h => nomatch h) (fun _ => ⟨acc, h1 h.1, rfl⟩) h.2
      · rw [if_neg hk] at h
        cases h

theorem match_ids {s : List Char} (h : IsList s) {is : List Item} {cs : List (List Char)} (hm : matchItems is [] = some cs) :
    matchItems (.ids :: is) s = some (s :: cs) := by
  unfold matchItems
  have hs := isIds_of_list h
  cases hl : s.length with
  | zero =>
    have := List.length_eq_zero_iff.1 hl
    subst this
    simp [down, hm, isIds]
  | succ n =>
    rw [down, List.findSome?_cons, ← hl]
    simp [hs, hm]

/-! ### what a match says -/

/-- the text is taken apart as the items say -/
def Parsed : List Item → List Char → List (List Char) → Prop
  | [], _, cs => cs = []
  | .lit c :: is, s, cs => ∃ t, s = c :: t ∧ Parsed is t cs
  | .any :: is, s, cs => ∃ c t, s = c :: t ∧ Parsed is t cs
  | .plus p :: is, s, cs => ∃ w t ds, w ≠ [] ∧ (∀ c ∈ w, p c = true) ∧ s = w ++ t ∧ cs = w :: ds ∧ Parsed is t ds
  | .opt c :: is, s, cs => (∃ t, s = c :: t ∧ Parsed is t cs) ∨ Parsed is s cs
  | .ids :: is, s, cs => ∃ w t ds, IsList w ∧ s = w ++ t ∧ cs = w :: ds ∧ Parsed is t ds
  | .fin :: is, s, cs => s = [] ∧ Parsed is [] cs

theorem mem_takeWhile {p : Char → Bool} {s : List Char} {k : Nat} (hk : k ≤ (s.takeWhile p).length) :
    ∀ c ∈ s.take k, p c = true := by
  have : s.take k = (s.takeWhile p).take k := by
    rw [← List.takeWhile_append_dropWhile (p := p) (l := s), List.take_append_of_le_length (by simpa using hk)]
    simp
  intro c hc
  rw [this] at hc
  exact List.all_eq_true.1 List.all_takeWhile c (List.mem_of_mem_take hc)

theorem match_parsed (is : List Item) : ∀ (s : List Char) (cs : List (List Char)), matchItems is s = some cs → Parsed is s cs := by
  induction is with
  | nil =>
    intro s cs h
    simp only [matchItems, Option.some.injEq] at h
    exact h.symm
  | cons it is ih =>
    intro s cs h
    cases it with
    | lit c =>
      cases s with
      | nil => simp [matchItems] at h
      | cons d s =>
        simp only [matchItems] at h
        split at h
        · rename_i e
          exact ⟨s, by rw [e], ih _ _ h⟩
        · cases h
    | any =>
      cases s with
      | nil => simp [matchItems] at h
      | cons d s => exact ⟨d, s, rfl, ih _ _ h⟩
    | plus p =>
      simp only [matchItems] at h
      obtain ⟨k, hk, h⟩ := List.exists_of_findSome?_eq_some h
      rw [down_le] at hk
      split at h
      · cases h
      · rename_i h0
        simp only [Option.map_eq_some_iff] at h
        obtain ⟨ds, hd, rfl⟩ := h
        have hl : k ≤ s.length := Nat.le_trans hk (List.takeWhile_prefix p).length_le
        refine ⟨s.take k, s.drop k, ds, ?_, mem_takeWhile hk, (List.take_append_drop ..).symm, rfl, ih _ _ hd⟩
        intro h1
        have := congrArg List.length h1
        simp at this
        rcases this with h2 | h2
        · exact h0 h2
        · subst h2
          simp at hl
          exact h0 hl
    | opt c =>
      cases s with
      | nil => exact .inr (ih _ _ h)
      | cons d s =>
        simp only [matchItems] at h
        split at h
        · rename_i cs' he
          cases h
          split at he
          · rename_i e
            exact .inl ⟨s, by rw [e], ih _ _ he⟩
          · cases he
        · exact .inr (ih _ _ h)
    | ids =>
      simp only [matchItems] at h
      obtain ⟨k, hk, h⟩ := List.exists_of_findSome?_eq_some h
      split at h
      · rename_i hi
        simp only [Option.map_eq_some_iff] at h
        obtain ⟨ds, hd, rfl⟩ := h
        exact ⟨s.take k, s.drop k, ds, list_of_isIds _ true [] (fun _ => .nil) (fun h => nomatch h) hi,
          (List.take_append_drop ..).symm, rfl, ih _ _ hd⟩
      · cases h
    | fin =>
      cases s with
      | nil => exact ⟨rfl, ih _ _ h⟩
      | cons d s => simp [matchItems] at h

theorem parsed_lits (l : List Char) (is : List Item) (s : List Char) (cs : List (List Char)) :
    Parsed (l.map .lit ++ is) s cs ↔ ∃ t, s = l ++ t ∧ Parsed is t cs := by
  induction l generalizing s with
  | nil => simp
  | cons c l ih =>
    simp only [List.map_cons, List.cons_append, Parsed, ih]
    constructor
    · rintro ⟨t, rfl, u, rfl, h⟩
      exact ⟨u, rfl, h⟩
    · rintro ⟨u, rfl, h⟩
      exact ⟨l ++ u, rfl, u, rfl, h⟩

theorem parsed_fin (is : List Item) : ∀ (s : List Char) (cs : List (List Char)), Parsed (is ++ [.fin]) s cs → Parsed is s cs := by
  induction is with
  | nil =>
    rintro s cs ⟨_, h⟩
    exact h
  | cons it is ih =>
    intro s cs h
    cases it with
    | lit c => obtain ⟨t, h1, h2⟩ := h; exact ⟨t, h1, ih _ _ h2⟩
    | any => obtain ⟨c, t, h1, h2⟩ := h; exact ⟨c, t, h1, ih _ _ h2⟩
    | plus p => obtain ⟨w, t, ds, h1, h2, h3, h4, h5⟩ := h; exact ⟨w, t, ds, h1, h2, h3, h4, ih _ _ h5⟩
    | opt c =>
      rcases h with ⟨t, h1, h2⟩ | h
      · exact .inl ⟨t, h1, ih _ _ h2⟩
      · exact .inr (ih _ _ h)
    | ids => obtain ⟨w, t, ds, h1, h2, h3, h4⟩ := h; exact ⟨w, t, ds, h1, h2, h3, ih _ _ h4⟩
    | fin => exact ⟨h.1, ih _ _ h.2⟩

theorem firstMatch_parsed {full : Bool} {path : List Char} {rs : List (Handler × List Item)} {h : Handler}
    {cs : List (List Char)} (hm : firstMatch full path rs = some (h, cs)) : ∃ is, (h, is) ∈ rs ∧ Parsed is path cs := by
  induction rs with
  | nil => cases hm
  | cons r rs ih =>
    obtain ⟨h', is⟩ := r
    rw [firstMatch] at hm
    split at hm
    · rename_i cs' he
      cases hm
      refine ⟨is, List.mem_cons_self .., ?_⟩
      cases full
      · exact match_parsed _ _ _ he
      · exact parsed_fin _ _ _ (match_parsed _ _ _ he)
    · obtain ⟨is', h1, h2⟩ := ih hm
      exact ⟨is', List.mem_cons_of_mem _ h1, h2⟩

theorem parsed_infra {is : List Item} {s : List Char} {cs : List (List Char)} (h : Parsed (ofInfra is) s cs) :
    ∃ i t ds, IsName i ∧ s = "/infrastructure/".toList ++ i ++ t ∧ cs = i :: ds ∧ Parsed is t ds := by
  obtain ⟨u, rfl, h'⟩ := (parsed_lits _ _ _ _).1 h
  obtain ⟨w, t, ds, h1, h2, rfl, rfl, h3⟩ := h'
  exact ⟨w, t, ds, ⟨h1, fun c hc => (isName_iff c).1 (h2 c hc)⟩, (List.append_assoc ..).symm, rfl, h3⟩

theorem parsed_number {is : List Item} {s : List Char} {cs : List (List Char)} (h : Parsed (.plus isDigit :: is) s cs) :
    ∃ n t ds, IsNumber n ∧ s = n ++ t ∧ cs = n :: ds ∧ Parsed is t ds := by
  obtain ⟨w, t, ds, h1, h2, rfl, rfl, h3⟩ := h
  exact ⟨w, t, ds, ⟨h1, fun c hc => by rw [← isDigit_iff]; exact h2 c hc⟩, rfl, rfl, h3⟩

theorem parsed_name {is : List Item} {s : List Char} {cs : List (List Char)} (h : Parsed (.plus isName :: is) s cs) :
    ∃ n t ds, IsName n ∧ s = n ++ t ∧ cs = n :: ds ∧ Parsed is t ds := by
  obtain ⟨w, t, ds, h1, h2, rfl, rfl, h3⟩ := h
  exact ⟨w, t, ds, ⟨h1, fun c hc => (isName_iff c).1 (h2 c hc)⟩, rfl, rfl, h3⟩

end Soro.Routing
