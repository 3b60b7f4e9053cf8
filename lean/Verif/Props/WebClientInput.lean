import Verif.Props.WebClient
import Verif.Props.RoutingClient

/-! Properties C191 to C194: the train ids, the search box, the highlighted routes and the legends of the web client. -/

namespace Soro.WebClient
open Routing Routing.Spec

/-! ### C191 -/

theorem fold_value (s : List Char) (n : Nat) :
    s.foldl (fun n c => 10 * n + (c.toNat - 48)) n = n * 10 ^ s.length + Utls.Spec.value s := Utls.foldl_value s n

theorem parseId_value {s : List Char} (h : s ≠ []) : parseId s = some (Utls.Spec.value s) := by
  rw [parseId, if_neg h, fold_value]
  simp

theorem split_digits {s : List Char} (h : ∀ c ∈ s, c ≠ ',') : splitComma s = [s] := by
  induction s with
  | nil => rfl
  | cons c s ih =>
    rw [splitComma, if_neg (h c (by simp)), ih fun d hd => h d (by simp [hd])]

theorem split_comma {s : List Char} (h : ∀ c ∈ s, c ≠ ',') (t : List Char) : splitComma (s ++ ',' :: t) = s :: splitComma t := by
  induction s with
  | nil => rw [List.nil_append, splitComma, if_pos rfl]
  | cons c s ih =>
    rw [List.cons_append, splitComma, if_neg (h c (by simp)), ih fun d hd => h d (by simp [hd])]

theorem no_comma {s : List Char} (h : ∀ c ∈ s, c.isDigit = true) : ∀ c ∈ s, c ≠ ',' := by
  rintro c hc rfl
  have := h _ hc
  revert this
  decide

theorem lists_isIds {s : List Char} {ns : List Nat} (h : OrderingJson.Lists s ns) (b : Bool) (hb : b = false → s ≠ []) :
    isIds b s = true := by
  have dig : ∀ {s : List Char} {n : Nat}, OrderingJson.IsNumber s n → ∀ b, isIds b s = true := by
    intro s n hs b
    obtain ⟨c, s, rfl⟩ := List.exists_cons_of_ne_nil hs.1
    have h2 : ∀ d ∈ c :: s, isDigit d = true := fun d hd => by rw [isDigit_iff]; exact hs.2.1 d hd
    rw [isIds, if_pos (h2 c (by simp))]
    exact isIds_digits fun d hd => h2 d (by simp [hd])
  induction h generalizing b with
  | none => cases b with
    | false => exact absurd rfl (hb rfl)
    | true => rfl
  | one s n hs => exact dig hs b
  | more s n rest ns hs hr _ ih => rw [isIds_comma (dig hs b)]; exact ih false fun _ => hr

theorem lists_split {s : List Char} {ns : List Nat} (h : OrderingJson.Lists s ns) (hs : s ≠ []) :
    (splitComma s).map parseId = ns.map some := by
  induction h with
  | none => exact absurd rfl hs
  | one s n h => rw [split_digits (no_comma h.2.1)]; simp [parseId_value h.1, h.2.2.1]
  | more s n rest ns h hr _ ih =>
    rw [split_comma (no_comma h.2.1), List.map_cons, ih hr, parseId_value h.1, h.2.2.1, List.map_cons]

theorem split_lists (s : List Char) : ∀ (w : List Char), (∀ c ∈ w, c.isDigit = true) → isIds true s = true →
    ∀ ns : List Nat, (splitComma (w ++ s)).map parseId = ns.map some → (∀ n ∈ ns, n < 2 ^ 32) → OrderingJson.Lists (w ++ s) ns := by
  have fin : ∀ (w : List Char), (∀ c ∈ w, c.isDigit = true) → ∀ m : Nat, parseId w = some m → m < 2 ^ 32 →
      OrderingJson.IsNumber w m := by
    intro w hw m hm hb
    have h0 : w ≠ [] := fun e => by simp [parseId, e] at hm
    rw [parseId_value h0, Option.some.injEq] at hm
    exact ⟨h0, hw, hm, hb⟩
  induction s with
  | nil =>
    intro w hw _ ns h hb
    rw [List.append_nil] at h ⊢
    rw [split_digits (no_comma hw)] at h
    match ns, h with
    | [m], h =>
      rw [List.map_cons, List.map_cons, List.cons.injEq] at h
      exact .one _ _ (fin w hw m h.1 (hb m (by simp)))
    | [], h => simp at h
    | _ :: _ :: _, h => simp at h
  | cons c s ih =>
    intro w hw hi ns h hb
    rw [isIds] at hi
    split at hi
    · rename_i hc
      rw [isDigit_iff] at hc
      have := ih (w ++ [c]) (by
        intro d hd
        rcases List.mem_append.1 hd with h | h
        · exact hw d h
        · rw [List.mem_singleton.1 h]; exact hc) hi ns (by simpa using h) hb
      simpa using this
    · split at hi
      · rename_i hc
        subst hc
        rw [split_comma (no_comma hw)] at h
        match ns, h with
        | m :: ns, h =>
          rw [List.map_cons, List.map_cons, List.cons.injEq] at h
          have hne : s ≠ [] := by
            rintro rfl
            simp [isIds] at hi
          have hi' : isIds true s = true := by
            obtain ⟨d, s, rfl⟩ := List.exists_cons_of_ne_nil hne
            simp only [Bool.true_and, isIds] at hi ⊢
            split at hi
            · rename_i hd
              rw [if_pos hd]; exact hi
            · simp at hi
          exact .more _ _ _ _ (fin w hw m h.1 (hb m (by simp))) hne
            (by simpa using ih [] (by simp) hi' ns (by simpa using h.2) fun n hn => hb n (by simp [hn]))
      · cases hi

/-- C191: the input for train ids hands on the numbers `ns` iff the text lists them, separated by commas, with at least one. -/
theorem C191_ids (s : List Char) (ns : List Nat) (hb : ∀ n ∈ ns, n < 2 ^ 32) :
    enterIds s = some (ns.map some) ↔ s ≠ [] ∧ OrderingJson.Lists s ns := by
  constructor
  · intro h
    unfold enterIds at h
    split at h
    · cases h
    · rename_i hn
      have hn' : s ≠ [] ∧ isIds true s = true := by
        refine ⟨fun e => hn (.inl e), ?_⟩
        cases hq : isIds true s with
        | true => rfl
        | false => exact absurd (.inr hq) hn
      exact ⟨hn'.1, by simpa using split_lists s [] (by simp) hn'.2 ns (by simpa using h) hb⟩
  · rintro ⟨h1, h2⟩
    have h3 := lists_isIds h2 true (fun h => nomatch h)
    rw [enterIds, if_neg (fun h => h.elim h1 (fun h => by rw [h3] at h; cases h)), lists_split h2 h1]

theorem idsText_csv (ns : List Nat) : idsText (ns.map some) = csv ns := by
  match ns with
  | [] => rfl
  | [n] => rfl
  | n :: m :: ns =>
    have := idsText_csv (m :: ns)
    simp only [List.map_cons] at this ⊢
    rw [idsText, this]
    rfl

/-- C191: the server reads the request for a text that lists train ids as a request for these trains and this interval. -/
theorem C191_request (full : Bool) (i t : List Char) (hi : IsName i) (ht : IsName t) (a b : Nat) (hab : a ≤ b) (hb : b < 2 ^ 32)
    (s : List Char) (ns : List Nat) (hs : s ≠ []) (hl : OrderingJson.Lists s ns) (hns : ∀ n ∈ ns, n < 2 ^ 32) :
    ∃ l p q u, enterIds s = some l ∧ dispatch full (orderingPath i t a b l) = (.ordering, [i, t, p, q, u]) ∧
      OrderingJson.paramsToFilter p q u = some ⟨a, b, ns⟩ := by
  obtain ⟨p, q, u, h1, h2⟩ := C187_ordering full i t hi ht a b ns hab hb hns
  refine ⟨ns.map some, p, q, u, (C191_ids s ns hns).2 ⟨hs, hl⟩, ?_, h2⟩
  delta orderingPath
  rewrite [idsText_csv]
  exact h1

theorem idText_eq (o : Option Nat) : ∀ c ∈ idText o, c ≠ '=' := by
  cases o with
  | none => decide
  | some n =>
    rintro c hc rfl
    have := (dec_digits n).2.1 _ hc
    revert this
    decide

theorem idsText_eq (l : List (Option Nat)) : ∀ c ∈ idsText l, c ≠ '=' := by
  match l with
  | [] => simp [idsText]
  | [n] => exact idText_eq n
  | n :: m :: ns =>
    intro c hc
    rw [idsText, List.mem_append, List.mem_cons] at hc
    rcases hc with h | rfl | h
    · exact idText_eq n c h
    · decide
    · exact idsText_eq (m :: ns) c h

theorem last_eq {c : Char} {x x' y y' : List Char} (h : x ++ c :: y = x' ++ c :: y') (hy : ∀ d ∈ y, d ≠ c) (hy' : ∀ d ∈ y', d ≠ c) :
    y = y' := by
  have : ∀ {x y : List Char}, (∀ d ∈ y, d ≠ c) → (x ++ c :: y).reverse.takeWhile (· ≠ c) = y.reverse := by
    intro x y hy
    rw [List.reverse_append, List.reverse_cons, List.append_assoc, List.takeWhile_append_of_pos]
    · simp
    · intro d hd
      simpa using hy d (List.mem_reverse.1 hd)
  have e := this (x := x) hy
  rw [h, this hy'] at e
  exact (List.reverse_injective e).symm

theorem isList_chars {s : List Char} (h : IsList s) : ∀ c ∈ s, c.isDigit = true ∨ c = ',' := by
  induction h with
  | nil => simp
  | one s h => exact fun c hc => .inl (h.2 c hc)
  | more s t _ ht ih =>
    intro c hc
    rcases List.mem_append.1 hc with h | h
    · exact ih c h
    · rcases List.mem_cons.1 h with rfl | h
      · exact .inr rfl
      · exact .inl (ht.2 c h)

theorem assocN (p i m t o f a u b v n : List Char) :
    p ++ i ++ m ++ t ++ o ++ f ++ a ++ u ++ b ++ v ++ n = p ++ (i ++ (m ++ (t ++ (o ++ f ++ a ++ u ++ b ++ v ++ n)))) := by
  simp only [List.append_assoc]

theorem not_ordering {full : Bool} {i t : List Char} (hi : IsName i) (a b : Nat) (l : List (Option Nat)) :
    dispatch full (orderingPath i t a b (none :: l)) = (.file, []) := by
  delta orderingPath
  rewrite [assocN]
  generalize hr : "/ordering?".toList ++ "from=".toList ++ dec a ++ "&to=".toList ++ dec b ++ "&trainIds=".toList ++
    idsText (none :: l) = rest
  rewrite [dispatch_under (t := "/timetable/".toList ++ (t ++ rest)) hi ⟨_, rfl⟩]
  have hq : '?' ∈ rest := by
    subst hr
    simp only [List.mem_append]
    exact .inl (.inl (.inl (.inl (.inl (.inl (by decide))))))
  have hlast : ∃ x, rest = x ++ '=' :: idsText (none :: l) := by
    refine ⟨"/ordering?".toList ++ "from=".toList ++ dec a ++ "&to=".toList ++ dec b ++ "&trainIds".toList, ?_⟩
    rw [← hr]
    have : "&trainIds=".toList = "&trainIds".toList ++ ['='] := by decide
    rw [this]
    simp only [List.append_assoc, List.singleton_append]
  have hN : 'N' ∈ idsText (none :: l) := by
    cases l with
    | nil => decide
    | cons m l =>
      rw [idsText, List.mem_append]
      exact .inl (by decide)
  have h1 : ∀ cs, ¬ Parsed [.plus isName, .opt '/', .fin] (t ++ rest) cs := by
    rintro cs ⟨w, u, ds, _, h2, h3, _, h4⟩
    have hm : '?' ∈ w ++ u := by rw [← h3]; exact List.mem_append_right _ hq
    rcases List.mem_append.1 hm with h | h
    · have := h2 _ h
      revert this
      decide
    · rcases h4 with ⟨v, rfl, rfl, _⟩ | ⟨rfl, _⟩
      · revert h
        decide
      · cases h
  have h2 : ∀ cs, ¬ Parsed (.plus isName :: (text "/ordering?from=" ++ (.plus isDigit :: (text "&to=" ++
      (.plus isDigit :: (text "&trainIds=" ++ [.ids, .fin])))))) (t ++ rest) cs := by
    intro cs hp
    obtain ⟨n, u1, d1, _, e1, _, hp⟩ := parsed_name hp
    obtain ⟨u2, e2, hp⟩ := (parsed_lits _ _ _ _).1 hp
    obtain ⟨n3, u3, d3, _, e3, _, hp⟩ := parsed_number hp
    obtain ⟨u4, e4, hp⟩ := (parsed_lits _ _ _ _).1 hp
    obtain ⟨n5, u5, d5, _, e5, _, hp⟩ := parsed_number hp
    obtain ⟨u6, e6, hp⟩ := (parsed_lits _ _ _ _).1 hp
    obtain ⟨w, u7, d7, hw, e7, _, rfl, _⟩ := hp
    obtain ⟨x, hx⟩ := hlast
    have hwe : ∀ d ∈ w, d ≠ '=' := by
      rintro d hd rfl
      have := isList_chars hw _ hd
      revert this
      decide
    have e : (t ++ x) ++ '=' :: idsText (none :: l) =
        (n ++ "/ordering?from=".toList ++ n3 ++ "&to=".toList ++ n5 ++ "&trainIds".toList) ++ '=' :: w := by
      rw [List.append_assoc, ← hx, e1, e2, e3, e4, e5, e6, e7]
      have : "&trainIds=".toList = "&trainIds".toList ++ ['='] := by decide
      rw [this]
      simp only [List.append_assoc, List.singleton_append, List.append_nil]
    have := last_eq e (idsText_eq _) hwe
    rw [this] at hN
    have := isList_chars hw _ hN
    revert this
    decide
  have none_of : ∀ {is : List Item} {s : List Char}, (∀ cs, ¬ Parsed is s cs) → matchItems is s = none ∧
      matchItems (is ++ [.fin]) s = none := by
    intro is s h
    constructor
    · cases hm : matchItems is s with
      | none => rfl
      | some cs => exact absurd (match_parsed _ _ _ hm) (h cs)
    · cases hm : matchItems (is ++ [.fin]) s with
      | none => rfl
      | some cs => exact absurd (parsed_fin _ _ _ (match_parsed _ _ _ hm)) (h cs)
  have : firstMatch full ("/timetable/".toList ++ (t ++ rest)) tails = none := by
    simp only [tails]
    change firstMatch full _ ((_, List.map .lit _ ++ _) :: (_, List.map .lit _ ++ _) :: (_, List.map .lit _ ++ _) ::
      (_, List.map .lit _ ++ _) :: (_, List.map .lit _ ++ _) :: (_, List.map .lit _ ++ _) :: (_, List.map .lit _ ++ _) ::
      (_, List.map .lit _ ++ _) :: (_, List.map .lit _ ++ _) :: (_, List.map .lit _ ++ _) :: (_, List.map .lit _ ++ _) ::
      (_, List.map .lit _ ++ _) :: _) = none
    iterate 10 rw [first_skip]
    · rw [first_none (none_of h1).1 (none_of h1).2, first_none (none_of h2).1 (none_of h2).2]
      rfl
    all_goals decide
  rw [this]
  rfl

/-- C191 is false for texts that begin with a comma: the rule of the input accepts them, as it accepts the empty text before the
first comma, the first id becomes `NaN`, and the request goes to the static files, for every infrastructure, timetable and
interval. -/
theorem C191_comma_negation (full : Bool) (i t : List Char) (hi : IsName i) (a b : Nat) (s : List Char) (ns : List Nat)
    (hs : s ≠ []) (hl : OrderingJson.Lists s ns) :
    enterIds (',' :: s) = some (none :: ns.map some) ∧
      dispatch full (orderingPath i t a b (none :: ns.map some)) = (.file, []) := by
  refine ⟨?_, not_ordering hi a b _⟩
  have h : isIds true (',' :: s) = true := by
    rw [isIds, if_neg (by decide), if_pos rfl, lists_isIds hl false fun _ => hs]
    rfl
  rw [enterIds, if_neg (fun h' => h'.elim (fun h' => nomatch h') (fun h' => by rw [h] at h'; cases h'))]
  rw [splitComma, if_pos rfl, List.map_cons, lists_split hl hs]
  rfl

example : OrderingJson.Lists "4,17".toList [4, 17] ∧ enterIds "4,17".toList = some [some 4, some 17] ∧
    enterIds "4,,17".toList = none ∧ enterIds ",17".toList = some [none, some 17] :=
  ⟨.more "4".toList 4 "17".toList [17] ⟨by decide, by decide, by decide, by decide⟩ (by decide)
    (.one _ _ ⟨by decide, by decide, by decide, by decide⟩), by decide, by decide, by decide⟩
example : IsName "de_iss".toList ∧ IsName "tt-1".toList := ⟨⟨by decide, by decide⟩, by decide, by decide⟩

/-! ### C192 -/

variable {ν ρ : Type}

/-- C192 for answers in the order of the requests: when all are answered, the results are those of the last text, if it has three
characters or more, for the infrastructure chosen; provided that the server answers and the infrastructure is not changed after the
text. Missing: see the negations. -/
theorem C192_last_partial (srv : ν → List Char → Option (List ρ)) (s : Search ν ρ) (pre post : List (SearchEvent ν)) (q : List Char)
    (hq : 3 ≤ q.length) (h1 : ∀ p, .typed p ∉ post) (h2 : ∀ i, .infra i ∉ post) (h3 : ∀ k, .answer k ∈ post → k = 0)
    (hs : (searchRun srv (pre ++ .typed q :: post) s).asked = []) (l : List ρ)
    (hl : srv (searchRun srv (pre ++ .typed q :: post) s).infra q = some l) :
    (searchRun srv (pre ++ .typed q :: post) s).results = l ∧ (searchRun srv (pre ++ .typed q :: post) s).text = q := by
  have key : ∀ (post : List (SearchEvent ν)) (s : Search ν ρ) (i : ν), (∀ p, .typed p ∉ post) → (∀ i, .infra i ∉ post) →
      (∀ k, .answer k ∈ post → k = 0) → s.infra = i → s.text = q →
      ((∃ A, s.asked = A ++ [(i, q)]) ∨ (s.asked = [] ∧ ∀ l, srv i q = some l → s.results = l)) →
      (searchRun srv post s).infra = i ∧ (searchRun srv post s).text = q ∧
        ((searchRun srv post s).asked = [] → ∀ l, srv i q = some l → (searchRun srv post s).results = l) := by
    intro post
    induction post with
    | nil =>
      intro s i _ _ _ hi ht h
      refine ⟨hi, ht, fun ha => ?_⟩
      rcases h with ⟨A, h⟩ | ⟨_, h⟩
      · change s.asked = [] at ha
        rw [ha] at h
        simp at h
      · exact h
    | cons e post ih =>
      intro s i a1 a2 a3 hi ht h
      have go := fun s' => ih s' i (fun p hp => a1 p (by simp [hp])) (fun p hp => a2 p (by simp [hp])) (fun p hp => a3 p (by simp [hp]))
      cases e with
      | typed p => exact absurd (by simp) (a1 p)
      | infra j => exact absurd (by simp) (a2 j)
      | answer k =>
        obtain rfl := a3 k (by simp)
        refine go (s.step srv (.answer 0)) ?_ ?_ ?_
        · simp only [Search.step]
          split
          · exact hi
          · split <;> exact hi
        · simp only [Search.step]
          split
          · exact ht
          · split <;> exact ht
        · simp only [Search.step]
          rcases h with ⟨A, h⟩ | ⟨h, h'⟩
          · cases A with
            | nil =>
              rw [List.nil_append] at h
              simp only [h, List.getElem?_cons_zero, List.eraseIdx_cons_zero]
              refine .inr ?_
              cases hv : srv i q with
              | none => simp
              | some l => simp
            | cons p A =>
              simp only [h, List.cons_append, List.getElem?_cons_zero, List.eraseIdx_cons_zero]
              refine .inl ⟨A, ?_⟩
              split <;> rfl
          · simp only [h, List.getElem?_nil]
            exact .inr ⟨by first | exact h | trivial, h'⟩
  have e : searchRun srv (pre ++ .typed q :: post) s = searchRun srv post ((searchRun srv pre s).step srv (.typed q)) := by
    simp [searchRun, List.foldl_append]
  rw [e] at hs hl ⊢
  have hst : (searchRun srv pre s).step srv (.typed q) =
      { searchRun srv pre s with text := q, asked := (searchRun srv pre s).asked ++ [((searchRun srv pre s).infra, q)] } := by
    simp only [Search.step]
    rw [if_neg (by omega)]
  have := key post ((searchRun srv pre s).step srv (.typed q)) (searchRun srv pre s).infra h1 h2 h3 (by rw [hst]) (by rw [hst])
    (.inl ⟨(searchRun srv pre s).asked, by rw [hst]⟩)
  rw [this.1] at hl
  exact ⟨this.2.2 hs l hl, this.2.1⟩

/-- C192: after a text of less than three characters there are no results, if no answer was missing. -/
theorem C192_short (srv : ν → List Char → Option (List ρ)) (s : Search ν ρ) (pre post : List (SearchEvent ν)) (q : List Char)
    (hq : q.length < 3) (hs : (searchRun srv pre s).asked = []) (h1 : ∀ p, .typed p ∉ post) :
    (searchRun srv (pre ++ .typed q :: post) s).results = [] := by
  have key : ∀ (post : List (SearchEvent ν)) (s : Search ν ρ), (∀ p, .typed p ∉ post) → s.asked = [] → s.results = [] →
      (searchRun srv post s).results = [] := by
    intro post
    induction post with
    | nil => exact fun s _ _ h => h
    | cons e post ih =>
      intro s a1 ha hr
      have go := fun s' => ih s' (fun p hp => a1 p (by simp [hp]))
      cases e with
      | typed p => exact absurd (by simp) (a1 p)
      | infra j => exact go (s.step srv (.infra j)) ha hr
      | answer k =>
        have : s.step srv (.answer k) = s := by simp [Search.step, ha]
        have h := go s ha hr
        rw [searchRun, List.foldl_cons, this]
        exact h
  have e : searchRun srv (pre ++ .typed q :: post) s = searchRun srv post ((searchRun srv pre s).step srv (.typed q)) := by
    simp [searchRun, List.foldl_append]
  have hst : (searchRun srv pre s).step srv (.typed q) = { searchRun srv pre s with text := q, results := [] } := by
    simp only [Search.step]
    rw [if_pos hq]
  rw [e]
  exact key post _ h1 (by rw [hst]; exact hs) (by rw [hst])

section
attribute [local simp] searchRun Search.step

/-- C192 is false if the text is shortened before the answer comes: the results of the longer text appear under the short text. -/
theorem C192_late_negation (srv : ν → List Char → Option (List ρ)) (i : ν) (q p : List Char) (l : List ρ) (hq : 3 ≤ q.length)
    (hp : p.length < 3) (h : srv i q = some l) :
    searchRun srv [.typed q, .typed p, .answer 0] ⟨i, [], [], []⟩ = ⟨i, p, l, []⟩ := by
  have : ¬ q.length < 3 := by omega
  simp [this, hp, h]

/-- C192 is false if the answers overtake each other: the results of the first text stay. -/
theorem C192_overtaken_negation (srv : ν → List Char → Option (List ρ)) (i : ν) (q p : List Char) (l m : List ρ) (hq : 3 ≤ q.length)
    (hp : 3 ≤ p.length) (h : srv i q = some l) (h' : srv i p = some m) :
    searchRun srv [.typed q, .typed p, .answer 1, .answer 0] ⟨i, [], [], []⟩ = ⟨i, p, l, []⟩ := by
  have h1 : ¬ q.length < 3 := by omega
  have h2 : ¬ p.length < 3 := by omega
  simp [h1, h2, h, h']

/-- C192 is false if the server does not answer the last text, for example because of a blank in it, see `C187_search_negation`:
the results of the text before stay. -/
theorem C192_failed_negation (srv : ν → List Char → Option (List ρ)) (i : ν) (q p : List Char) (l : List ρ) (hq : 3 ≤ q.length)
    (hp : 3 ≤ p.length) (h : srv i q = some l) (h' : srv i p = none) :
    searchRun srv [.typed q, .answer 0, .typed p, .answer 0] ⟨i, [], [], []⟩ = ⟨i, p, l, []⟩ := by
  have h1 : ¬ q.length < 3 := by omega
  have h2 : ¬ p.length < 3 := by omega
  simp [h1, h2, h, h']

/-- C192 is false if another infrastructure is chosen: the results of the first one stay. -/
theorem C192_infra_negation (srv : ν → List Char → Option (List ρ)) (i j : ν) (q : List Char) (l : List ρ) (hq : 3 ≤ q.length)
    (h : srv i q = some l) : searchRun srv [.typed q, .answer 0, .infra j] ⟨i, [], [], []⟩ = ⟨j, q, l, []⟩ := by
  have h1 : ¬ q.length < 3 := by omega
  simp [h1, h]

end

/-- a server that finds the text itself, with the infrastructure -/
def exSearch (i : Nat) (q : List Char) : Option (List (Nat × List Char)) := if ' ' ∈ q then none else some [(i, q)]

example : (searchRun exSearch [.typed "AAA".toList, .typed "AAAB".toList, .answer 0, .answer 0] ⟨7, [], [], []⟩).asked = [] ∧
    (searchRun exSearch [.typed "AAA".toList, .typed "AAAB".toList, .answer 0, .answer 0] ⟨7, [], [], []⟩).results =
      [(7, "AAAB".toList)] := by decide
example : exSearch 7 "AAA".toList = some [(7, "AAA".toList)] ∧ exSearch 7 "AA B".toList = none ∧ exSearch 8 "AAA".toList ≠
    exSearch 7 "AAA".toList := by decide

/-! ### C193 -/

/-- C193: a route is shown when it was added and not deleted since, the server knows it and has answered, whatever else is added,
deleted and answered in which order. -/
theorem C193_added (ok : Nat → Bool) (s : Routes) (pre post : List RouteEvent) (r : Nat) (hr : ok r = true)
    (hd : .delete r ∉ post) (ha : r ∉ (routesRun ok (pre ++ .add r :: post) s).asked) :
    r ∈ (routesRun ok (pre ++ .add r :: post) s).shown := by
  have key : ∀ (post : List RouteEvent) (s : Routes), .delete r ∉ post → (r ∈ s.asked ∨ r ∈ s.shown) →
      r ∈ (routesRun ok post s).asked ∨ r ∈ (routesRun ok post s).shown := by
    intro post
    induction post with
    | nil => exact fun s _ h => h
    | cons e post ih =>
      intro s hd h
      refine ih (s.step ok e) (fun h => hd (by simp [h])) ?_
      cases e with
      | add q =>
        rcases h with h | h
        · exact .inl (List.mem_append_left _ h)
        · exact .inr h
      | delete q =>
        have hq : r ≠ q := by
          rintro rfl
          exact hd (by simp)
        rcases h with h | h
        · exact .inl h
        · exact .inr (by simp [Routes.step, h, hq])
      | answer k =>
        simp only [Routes.step]
        cases hk : s.asked[k]? with
        | none => exact h
        | some q =>
          rcases h with h | h
          · by_cases hq : q = r
            · subst hq
              exact .inr (by simp [hr])
            · refine .inl ?_
              obtain ⟨j, hj⟩ := List.mem_iff_getElem?.1 h
              rw [List.mem_eraseIdx_iff_getElem?]
              exact ⟨j, fun e => by subst e; rw [hk] at hj; exact hq (Option.some.inj hj), hj⟩
          · refine .inr ?_
            change r ∈ if ok q then s.shown ++ [q] else s.shown
            split
            · exact List.mem_append_left _ h
            · exact h
  have e : routesRun ok (pre ++ .add r :: post) s = routesRun ok post ((routesRun ok pre s).step ok (.add r)) := by
    simp [routesRun, List.foldl_append]
  rw [e] at ha ⊢
  exact (key post _ hd (.inl (by simp [Routes.step]))).resolve_left ha

/-- C193: a route that was deleted and not added since is not shown, if no request for it was open when it was deleted. Missing:
open requests, see `C193_deleted_negation`. -/
theorem C193_deleted_partial (ok : Nat → Bool) (s : Routes) (pre post : List RouteEvent) (r : Nat) (hd : .add r ∉ post)
    (ha : r ∉ (routesRun ok pre s).asked) : r ∉ (routesRun ok (pre ++ .delete r :: post) s).shown := by
  have key : ∀ (post : List RouteEvent) (s : Routes), .add r ∉ post → r ∉ s.asked → r ∉ s.shown →
      r ∉ (routesRun ok post s).shown := by
    intro post
    induction post with
    | nil => exact fun s _ _ h => h
    | cons e post ih =>
      intro s hd h1 h2
      have go := ih (s.step ok e) (fun h => hd (by simp [h]))
      cases e with
      | add q =>
        have hq : r ≠ q := by
          rintro rfl
          exact hd (by simp)
        exact go (by simp [Routes.step, h1, hq]) h2
      | delete q => exact go h1 (by simp [Routes.step, h2])
      | answer k =>
        cases hk : s.asked[k]? with
        | none =>
          have e : s.step ok (.answer k) = s := by simp [Routes.step, hk]
          rw [routesRun, List.foldl_cons, e]
          exact ih s (fun h => hd (by simp [h])) h1 h2
        | some q =>
          have hq : r ≠ q := by
            rintro rfl
            exact h1 (List.mem_of_getElem? hk)
          have e : s.step ok (.answer k) = ⟨if ok q then s.shown ++ [q] else s.shown, s.asked.eraseIdx k⟩ := by
            simp [Routes.step, hk]
          rw [routesRun, List.foldl_cons, e]
          refine ih _ (fun h => hd (by simp [h])) (fun h => h1 (List.mem_of_mem_eraseIdx h)) ?_
          change r ∉ if ok q then s.shown ++ [q] else s.shown
          split
          · simp [h2, hq]
          · exact h2
  have e : routesRun ok (pre ++ .delete r :: post) s = routesRun ok post ((routesRun ok pre s).step ok (.delete r)) := by
    simp [routesRun, List.foldl_append]
  rw [e]
  exact key post _ hd ha (by simp [Routes.step])

/-- C193: a route that was never added is not shown. -/
theorem C193_only (ok : Nat → Bool) (evs : List RouteEvent) (r : Nat) (h : .add r ∉ evs) : r ∉ (routesRun ok evs ⟨[], []⟩).shown := by
  have := C193_deleted_partial ok ⟨[], []⟩ [] evs r h (by simp [routesRun])
  simpa [routesRun, Routes.step] using this

/-- C193 is false if a route is deleted before the answer comes: it is shown afterwards. -/
theorem C193_deleted_negation (ok : Nat → Bool) (r : Nat) (hr : ok r = true) :
    routesRun ok [.add r, .delete r, .answer 0] ⟨[], []⟩ = ⟨[r], []⟩ := by
  simp [routesRun, Routes.step, hr]

example : routesRun (· < 9) [.add 3, .add 4, .add 12, .answer 1, .delete 4, .answer 0, .answer 0] ⟨[], []⟩ = ⟨[3], []⟩ := rfl

/-! ### C194 -/

variable {κ : Type} [DecidableEq κ]

theorem checked_snoc (init : List κ) (m : Nat) (c : κ) (evs : List (LegendEvent κ)) (e : LegendEvent κ) :
    Checked init m c (evs ++ [e]) ↔ (e = .reset m ∧ c ∈ init) ∨ e = .check m c ∨
      (Checked init m c evs ∧ (∀ d, e = .uncheck m d → d ≠ c) ∧ e ≠ .reset m) := by
  constructor
  · intro h
    generalize hx : evs ++ [e] = x at h
    cases h with
    | initially h => simp at hx
    | reset evs' h => exact .inl ⟨by simpa using (List.append_inj' hx rfl).2, h⟩
    | check evs' => exact .inr (.inl (by simpa using (List.append_inj' hx rfl).2))
    | other evs' e' h h1 h2 =>
      obtain ⟨rfl, he⟩ := List.append_inj' hx rfl
      obtain rfl : e = e' := by simpa using he
      exact .inr (.inr ⟨h, h1, h2⟩)
  · rintro (⟨rfl, h⟩ | rfl | ⟨h, h1, h2⟩)
    · exact .reset _ h
    · exact .check _
    · exact .other _ _ h h1 h2

/-- the maps at their reset state after an event -/
def resetStep (f : Nat → Bool) : LegendEvent κ → Nat → Bool
  | .check _ _ => f
  | .uncheck m _ => fun j => if j = m then false else f j
  | .reset m => fun j => if j = m then true else f j

theorem careful_cons (f : Nat → Bool) (e : LegendEvent κ) (evs : List (LegendEvent κ)) :
    Careful f (e :: evs) ↔ Careful f [e] ∧ Careful (resetStep f e) evs := by
  cases e <;> simp [Careful, resetStep]

theorem careful_snoc (f : Nat → Bool) (evs : List (LegendEvent κ)) (e : LegendEvent κ) :
    Careful f (evs ++ [e]) ↔ Careful f evs ∧ Careful (evs.foldl resetStep f) [e] := by
  induction evs generalizing f with
  | nil => simp [Careful]
  | cons a evs ih => rw [List.cons_append, careful_cons, ih, careful_cons f a evs, List.foldl_cons, and_assoc]

/-- C194 for users who check nothing on a map between a reset of this map and the next unchecking on it: a control is checked on a
map iff it was checked there, or at the beginning or at the last reset as one of the initial controls, and not unchecked since.
Other maps do not matter. Missing: checking after a reset, see the negations. -/
theorem C194_checked_partial (init : List κ) (evs : List (LegendEvent κ)) (h : Careful (fun _ => false) evs) (m : Nat) (c : κ) :
    c ∈ (legendRun evs (.init init)).checked m ↔ Checked init m c evs := by
  have key : (legendRun evs (.init init)).initially = init ∧
      (∀ j, evs.foldl resetStep (fun _ => false) j = false → ∃ l, (legendRun evs (.init init)).maps j = .own l) ∧
      (∀ m c, c ∈ (legendRun evs (.init init)).checked m ↔ Checked init m c evs) := by
    induction evs using List.reverseRecOn with
    | nil =>
      refine ⟨rfl, fun j _ => ⟨init, rfl⟩, fun m c => ⟨fun h => .initially h, fun h => ?_⟩⟩
      generalize hx : ([] : List (LegendEvent κ)) = x at h
      cases h with
      | initially h => exact h
      | reset evs' h => simp at hx
      | check evs' => simp at hx
      | other evs' e' h h1 h2 => simp at hx
    | append_singleton evs e ih =>
      obtain ⟨hc, he⟩ := (careful_snoc _ _ _).1 h
      obtain ⟨i1, i2, i3⟩ := ih hc
      have er : legendRun (evs ++ [e]) (.init init) = (legendRun evs (.init init)).step e := by
        simp [legendRun, List.foldl_append]
      rw [er]
      generalize legendRun evs (.init init) = s at i1 i2 i3 ⊢
      rw [List.foldl_append]
      generalize evs.foldl resetStep (fun _ => false) = f at i2 he ⊢
      cases e with
      | check n d =>
        obtain ⟨l, hl⟩ := i2 n he.1
        have es : s.step (.check n d) = { s with maps := setMap s.maps n (.own (l ++ [d])) } := by simp [Legends.step, hl]
        rw [es]
        refine ⟨i1, fun j hj => ?_, fun m c => ?_⟩
        · by_cases hjn : j = n
          · exact ⟨l ++ [d], by simp [setMap, hjn]⟩
          · obtain ⟨l', hl'⟩ := i2 j hj
            exact ⟨l', by simp [setMap, hjn, hl']⟩
        · rw [checked_snoc, ← i3 m c]
          by_cases hm : m = n
          · subst hm
            simp [Legends.checked, setMap, hl]
            tauto
          · have hm' : ¬ n = m := fun e => hm e.symm
            simp [Legends.checked, setMap, hm, hm']
      | uncheck n d =>
        refine ⟨i1, fun j hj => ?_, fun m c => ?_⟩
        · by_cases hjn : j = n
          · exact ⟨(s.checked n).filter (· ≠ d), by simp [Legends.step, setMap, hjn]⟩
          · obtain ⟨l', hl'⟩ := i2 j (by simpa [resetStep, hjn] using hj)
            exact ⟨l', by simp [Legends.step, setMap, hjn, hl']⟩
        · rw [checked_snoc, ← i3 m c]
          by_cases hm : m = n
          · subst hm
            simp [Legends.step, Legends.checked, setMap]
            intro _
            exact ⟨fun h e => h e.symm, fun h e => h e.symm⟩
          · have hm' : ¬ n = m := fun e => hm e.symm
            simp [Legends.step, Legends.checked, setMap, hm, hm']
      | reset n =>
        refine ⟨i1, fun j hj => ?_, fun m c => ?_⟩
        · by_cases hjn : j = n
          · simp [resetStep, hjn] at hj
          · obtain ⟨l', hl'⟩ := i2 j (by simpa [resetStep, hjn] using hj)
            exact ⟨l', by simp [Legends.step, setMap, hjn, hl']⟩
        · rw [checked_snoc, ← i3 m c]
          by_cases hm : m = n
          · subst hm
            simp [Legends.step, Legends.checked, setMap, i1]
          · have hm' : ¬ n = m := fun e => hm e.symm
            simp [Legends.step, Legends.checked, setMap, hm, hm']
  exact key.2.2 m c

/-- C194 is false if a control is checked after a reset: the reset assigns the array of the initial controls itself, checking
changes this array, and after the next reset the control is still checked. -/
theorem C194_reset_negation (init : List κ) (c : κ) (hc : c ∉ init) :
    c ∈ (legendRun [.reset 0, .check 0 c, .reset 0] (.init init)).checked 0 ∧
      ¬ Checked init 0 c [.reset 0, .check 0 c, .reset 0] := by
  constructor
  · simp [legendRun, Legends.step, Legends.init, Legends.checked, setMap]
  · rw [show ([.reset 0, .check 0 c, .reset 0] : List (LegendEvent κ)) = [.reset 0, .check 0 c] ++ [.reset 0] from rfl, checked_snoc]
    simp [hc]

/-- C194 is false for two maps that were reset: a control that is checked on one of them is checked on the other, too. -/
theorem C194_shared_negation (init : List κ) (c : κ) (hc : c ∉ init) :
    c ∈ (legendRun [.reset 0, .reset 1, .check 0 c] (.init init)).checked 1 ∧
      ¬ Checked init 1 c [.reset 0, .reset 1, .check 0 c] := by
  constructor
  · simp [legendRun, Legends.step, Legends.init, Legends.checked, setMap]
  · rw [show ([.reset 0, .reset 1, .check 0 c] : List (LegendEvent κ)) = ([.reset 0] ++ [.reset 1]) ++ [.check 0 c] from rfl,
      checked_snoc, checked_snoc]
    simp [hc]

example : Careful (fun _ => false) ([.check 0 5, .uncheck 0 1, .reset 0, .uncheck 0 2, .check 0 7, .check 1 9] : List (LegendEvent Nat)) ∧
    (legendRun [.check 0 5, .uncheck 0 1, .reset 0, .uncheck 0 2, .check 0 7, .check 1 9] (.init [1, 2])).checked 0 = [1, 7] := by
  refine ⟨?_, by decide⟩
  simp [Careful]

end Soro.WebClient
