import Verif.Spec.Cliques
import Verif.Props.Utls
import Verif.Props.Exclusion
import Verif.Props.ExclusionSet

/-! Lemmas about files with cliques and exported exclusion graphs. -/

namespace Soro.Cliques
open Utls Utls.Spec TypeNames Spec

/-! ### lines -/

theorem lines_cons (l : Text) (rest : Text) (h : '\n' ∉ l) : lines (l ++ '\n' :: rest) = l :: lines rest := by
  induction l with
  | nil => simp [lines]
  | cons c l ih =>
    have hc : ¬ c = '\n' := fun e => h (by simp [e])
    rw [List.cons_append, lines, if_neg hc, ih (fun hm => h (by simp [hm]))]

theorem lines_flat (ls : List Text) (h : ∀ l ∈ ls, '\n' ∉ l) : lines (ls.flatMap fun l => l ++ ['\n']) = ls := by
  induction ls with
  | nil => rfl
  | cons l ls ih =>
    rw [List.flatMap_cons, List.append_assoc, List.singleton_append, lines_cons _ _ (h l (by simp)),
      ih fun x hx => h x (by simp [hx])]

theorem lines_last (f : Text) (c : Char) (h : c ≠ '\n') : lines (f ++ [c] ++ ['\n']) = lines (f ++ [c]) := by
  induction f with
  | nil => simp [lines, h]
  | cons d f ih => rw [List.cons_append, List.cons_append, lines, lines, ih]

/-! ### tokens -/

theorem inter_cons (c : Char) (t u : Text) (ts : List Text) :
    [c].intercalate (t :: u :: ts) = t ++ c :: [c].intercalate (u :: ts) := by
  simp [List.intercalate, List.intersperse]

theorem inter_single (c : Char) (t : Text) : [c].intercalate [t] = t := by
  simp [List.intercalate, List.intersperse]

theorem append_sep_inj (c : Char) (a b x y : Text) (ha : c ∉ a) (hb : c ∉ b) (h : a ++ c :: x = b ++ c :: y) :
    a = b ∧ x = y := by
  induction a generalizing b with
  | nil =>
    cases b with
    | nil => simpa using h
    | cons d b =>
      simp only [List.nil_append, List.cons_append, List.cons.injEq] at h
      exact absurd (by simp [h.1]) hb
  | cons d a ih =>
    cases b with
    | nil =>
      simp only [List.nil_append, List.cons_append, List.cons.injEq] at h
      exact absurd (by simp [h.1]) ha
    | cons e b =>
      simp only [List.cons_append, List.cons.injEq] at h
      obtain ⟨h1, h2⟩ := ih b (fun hm => ha (by simp [hm])) (fun hm => hb (by simp [hm])) h.2
      exact ⟨by rw [h.1, h1], h2⟩

theorem inter_inj (c : Char) (ts us : List Text) (hts : ts ≠ []) (hus : us ≠ []) (ht : ∀ t ∈ ts, c ∉ t) (hu : ∀ u ∈ us, c ∉ u)
    (h : [c].intercalate ts = [c].intercalate us) : ts = us := by
  induction ts generalizing us with
  | nil => exact absurd rfl hts
  | cons t ts ih =>
    cases us with
    | nil => exact absurd rfl hus
    | cons u us =>
      cases ts with
      | nil =>
        cases us with
        | nil => rw [inter_single, inter_single] at h; rw [h]
        | cons v us =>
          rw [inter_single, inter_cons] at h
          exact absurd (by rw [h]; simp) (ht t (by simp))
      | cons t' ts =>
        cases us with
        | nil =>
          rw [inter_single, inter_cons] at h
          exact absurd (by rw [← h]; simp) (hu u (by simp))
        | cons v us =>
          rw [inter_cons, inter_cons] at h
          obtain ⟨h1, h2⟩ := append_sep_inj c _ _ _ _ (ht t (by simp)) (hu u (by simp)) h
          rw [h1, ih (v :: us) (by simp) (by simp) (fun x hx => ht x (by simp [hx])) (fun x hx => hu x (by simp [hx])) h2]

theorem split_single (s : Text) (c : Char) (hs : s ≠ []) :
    ∃ ts, split (s.length + 1) s [c] = some ts ∧ ts ≠ [] ∧ [c].intercalate ts = s ∧ ∀ t ∈ ts, c ∉ t := by
  obtain ⟨ts, h1, h2, h3, h4⟩ := C61_split s [c] (by simp) hs (s.length + 1) (by omega)
  refine ⟨ts, h1, h2, h3, fun t ht hc => h4 t ht ?_⟩
  obtain ⟨a, b, rfl⟩ := List.append_of_mem hc
  exact ⟨a, b, by simp⟩

theorem split_inter (ts : List Text) (c : Char) (hne : [c].intercalate ts ≠ []) (h : ∀ t ∈ ts, c ∉ t) :
    split (([c].intercalate ts).length + 1) ([c].intercalate ts) [c] = some ts := by
  obtain ⟨us, h1, h2, h3, h4⟩ := split_single _ c hne
  have hts : ts ≠ [] := by rintro rfl; exact hne rfl
  rw [h1, inter_inj c us ts h2 hts h4 h h3]

theorem digit_ne {c : Char} (h : c.isDigit = true) : c ≠ ' ' ∧ c ≠ '\n' :=
  ⟨by rintro rfl; exact absurd h (by decide), by rintro rfl; exact absurd h (by decide)⟩

theorem numeral_chars {t : Text} {v : Int} (h : Numeral ⟨false, 4⟩ t v) : t ≠ [] ∧ ∀ c ∈ t, c.isDigit = true := by
  rcases h with ⟨h1, h2, _⟩ | ⟨h1, _⟩
  · exact ⟨h1, h2⟩
  · exact absurd h1 (by simp)

theorem inter_mem (c : Char) (ts : List Text) (x : Char) (h : x ∈ [c].intercalate ts) : x = c ∨ ∃ t ∈ ts, x ∈ t := by
  induction ts with
  | nil => exact absurd h (by simp [List.intercalate])
  | cons t ts ih =>
    cases ts with
    | nil => rw [inter_single] at h; exact .inr ⟨t, by simp, h⟩
    | cons u ts =>
      rw [inter_cons] at h
      rcases List.mem_append.1 h with h | h
      · exact .inr ⟨t, by simp, h⟩
      · rcases List.mem_cons.1 h with h | h
        · exact .inl h
        · rcases ih h with h | ⟨v, hv, hx⟩
          · exact .inl h
          · exact .inr ⟨v, by simp [hv], hx⟩

theorem line_newline {line : Text} {ids : List Nat} (h : LineOf line ids) : '\n' ∉ line := by
  obtain ⟨ts, rfl, h⟩ := h
  intro hm
  rcases inter_mem _ _ _ hm with hc | ⟨t, ht, hx⟩
  · exact absurd hc (by decide)
  · obtain ⟨i, hi⟩ := List.mem_iff_getElem?.1 ht
    obtain ⟨hl, hg⟩ := List.forall₂_iff_get.1 h
    obtain ⟨hlt, hi⟩ := List.getElem?_eq_some_iff.1 hi
    have := (hg i hlt (hl ▸ hlt)).1
    rw [List.get_eq_getElem, hi] at this
    exact (digit_ne ((numeral_chars this).2 _ hx)).2 rfl

theorem clique_line {line : Text} {ids : List Nat} (h : LineOf line ids) : clique line = ids := by
  obtain ⟨ts, rfl, h⟩ := h
  have hall : ∀ t ∈ ts, t ≠ [] ∧ ∀ c ∈ t, c.isDigit = true := by
    intro t ht
    obtain ⟨i, hi⟩ := List.mem_iff_getElem?.1 ht
    obtain ⟨hl, hg⟩ := List.forall₂_iff_get.1 h
    obtain ⟨hlt, hi⟩ := List.getElem?_eq_some_iff.1 hi
    have := (hg i hlt (hl ▸ hlt)).1
    rw [List.get_eq_getElem, hi] at this
    exact numeral_chars this
  have hmap : ts.map (fun t => (parseInt u32 t).toNat) = ids := by
    clear hall
    induction h with
    | nil => rfl
    | @cons t id ts ids h1 _ ih =>
      have : parseInt u32 t = id := C60_parse_int _ _ _ h1.1 (by
        have := h1.2
        constructor <;> simp [IntTy.min, IntTy.max, u32] <;> omega)
      rw [List.map_cons, ih, this]; simp
  unfold clique
  cases ts with
  | nil => simpa [List.intercalate, split] using hmap
  | cons t ts =>
    rw [split_inter, Option.getD_some, hmap]
    · cases ts with
      | nil => rw [inter_single]; exact (hall t (by simp)).1
      | cons u ts => rw [inter_cons]; simp
    · intro x hx hc
      exact (digit_ne ((hall x hx).2 _ hc)).1 rfl

theorem cliques_file {file : Text} {cs : List (List Nat)} (h : FileOf file cs) : (lines file).map clique = cs := by
  obtain ⟨ls, hf, h⟩ := h
  have hl : lines file = lines (ls.flatMap fun l => l ++ ['\n']) := by
    rcases hf with rfl | ⟨h1, f, c, rfl, h2⟩
    · rfl
    · rw [← h1, lines_last f c h2]
  rw [hl, lines_flat]
  clear hl hf
  · induction h with
    | nil => rfl
    | cons h1 _ ih => rw [List.map_cons, clique_line h1, ih]
  · intro l hl
    obtain ⟨i, hi⟩ := List.mem_iff_getElem?.1 hl
    obtain ⟨hlen, hg⟩ := List.forall₂_iff_get.1 h
    obtain ⟨hlt, hi⟩ := List.getElem?_eq_some_iff.1 hi
    have := hg i hlt (hlen ▸ hlt)
    rw [List.get_eq_getElem, hi] at this
    exact line_newline this

/-! ### sorting -/

theorem lexLt_iff (a b : List Nat) : lexLt a b = true ↔ Before a b := by
  induction a generalizing b with
  | nil =>
    cases b with
    | nil => simp only [lexLt, Bool.false_eq_true, false_iff]; rintro ⟨⟩
    | cons b bs => simp only [lexLt, true_iff]; exact .shorter
  | cons a as ih =>
    cases b with
    | nil => simp only [lexLt, Bool.false_eq_true, false_iff]; rintro ⟨⟩
    | cons b bs =>
      simp only [lexLt, Bool.or_eq_true, decide_eq_true_eq, Bool.and_eq_true, ih]
      constructor
      · rintro (h | ⟨rfl, h⟩)
        · exact .smaller h
        · exact .next h
      · rintro (_ | h | h)
        · exact .inl h
        · exact .inr ⟨rfl, h⟩

theorem before_total (a b : List Nat) : Before a b ∨ a = b ∨ Before b a := by
  induction a generalizing b with
  | nil =>
    cases b with
    | nil => exact .inr (.inl rfl)
    | cons b bs => exact .inl .shorter
  | cons a as ih =>
    cases b with
    | nil => exact .inr (.inr .shorter)
    | cons b bs =>
      rcases Nat.lt_trichotomy a b with h | rfl | h
      · exact .inl (.smaller h)
      · rcases ih bs with h | rfl | h
        · exact .inl (.next h)
        · exact .inr (.inl rfl)
        · exact .inr (.inr (.next h))
      · exact .inr (.inr (.smaller h))

theorem before_trans {a b c : List Nat} (h1 : Before a b) (h2 : Before b c) : Before a c := by
  induction h1 generalizing c with
  | shorter => cases h2 <;> exact .shorter
  | smaller h =>
    cases h2 with
    | smaller h' => exact .smaller (Nat.lt_trans h h')
    | next h' => exact .smaller h
  | next h ih =>
    cases h2 with
    | smaller h' => exact .smaller h'
    | next h' => exact .next (ih h')

theorem before_irrefl (a : List Nat) : ¬ Before a a := by
  induction a with
  | nil => rintro ⟨⟩
  | cons a as ih =>
    rintro (_ | h | h)
    · exact Nat.lt_irrefl _ h
    · exact ih h

/-- before or equal -/
def Le (a b : List Nat) : Prop := a = b ∨ Before a b

theorem le_trans {a b c : List Nat} (h1 : Le a b) (h2 : Le b c) : Le a c := by
  rcases h1 with rfl | h1
  · exact h2
  · rcases h2 with rfl | h2
    · exact .inr h1
    · exact .inr (before_trans h1 h2)

theorem le_antisymm {a b : List Nat} (h1 : Le a b) (h2 : Le b a) : a = b := by
  rcases h1 with rfl | h1
  · rfl
  · rcases h2 with rfl | h2
    · rfl
    · exact absurd (before_trans h1 h2) (before_irrefl _)

theorem insertLex_spec (a : List Nat) (l : List (List Nat)) (h : l.Pairwise Le) :
    (insertLex a l).Perm (a :: l) ∧ (insertLex a l).Pairwise Le := by
  induction l with
  | nil => exact ⟨.refl _, by simp [insertLex]⟩
  | cons b l ih =>
    rw [List.pairwise_cons] at h
    obtain ⟨h1, h2⟩ := ih h.2
    unfold insertLex
    by_cases hlt : lexLt b a = true
    · rw [if_pos hlt]
      refine ⟨(h1.cons b).trans (.swap a b l), List.pairwise_cons.2 ⟨fun x hx => ?_, h2⟩⟩
      rcases List.mem_cons.1 (h1.mem_iff.1 hx) with rfl | hx
      · exact .inr ((lexLt_iff _ _).1 hlt)
      · exact h.1 x hx
    · rw [if_neg hlt]
      refine ⟨.refl _, List.pairwise_cons.2 ⟨fun x hx => ?_, List.pairwise_cons.2 h⟩⟩
      have hab : Le a b := by
        rcases before_total a b with h' | h' | h'
        · exact .inr h'
        · exact .inl h'
        · exact absurd ((lexLt_iff _ _).2 h') hlt
      rcases List.mem_cons.1 hx with rfl | hx
      · exact hab
      · exact le_trans hab (h.1 x hx)

theorem sortLex_spec (l : List (List Nat)) : (sortLex l).Perm l ∧ (sortLex l).Pairwise Le := by
  induction l with
  | nil => exact ⟨.refl _, by simp [sortLex]⟩
  | cons a l ih =>
    obtain ⟨h1, h2⟩ := insertLex_spec a (sortLex l) ih.2
    exact ⟨h1.trans (ih.1.cons a), h2⟩

theorem sortLex_eq {l m : List (List Nat)} (h : l.Perm m) : sortLex l = sortLex m :=
  (((sortLex_spec l).1.trans h).trans (sortLex_spec m).1.symm).eq_of_pairwise
    (fun _ _ _ _ h1 h2 => le_antisymm h1 h2) (sortLex_spec l).2 (sortLex_spec m).2

theorem sortNat_eq {l m : List Nat} (h : l.Perm m) : Algo.sortNat l = Algo.sortNat m :=
  (((Algo.sortNat_perm l).trans h).trans (Algo.sortNat_perm m).symm).eq_of_pairwise
    (fun _ _ _ _ h1 h2 => Nat.le_antisymm h1 h2) (Algo.sortNat_sorted l) (Algo.sortNat_sorted m)

/-! ### ids out of range -/

theorem pushAll_none (id : Nat) (rs : List Nat) (acc : List (List Nat)) (h : ∃ r ∈ rs, acc.length ≤ r) :
    Exclusion.pushAll id rs acc = none := by
  induction rs generalizing acc with
  | nil => obtain ⟨r, hr, _⟩ := h; cases hr
  | cons a rs ih =>
    unfold Exclusion.pushAll
    by_cases ha : a < acc.length
    · rw [if_pos ha]
      apply ih
      obtain ⟨r, hr, hle⟩ := h
      rcases List.mem_cons.1 hr with rfl | hr
      · omega
      · exact ⟨r, hr, by simpa using hle⟩
    · rw [if_neg ha]

theorem pushAll_length (id : Nat) (rs : List Nat) (acc acc' : List (List Nat))
    (h : Exclusion.pushAll id rs acc = some acc') : acc'.length = acc.length := by
  induction rs generalizing acc with
  | nil => simp only [Exclusion.pushAll, Option.some.injEq] at h; rw [h]
  | cons a rs ih =>
    unfold Exclusion.pushAll at h
    by_cases ha : a < acc.length
    · rw [if_pos ha] at h
      simpa using ih _ h
    · rw [if_neg ha] at h; cases h

theorem irsLoop_none (id : Nat) (sets acc : List (List Nat)) (h : ∃ s ∈ sets, ∃ r ∈ s, acc.length ≤ r) :
    Exclusion.irsLoop id sets acc = none := by
  induction sets generalizing id acc with
  | nil => obtain ⟨s, hs, _⟩ := h; cases hs
  | cons a ss ih =>
    unfold Exclusion.irsLoop
    cases hp : Exclusion.pushAll id a acc with
    | none => rfl
    | some acc' =>
      rw [Option.bind_some]
      apply ih
      obtain ⟨s, hs, r, hr, hle⟩ := h
      rcases List.mem_cons.1 hs with rfl | hs
      · rw [pushAll_none _ _ _ ⟨r, hr, hle⟩] at hp; cases hp
      · exact ⟨s, hs, r, hr, by rw [pushAll_length _ _ _ _ hp]; exact hle⟩

theorem empty_token (l : Text) (ts : List Text) (h : [' '].intercalate ts = l ++ [' ']) (hn : ∀ t ∈ ts, ' ' ∉ t) : [] ∈ ts := by
  induction ts generalizing l with
  | nil => simp [List.intercalate] at h
  | cons t ts ih =>
    cases ts with
    | nil =>
      rw [inter_single] at h
      exact absurd (by rw [h]; simp) (hn t (by simp))
    | cons u ts =>
      rw [inter_cons] at h
      have hlast : ([' '].intercalate (u :: ts) = []) ∨ ∃ l', [' '].intercalate (u :: ts) = l' ++ [' '] := by
        generalize [' '].intercalate (u :: ts) = x at h
        rcases List.eq_nil_or_concat x with hx | ⟨y, c, rfl⟩
        · exact .inl hx
        · right
          rw [List.concat_eq_append, ← List.cons_append, ← List.append_assoc] at h
          have := (List.append_inj' h rfl).2
          exact ⟨y, by rw [List.concat_eq_append, this]⟩
      rcases hlast with h0 | ⟨l', hl'⟩
      · have : u = [] := by
          cases ts with
          | nil => rwa [inter_single] at h0
          | cons v ts => rw [inter_cons] at h0; simp at h0
        simp [this]
      · exact List.mem_cons_of_mem _ (ih l' hl' fun x hx => hn x (by simp [hx]))

theorem clique_trailing (l : Text) : 2 ^ 32 - 1 ∈ clique (l ++ [' ']) := by
  obtain ⟨ts, h1, _, h3, h4⟩ := split_single (l ++ [' ']) ' ' (by simp)
  unfold clique
  rw [h1, Option.getD_some]
  exact List.mem_map.2 ⟨[], empty_token l ts h3 h4, by decide⟩

/-! ### export -/

theorem writeRow_eq (i : Nat) (l : List Nat) (h : l.Pairwise (· < ·)) :
    writeRow i l = row (l.filter fun j => decide (i ∈ l → j < i)) := by
  have aux : ∀ l : List Nat, writeRow i l = row (l.takeWhile (· != i)) := by
    intro l
    induction l with
    | nil => rfl
    | cons a l ih =>
      unfold writeRow
      by_cases hia : i = a
      · subst hia; simp [row]
      · have : (a != i) = true := by simpa using fun h => hia h.symm
        rw [if_neg hia, ih, List.takeWhile_cons, if_pos this]
        simp [row]
  rw [aux]
  congr 1
  by_cases hm : i ∈ l
  · simp only [hm, true_implies]
    clear aux
    induction l with
    | nil => rfl
    | cons a l ih =>
      rw [List.pairwise_cons] at h
      by_cases hia : a = i
      · subst hia
        have : l.filter (fun j => decide (j < a)) = [] := by
          rw [List.filter_eq_nil_iff]
          intro j hj
          have := h.1 j hj
          simp; omega
        simp [this]
      · have hm' : i ∈ l := by
          rcases List.mem_cons.1 hm with h' | h'
          · exact absurd h'.symm hia
          · exact h'
        have := h.1 i hm'
        rw [List.takeWhile_cons, if_pos (by simpa using hia), List.filter_cons, if_pos (by simpa using this), ih h.2 hm']
  · simp only [hm, false_implies, decide_true]
    rw [List.filter_true]
    clear aux h
    induction l with
    | nil => rfl
    | cons a l ih =>
      have : (a != i) = true := by simp only [bne_iff_ne, ne_eq]; rintro rfl; exact hm (by simp)
      rw [List.takeWhile_cons, if_pos this, ih fun h => hm (by simp [h])]

theorem writeFrom_spec (ns : List ES) (i : Nat) (h : ∀ n ∈ ns, n.Reachable) :
    ∃ rows : List (List Nat), writeFrom i ns = some (rows.flatMap row) ∧ rows.length = ns.length ∧
      ∀ (k : Nat) n, ns[k]? = some n → ∃ r : List Nat, rows[k]? = some r ∧ r.Pairwise (· < ·) ∧
        ∀ j, j ∈ r ↔ n.idx j = true ∧ (n.idx (i + k) = true → j < i + k) := by
  induction ns generalizing i with
  | nil => exact ⟨[], rfl, rfl, by simp⟩
  | cons n ns ih =>
    obtain ⟨rows, h1, h2, h3⟩ := ih (i + 1) (fun x hx => h x (by simp [hx]))
    obtain ⟨l, h4, _, h5, h6, _⟩ := C09_iterate_reachable n (h n (by simp))
    refine ⟨(l.filter fun j => decide (i ∈ l → j < i)) :: rows, ?_, by simp [h2], fun k m hk => ?_⟩
    · simp [writeFrom, h4, h1, writeRow_eq i l h5]
    · cases k with
      | zero =>
        simp only [List.getElem?_cons_zero, Option.some.injEq] at hk
        subst hk
        refine ⟨_, rfl, h5.sublist List.filter_sublist, fun j => ?_⟩
        rw [List.mem_filter, decide_eq_true_eq, h6, h6]; simp
      | succ k =>
        have := h3 k m (by simpa using hk)
        rw [show i + (k + 1) = i + 1 + k by omega]
        simpa using this

end Soro.Cliques
