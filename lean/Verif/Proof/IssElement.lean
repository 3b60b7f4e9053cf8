import Verif.Spec.IssElement
import Verif.Props.ParseFp
import Verif.Props.TypeNames

namespace Soro.IssElement
open Utls Utls.Spec TypeNames ParseFp

theorem find_first {α : Type} (p : α → Bool) {pre post : List α} {a : α} (ha : p a = true) (hp : ∀ x ∈ pre, p x = false) :
    (pre ++ a :: post).find? p = some a := by
  induction pre with
  | nil => simp [ha]
  | cons b pre ih =>
    rw [List.cons_append, List.find?_cons, hp b (by simp)]
    exact ih fun x hx => hp x (List.mem_cons_of_mem _ hx)

theorem child_first {x k : Xml} {n : Text} (h : First x n k) : child (some x) n = some k := by
  obtain ⟨pre, post, h1, h2, h3⟩ := h
  simp only [child, Option.bind_some, h1]
  exact find_first _ (by simp [h2]) fun p hp => by simp [h3 p hp]

theorem child_lacks {x : Xml} {n : Text} (h : Lacks x n) : child (some x) n = none := by
  simp only [child, Option.bind_some]
  exact List.find?_eq_none.2 fun k hk => by simp [h k hk]

theorem attr_has {x : Xml} {n v : Text} (h : HasAttr x n v) : attr (some x) n = v := by
  obtain ⟨pre, post, h1, h2⟩ := h
  have := find_first (fun a : Text × Text => a.1 == n) (pre := pre) (post := post) (a := (n, v)) (by simp)
    fun p hp => by simp [h2 p hp]
  simp [attr, h1, this]

theorem childText_first {x k : Xml} {n : Text} (h : First x n k) : childText (some x) n = k.text := by
  simp [childText, child_first h, text]

theorem childText_says {x : Xml} {n s : Text} (h : SaysText x n s) : childText (some x) n = s := by
  rcases h with ⟨k, h, rfl⟩ | ⟨h, rfl⟩
  · exact childText_first h
  · simp [childText, child_lacks h, text]

theorem kids_members {x : Xml} {n : Text} {ks : List Xml} (h : Members x n ks) : kids (child (some x) n) = ks := by
  rcases h with ⟨k, h, rfl⟩ | ⟨h, rfl⟩
  · simp [child_first h, kids]
  · simp [child_lacks h, kids]

theorem stoul_digits {ds : List Char} (hne : ds ≠ []) (hd : AllDigits ds) (hv : value ds < 2 ^ 64) :
    stoul ds = some (value ds) := by
  obtain ⟨c, cs, rfl⟩ := List.exists_cons_of_ne_nil hne
  have hc := hd c (by simp)
  have hw : c.isWhitespace = false := by
    by_cases h : c.isWhitespace = true
    · simp only [Char.isWhitespace, Bool.or_eq_true, decide_eq_true_eq] at h
      exfalso
      rcases h with ((h | h) | h) | h <;> (subst h; exact absurd hc (by decide))
    · simpa using h
  have hm := digit_ne_minus hc
  have hspan := span_digits (rest := []) hd (fun _ h => by cases h)
  rw [List.append_nil] at hspan
  unfold stoul
  simp only [List.dropWhile_cons, hw, if_neg Bool.false_ne_true, List.head?_cons, Option.some.injEq, hm.1, hm.2.2.2, or_self,
    if_false, hspan.1, natOf_eq, List.isEmpty_cons, decide_false]
  rw [if_neg (by omega)]

theorem says_node {x : Xml} {n : Text} {id : Nat} (h : SaysNode x n id) :
    stoul (attr (child (some x) n) "ID".toList) = some id ∧ ∃ k, child (some x) n = some k ∧
      optionalId (some k) = some id := by
  obtain ⟨k, ds, h1, h2, h3, h4, h5, h6⟩ := h
  rw [child_first h1, attr_has h2, stoul_digits h3 h4 (by omega), h5]
  exact ⟨rfl, k, rfl, by rw [optionalId, attr_has h2, stoul_digits h3 h4 (by omega), h5]⟩

theorem switchHash_unknown {α : Type} {s : Text} (cs : List (Text × α)) (h : ∀ c ∈ cs, strHash c.1 ≠ strHash s) :
    switchHash s cs = none := by
  unfold switchHash
  rw [Option.map_eq_none_iff, List.find?_eq_none]
  intro c hc he
  exact h c hc (by simpa using he)

/-- the values after setting attributes: `i` is set iff it was or a node has the `i`-th name -/
theorem setAttributes_spec : ∀ (xs : List Xml) (as : List Bool), as.length = 11 → (∀ x ∈ xs, x.name ∈ attributeNames) →
    ∃ bs, setAttributes xs as = some bs ∧ bs.length = 11 ∧ ∀ (i : Nat) (n : Text), attributeNames[i]? = some n →
      (bs[i]? = some true ↔ as[i]? = some true ∨ ∃ x ∈ xs, x.name = n) := by
  intro xs
  induction xs with
  | nil =>
    intro as ha _
    exact ⟨as, rfl, ha, fun i n _ => by simp⟩
  | cons x xs ih =>
    intro as ha hx
    have hnd : ∀ i j : Fin 11, attributeNames[i.1]? = attributeNames[j.1]? → i = j := by decide +kernel
    have hlen : attributeNames.length = 11 := rfl
    obtain ⟨j, hj⟩ : ∃ j, attributeNames.findIdx? (· == x.name) = some j := by
      cases h : attributeNames.findIdx? (· == x.name) with
      | some j => exact ⟨j, rfl⟩
      | none =>
        rw [List.findIdx?_eq_none_iff] at h
        have := h x.name (hx x (by simp))
        simp at this
    obtain ⟨hj1, hj2, _⟩ := List.findIdx?_eq_some_iff_getElem.1 hj
    have hj3 : attributeNames[j]? = some x.name := by
      rw [List.getElem?_eq_getElem hj1]; simpa using hj2
    have hidx : attributeIndex x.name = j := by simp [attributeIndex, hj]
    obtain ⟨bs, h1, h2, h3⟩ := ih (as.set j true) (by simpa using ha) fun y hy => hx y (List.mem_cons_of_mem _ hy)
    refine ⟨bs, ?_, h2, fun i n hn => ?_⟩
    · rw [setAttributes, hidx, if_pos (by omega), h1]
    · rw [h3 i n hn, List.getElem?_set]
      have hi : i < 11 := hlen ▸ (List.getElem?_eq_some_iff.1 hn).1
      by_cases hij : j = i
      · subst hij
        have : n = x.name := by rw [hj3] at hn; exact (Option.some.inj hn).symm
        subst this
        simp [ha, hi]
      · have hne : x.name ≠ n := by
          intro h
          apply hij
          have := hnd ⟨j, by omega⟩ ⟨i, hi⟩ (by simp only; rw [hj3, hn, h])
          exact congrArg Fin.val this
        rw [if_neg hij]
        simp [hne]

end Soro.IssElement
