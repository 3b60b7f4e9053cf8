import Verif.Spec.TypeNames

/-! Property C138: names and types of elements. -/

namespace Soro
open TypeNames

/-! ### the hash -/

theorem hashStep_inj_hash {h h' : BitVec 32} {c : Char} (e : hashStep h c = hashStep h' c) : h = h' := by
  have inv : (16777619#32) * 899433627#32 = 1#32 := by decide
  have e' := congrArg (· * 899433627#32) e
  simp only [hashStep, BitVec.mul_assoc, inv, BitVec.mul_one] at e'
  have := congrArg (· ^^^ (BitVec.ofNat 8 c.toNat).setWidth 32) e'
  simpa [BitVec.xor_assoc] using this

theorem hashStep_inj_char {h : BitVec 32} {c c' : Char} (hc : c.toNat < 256) (hc' : c'.toNat < 256)
    (e : hashStep h c = hashStep h c') : c = c' := by
  have inv : (16777619#32) * 899433627#32 = 1#32 := by decide
  have e' := congrArg (· * 899433627#32) e
  simp only [hashStep, BitVec.mul_assoc, inv, BitVec.mul_one] at e'
  have e'' := congrArg (h ^^^ ·) e'
  simp only [← BitVec.xor_assoc, BitVec.xor_self, BitVec.zero_xor] at e''
  have := congrArg BitVec.toNat e''
  simp only [BitVec.toNat_setWidth, BitVec.toNat_ofNat] at this
  exact Char.toNat_inj.1 (by omega)

theorem foldl_hash_inj (b : Text) : ∀ h h' : BitVec 32, b.foldl hashStep h = b.foldl hashStep h' → h = h' := by
  induction b with
  | nil => exact fun _ _ e => e
  | cons c b ih => exact fun h h' e => hashStep_inj_hash (ih _ _ e)

/-! ### C138 -/

/-- C138: every name of the vocabulary gives the type it names; names with a direction are exactly those of the directed
types, and their last letter tells the direction. -/
theorem C138_vocabulary {s : Text} {t : Ty} {rising : Bool} (h : Names s t rising) :
    getType s = t ∧ hasRisingName s = rising ∧ t ≠ .invalid ∧
    (isDirected t = true ↔ ∃ w : String, (w, t) ∈ directedNames ∧ (s = w.toList ++ ['S'] ∨ s = w.toList ++ ['F'])) := by
  have hd : ∀ p ∈ directedNames, getType (p.1.toList ++ ['S']) = p.2 ∧ getType (p.1.toList ++ ['F']) = p.2 ∧
      isDirected p.2 = true ∧ p.2 ≠ .invalid := by decide +kernel
  have ho : ∀ p ∈ otherNames, getType p.1.toList = p.2 ∧ hasRisingName p.1.toList = false ∧ isDirected p.2 = false ∧
      p.2 ≠ .invalid := by decide +kernel
  cases h with
  | rising w t hw =>
    obtain ⟨h1, _, h3, h4⟩ := hd _ hw
    exact ⟨h1, by simp [hasRisingName], h4, fun _ => ⟨w, hw, .inl rfl⟩, fun _ => h3⟩
  | falling w t hw =>
    obtain ⟨_, h2, h3, h4⟩ := hd _ hw
    exact ⟨h2, by simp [hasRisingName], h4, fun _ => ⟨w, hw, .inr rfl⟩, fun _ => h3⟩
  | other w t hw =>
    obtain ⟨h1, h2, h3, h4⟩ := ho _ hw
    refine ⟨h1, h2, h4, fun h => (by rw [h3] at h; cases h), fun ⟨w', hw', _⟩ => ?_⟩
    exact (hd _ hw').2.2.1

example : Names "HalteplatzRzLinksF".toList .halt false := .falling "HalteplatzRzLinks" .halt (by decide)

/-- every case of the code is in the vocabulary -/
theorem cases_named : ∀ c ∈ TypeNames.cases, ∃ rising, Names c.1 c.2 rising := by
  have h : ∀ c ∈ TypeNames.cases, (∃ p ∈ directedNames, p.2 = c.2 ∧ (p.1.toList ++ ['S'] = c.1 ∨ p.1.toList ++ ['F'] = c.1)) ∨
      ∃ p ∈ otherNames, p.2 = c.2 ∧ p.1.toList = c.1 := by decide +kernel
  intro c hc
  rcases h c hc with ⟨p, hp, h1, h2 | h2⟩ | ⟨p, hp, h1, h2⟩
  · exact ⟨true, by rw [← h1, ← h2]; exact .rising _ _ hp⟩
  · exact ⟨false, by rw [← h1, ← h2]; exact .falling _ _ hp⟩
  · exact ⟨false, by rw [← h1, ← h2]; exact .other _ _ hp⟩

/-- C138: a text taken for an element of some type has the hash of a name of this type; hence a text that shares its hash
with no other text of the vocabulary has a type iff the vocabulary names it. -/
theorem C138_unknown_partial (s : Text) :
    (getType s ≠ .invalid → ∃ s' rising, Names s' (getType s) rising ∧ strHash s' = strHash s) ∧
    ((∀ s' t rising, Names s' t rising → strHash s' = strHash s → s' = s) →
      ((∃ rising, Names s (getType s) rising) ∨ getType s = .invalid ∧ ∀ t rising, ¬ Names s t rising)) := by
  have h1 : getType s ≠ .invalid → ∃ s' rising, Names s' (getType s) rising ∧ strHash s' = strHash s := by
    intro h
    unfold getType switchHash at h ⊢
    cases hf : TypeNames.cases.find? fun c => strHash c.1 == strHash s with
    | none => rw [hf] at h; exact absurd rfl h
    | some c =>
      obtain ⟨rising, hn⟩ := cases_named c (List.mem_of_find?_eq_some hf)
      exact ⟨c.1, rising, hn, by simpa using List.find?_some hf⟩
  refine ⟨h1, fun hu => ?_⟩
  by_cases h : getType s = .invalid
  · refine .inr ⟨h, fun t rising hn => ?_⟩
    have := C138_vocabulary hn
    exact this.2.2.1 (this.1 ▸ h)
  · obtain ⟨s', rising, hn, he⟩ := h1 h
    exact .inl ⟨rising, by rw [← hu s' _ rising hn he]; exact (hu s' _ rising hn he) ▸ hn⟩

/-- C138: a name with one wrong byte is never taken for the name itself, whatever the name and the byte. -/
theorem C138_typo {s s' : Text} (hs : Bytes s) (hs' : Bytes s') (ht : Typo s s') : strHash s ≠ strHash s' := by
  obtain ⟨a, b, x, y, rfl, rfl, hne⟩ := ht
  intro e
  apply hne
  unfold strHash at e
  simp only [List.append_assoc, List.cons_append, List.foldl_append, List.foldl_cons] at e
  have e := foldl_hash_inj _ _ _ (hashStep_inj_hash (by simpa using e))
  exact hashStep_inj_char (hs x (by simp)) (hs' y (by simp)) e

example : Bytes "HauptsignalS".toList ∧ Bytes "HauptsignalX".toList ∧ Typo "HauptsignalS".toList "HauptsignalX".toList :=
  ⟨by unfold Bytes; decide, by unfold Bytes; decide, "Hauptsignal".toList, [], 'S', 'X', by decide, by decide, by decide⟩

/-- C138 is false: there are names outside of the vocabulary that are taken for main signals and slopes. -/
theorem C138_collision_negation :
    (getType "NotizIsxkrp".toList = .mainSignal ∧ ∀ t rising, ¬ Names "NotizIsxkrp".toList t rising) ∧
    (getType "HinweisrvpsKv".toList = .slope ∧ ∀ t rising, ¬ Names "HinweisrvpsKv".toList t rising) := by
  have no : ∀ s : Text, (∀ p ∈ directedNames, p.1.toList ++ ['S'] ≠ s ∧ p.1.toList ++ ['F'] ≠ s) →
      (∀ p ∈ otherNames, p.1.toList ≠ s) → ∀ t rising, ¬ Names s t rising := by
    intro s h1 h2 t rising hn
    cases hn with
    | rising w t hw => exact (h1 _ hw).1 rfl
    | falling w t hw => exact (h1 _ hw).2 rfl
    | other w t hw => exact h2 _ hw rfl
  exact ⟨⟨by decide +kernel, no _ (by decide +kernel) (by decide +kernel)⟩,
    by decide +kernel, no _ (by decide +kernel) (by decide +kernel)⟩

/-- C138: the classes of types (ends, simple elements, switches, crosses, directed and undirected track elements) are disjoint
and cover all types but the invalid one, which counts as section element all the same; the texts for types in documents are
distinct. -/
theorem C138_classes (t t' : Ty) :
    ([isEndElement t, isSimpleElement t, isSimpleSwitch t, isCross t, isDirected t, isUndirected t].count true =
      if t = .invalid then 0 else 1) ∧
    isTrackElement t = (isDirected t || isUndirected t) ∧
    (isSectionElement t = true ↔ t = .invalid ∨ isEndElement t ∨ isSimpleElement t ∨ isSimpleSwitch t ∨ isCross t) ∧
    (typeStr t = typeStr t' → t = t') := by
  refine ⟨?_, ?_, ?_, ?_⟩
  · cases t <;> decide
  · cases t <;> decide
  · cases t <;> decide
  · cases t <;> cases t' <;> first | (intro _; rfl) | (intro h; exact absurd h (by decide))

end Soro
