import Verif.Spec.IssFiles
import Verif.Proof.IssElement
import Verif.Props.Section

namespace Soro.IssFiles
open Utls Utls.Spec TypeNames ParseFp IssElement

theorem splitPath_plain : ∀ {n : Text}, Plain n → splitPath n = [n]
  | [], _ => rfl
  | c :: n, h => by
    have h1 : c ≠ '/' := fun e => h (by simp [e])
    have h2 : Plain n := fun e => h (List.mem_cons_of_mem _ e)
    rw [splitPath, if_neg h1, splitPath_plain h2]

theorem resolve_plain {dir : Path} {n : Text} (h : Plain n) : resolve dir n = dir ++ [n] := by
  have : n.head? ≠ some '/' := by
    intro e
    cases n with
    | nil => cases e
    | cons c n => cases e; exact h (by simp)
  rw [resolve, if_neg this, splitPath_plain h]

theorem filename_append (dir : Path) (n : Text) : filename (dir ++ [n]) = n := by simp [filename]

theorem child_none (n : Text) : child none n = none := rfl

theorem foldl_child_none (ns : List Text) : ns.foldl child none = none := by
  induction ns with
  | nil => rfl
  | cons n ns ih => exact ih

theorem kids_membersAt : ∀ {ns : List Text} {x : Xml} {ks : List Xml}, MembersAt x ns ks → kids (ns.foldl child (some x)) = ks
  | [], x, ks, h => h.symm
  | n :: ns, x, ks, h => by
    rcases h with ⟨k, h1, h2⟩ | ⟨h1, rfl⟩
    · rw [List.foldl_cons, child_first h1]
      exact kids_membersAt h2
    · rw [List.foldl_cons, child_lacks h1, foldl_child_none]
      rfl

theorem begins_apart {c c' : Category} {n : Text} (h : c.begins <+: n) (h' : c'.begins <+: n) : c = c' := by
  rcases List.prefix_or_prefix_of_prefix h h' with h | h
  · revert h; cases c <;> cases c' <;> decide
  · revert h; cases c <;> cases c' <;> decide

theorem prefix_iff (a b : Text) : a.isPrefixOf b = true ↔ a <+: b := List.isPrefixOf_iff_prefix

theorem addFile_spec {fs : Files} (s : Sets) {p : Path} {d : Option Xml} (h : fs p = some (.file d)) :
    ∃ s', addFile fs s p = some s' ∧ s'.index = s.index ∧
      ∀ c : Category, c.files s' = c.files s ++ (if c.begins <+: filename p then [(p, d)] else []) := by
  have hl : load fs p = some d := by rw [load, h]
  have h1 := prefix_iff "Spurplanbetriebsstellen".toList (filename p)
  have h2 := prefix_iff "Stammdaten".toList (filename p)
  have h3 := prefix_iff "Ordnungsrahmen_ORBtrst".toList (filename p)
  have h4 := prefix_iff "Ordnungsrahmen_ORStr".toList (filename p)
  have key : ∀ c : Category, c.begins <+: filename p → ∀ s', c.files s' = c.files s ++ [(p, d)] →
      (∀ c', c' ≠ c → c'.files s' = c'.files s) →
      ∀ c' : Category, c'.files s' = c'.files s ++ (if c'.begins <+: filename p then [(p, d)] else []) := by
    intro c hc s' hs ho c'
    by_cases he : c' = c
    · subst he; rw [if_pos hc, hs]
    · rw [if_neg fun h => he (begins_apart h hc), ho c' he, List.append_nil]
  unfold addFile
  split
  · rename_i h
    exact ⟨{ s with railPlan := s.railPlan ++ [(p, d)] }, by rw [hl]; rfl, rfl,
      key .railPlan (h1.1 h) _ rfl fun c' hc => by cases c' <;> first | rfl | exact absurd rfl hc⟩
  · rename_i n1
    split
    · rename_i h
      exact ⟨{ s with core := s.core ++ [(p, d)] }, by rw [hl]; rfl, rfl,
        key .core (h2.1 h) _ rfl fun c' hc => by cases c' <;> first | rfl | exact absurd rfl hc⟩
    · rename_i n2
      split
      · rename_i h
        exact ⟨{ s with regStations := s.regStations ++ [(p, d)] }, by rw [hl]; rfl, rfl,
          key .regStations (h3.1 h) _ rfl fun c' hc => by cases c' <;> first | rfl | exact absurd rfl hc⟩
      · rename_i n3
        split
        · rename_i h
          exact ⟨{ s with regLines := s.regLines ++ [(p, d)] }, by rw [hl]; rfl, rfl,
            key .regLines (h4.1 h) _ rfl fun c' hc => by cases c' <;> first | rfl | exact absurd rfl hc⟩
        · rename_i n4
          refine ⟨s, rfl, rfl, fun c => ?_⟩
          rw [if_neg, List.append_nil]
          cases c
          · exact fun h => n1 (h1.2 h)
          · exact fun h => n2 (h2.2 h)
          · exact fun h => n3 (h3.2 h)
          · exact fun h => n4 (h4.2 h)

theorem addFiles_spec {fs : Files} {dir : Path} {xs : List Xml} {names : List Text}
    (h : List.Forall₂ (fun k n => SaysText k "Name".toList n) xs names) (hp : ∀ n ∈ names, Plain n)
    (hf : ∀ n ∈ names, ∃ d, fs (dir ++ [n]) = some (.file d)) (s : Sets) :
    ∃ s', addFiles fs dir xs s = some s' ∧ s'.index = s.index ∧
      ∀ c : Category, ∃ new, c.files s' = c.files s ++ new ∧
        new.map Prod.fst = (names.filter fun n => decide (c.begins <+: n)).map (fun n => dir ++ [n]) ∧
        ∀ q ∈ new, fs q.1 = some (.file q.2) := by
  induction h generalizing s with
  | nil => exact ⟨s, rfl, rfl, fun c => ⟨[], by simp, rfl, by simp⟩⟩
  | @cons x n xs names hx _ ih =>
    have hn := hp n (by simp)
    obtain ⟨d, hd⟩ := hf n (by simp)
    obtain ⟨s1, h1, h2, h3⟩ := addFile_spec s hd
    obtain ⟨s2, h4, h5, h6⟩ := ih (fun m hm => hp m (List.mem_cons_of_mem _ hm)) (fun m hm => hf m (List.mem_cons_of_mem _ hm)) s1
    refine ⟨s2, ?_, h5.trans h2, fun c => ?_⟩
    · rw [addFiles, childText_says hx, resolve_plain hn, hd, if_pos Option.isSome_some, h1, Option.bind_some, h4]
    · obtain ⟨new, h7, h8, h9⟩ := h6 c
      rw [h3 c, filename_append] at h7
      refine ⟨(if c.begins <+: n then [(dir ++ [n], d)] else []) ++ new, by rw [h7, List.append_assoc], ?_, ?_⟩
      · rw [List.map_append, h8, List.filter_cons]
        by_cases hc : c.begins <+: n <;> simp [hc]
      · intro q hq
        rcases List.mem_append.1 hq with hq | hq
        · by_cases hc : c.begins <+: n
          · rw [if_pos hc, List.mem_singleton] at hq
            subst hq; exact hd
          · rw [if_neg hc] at hq; cases hq
        · exact h9 q hq

theorem addFiles_missing {fs : Files} {dir : Path} {xs : List Xml} {names : List Text}
    (h : List.Forall₂ (fun k n => SaysText k "Name".toList n) xs names) {n : Text} (hm : n ∈ names) (hp : Plain n)
    (hn : fs (dir ++ [n]) = none) (s : Sets) : addFiles fs dir xs s = none := by
  induction h generalizing s with
  | nil => cases hm
  | @cons x n' xs names hx _ ih =>
    rw [addFiles, childText_says hx]
    rcases List.mem_cons.1 hm with rfl | hm
    · rw [resolve_plain hp, hn]
      rfl
    · split
      · cases addFile fs s (resolve dir n') with
        | none => rfl
        | some s' => exact ih hm s'
      · rfl

/-! ### maps -/

theorem foldl_assign {α β : Type} (f : α → Text × β) (as : List α) (m : Text → Option β) (k : Text) :
    (∀ v, LastEntry (as.map f) k v → as.foldl (fun m a => assign m (f a).1 (f a).2) m k = some v) ∧
    (k ∉ (as.map f).map Prod.fst → as.foldl (fun m a => assign m (f a).1 (f a).2) m k = m k) := by
  induction as generalizing m with
  | nil =>
    refine ⟨fun v ⟨pre, post, h, _⟩ => ?_, fun _ => rfl⟩
    simp at h
  | cons a as ih =>
    obtain ⟨h1, h2⟩ := ih (assign m (f a).1 (f a).2)
    refine ⟨fun v ⟨pre, post, h, hp⟩ => ?_, fun h => ?_⟩
    · cases pre with
      | nil =>
        simp only [List.map_cons, List.nil_append, List.cons.injEq] at h
        rw [List.foldl_cons, h2]
        · simp [assign, h.1]
        · rw [h.2]
          intro hm
          obtain ⟨p, hp1, hp2⟩ := List.mem_map.1 hm
          exact hp p hp1 hp2
      | cons p pre =>
        simp only [List.map_cons, List.cons_append, List.cons.injEq] at h
        exact h1 v ⟨pre, post, h.2, hp⟩
    · rw [List.map_cons, List.map_cons, List.mem_cons, not_or] at h
      rw [List.foldl_cons, h2 h.2, assign, if_neg h.1]

theorem foldl_cong {α β : Type} {f g : β → α → β} (as : List α) (b : β) (h : ∀ b, ∀ a ∈ as, f b a = g b a) :
    as.foldl f b = as.foldl g b := by
  induction as generalizing b with
  | nil => rfl
  | cons a as ih =>
    rw [List.foldl_cons, List.foldl_cons, h b a (by simp)]
    exact ih _ fun b x hx => h b x (List.mem_cons_of_mem _ hx)

theorem parseStations_eq {docs : List Xml} {kss : List (List Xml)}
    (h : List.Forall₂ (fun d ks => MembersAt d ["XmlIssDaten".toList, "Ordnungsrahmen".toList, "Betriebsstellen".toList] ks) docs kss)
    (m : Text → Option Text) :
    parseStations (docs.map some) m = some (kss.flatten.foldl
      (fun m k => assign m (childText (some k) "DS100".toList) (childText (some k) "Name".toList)) m) := by
  induction h generalizing m with
  | nil => rfl
  | @cons d ks docs kss hd _ ih =>
    have := kids_membersAt hd
    simp only [List.foldl_cons, List.foldl_nil] at this
    rw [List.map_cons, parseStations, ih, List.flatten_cons, List.foldl_append, addStations, this]

theorem emplaceAll_spec {β : Type} (ls : List (Nat × β)) (m : Nat → Option β) (n : Nat) :
    (∀ s, m n = some s → emplaceAll ls m n = some s) ∧
    (m n = none → (∀ s, FirstEntry ls n s → emplaceAll ls m n = some s) ∧ (n ∉ ls.map Prod.fst → emplaceAll ls m n = none)) := by
  induction ls generalizing m with
  | nil =>
    refine ⟨fun s h => h, fun h => ⟨fun s ⟨pre, post, e, _⟩ => ?_, fun _ => h⟩⟩
    simp at e
  | cons l ls ih =>
    obtain ⟨k, v⟩ := l
    have hstep : emplaceAll ((k, v) :: ls) m = emplaceAll ls fun x => if x = k ∧ m k = none then some v else m x := rfl
    rw [hstep]
    obtain ⟨h1, h2⟩ := ih fun x => if x = k ∧ m k = none then some v else m x
    refine ⟨fun s h => h1 s ?_, fun h => ⟨fun s ⟨pre, post, e, hp⟩ => ?_, fun hn => ?_⟩⟩
    · rw [if_neg, h]
      rintro ⟨rfl, h'⟩
      rw [h] at h'; cases h'
    · cases pre with
      | nil =>
        simp only [List.nil_append, List.cons.injEq, Prod.mk.injEq] at e
        obtain ⟨⟨rfl, rfl⟩, _⟩ := e
        exact h1 v (if_pos ⟨rfl, h⟩)
      | cons p pre =>
        simp only [List.cons_append, List.cons.injEq] at e
        have hk : n ≠ k := fun he => hp p (by simp) (by rw [← e.1, he])
        refine (h2 ?_).1 s ⟨pre, post, e.2, fun q hq => hp q (List.mem_cons_of_mem _ hq)⟩
        rw [if_neg fun hc => hk hc.1, h]
    · rw [List.map_cons, List.mem_cons, not_or] at hn
      refine (h2 ?_).2 hn.2
      rw [if_neg fun hc => hn.1 hc.1, h]

theorem allSome_forall {α β : Type} {f : α → Option β} {as : List α} {bs : List β}
    (h : List.Forall₂ (fun a b => f a = some b) as bs) : allSome f as = some bs := by
  induction h with
  | nil => rfl
  | cons h _ ih => rw [allSome, h, ih]

theorem allSome_none {α β : Type} {f : α → Option β} {as : List α} {a : α} (hm : a ∈ as) (h : f a = none) :
    allSome f as = none := by
  induction as with
  | nil => cases hm
  | cons b as ih =>
    rw [allSome]
    rcases List.mem_cons.1 hm with rfl | hm
    · rw [h]
    · rw [ih hm]
      cases f b <;> rfl

theorem allSome_inv {α β : Type} {f : α → Option β} {as : List α} {bs : List β} (h : allSome f as = some bs) :
    List.Forall₂ (fun a b => f a = some b) as bs := by
  induction as generalizing bs with
  | nil => cases h; exact .nil
  | cons a as ih =>
    rw [allSome] at h
    split at h
    · rename_i b bs' h1 h2
      cases h
      exact .cons h1 (ih h2)
    · cases h

theorem parseInt_writes {b : Nat} {s : Text} {n : Nat} (h : Writes s n) (hn : n < 2 ^ (8 * b)) :
    (parseInt ⟨false, b⟩ s).toNat = n := by
  obtain ⟨h1, h2, rfl⟩ := h
  have hb : ((value s : Nat) : Int) < 2 ^ (8 * b) := by exact_mod_cast hn
  rw [C60_parse_int ⟨false, b⟩ s (value s) (.inl ⟨h1, h2, rfl⟩)
    ⟨by simp [IntTy.min], by simp only [IntTy.max, if_neg Bool.false_ne_true]; omega⟩, Int.toNat_natCast]

theorem kilometrage_parse {s : Text} {m : Rat} (h : Kilometrage s m) : parseKilometrage s = some m := by
  rcases h with ⟨x, h, rfl⟩ | ⟨a, b, x, y, rfl, h1, h2, rfl⟩
  · exact (C140_kilometrage h h).1
  · exact (C140_kilometrage h1 h2).2

end Soro.IssFiles
