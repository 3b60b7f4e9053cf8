import Verif.Proof.Network
import Verif.Spec.Network

/-! The graph after all sections were read, see `Model/Network.lean`. -/

namespace Soro.Infra

/-- the first slot of a point of an element; for borders it depends on the end of the section -/
def slotOf (ty : Ty) (p : Pt) (b : Bool) : Option Nat :=
  match ty, p with
  | .bumper, .only | .trackEnd, .only => some 0
  | .border, .only => some (if b then 0 else 2)
  | .kmJump, .start | .lineSwitch, .start | .simpleSwitch, .start | .cross, .startLeft => some 0
  | .kmJump, .fin | .lineSwitch, .fin | .simpleSwitch, .stem | .cross, .endLeft => some 2
  | .simpleSwitch, .branch | .cross, .startRight => some 4
  | .cross, .endRight => some 6
  | _, _ => none

theorem slotOf_ok {ty : Ty} {p : Pt} (h : p ∈ ty.points) (b : Bool) : ∃ k, slotOf ty p b = some k := by
  cases ty <;> cases p <;> first | (exfalso; revert h; decide) | exact ⟨_, rfl⟩

theorem points_section {ty : Ty} {p : Pt} (h : p ∈ ty.points) : ty.isTrack = false := by
  cases ty <;> simp [Ty.points] at h <;> rfl

/-- direction flag of a point -/
def Elem.pflag (e : Elem) (p : Pt) : Bool :=
  match p with
  | .only | .start | .startLeft => e.rising
  | p => e.flag p

theorem setPoint_slot {e : Elem} {p : Pt} (h : p ∈ e.ty.points) (b : Bool) (l : Nat) :
    (e.setPoint p b l).slot p = slotOf e.ty p b := by
  unfold Elem.slot
  rw [Elem.setPoint_ty]
  cases hty : e.ty <;> rw [hty] at h <;> cases p <;> first
    | (exfalso; revert h; decide)
    | (simp [slotOf, Ty.isEnd, Ty.isSimple, Ty.id, Elem.setPoint] <;> cases b <;> rfl)
    | (simp [slotOf, Ty.isEnd, Ty.isSimple, Ty.id]; done)

theorem setPoint_pflag {e : Elem} {p : Pt} (h : p ∈ e.ty.points) (b : Bool) (l : Nat) :
    (e.ty = .kmJump ∧ p = .fin) ∨ (e.setPoint p b l).pflag p = !b := by
  cases hty : e.ty <;> rw [hty] at h <;> cases p <;> first
    | (exfalso; revert h; decide)
    | (simp [Elem.pflag, Elem.setPoint, hty, set] <;> done)

theorem setPoint_line (e : Elem) (p : Pt) (b : Bool) (l : Nat) : (e.setPoint p b l).line = set e.line p l := by
  unfold Elem.setPoint; cases p <;> simp <;> split <;> rfl

theorem setPoint_pflag_ne {e : Elem} {p q : Pt} (hp : p ∈ e.ty.points) (hq : q ∈ e.ty.points) (hne : q ≠ p) (b : Bool) (l : Nat) :
    (e.setPoint p b l).pflag q = e.pflag q := by
  cases hty : e.ty <;> rw [hty] at hp hq <;> cases p <;> first
    | (exfalso; revert hp; decide)
    | (cases q <;> first
        | (exfalso; revert hq; decide)
        | exact absurd rfl hne
        | (simp [Elem.pflag, Elem.setPoint, hty, set] <;> done))

theorem slotOf_ne {ty : Ty} {p q : Pt} (hp : p ∈ ty.points) (hq : q ∈ ty.points) (hne : q ≠ p) (b c : Bool) {k k' : Nat}
    (h : slotOf ty p b = some k) (h' : slotOf ty q c = some k') : k' ≠ k ∧ k' + 1 ≠ k ∧ k' ≠ k + 1 := by
  cases ty <;> cases p <;> first
    | (exfalso; revert hp; decide)
    | (cases q <;> first
        | (exfalso; revert hq; decide)
        | exact absurd rfl hne
        | (cases h; cases h'; decide))

/-! ### all sections -/

/-- the track element a train comes from when it leaves section `o` at the end `b` -/
def SecOut.arr (o : SecOut) (b : Bool) : Option Nat := (o.towards b).getLast?
/-- the first track element of section `o` from the end `b` -/
def SecOut.dep (o : SecOut) (b : Bool) : Option Nat := (o.towards (!b)).head?

/-- section `o` is attached to element `e` with its end `b` -/
structure Attached (e : Elem) (o : SecOut) (b : Bool) : Prop where
  pt : o.x.pt b ∈ e.ty.points
  slot : ∃ k, slotOf e.ty (o.x.pt b) b = some k ∧ e.nb (k + if b then 0 else 1) = o.dep b ∧ e.nb (k + if b then 1 else 0) = o.arr b
  flag : (e.ty = .kmJump ∧ o.x.pt b = .fin) ∨ e.pflag (o.x.pt b) = !b
  line : e.line (o.x.pt b) = o.x.line

/-- another section is attached at another point -/
theorem Attached.mono {e : Elem} {o : SecOut} {b : Bool} (h : Attached e o b) {p : Pt} {c : Bool} {l k : Nat} (hp : p ∈ e.ty.points)
    (hne : o.x.pt b ≠ p) (hk : slotOf e.ty p c = some k) (a d : Option Nat) :
    Attached (((e.setPoint p c l).setSlot k a).setSlot (k + 1) d) o b := by
  obtain ⟨k0, h1, h2, h3⟩ := h.slot
  obtain ⟨n1, n2, n3⟩ := slotOf_ne hp h.pt hne c b hk h1
  constructor
  · simpa using h.pt
  · refine ⟨k0, by simpa using h1, ?_, ?_⟩
    · rw [← h2]
      simp only [Elem.setSlot_nb, Elem.setPoint_nb]
      rw [if_neg (by cases b <;> simp <;> omega), if_neg (by cases b <;> simp <;> omega)]
    · rw [← h3]
      simp only [Elem.setSlot_nb, Elem.setPoint_nb]
      rw [if_neg (by cases b <;> simp <;> omega), if_neg (by cases b <;> simp <;> omega)]
  · rcases h.flag with hf | hf
    · exact Or.inl (by simpa using hf)
    · right
      rw [← hf, ← setPoint_pflag_ne hp h.pt hne c l]
      unfold Elem.pflag
      rfl
  · simp only [Elem.setSlot_line, setPoint_line]
    rw [set_ne _ _ hne, h.line]

/-- a section is attached -/
theorem Attached.new {e : Elem} {o : SecOut} {b : Bool} {k : Nat} (hp : o.x.pt b ∈ e.ty.points) (hk : slotOf e.ty (o.x.pt b) b = some k) :
    Attached (((e.setPoint (o.x.pt b) b o.x.line).setSlot k o.up.head?).setSlot (k + 1) o.down.getLast?) o b ∧ b = true ∨
    Attached (((e.setPoint (o.x.pt b) b o.x.line).setSlot k o.up.getLast?).setSlot (k + 1) o.down.head?) o b ∧ b = false := by
  cases b with
  | true =>
    left
    refine ⟨⟨by simpa using hp, ⟨k, by simpa using hk, ?_, ?_⟩, ?_, ?_⟩, rfl⟩
    · simp [Elem.setSlot_nb, SecOut.dep, SecOut.towards]
    · simp [Elem.setSlot_nb, SecOut.arr, SecOut.towards]
    · rcases setPoint_pflag hp true o.x.line with h | h
      · exact Or.inl (by simpa using h)
      · exact Or.inr h
    · simp [setPoint_line]
  | false =>
    right
    refine ⟨⟨by simpa using hp, ⟨k, by simpa using hk, ?_, ?_⟩, ?_, ?_⟩, rfl⟩
    · simp [Elem.setSlot_nb, SecOut.dep, SecOut.towards]
    · simp [Elem.setSlot_nb, SecOut.arr, SecOut.towards]
    · rcases setPoint_pflag hp false o.x.line with h | h
      · exact Or.inl (by simpa using h)
      · exact Or.inr h
    · simp [setPoint_line]

theorem SecIn.mem_ends (x : SecIn) (b : Bool) : (x.elem b, x.pt b) ∈ x.ends := by cases b <;> simp [SecIn.ends, SecIn.elem, SecIn.pt]

/-- the graph after the sections `out` were read -/
structure NetInv (g0 : Graph) (out : List SecOut) (g : Graph) : Prop where
  n : g0.n ≤ g.n
  ty : ∀ i, i < g0.n → (g.el i).ty = (g0.el i).ty ∧ (g.el i).arcL = (g0.el i).arcL ∧ (g.el i).arcR = (g0.el i).arcR
  elem : ∀ o ∈ out, ∀ b, o.x.elem b < g0.n
  att : ∀ o ∈ out, ∀ b, Attached (g.el (o.x.elem b)) o b
  ne : ∀ o ∈ out, ∀ b, o.towards b ≠ []
  ids : ∀ o ∈ out, ∀ b, ∀ i ∈ o.towards b, g0.n ≤ i ∧ i < g.n ∧ (g.el i).ty.isTrack = true ∧
    ((g.el i).ty.isDirected = true → (g.el i).rising = !b)
  link : ∀ o ∈ out, ∀ b, Linked g.el (!b) (o.towards b) (o.x.elem b)
  nodup : ∀ o ∈ out, ∀ b, (o.towards b).Nodup
  kinds : ∀ o ∈ out, o.up.map (fun i => (g.el i).ty) = kinds true o.x.up ∧ o.down.map (fun i => (g.el i).ty) = kinds false o.x.down
  shared : ∀ o ∈ out, ∀ (j j' : Nat) nd, (o.x.up.filter (·.kept true))[j]? = some nd → (o.x.down.filter (·.kept false))[j']? = some nd →
    nd.ty.isDirected = false → o.up[j]? = o.down[j']?
  undBoth : ∀ o ∈ out, ∀ i, (g.el i).ty.isDirected = false → (i ∈ o.up ↔ i ∈ o.down)
  disj : ∀ o ∈ out, ∀ o' ∈ out, ∀ b b' i, i ∈ o.towards b → i ∈ o'.towards b' → o = o'
  all : ∀ i, g0.n ≤ i → i < g.n → ∃ o ∈ out, ∃ b, i ∈ o.towards b
  org : ∀ i, i < g0.n → ∀ k t, (g.el i).nb k = some t → ∃ o ∈ out, ∃ b, o.x.elem b = i ∧ (∃ b', t ∈ o.towards b') ∧
    ∃ k0, slotOf (g.el i).ty (o.x.pt b) b = some k0 ∧ (k = k0 ∨ k = k0 + 1)
  back : ∀ o ∈ out, ∀ b, Backed g.el (!b) (o.towards b) (o.x.elem (!b))

theorem NetInv.init {g0 : Graph} (h : ∀ i, i < g0.n → ∀ k, (g0.el i).nb k = none) : NetInv g0 [] g0 := by
  constructor <;> simp
  intro i hi k t ht; rw [h i hi] at ht; simp at ht

theorem SecIn.wf {g0 g : Graph} {out : List SecOut} (h : NetInv g0 out g) {x : SecIn} (hx : x.Valid g0) :
    ∃ ks kf, slotOf (g.el x.start).ty x.ptS true = some ks ∧ slotOf (g.el x.fin).ty x.ptF false = some kf ∧ x.Wf g ks kf := by
  have e1 : x.start < g0.n := hx.elem true
  have e2 : x.fin < g0.n := hx.elem false
  have p1 : x.ptS ∈ (g.el x.start).ty.points := by rw [(h.ty _ e1).1]; exact hx.pt true
  have p2 : x.ptF ∈ (g.el x.fin).ty.points := by rw [(h.ty _ e2).1]; exact hx.pt false
  obtain ⟨ks, hks⟩ := slotOf_ok p1 true
  obtain ⟨kf, hkf⟩ := slotOf_ok p2 false
  have hn := h.n
  refine ⟨ks, kf, hks, hkf, by omega, by omega, hx.ne, points_section p1, points_section p2, ?_, ?_, ?_, ?_, hx.track, hx.nodup, hx.perm⟩
  · rw [setPoint_slot p1, hks]
  · rw [setPoint_slot p2, hkf]
  · intro k hk
    obtain ⟨o, ho, b, _, ⟨b', hb'⟩, _⟩ := h.org _ e1 _ _ hk
    have := (h.ids o ho b' _ hb').1
    omega
  · intro k hk
    obtain ⟨o, ho, b, _, ⟨b', hb'⟩, _⟩ := h.org _ e2 _ _ hk
    have := (h.ids o ho b' _ hb').1
    omega

theorem NetInv.step {g0 g : Graph} {out : List SecOut} (h : NetInv g0 out g) {x : SecIn} (hx : x.Valid g0)
    (hd : ∀ o ∈ out, ∀ b c, (o.x.elem b, o.x.pt b) ≠ (x.elem c, x.pt c)) :
    NetInv g0 (out ++ [⟨x, (parseSection x g).2.1, (parseSection x g).2.2⟩]) (parseSection x g).1 := by
  obtain ⟨ks, kf, hks, hkf, w⟩ := SecIn.wf h hx
  have S := parseSection_ok w
  generalize (parseSection x g).1 = g' at S ⊢
  generalize (parseSection x g).2.1 = up at S ⊢
  generalize (parseSection x g).2.2 = down at S ⊢
  have e1 : x.start < g0.n := hx.elem true
  have e2 : x.fin < g0.n := hx.elem false
  have p1 : x.ptS ∈ (g.el x.start).ty.points := by rw [(h.ty _ e1).1]; exact hx.pt true
  have p2 : x.ptF ∈ (g.el x.fin).ty.points := by rw [(h.ty _ e2).1]; exact hx.pt false
  have hn := h.n
  have hn' := S.n
  have w3 := hx.ne
  have hold : ∀ i, g0.n ≤ i → i < g.n → g'.el i = g.el i := fun i h1 h2 => S.frame i h2 (by omega) (by omega)
  have hty : ∀ i, i < g.n → (g'.el i).ty = (g.el i).ty ∧ (g'.el i).arcL = (g.el i).arcL ∧ (g'.el i).arcR = (g.el i).arcR := by
    intro i hi
    by_cases h1 : i = x.start
    · subst h1; rw [S.st]
      simp
      unfold Elem.setPoint; cases x.ptS <;> simp <;> split <;> exact ⟨rfl, rfl⟩
    · by_cases h2 : i = x.fin
      · subst h2; rw [S.fn]
        simp
        unfold Elem.setPoint; cases x.ptF <;> simp <;> split <;> exact ⟨rfl, rfl⟩
      · rw [S.frame i hi h1 h2]; exact ⟨rfl, rfl, rfl⟩
  have ho' : ∀ o ∈ out ++ [⟨x, up, down⟩], o ∈ out ∨ o = ⟨x, up, down⟩ := by
    intro o ho; simpa using ho
  have hb' : ∀ b i, i ∈ (⟨x, up, down⟩ : SecOut).towards b → g.n ≤ i ∧ i < g'.n ∧ (g'.el i).ty.isTrack = true := by
    intro b i hi
    cases b with
    | true => exact S.downBound i hi
    | false => exact S.upBound i hi
  constructor
  · omega
  · intro i hi
    have := h.ty i hi
    have h2 := hty i (by omega)
    exact ⟨by rw [h2.1, this.1], by rw [h2.2.1, this.2.1], by rw [h2.2.2, this.2.2]⟩
  · intro o ho b
    rcases ho' o ho with ho | rfl
    · exact h.elem o ho b
    · exact hx.elem b
  · intro o ho b
    rcases ho' o ho with ho | rfl
    · have ha := h.att o ho b
      by_cases h1 : o.x.elem b = x.start
      · rw [h1] at ha ⊢
        rw [S.st]
        refine ha.mono p1 ?_ hks _ _
        intro hpt
        exact hd o ho b true (by rw [h1, hpt]; rfl)
      · by_cases h2 : o.x.elem b = x.fin
        · rw [h2] at ha ⊢
          rw [S.fn]
          refine ha.mono p2 ?_ hkf _ _
          intro hpt
          exact hd o ho b false (by rw [h2, hpt]; rfl)
        · have := h.elem o ho b
          rw [S.frame _ (by omega) h1 h2]; exact ha
    · cases b with
      | true =>
        show Attached (g'.el x.start) _ _
        rw [S.st]
        rcases Attached.new (o := ⟨x, up, down⟩) (b := true) p1 hks with h | h
        · exact h.1
        · exact absurd h.2 (by simp)
      | false =>
        show Attached (g'.el x.fin) _ _
        rw [S.fn]
        rcases Attached.new (o := ⟨x, up, down⟩) (b := false) p2 hkf with h | h
        · exact absurd h.2 (by simp)
        · exact h.1
  · intro o ho b
    rcases ho' o ho with ho | rfl
    · exact h.ne o ho b
    · cases b with
      | true => exact S.downNe
      | false => exact S.upNe
  · intro o ho b i hi
    rcases ho' o ho with ho | rfl
    · obtain ⟨i1, i2, i3, i4⟩ := h.ids o ho b i hi
      rw [hold i i1 i2]
      exact ⟨i1, by omega, i3, i4⟩
    · obtain ⟨i1, i2, i3⟩ := hb' b i hi
      refine ⟨by omega, i2, i3, ?_⟩
      cases b with
      | true => exact S.downRising i hi
      | false => exact S.upRising i hi
  · intro o ho b
    rcases ho' o ho with ho | rfl
    · intro j a ha
      obtain ⟨i1, i2, _⟩ := h.ids o ho b a (List.mem_of_getElem? ha)
      rw [hold a i1 i2]
      exact h.link o ho b j a ha
    · cases b with
      | true => exact S.downLink
      | false => exact S.upLink
  · intro o ho b
    rcases ho' o ho with ho | rfl
    · exact h.nodup o ho b
    · cases b with
      | true => exact S.downNodup
      | false => exact S.upNodup
  · intro o ho
    rcases ho' o ho with ho | rfl
    · obtain ⟨k1, k2⟩ := h.kinds o ho
      constructor
      · rw [← k1]; apply List.map_congr_left; intro i hi
        obtain ⟨i1, i2, _⟩ := h.ids o ho false i hi
        rw [hold i i1 i2]
      · rw [← k2]; apply List.map_congr_left; intro i hi
        obtain ⟨i1, i2, _⟩ := h.ids o ho true i hi
        rw [hold i i1 i2]
    · exact ⟨S.upKinds, S.downKinds⟩
  · intro o ho
    rcases ho' o ho with ho | rfl
    · exact h.shared o ho
    · exact S.shared
  · intro o ho i hi
    rcases ho' o ho with ho | rfl
    · constructor
      · intro hm
        obtain ⟨i1, i2, _⟩ := h.ids o ho false i hm
        rw [hold i i1 i2] at hi
        exact (h.undBoth o ho i hi).1 hm
      · intro hm
        obtain ⟨i1, i2, _⟩ := h.ids o ho true i hm
        rw [hold i i1 i2] at hi
        exact (h.undBoth o ho i hi).2 hm
    · exact S.undBoth i hi
  · intro o ho o2 ho2 b b' i hi hi2
    rcases ho' o ho with ho | rfl <;> rcases ho' o2 ho2 with ho2 | rfl
    · exact h.disj o ho o2 ho2 b b' i hi hi2
    · have := (h.ids o ho b i hi).2.1
      have := (hb' b' i hi2).1
      omega
    · have := (h.ids o2 ho2 b' i hi2).2.1
      have := (hb' b i hi).1
      omega
    · rfl
  · intro i h1 h2
    by_cases hi : i < g.n
    · obtain ⟨o, ho, r⟩ := h.all i h1 hi
      exact ⟨o, by simp [ho], r⟩
    · refine ⟨⟨x, up, down⟩, by simp, ?_⟩
      rcases S.all i (by omega) h2 with hh | hh
      · exact ⟨false, hh⟩
      · exact ⟨true, hh⟩
  · intro i hi k t ht
    have hup : ∀ a, up.head? = some a → a ∈ up := fun a ha => List.mem_of_head? ha
    have hul : ∀ a, up.getLast? = some a → a ∈ up := fun a ha => List.mem_of_getLast? ha
    have hdh : ∀ a, down.head? = some a → a ∈ down := fun a ha => List.mem_of_head? ha
    have hdl : ∀ a, down.getLast? = some a → a ∈ down := fun a ha => List.mem_of_getLast? ha
    have old : (g.el i).nb k = some t → ∃ o ∈ out ++ [⟨x, up, down⟩], ∃ b, o.x.elem b = i ∧ (∃ b', t ∈ o.towards b') ∧
        ∃ k0, slotOf (g'.el i).ty (o.x.pt b) b = some k0 ∧ (k = k0 ∨ k = k0 + 1) := by
      intro hh
      obtain ⟨o, ho, b, q1, q2, q3⟩ := h.org i hi k t hh
      exact ⟨o, by simp [ho], b, q1, q2, by rw [(hty i (by omega)).1]; exact q3⟩
    by_cases h1 : i = x.start
    · subst h1
      rw [S.st] at ht
      simp only [Elem.setSlot_nb, Elem.setPoint_nb] at ht
      split at ht
      · exact ⟨⟨x, up, down⟩, by simp, true, rfl, ⟨true, hdl t ht⟩, ks, by rw [(hty _ (by omega)).1]; exact hks, by omega⟩
      · split at ht
        · exact ⟨⟨x, up, down⟩, by simp, true, rfl, ⟨false, hup t ht⟩, ks, by rw [(hty _ (by omega)).1]; exact hks, by omega⟩
        · exact old ht
    · by_cases h2 : i = x.fin
      · subst h2
        rw [S.fn] at ht
        simp only [Elem.setSlot_nb, Elem.setPoint_nb] at ht
        split at ht
        · exact ⟨⟨x, up, down⟩, by simp, false, rfl, ⟨true, hdh t ht⟩, kf, by rw [(hty _ (by omega)).1]; exact hkf, by omega⟩
        · split at ht
          · exact ⟨⟨x, up, down⟩, by simp, false, rfl, ⟨false, hul t ht⟩, kf, by rw [(hty _ (by omega)).1]; exact hkf, by omega⟩
          · exact old ht
      · rw [S.frame i (by omega) h1 h2] at ht
        exact old ht
  · intro o ho b
    rcases ho' o ho with ho | rfl
    · intro j a ha
      obtain ⟨i1, i2, _⟩ := h.ids o ho b a (List.mem_of_getElem? ha)
      rw [hold a i1 i2]
      exact h.back o ho b j a ha
    · cases b with
      | true => exact S.downBack
      | false => exact S.upBack

theorem NetInv.run {g0 : Graph} : ∀ (xs : List SecIn) (out : List SecOut) (g : Graph), NetInv g0 out g → (∀ x ∈ xs, x.Valid g0) →
    ((out.flatMap fun o => o.x.ends) ++ xs.flatMap (·.ends)).Nodup → NetInv g0 (out ++ (parseAll xs g).2) (parseAll xs g).1
  | [], out, g, h, _, _ => by simpa [parseAll] using h
  | x :: xs, out, g, h, hv, hn => by
    have hd : ∀ o ∈ out, ∀ b c, (o.x.elem b, o.x.pt b) ≠ (x.elem c, x.pt c) := by
      intro o ho b c he
      rw [List.nodup_append] at hn
      refine hn.2.2 (o.x.elem b, o.x.pt b) ?_ (x.elem c, x.pt c) ?_ he
      · exact List.mem_flatMap.2 ⟨o, ho, SecIn.mem_ends _ _⟩
      · exact List.mem_flatMap.2 ⟨x, by simp, SecIn.mem_ends _ _⟩
    have := NetInv.run xs _ _ (h.step (hv x (by simp)) hd) (fun y hy => hv y (by simp [hy])) (by simpa using hn)
    simpa [parseAll] using this

theorem parseAll_x (xs : List SecIn) (g : Graph) : (parseAll xs g).2.map (·.x) = xs := by
  induction xs generalizing g with
  | nil => rfl
  | cons x xs ih => simp [parseAll, ih]

end Soro.Infra
