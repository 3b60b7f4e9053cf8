import Verif.Model.HttpClient
import Verif.Spec.HttpClient
import Mathlib.Tactic.Tauto
import Mathlib.Tactic.ByContra

/-
C206: what the HTTP client of the web client sends.
-/

namespace Soro.HttpClient
open Spec

/-! ### base64 -/

theorem value_b64Char : ∀ n, n < 64 → value (b64Char n) = some n := by decide

theorem value_eq : value '=' = none := by decide

theorem value_colon : value ':' = none := by decide

theorem decode_b64 : ∀ s : List Nat, (∀ x ∈ s, x < 256) → decode (b64 s) = some s
  | [], _ => rfl
  | [a], h => by
    have ha : a < 256 := h a (by simp)
    have h1 := value_b64Char (a / 4) (by omega)
    have h2 := value_b64Char (a % 4 * 16) (by omega)
    simp only [b64, decode, group, h1, h2, value_eq, List.isEmpty_nil, and_self, if_true, List.append_nil, Option.some.injEq,
      List.cons.injEq, and_true]
    omega
  | [a, b], h => by
    have ha : a < 256 := h a (by simp)
    have hb : b < 256 := h b (by simp)
    have h1 := value_b64Char (a / 4) (by omega)
    have h2 := value_b64Char (a % 4 * 16 + b / 16) (by omega)
    have h3 := value_b64Char (b % 16 * 4) (by omega)
    simp only [b64, decode, group, h1, h2, h3, value_eq, List.isEmpty_nil, and_self, if_true, List.append_nil, Option.some.injEq,
      List.cons.injEq, and_true]
    omega
  | a :: b :: c :: r, h => by
    have ha : a < 256 := h a (by simp)
    have hb : b < 256 := h b (by simp)
    have hc : c < 256 := h c (by simp)
    have h1 := value_b64Char (a / 4) (by omega)
    have h2 := value_b64Char (a % 4 * 16 + b / 16) (by omega)
    have h3 := value_b64Char (b % 16 * 4 + c / 64) (by omega)
    have h4 := value_b64Char (c % 64) (by omega)
    have ih := decode_b64 r (fun x hx => h x (by simp [hx]))
    simp only [b64, decode, group, h1, h2, h3, h4, ih, List.cons_append, List.nil_append, Option.some.injEq,
      List.cons.injEq, and_true]
    omega

theorem group_colon (a b c d : Char) (l : Bool) (h : ':' = a ∨ ':' = b ∨ ':' = c ∨ ':' = d) : group a b c d l = none := by
  unfold group
  rcases h with h | h | h | h
  · subst h; rw [value_colon]
  · subst h; rw [value_colon]; cases value a <;> rfl
  · subst h
    rw [value_colon]
    cases value a <;> cases value b <;> cases value d <;> first | rfl | (refine if_neg ?_; rintro ⟨_, h, _⟩; revert h; decide)
  · subst h
    rw [value_colon]
    cases value a <;> cases value b <;> cases value c <;> first | rfl | (refine if_neg ?_; rintro ⟨_, h⟩; revert h; decide) |
      (refine if_neg ?_; rintro ⟨_, _, h⟩; revert h; decide)

theorem decode_colon : ∀ s : List Char, ':' ∈ s → decode s = none
  | [], h => by cases h
  | [_], _ => rfl
  | [_, _], _ => rfl
  | [_, _, _], _ => rfl
  | a :: b :: c :: d :: r, h => by
    simp only [List.mem_cons] at h
    rw [decode]
    by_cases hg : ':' = a ∨ ':' = b ∨ ':' = c ∨ ':' = d
    · rw [group_colon _ _ _ _ _ hg]
    · have hr : ':' ∈ r := by tauto
      rw [decode_colon r hr]
      cases group a b c d r.isEmpty <;> rfl

theorem after_append (p s : List Char) : after p (p ++ s) = some s := by
  induction p with
  | nil => rfl
  | cons c p ih => simp [after, ih]

theorem splitColon_append (u p : List Nat) (h : 58 ∉ u) : splitColon (u ++ 58 :: p) = some (u, p) := by
  induction u with
  | nil => simp [splitColon]
  | cons c u ih =>
    simp only [List.mem_cons, not_or] at h
    simp [splitColon, ih h.2, Ne.symm h.1]

/-! ### headers -/

theorem find_filter (h : Headers) (n m : List Char) (hn : n ≠ m) :
    (h.filter fun e => e.1 != n).find? (fun e => e.1 == m) = h.find? fun e => e.1 == m := by
  induction h with
  | nil => rfl
  | cons e h ih =>
    by_cases he : e.1 = n
    · have h1 : (e.1 == m) = false := by simp [he, hn]
      simp [List.filter_cons, List.find?_cons, he, hn, ih]
    · simp [List.filter_cons, List.find?_cons, he, ih]

theorem get_set (h : Headers) (n v m : List Char) :
    (h.set n v).get m = if lower n = lower m then some v else h.get m := by
  unfold Headers.get Headers.set
  rw [List.find?_append]
  by_cases hn : lower n = lower m
  · rw [if_pos hn]
    have : (h.filter fun e => e.1 != lower n).find? (fun e => e.1 == lower m) = none := by
      rw [List.find?_eq_none]
      intro e he
      simp only [List.mem_filter, bne_iff_ne] at he
      simpa [← hn] using he.2
    rw [this]
    simp [List.find?_cons, hn]
  · rw [if_neg hn, find_filter _ _ _ hn]
    simp [hn]

/-- the header a call sets -/
def Op.sets : Op → List Char → Option (List Char)
  | .header n v, m => if lower n = lower m then some v else none
  | .basic u p, m => if lower m = "authorization".toList then some ("Basic ".toList ++ b64 u ++ ':' :: b64 p) else none
  | .bearer t, m => if lower m = "authorization".toList then some ("Bearer ".toList ++ t) else none

/-- the value of a header after calls: that of the last call that sets it -/
def lastSet (os : List Op) (m : List Char) (initial : Option (List Char)) : Option (List Char) :=
  os.foldl (fun v o => (o.sets m).or v) initial

/-- user names and passwords of calls are Latin-1 -/
def Op.Latin : Op → Prop
  | .basic u p => (∀ x ∈ u, x < 256) ∧ ∀ x ∈ p, x < 256
  | _ => True

theorem btoa_some {s : List Nat} (h : ∀ x ∈ s, x < 256) : btoa s = some (b64 s) := by
  unfold btoa
  rw [if_pos]
  simpa using h

theorem lower_auth : lower "Authorization".toList = "authorization".toList := by decide

theorem op_spec (c : Client) (o : Op) (h : Headers) (hc : c.headers = some h) (ho : o.Latin) :
    ∃ c' h', c.op o = some c' ∧ c'.headers = some h' ∧ c'.base = c.base ∧ ∀ m, h'.get m = (o.sets m).or (h.get m) := by
  have key : ∀ n v, ∃ c' h', c.setHeader n v = some c' ∧ c'.headers = some h' ∧ c'.base = c.base ∧
      ∀ m, h'.get m = (if lower n = lower m then some v else none).or (h.get m) := by
    intro n v
    refine ⟨{ c with headers := some (h.set n v) }, h.set n v, by simp [Client.setHeader, hc], rfl, rfl, ?_⟩
    intro m
    rw [get_set]
    split <;> rfl
  cases o with
  | header n v => exact key n v
  | basic u p =>
    obtain ⟨c', h', h1, h2, h3, h4⟩ := key "Authorization".toList ("Basic ".toList ++ b64 u ++ [':'] ++ b64 p)
    refine ⟨c', h', ?_, h2, h3, ?_⟩
    · simp only [Client.op, Client.setBasicAuth, btoa_some ho.1, btoa_some ho.2]
      exact h1
    · intro m
      rw [h4, lower_auth]
      simp only [Op.sets, List.append_assoc, List.cons_append, List.nil_append, eq_comm]
  | bearer t =>
    obtain ⟨c', h', h1, h2, h3, h4⟩ := key "Authorization".toList ("Bearer ".toList ++ t)
    refine ⟨c', h', h1, h2, h3, ?_⟩
    intro m
    rw [h4, lower_auth]
    simp only [Op.sets, eq_comm]

theorem ops_spec (os : List Op) : ∀ (c : Client) (h : Headers), c.headers = some h → (∀ o ∈ os, o.Latin) →
    ∃ c' h', c.ops os = some c' ∧ c'.headers = some h' ∧ c'.base = c.base ∧ ∀ m, h'.get m = lastSet os m (h.get m) := by
  induction os with
  | nil => intro c h hc _; exact ⟨c, h, rfl, hc, rfl, fun m => rfl⟩
  | cons o os ih =>
    intro c h hc hl
    obtain ⟨c1, h1, e1, e2, e3, e4⟩ := op_spec c o h hc (hl o (by simp))
    obtain ⟨c2, h2, f1, f2, f3, f4⟩ := ih c1 h1 e2 (fun o ho => hl o (by simp [ho]))
    refine ⟨c2, h2, by simp [Client.ops, e1, f1], f2, f3.trans e3, ?_⟩
    intro m
    rw [f4, e4]
    rfl

/-! ### the property -/

/-- the calls that send a request -/
inductive Call where
  | get | delete
  | post (body : Json)
  | put (body : Json)

/-- the request of a call -/
def Client.send (c : Client) (endpoint : List Char) (o : Options) : Call → Request
  | .get => c.get endpoint o
  | .delete => c.delete endpoint o
  | .post b => c.post endpoint b o
  | .put b => c.put endpoint b o

/-- the method meant -/
def Call.method : Call → Method
  | .get => .get
  | .delete => .delete
  | .post _ => .post
  | .put _ => .put

/-- the body meant -/
def Call.body (o : Options) : Call → Option Json
  | .get => o.body
  | .delete => o.body
  | .post b => some b
  | .put b => some b

/-- the body of a call does not count as false -/
def Call.Truthy : Call → Prop
  | .post b => b.truthy = true
  | .put b => b.truthy = true
  | _ => True

/-- C206, for bodies that do not count as false: a client with headers sends every request to the address made of base
and endpoint, with the method and the body of the call, and with every header as set by the last call for it. -/
theorem C206_sent_partial (base : List Char) (h : Headers) (os : List Op) (hl : ∀ o ∈ os, o.Latin) (endpoint : List Char)
    (o : Options) (k : Call) (hk : k.Truthy) :
    ∃ c, (Client.create base (some h)).ops os = some c ∧ (c.send endpoint o k).url = base ++ endpoint ∧
      (c.send endpoint o k).method = k.method ∧ (c.send endpoint o k).body = k.body o ∧
      (∀ m, (c.send endpoint o k).headers.get m = lastSet os m (h.get m)) ∧
      ∀ m, c.getHeader m = some (lastSet os m (h.get m)) := by
  obtain ⟨c, h', e1, e2, e3, e4⟩ := ops_spec os (Client.create base (some h)) h rfl hl
  refine ⟨c, e1, ?_, ?_, ?_, ?_, ?_⟩
  · cases k <;> exact congrArg (· ++ endpoint) e3
  · cases k <;> rfl
  · cases k with
    | get => rfl
    | delete => rfl
    | post b => exact if_pos hk
    | put b => exact if_pos hk
  · intro m
    have : (c.send endpoint o k).headers = h' := by
      cases k <;> simp [Client.send, Client.get, Client.delete, Client.post, Client.put, Client.request, e2]
    rw [this, e4]
  · intro m
    simp [Client.getHeader, e2, e4]

example : ∃ c, (Client.create "/api".toList (some [])).ops
    [.header "accept".toList "a".toList, .bearer "t".toList, .header "Accept".toList "b".toList] = some c ∧
    (c.send "/x".toList {} (.post (.num 3))).headers.get "ACCEPT".toList = some "b".toList ∧
    (c.send "/x".toList {} (.post (.num 3))).url = "/api/x".toList := by
  exact ⟨_, rfl, by decide, by decide⟩

theorem lastSet_append (os os' : List Op) (o : Op) (m v : List Char) (i : Option (List Char)) (ho : o.sets m = some v)
    (h : ∀ o ∈ os', o.sets m = none) : lastSet (os ++ o :: os') m i = some v := by
  have key : ∀ (l : List Op) (x : Option (List Char)), (∀ o ∈ l, o.sets m = none) →
      l.foldl (fun v o => (o.sets m).or v) x = x := by
    intro l
    induction l with
    | nil => intro x _; rfl
    | cons o l ih =>
      intro x hx
      rw [List.foldl_cons, hx o (by simp)]
      exact ih _ (fun o ho => hx o (by simp [ho]))
  unfold lastSet
  rw [List.foldl_append, List.foldl_cons, ho]
  exact key os' _ h

/-- C206. After `setBearerAuth` the server reads the token from every request, until the header is set again. -/
theorem C206_bearer (base : List Char) (h : Headers) (os os' : List Op) (t : List Char) (hl : ∀ o ∈ os ++ os', o.Latin)
    (hs : ∀ o ∈ os', o.sets "Authorization".toList = none) (endpoint : List Char) (o : Options) (k : Call) :
    ∃ c v, (Client.create base (some h)).ops (os ++ .bearer t :: os') = some c ∧
      (c.send endpoint o k).headers.get "Authorization".toList = some v ∧ token v = some t := by
  obtain ⟨c, h', e1, e2, _, e4⟩ := ops_spec (os ++ .bearer t :: os') (Client.create base (some h)) h rfl (by
    intro o ho
    simp only [List.mem_append, List.mem_cons] at ho hl
    rcases ho with ho | rfl | ho
    · exact hl o (.inl ho)
    · trivial
    · exact hl o (.inr ho))
  refine ⟨c, "Bearer ".toList ++ t, e1, ?_, after_append _ _⟩
  have : (c.send endpoint o k).headers = h' := by
    cases k <;> simp [Client.send, Client.get, Client.delete, Client.post, Client.put, Client.request, e2]
  rw [this, e4]
  exact lastSet_append os os' _ _ _ _ (by rw [Op.sets, if_pos lower_auth]) hs

example : ∀ o ∈ [Op.header "accept".toList "a".toList], o.sets "Authorization".toList = none := by
  simp [Op.sets, lower]

/-- what would be right: the server reads user and password from the encoding of both with a colon between -/
theorem intended (u p : List Nat) (hu : ∀ x ∈ u, x < 256) (hp : ∀ x ∈ p, x < 256) (hc : 58 ∉ u) :
    credentials ("Basic ".toList ++ b64 (u ++ 58 :: p)) = some (u, p) := by
  unfold credentials
  rw [after_append, Option.bind_some, decode_b64, Option.bind_some, splitColon_append u p hc]
  intro x hx
  simp only [List.mem_append, List.mem_cons] at hx
  rcases hx with hx | rfl | hx
  · exact hu x hx
  · omega
  · exact hp x hx

/-- C206 does not hold for `setBasicAuth`: whatever the user and the password, the server cannot read credentials from the
header, since the colon is outside of the encoded text. -/
theorem C206_basic_negation (base : List Char) (h : Headers) (os os' : List Op) (u p : List Nat)
    (hl : ∀ o ∈ os ++ .basic u p :: os', o.Latin) (hs : ∀ o ∈ os', o.sets "Authorization".toList = none)
    (endpoint : List Char) (o : Options) (k : Call) :
    ∃ c v, (Client.create base (some h)).ops (os ++ .basic u p :: os') = some c ∧
      (c.send endpoint o k).headers.get "Authorization".toList = some v ∧ (after "Basic ".toList v).isSome = true ∧
      credentials v = none := by
  obtain ⟨c, h', e1, e2, _, e4⟩ := ops_spec (os ++ .basic u p :: os') (Client.create base (some h)) h rfl hl
  refine ⟨c, "Basic ".toList ++ b64 u ++ ':' :: b64 p, e1, ?_, ?_, ?_⟩
  · have : (c.send endpoint o k).headers = h' := by
      cases k <;> simp [Client.send, Client.get, Client.delete, Client.post, Client.put, Client.request, e2]
    rw [this, e4]
    exact lastSet_append os os' _ _ _ _ (by rw [Op.sets, if_pos lower_auth]) hs
  · rw [List.append_assoc, after_append]
    rfl
  · unfold credentials
    rw [List.append_assoc, after_append, Option.bind_some, decode_colon _ (by simp)]
    rfl

example : credentials ("Basic ".toList ++ b64 [97, 58, 98]) = some ([97], [98]) := by decide

/-- C206 does not hold for a client created without headers: every call that sets a header throws. -/
theorem C206_no_headers_negation (base : List Char) (o : Op) (os : List Op) :
    (Client.create base none).ops (o :: os) = none := by
  have : (Client.create base none).op o = none := by
    cases o with
    | header n v => rfl
    | bearer t => rfl
    | basic u p =>
      show Client.setBasicAuth _ u p = none
      unfold Client.setBasicAuth
      cases btoa u <;> cases btoa p <;> rfl
  simp [Client.ops, this]

/-- C206 does not hold for headers given with a call: they are not sent. -/
theorem C206_options_negation (c : Client) (endpoint : List Char) (k : Call) (o : Options) (h : Headers) :
    (c.send endpoint { o with headers := some h } k).headers = (c.send endpoint o k).headers ∧
    ∀ n v, c.headers = some [] →
      (c.send endpoint { o with headers := some (Headers.set h n v) } k).headers.get n = none := by
  refine ⟨by cases k <;> rfl, ?_⟩
  intro n v hc
  cases k <;> simp [Client.send, Client.get, Client.delete, Client.post, Client.put, Client.request, hc, Headers.get]

/-- C206 does not hold for a body that counts as false, like zero, `false` or the empty text: none is sent. -/
theorem C206_falsy_negation (c : Client) (endpoint : List Char) (o : Options) (b : Json)
    (hb : (∃ n : Int, n = 0 ∧ b = .num n) ∨ b = .bool false ∨ b = .str [] ∨ b = .null) :
    (c.send endpoint o (.post b)).body = none ∧ (c.send endpoint o (.put b)).body = none := by
  rcases hb with ⟨_, rfl, rfl⟩ | rfl | rfl | rfl <;> exact ⟨rfl, rfl⟩

/-- bodies that count as true: everything else -/
theorem C206_body (b : Json) (h0 : b ≠ .num 0) (h1 : b ≠ .bool false) (h2 : b ≠ .str []) (h3 : b ≠ .null) (c : Client)
    (endpoint : List Char) (o : Options) :
    (c.send endpoint o (.post b)).body = some b ∧ (c.send endpoint o (.put b)).body = some b := by
  have hb : b.truthy = true := by
    cases b with
    | null => exact absurd rfl h3
    | bool b => cases b with
      | false => exact absurd rfl h1
      | true => rfl
    | num n =>
      show (n != 0) = true
      simp only [bne_iff_ne]
      rintro rfl
      exact h0 rfl
    | str s => cases s with
      | nil => exact absurd rfl h2
      | cons c s => rfl
    | arr l => rfl
    | obj l => rfl
  exact ⟨if_pos hb, if_pos hb⟩

example : (Json.num 7 ≠ .num 0) ∧ Json.num 7 ≠ .bool false ∧ Json.num 7 ≠ .str [] ∧ Json.num 7 ≠ .null := by simp

/-- C206. The document of an answer is given exactly for a status from 200 to 299 but 204, with a body that is a document;
any other status is an error with the text of the status. -/
theorem C206_answer (r : Response) :
    (∀ j, answer r = .value j ↔ (200 ≤ r.status ∧ r.status < 300 ∧ r.status ≠ 204) ∧ r.body = some j) ∧
    (answer r = .failed r.statusText ↔ ¬ (200 ≤ r.status ∧ r.status < 300 ∧ r.status ≠ 204)) := by
  unfold answer Response.ok
  by_cases h : 200 ≤ r.status ∧ r.status < 300 ∧ r.status ≠ 204
  · obtain ⟨h1, h2, h3⟩ := h
    have h2' : r.status ≤ 299 := by omega
    cases hb : r.body <;> simp [h1, h2, h2', h3]
  · have hc : (!(decide (200 ≤ r.status) && decide (r.status ≤ 299)) || r.status == 204) = true := by
      simp only [Bool.or_eq_true, Bool.not_eq_true', Bool.and_eq_false_iff, decide_eq_false_iff_not, beq_iff_eq]
      by_contra hc
      push Not at hc
      exact h ⟨hc.1.1, by omega, hc.2⟩
    rw [hc]
    simp [h]

example : (200 ≤ (201 : Nat) ∧ (201 : Nat) < 300 ∧ (201 : Nat) ≠ 204) := by decide

end Soro.HttpClient
