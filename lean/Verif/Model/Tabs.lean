/-
Model of the tabs of the web client: `web/client/src/golden-layout/golden-layout-adapter.vue`, with the start of the client
(`web/client/src/App.vue:34-66`, `web/client/src/stores/golden-layout-store.ts:29-64`).

The adapter keeps the components in a map from indexes to components. The layout is a tree of groups (rows, columns, stacks) and
tabs; a tab carries the index of its component in its state (`refId`). What is awaited are microtasks only, so the opening of a
tab and the loading of a layout end before the next event of the user. Contracts of the library `golden-layout`: `addComponent` and
`loadLayout` bind each tab once, `clear` and closing unbind each tab once, `clear` in the order of the tabs; `saveLayout` returns the
tree with the state of each tab, marked as resolved; `LayoutConfig.fromResolved` makes a deep copy. The tabs are listed in the order
in which the adapter walks over them; where they are on the screen is not modelled. A failed binding is `none`.
-/

namespace Soro.Tabs

variable {κ : Type}

/-- golden-layout-adapter.vue:104, a tab with its component type and the `refId` of its state, or a group of items -/
inductive Item (κ : Type) where
  | tab (kind : κ) (ref : Option Nat)
  | group (content : List (Item κ))

/-- golden-layout-adapter.vue:59-62; `shown` is `AllComponents`, `unused` is `UnusedIndexes` with its last element first, `tabs` is
`MapComponents` with the component type of the tab in the layout -/
structure State (κ : Type) where
  shown : List (Nat × κ)
  unused : List Nat
  cur : Nat
  tabs : List (κ × Nat)
  deriving DecidableEq

/-- golden-layout-adapter.vue:59-62 -/
def State.init : State κ := ⟨[], [], 0, []⟩

/-- `AllComponents.value.has`, line 81 -/
def has (m : List (Nat × κ)) (i : Nat) : Bool := m.any fun e => e.1 == i

/-- `AllComponents.value.get`, as the template shows it -/
def get (m : List (Nat × κ)) (i : Nat) : Option κ := (m.find? fun e => e.1 == i).map (·.2)

/-- `AllComponents.value.delete`, line 221 -/
def remove (m : List (Nat × κ)) (i : Nat) : List (Nat × κ) := m.filter fun e => e.1 != i

/-- `AllComponents.value.set`, line 88 -/
def put (m : List (Nat × κ)) (i : Nat) (k : κ) : List (Nat × κ) := (i, k) :: remove m i

/-- golden-layout-adapter.vue:81-83; the loop with a bound on its rounds -/
def nextFree (m : List (Nat × κ)) : Nat → Nat → Nat
  | 0, c => c
  | f + 1, c => if has m c then nextFree m f (c + 1) else c

/-- golden-layout-adapter.vue:72-91; the condition `alreadyUsedIndex` is false for 0 -/
def State.add (s : State κ) (k : κ) (used : Option Nat) : Nat × State κ :=
  match used, s.unused with
  | some (i + 1), _ => (i + 1, { s with shown := put s.shown (i + 1) k })
  | _, i :: rest => (i, { s with shown := put s.shown i k, unused := rest })
  | _, [] =>
    let c := nextFree s.shown (s.shown.length + 1) s.cur
    (c, { s with shown := put s.shown c k, cur := c })

/-- golden-layout-adapter.vue:193-216 -/
def State.bind (s : State κ) (k : κ) (i : Nat) : Option (State κ) :=
  if has s.shown i then some { s with tabs := s.tabs ++ [(k, i)] } else none

/-- golden-layout-adapter.vue:93-102 -/
def State.open (s : State κ) (k : κ) : Option (State κ) :=
  let r := s.add k none
  r.2.bind k r.1

/-- golden-layout-adapter.vue:218-223, for one index -/
def State.unbind (s : State κ) (i : Nat) : State κ :=
  { s with shown := remove s.shown i, unused := i :: s.unused }

/-- golden-layout-adapter.vue:218-223, the tab at a position is closed -/
def State.close (s : State κ) (j : Nat) : State κ :=
  match s.tabs[j]? with
  | none => s
  | some t => { s.unbind t.2 with tabs := s.tabs.eraseIdx j }

/-- golden-layout-adapter.vue:106-107 -/
def State.clear (s : State κ) : State κ :=
  { s.tabs.foldl (fun s t => s.unbind t.2) s with shown := [], tabs := [] }

/-- golden-layout-adapter.vue:122-136, the tabs of a list of items -/
def tabsOf : List (Item κ) → List (κ × Option Nat)
  | [] => []
  | .tab k r :: l => (k, r) :: tabsOf l
  | .group _ :: l => tabsOf l

/-- golden-layout-adapter.vue:122-127, the groups of a list of items -/
def groupsOf : List (Item κ) → List (List (Item κ))
  | [] => []
  | .tab _ _ :: l => groupsOf l
  | .group c :: l => c :: groupsOf l

/-- golden-layout-adapter.vue:119-137, the tabs in the order of the loop, which has a bound on its rounds -/
def walk : Nat → List (List (Item κ)) → List (κ × Option Nat)
  | 0, _ => []
  | _, [] => []
  | f + 1, c :: q => tabsOf c ++ walk f (q ++ groupsOf c)

mutual
/-- number of groups of an item, a bound on the rounds of the loop -/
def Item.groups : Item κ → Nat
  | .tab _ _ => 0
  | .group c => 1 + groupsIn c
/-- number of groups in a list of items -/
def groupsIn : List (Item κ) → Nat
  | [] => 0
  | i :: l => i.groups + groupsIn l
end

/-- golden-layout-adapter.vue:133-135, for all tabs in the order of the loop; the indexes in the same order -/
def State.addAll (s : State κ) : List (κ × Option Nat) → List Nat × State κ
  | [] => ([], s)
  | t :: l =>
    let r := s.add t.1 t.2
    let q := r.2.addAll l
    (r.1 :: q.1, q.2)

/-- line 141 with 193-216, the tabs of the configuration are bound -/
def State.bindAll (s : State κ) : List (κ × Option Nat) → Option (State κ)
  | [] => some s
  | (_, none) :: _ => none
  | (k, some i) :: l => (s.bind k i).bind fun s => s.bindAll l

/-- golden-layout-adapter.vue:105-142. `layoutConfig` is written to, and is what is loaded unless it is resolved: then the copy of
line 114 is loaded, which still has the states that were saved. -/
def State.load (s : State κ) (resolved : Bool) (content : List (Item κ)) : Option (State κ) :=
  let ts := walk (groupsIn content + 1) [content]
  let r := s.clear.addAll ts
  r.2.bindAll (if resolved then ts else (ts.map (·.1)).zip (r.1.map some))

/-- what the user does -/
inductive Act (κ : Type) where
  | open (k : κ)
  | close (j : Nat)

/-- addGoldenLayoutTab, golden-layout-store.ts:52-63, or the cross of a tab -/
def State.step (s : State κ) : Act κ → Option (State κ)
  | .open k => s.open k
  | .close j => some (s.close j)

/-- golden-layout-store.ts:47-50 and 30-35 with App.vue:34-51; `first` is the component of the initial layout -/
def start (first : κ) (saved : Option (List (Item κ))) : Option (State κ) :=
  (State.init.load false [.group [.tab first none]]).bind fun s =>
    match saved with
    | none => some s
    | some l => s.load true l

end Soro.Tabs
