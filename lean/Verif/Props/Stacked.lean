import Verif.Model.Stacked
/-!
# C67: objects with mocks stay themselves
-/
namespace FakeIt.Stacked

/-! ## Specification -/

/-- An object as its user sees it: its class, the mock it belongs to if it is a fake, the mocks attached to it, the newest first. -/
structure AObj where
  cls : Nat
  base : Option Nat
  stack : List Nat
  live : Bool

/-- A mock as its user sees it: its object, its class, the methods stubbed. -/
structure AMock where
  obj : Nat
  cls : Nat
  stubs : Nat → Option Nat
  live : Bool

/-- The world as its user sees it. -/
structure AState where
  objs : List AObj := []
  mocks : List AMock := []

/-- The id with which a method of a mock is stubbed. -/
def AState.stubbed (a : AState) (m slot : Nat) : Option Nat := a.mocks[m]?.bind (·.stubs slot)

/-- Number of virtual functions of the class by which the mock is attached, or of the object's class. -/
def AState.width (size : Nat → Nat) (a : AState) (ao : AObj) : List Nat → Nat
  | [] => size ao.cls
  | m :: _ => match a.mocks[m]? with
    | some k => size k.cls
    | none => 0

/-- Who answers a call of a method that the newest mock does not stub: the object itself. Not if an older mock stubs it, nor if a fake object has several mocks. -/
def AState.plainAnswer (a : AState) (ao : AObj) (slot : Nat) : Option Ans :=
  match ao.stack with
  | [] => some (.native ao.cls slot)
  | m :: rest => if rest.any (fun n => (a.stubbed n slot).isSome) then none else
    match ao.base with
    | none => some (.native ao.cls slot)
    | some _ => if rest = [] then some (.unmocked m) else none

/-- Is the mock alive and the newest of its object? -/
def AState.newest (a : AState) (m : Nat) : Option (AMock × AObj) :=
  match a.mocks[m]? with
  | none => none
  | some k => match a.objs[k.obj]? with
    | none => none
    | some ao => if k.live && ao.live && ao.stack.head? == some m then some (k, ao) else none

/-- A step as the user expects it: calls are answered by the newest mock if it stubs the method, by the object itself otherwise; mocks come and go; objects keep their type. `none`: not
covered. Covered are mocks that are used and destroyed only while they are the newest of their object, methods of the class by which the newest mock was attached, and `typeid` if
this is the class of the object. -/
def AState.step (size : Nat → Nat) (a : AState) : Op → Option (AState × Ans)
  | .make d => some ({ a with objs := a.objs ++ [⟨d, none, [], true⟩] }, .nothing)
  | .fake c => some ({ objs := a.objs ++ [⟨c, some a.mocks.length, [a.mocks.length], true⟩], mocks := a.mocks ++ [⟨a.objs.length, c, fun _ => none, true⟩] }, .nothing)
  | .spy o c => match a.objs[o]? with
    | none => none
    | some ao => if ao.live = true ∧ size c ≤ a.width size ao ao.stack then
        some ({ objs := a.objs.set o { ao with stack := a.mocks.length :: ao.stack }, mocks := a.mocks ++ [⟨o, c, fun _ => none, true⟩] }, .nothing)
      else none
  | .stub m slot id => match a.newest m with
    | none => none
    | some (k, _) => if slot < size k.cls then
        match k.stubs slot with
        | some _ => some (a, .nothing)
        | none => if (List.range (size k.cls)).any (fun i => k.stubs i == some id) then none else
            some ({ a with mocks := a.mocks.set m { k with stubs := fun i => if i = slot then some id else k.stubs i } }, .nothing)
      else none
  | .reset m => match a.newest m with
    | none => none
    | some (k, _) => some ({ a with mocks := a.mocks.set m { k with stubs := fun _ => none } }, .nothing)
  | .destroy m => match a.newest m with
    | none => none
    | some (k, ao) => some ({ objs := a.objs.set k.obj { ao with stack := ao.stack.tail, live := ao.base != some m }, mocks := a.mocks.set m { k with live := false } }, .nothing)
  | .delete o => match a.objs[o]? with
    | none => none
    | some ao => if ao.live = true ∧ ao.stack = [] then some ({ a with objs := a.objs.set o { ao with live := false } }, .nothing) else none
  | .call o slot => match a.objs[o]? with
    | none => none
    | some ao => if ao.live = true ∧ slot < a.width size ao ao.stack then
        match ao.stack.head?.bind (fun m => (a.stubbed m slot).map fun _ => m) with
        | some m => some (a, .handled m slot)
        | none => (a.plainAnswer ao slot).map fun x => (a, x)
      else none
  | .original m slot => match a.newest m with
    | none => none
    | some (k, ao) => if slot < size k.cls then (a.plainAnswer ao slot).map fun x => (a, x) else none
  | .typeId o => match a.objs[o]? with
    | none => none
    | some ao => if ao.live = true ∧ (∀ k, ao.stack.head?.bind (fun m => a.mocks[m]?) = some k → k.cls = ao.cls) then some (a, .type ao.cls) else none

/-- A test as its user expects it. -/
def AState.run (size : Nat → Nat) : AState → List Op → Option (List Ans)
  | _, [] => some []
  | a, op :: ops => match a.step size op with
    | none => none
    | some (a, x) => (AState.run size a ops).map (x :: ·)

/-! ## Simulation -/

section
variable {size : Nat → Nat}

/-- The table of the newest mock, or of the object itself. -/
private def nameOf (ao : AObj) : List Nat → TName
  | m :: _ => .clone m
  | [] => match ao.base with
    | none => .native ao.cls
    | some m => .own m

/-- What is in a slot. -/
private def content (a : AState) (ao : AObj) : List Nat → Nat → Code
  | [], slot => match ao.base with
    | none => .native ao.cls slot
    | some _ => .unmocked
  | m :: rest, slot => match a.stubbed m slot with
    | some id => .proxy id
    | none => content a ao rest slot

private structure LinkOk (size : Nat → Nat) (s : State) (a : AState) (o : Nat) (ao : AObj) (m : Nat) (rest : List Nat) (k : AMock) (q : Mck) : Prop where
  am : a.mocks[m]? = some k
  sm : s.mocks[m]? = some q
  live : k.live = true
  obj : k.obj = o
  eq : q = ⟨o, k.cls, nameOf ao rest, (List.range (size k.cls)).map k.stubs, ao.base == some m, true⟩
  tab : s.tables (.clone m) = some ⟨(List.range (size k.cls)).map (content a ao (m :: rest)), some m, if ao.base == some m then some m else none, k.cls⟩
  width : size k.cls ≤ a.width size ao rest
  uniq : ∀ i j id, i < size k.cls → j < size k.cls → k.stubs i = some id → k.stubs j = some id → i = j

private def ChainOk (size : Nat → Nat) (s : State) (a : AState) (o : Nat) (ao : AObj) : List Nat → Prop
  | [] => True
  | m :: rest => (∃ k q, LinkOk size s a o ao m rest k q) ∧ ChainOk size s a o ao rest

private structure ObjOk (size : Nat → Nat) (s : State) (a : AState) (o : Nat) (ao : AObj) : Prop where
  table : s.objs[o]? = some ⟨nameOf ao ao.stack, true⟩
  own : ∀ m, ao.base = some m → s.tables (.own m) = some ⟨(List.range (size ao.cls)).map (fun _ => .unmocked), none, none, ao.cls⟩
  nodup : ao.stack.Nodup
  last : ∀ m, ao.base = some m → ao.stack.getLast? = some m
  chain : ChainOk size s a o ao ao.stack

private structure Sim (size : Nat → Nat) (s : State) (a : AState) : Prop where
  nat : ∀ d, s.tables (.native d) = some (nativeTable size d)
  lenO : s.objs.length = a.objs.length
  lenM : s.mocks.length = a.mocks.length
  obj : ∀ o ao, a.objs[o]? = some ao → ao.live = true → ObjOk size s a o ao

private theorem chain_mem {s : State} {a : AState} {o : Nat} {ao : AObj} : ∀ {st : List Nat}, ChainOk size s a o ao st → ∀ m ∈ st, ∃ k q, a.mocks[m]? = some k ∧ s.mocks[m]? = some q ∧ k.obj = o
  | [], _, m, hm => by simp at hm
  | n :: rest, ⟨⟨k, q, h⟩, hr⟩, m, hm => by
    rcases List.mem_cons.mp hm with rfl | hm
    · exact ⟨k, q, h.am, h.sm, h.obj⟩
    · exact chain_mem hr m hm

/-- What is not on the stack does not matter. -/
private theorem content_congr {a a' : AState} {ao ao' : AObj} (hb : ao'.base = ao.base) (hc : ao'.cls = ao.cls) : ∀ {st : List Nat}, (∀ m ∈ st, a'.mocks[m]? = a.mocks[m]?) → ∀ slot,
    content a' ao' st slot = content a ao st slot
  | [], _, slot => by simp [content, hb, hc]
  | m :: rest, h, slot => by
    simp only [content, AState.stubbed, h m (List.mem_cons_self ..)]
    rw [content_congr hb hc (fun n hn => h n (List.mem_cons_of_mem _ hn)) slot]

private theorem width_congr {a a' : AState} {ao ao' : AObj} (hc : ao'.cls = ao.cls) {st : List Nat} (h : ∀ m ∈ st, a'.mocks[m]? = a.mocks[m]?) :
    a'.width size ao' st = a.width size ao st := by
  cases st with
  | nil => simp [AState.width, hc]
  | cons m rest => simp [AState.width, h m (List.mem_cons_self ..)]

private theorem nameOf_congr {ao ao' : AObj} (hb : ao'.base = ao.base) (hc : ao'.cls = ao.cls) (st : List Nat) : nameOf ao' st = nameOf ao st := by
  cases st <;> simp [nameOf, hb, hc]

private theorem chain_congr {s s' : State} {a a' : AState} {o : Nat} {ao ao' : AObj} (hb : ao'.base = ao.base) (hc : ao'.cls = ao.cls) : ∀ {st : List Nat},
    (∀ m ∈ st, a'.mocks[m]? = a.mocks[m]? ∧ s'.mocks[m]? = s.mocks[m]? ∧ s'.tables (.clone m) = s.tables (.clone m)) → ChainOk size s a o ao st → ChainOk size s' a' o ao' st
  | [], _, _ => trivial
  | m :: rest, h, ⟨⟨k, q, l⟩, hr⟩ => by
    have hm := h m (List.mem_cons_self ..)
    have hr' := fun n hn => h n (List.mem_cons_of_mem m hn)
    refine ⟨⟨k, q, ⟨hm.1.trans l.am, hm.2.1.trans l.sm, l.live, l.obj, ?_, ?_, ?_, ?_⟩⟩, chain_congr hb hc hr' hr⟩
    · rw [l.eq, nameOf_congr hb hc, hb]
    · rw [hm.2.2, l.tab, hb]
      have : content a' ao' (m :: rest) = content a ao (m :: rest) := funext (content_congr hb hc fun n hn => (h n hn).1)
      rw [this]
    · rw [width_congr hc fun n hn => (hr' n hn).1]
      exact l.width
    · exact l.uniq

/-- The table an object points to. -/
private theorem table_at {s : State} {a : AState} {o : Nat} {ao : AObj} (hn : ∀ d, s.tables (.native d) = some (nativeTable size d))
    (hown : ∀ m, ao.base = some m → s.tables (.own m) = some ⟨(List.range (size ao.cls)).map (fun _ => .unmocked), none, none, ao.cls⟩) {st : List Nat}
    (hc : ChainOk size s a o ao st) : ∃ t, s.tables (nameOf ao st) = some t ∧ t.entries = (List.range (a.width size ao st)).map (content a ao st) := by
  cases st with
  | nil =>
    cases hb : ao.base with
    | none => exact ⟨_, by simp only [nameOf, hb]; exact hn _, by simp [nativeTable, AState.width, content, hb]⟩
    | some m => exact ⟨_, by simp only [nameOf, hb]; exact hown m hb, by simp [AState.width, content, hb]⟩
  | cons m rest =>
    obtain ⟨⟨k, q, l⟩, _⟩ := hc
    exact ⟨_, l.tab, by simp [AState.width, l.am]⟩

private theorem ObjOk.tableOf {s : State} {a : AState} {o : Nat} {ao : AObj} (hn : ∀ d, s.tables (.native d) = some (nativeTable size d)) (h : ObjOk size s a o ao) :
    ∃ t, s.tableOf o = .done (nameOf ao ao.stack, t) ∧ s.tables (nameOf ao ao.stack) = some t ∧ t.entries = (List.range (a.width size ao ao.stack)).map (content a ao ao.stack) := by
  obtain ⟨t, h1, h2⟩ := table_at hn h.own h.chain
  exact ⟨t, by simp [State.tableOf, h.table, h1], h1, h2⟩

/-- Objects that a step does not touch. -/
private theorem obj_congr {s s' : State} {a a' : AState} {o : Nat} {ao : AObj} (h : ObjOk size s a o ao) (ho : s'.objs[o]? = s.objs[o]?)
    (hm : ∀ m ∈ ao.stack, a'.mocks[m]? = a.mocks[m]? ∧ s'.mocks[m]? = s.mocks[m]? ∧ s'.tables (.clone m) = s.tables (.clone m))
    (hw : ∀ m ∈ ao.stack, s'.tables (.own m) = s.tables (.own m)) : ObjOk size s' a' o ao :=
  ⟨ho.trans h.table, fun m hb => (hw m (List.mem_of_getLast? (h.last m hb))).trans (h.own m hb), h.nodup, h.last, chain_congr rfl rfl hm h.chain⟩

private theorem get_append_one {α : Type} {l : List α} {x y : α} {i : Nat} (h : (l ++ [x])[i]? = some y) : l[i]? = some y ∨ (i = l.length ∧ y = x) := by
  rcases Nat.lt_trichotomy i l.length with hi | hi | hi
  · rw [List.getElem?_append_left hi] at h; exact Or.inl h
  · subst hi; simp at h; exact Or.inr ⟨rfl, h.symm⟩
  · rw [List.getElem?_eq_none (by simp; omega)] at h; cases h

private theorem get_set {α : Type} {l : List α} {x y : α} {i j : Nat} (h : (l.set i x)[j]? = some y) : (j ≠ i ∧ l[j]? = some y) ∨ (j = i ∧ y = x) := by
  by_cases hj : j = i
  · subst hj
    rw [List.getElem?_set_self'] at h
    cases hl : l[j]? with
    | none => rw [hl] at h; cases h
    | some z => rw [hl] at h; cases h; exact Or.inr ⟨rfl, rfl⟩
  · rw [List.getElem?_set_ne (Ne.symm hj)] at h; exact Or.inl ⟨hj, h⟩

private theorem lt_of_get {α : Type} {l : List α} {x : α} {i : Nat} (h : l[i]? = some x) : i < l.length := (List.getElem?_eq_some_iff.mp h).1

private theorem take_map_range {α : Type} (f : Nat → α) {n w : Nat} (h : n ≤ w) : ((List.range w).map f).take n = (List.range n).map f := by
  rw [← List.map_take, List.take_range, Nat.min_eq_left h]

private theorem set_map_range {α : Type} (f g : Nat → α) {n i : Nat} {x : α} (hg : ∀ j, g j = if j = i then x else f j) : ((List.range n).map f).set i x = (List.range n).map g := by
  apply List.ext_getElem?
  intro j
  by_cases hj : j = i
  · subst hj
    rw [List.getElem?_set_self']
    by_cases hjn : j < n
    · simp [List.getElem?_map, List.getElem?_range hjn, hg]
    · rw [List.getElem?_eq_none (by simpa using hjn), List.getElem?_eq_none (by simpa using hjn)]; rfl
  · rw [List.getElem?_set_ne (Ne.symm hj)]
    simp only [List.getElem?_map]
    by_cases hjn : j < n
    · simp [List.getElem?_range hjn, hg, hj]
    · rw [List.getElem?_eq_none (by simpa using hjn)]; rfl

private theorem get_map_range {α : Type} (f : Nat → α) {n i : Nat} (h : i < n) : ((List.range n).map f)[i]? = some (f i) := by
  simp [List.getElem?_map, List.getElem?_range h]

private theorem sim_make {s : State} {a : AState} (h : Sim size s a) (d : Nat) :
    Sim size { s with objs := s.objs ++ [⟨.native d, true⟩] } { a with objs := a.objs ++ [⟨d, none, [], true⟩] } := by
  refine ⟨h.nat, by simp [h.lenO], h.lenM, fun o ao ho hl => ?_⟩
  rcases get_append_one ho with ho | ⟨rfl, rfl⟩
  · refine obj_congr (h.obj o ao ho hl) ?_ (fun _ _ => ⟨rfl, rfl, rfl⟩) (fun _ _ => rfl)
    exact List.getElem?_append_left (h.lenO ▸ lt_of_get ho)
  · exact ⟨by rw [← h.lenO]; simp [nameOf], fun m hm => by simp at hm, List.nodup_nil, fun m hm => by simp at hm, trivial⟩

/-- The constructor of a mock, for an object whose table is known. -/
private theorem attach_eq {s : State} {o c : Nat} {owner : Bool} {tn : TName} {t : Table} {w : Nat} {f : Nat → Code} (ht : s.tableOf o = .done (tn, t))
    (he : t.entries = (List.range w).map f) (hw : size c ≤ w) :
    s.attach size o c owner = .done
      { tables := fun x => if x = .clone s.mocks.length then some ⟨(List.range (size c)).map f, some s.mocks.length, if owner then some s.mocks.length else none, c⟩ else s.tables x,
        objs := s.objs.set o ⟨.clone s.mocks.length, true⟩, mocks := s.mocks ++ [⟨o, c, tn, List.replicate (size c) none, owner, true⟩] } := by
  have hl : size c ≤ t.entries.length := by rw [he]; simpa using hw
  simp only [State.attach, ht, R.bind_done, copyFrom, if_pos hl, State.setTable]
  rw [he, take_map_range f hw]

private theorem replicate_none (n : Nat) : List.replicate n (none : Option Nat) = (List.range n).map fun _ => none := by
  apply List.ext_getElem <;> simp

private theorem sim_spy {s : State} {a : AState} (h : Sim size s a) {o c : Nat} {ao : AObj} (ho : a.objs[o]? = some ao) (hl : ao.live = true) (hw : size c ≤ a.width size ao ao.stack) :
    ∃ s', s.attach size o c false = .done s' ∧
      Sim size s' { objs := a.objs.set o { ao with stack := a.mocks.length :: ao.stack }, mocks := a.mocks ++ [⟨o, c, fun _ => none, true⟩] } := by
  have hob := h.obj o ao ho hl
  obtain ⟨t, h1, h2, h3⟩ := hob.tableOf h.nat
  refine ⟨_, attach_eq h1 h3 hw, ?_⟩
  have hfresh : ∀ (o' : Nat) (ao' : AObj), a.objs[o']? = some ao' → ao'.live = true → ∀ m ∈ ao'.stack, m ≠ a.mocks.length := by
    intro o' ao' ho' hl' m hm he
    obtain ⟨k, _, hk, _⟩ := chain_mem (h.obj o' ao' ho' hl').chain m hm
    have := lt_of_get hk
    omega
  refine ⟨fun d => by simpa using h.nat d, by simp [h.lenO], by simp [h.lenM], fun o' ao' ho' hl' => ?_⟩
  have hmk : ∀ (o'' : Nat) (ao'' : AObj), a.objs[o'']? = some ao'' → ao''.live = true → ∀ m ∈ ao''.stack,
      (a.mocks ++ [⟨o, c, fun _ => none, true⟩])[m]? = a.mocks[m]? ∧ (s.mocks ++ [⟨o, c, nameOf ao ao.stack, List.replicate (size c) none, false, true⟩])[m]? = s.mocks[m]? ∧
      (if TName.clone m = .clone s.mocks.length then some ⟨(List.range (size c)).map (content a ao ao.stack), some s.mocks.length, if false = true then some s.mocks.length else none, c⟩ else s.tables (.clone m)) = s.tables (.clone m) := by
    intro o'' ao'' ho'' hl'' m hm
    have hne := hfresh o'' ao'' ho'' hl'' m hm
    obtain ⟨k, q, hk, hq, _⟩ := chain_mem (h.obj o'' ao'' ho'' hl'').chain m hm
    refine ⟨List.getElem?_append_left (lt_of_get hk), List.getElem?_append_left (lt_of_get hq), if_neg ?_⟩
    simp [h.lenM, hne]
  rcases get_set ho' with ⟨hne, ho'⟩ | ⟨rfl, rfl⟩
  · exact obj_congr (h.obj o' ao' ho' hl') (List.getElem?_set_ne (Ne.symm hne)) (hmk o' ao' ho' hl') (fun m _ => by simp)
  · have hlt : o' < s.objs.length := by rw [h.lenO]; exact lt_of_get ho
    refine ⟨by simp [hlt, nameOf, h.lenM], fun m hb => ?_, List.nodup_cons.mpr ⟨fun hm => hfresh o' ao ho hl _ hm rfl, hob.nodup⟩, fun m hb => ?_, ?_⟩
    · have := hob.own m hb
      simpa using this
    · have := hob.last m hb
      show (a.mocks.length :: ao.stack).getLast? = some m
      cases hst : ao.stack with
      | nil => rw [hst] at this; cases this
      | cons x l => rw [hst] at this; rw [List.getLast?_cons_cons]; exact this
    · refine ⟨⟨⟨o', c, fun _ => none, true⟩, ⟨o', c, nameOf ao ao.stack, List.replicate (size c) none, false, true⟩, ?_⟩,
        chain_congr (ao := ao) (ao' := { ao with stack := a.mocks.length :: ao.stack }) rfl rfl (hmk o' ao ho hl) hob.chain⟩
      have hbase : ao.base ≠ some a.mocks.length := fun hb => hfresh o' ao ho hl _ (List.mem_of_getLast? (hob.last _ hb)) rfl
      refine ⟨by simp, by simp [← h.lenM], rfl, rfl, ?_, ?_, ?_, by simp⟩
      · simp only [replicate_none, beq_eq_false_iff_ne.mpr hbase]
        rfl
      · simp only [beq_eq_false_iff_ne.mpr hbase, h.lenM, if_true]
        congr 2
        refine List.map_congr_left fun i _ => ?_
        simp only [content, AState.stubbed, List.getElem?_concat_length, Option.bind_some]
        exact (content_congr (a := a) (a' := ⟨_, a.mocks ++ [_]⟩) (ao := ao) (ao' := { ao with stack := a.mocks.length :: ao.stack }) rfl rfl (fun m hm => (hmk o' ao ho hl m hm).1) i).symm
      · exact Nat.le_trans hw (Nat.le_of_eq (width_congr (a := a) (a' := ⟨_, a.mocks ++ [_]⟩) (ao := ao) (ao' := { ao with stack := a.mocks.length :: ao.stack }) rfl (fun m hm => (hmk o' ao ho hl m hm).1)).symm)

private theorem sim_fake {s : State} {a : AState} (h : Sim size s a) (c : Nat) :
    ∃ s', s.step size (.fake c) = .done (s', .nothing) ∧
      Sim size s' { objs := a.objs ++ [⟨c, some a.mocks.length, [a.mocks.length], true⟩], mocks := a.mocks ++ [⟨a.objs.length, c, fun _ => none, true⟩] } := by
  have he : List.replicate (size c) Code.unmocked = (List.range (size c)).map fun _ => .unmocked := by apply List.ext_getElem <;> simp
  have ht : State.tableOf { (s.setTable (.own s.mocks.length) (some ⟨List.replicate (size c) .unmocked, none, none, c⟩)) with objs := s.objs ++ [⟨.own s.mocks.length, true⟩] } s.objs.length =
      .done (.own s.mocks.length, ⟨List.replicate (size c) .unmocked, none, none, c⟩) := by simp [State.tableOf, State.setTable]
  have ha := attach_eq (size := size) (c := c) (owner := true) ht he (Nat.le_refl _)
  simp only [State.setTable] at ha
  refine ⟨_, by simp only [State.step, State.setTable]; rw [ha]; rfl, ?_⟩
  have hmk : ∀ (o'' : Nat) (ao'' : AObj), a.objs[o'']? = some ao'' → ao''.live = true → ∀ m ∈ ao''.stack, m < a.mocks.length ∧ m < s.mocks.length := by
    intro o'' ao'' ho'' hl'' m hm
    obtain ⟨k, q, hk, hq, _⟩ := chain_mem (h.obj o'' ao'' ho'' hl'').chain m hm
    exact ⟨lt_of_get hk, lt_of_get hq⟩
  refine ⟨fun d => by simpa using h.nat d, by simp [h.lenO], by simp [h.lenM], fun o ao ho hl => ?_⟩
  rcases get_append_one ho with ho | ⟨rfl, rfl⟩
  · have hlt := lt_of_get ho
    rw [← h.lenO] at hlt
    refine obj_congr (h.obj o ao ho hl) ?_ (fun m hm => ?_) (fun m hm => ?_)
    · show ((s.objs ++ [_]).set s.objs.length _)[o]? = s.objs[o]?
      rw [List.getElem?_set_ne (by omega), List.getElem?_append_left hlt]
    · obtain ⟨h1, h2⟩ := hmk o ao ho hl m hm
      refine ⟨List.getElem?_append_left h1, List.getElem?_append_left h2, ?_⟩
      have : m ≠ s.mocks.length := by omega
      simp [this]
    · obtain ⟨h1, h2⟩ := hmk o ao ho hl m hm
      have : m ≠ s.mocks.length := by omega
      simp [this]
  · refine ⟨by simp [← h.lenO, nameOf, h.lenM], fun m hb => ?_, by simp, fun m hb => by simpa using hb, ?_⟩
    · cases hb
      simp [h.lenM, he]
    · refine ⟨⟨_, _, ⟨List.getElem?_concat_length, by simp [← h.lenM]; rfl, rfl, rfl, ?_, ?_, ?_, by simp⟩⟩, trivial⟩
      · simp [nameOf, h.lenM, h.lenO, replicate_none]
      · simp only [h.lenM, if_true, beq_self_eq_true]
        congr 2
        refine List.map_congr_left fun i _ => ?_
        simp [content, AState.stubbed]
      · exact Nat.le_refl _

private theorem newest_some {a : AState} {m : Nat} {k : AMock} {ao : AObj} (h : a.newest m = some (k, ao)) :
    a.mocks[m]? = some k ∧ a.objs[k.obj]? = some ao ∧ ao.live = true ∧ ∃ rest, ao.stack = m :: rest := by
  unfold AState.newest at h
  split at h
  · cases h
  · rename_i k' hk
    split at h
    · cases h
    · rename_i ao' ho
      split at h
      · rename_i hc
        cases h
        simp only [Bool.and_eq_true, beq_iff_eq] at hc
        refine ⟨hk, ho, hc.1.2, ?_⟩
        cases hs : ao.stack with
        | nil => rw [hs] at hc; simp at hc
        | cons x rest => rw [hs] at hc; simp at hc; exact ⟨rest, by rw [hc.2]⟩
      · cases h

/-- Other objects have other mocks. -/
private theorem not_mem_other {s : State} {a : AState} (h : Sim size s a) {m : Nat} {k : AMock} (hk : a.mocks[m]? = some k) {o : Nat} {ao : AObj} (ho : a.objs[o]? = some ao)
    (hl : ao.live = true) (hne : o ≠ k.obj) : ∀ n ∈ ao.stack, n ≠ m := by
  intro n hn he
  subst he
  obtain ⟨k', _, hk', _, ho'⟩ := chain_mem (h.obj o ao ho hl).chain n hn
  rw [hk] at hk'
  cases hk'
  exact hne ho'.symm

/-- Changes of the stubbings of the newest mock. -/
private theorem sim_top {s : State} {a : AState} (h : Sim size s a) {m : Nat} {k : AMock} {ao : AObj} {rest : List Nat} (hk : a.mocks[m]? = some k) (ho : a.objs[k.obj]? = some ao)
    (hl : ao.live = true) (hst : ao.stack = m :: rest) (f : Nat → Option Nat) (huniq : ∀ i j id, i < size k.cls → j < size k.cls → f i = some id → f j = some id → i = j) (s' : State)
    (h1 : s'.objs = s.objs) (h2 : s'.mocks = s.mocks.set m ⟨k.obj, k.cls, nameOf ao rest, (List.range (size k.cls)).map f, ao.base == some m, true⟩)
    (h3 : s'.tables = fun x => if x = .clone m then some ⟨(List.range (size k.cls)).map (fun i => match f i with | some id => Code.proxy id | none => content a ao rest i), some m,
      if ao.base == some m then some m else none, k.cls⟩ else s.tables x) :
    Sim size s' { a with mocks := a.mocks.set m { k with stubs := f } } := by
  refine ⟨fun d => by rw [h3]; simpa using h.nat d, by rw [h1]; exact h.lenO, by rw [h2]; simp [h.lenM], fun o' ao' ho' hl' => ?_⟩
  have hob := h.obj _ _ ho hl
  by_cases hne : o' = k.obj
  · subst hne
    have : ao' = ao := by
      have h5 : a.objs[k.obj]? = some ao' := ho'
      rw [ho] at h5; cases h5; rfl
    subst this
    have hch := hob.chain
    rw [hst] at hch
    obtain ⟨⟨k', q, l⟩, hr⟩ := hch
    have hke : k' = k := by have := l.am; rw [hk] at this; cases this; rfl
    subst hke
    have hnd := hob.nodup
    rw [hst] at hnd
    have hnm : ∀ n ∈ rest, n ≠ m := fun n hn he => (List.nodup_cons.mp hnd).1 (he ▸ hn)
    have hrest : ∀ n ∈ rest, (a.mocks.set m { k' with stubs := f })[n]? = a.mocks[n]? ∧ s'.mocks[n]? = s.mocks[n]? ∧ s'.tables (.clone n) = s.tables (.clone n) := by
      intro n hn
      have hne := hnm n hn
      refine ⟨List.getElem?_set_ne (Ne.symm hne), ?_, ?_⟩
      · rw [h2]; exact List.getElem?_set_ne (Ne.symm hne)
      · rw [h3]; simp [hne]
    refine ⟨by rw [h1]; exact hob.table, fun n hb => ?_, hob.nodup, hob.last, ?_⟩
    · rw [h3]; simpa using hob.own n hb
    · rw [hst]
      refine ⟨⟨{ k' with stubs := f }, _, ⟨by simp [lt_of_get hk], by rw [h2]; simp [lt_of_get l.sm], l.live, rfl, rfl, ?_, ?_, huniq⟩⟩, chain_congr rfl rfl hrest hr⟩
      · rw [h3]
        simp only [if_true]
        congr 2
        refine List.map_congr_left fun i _ => ?_
        simp only [content, AState.stubbed, List.getElem?_set_self (lt_of_get hk), Option.bind_some]
        have := content_congr (a := a) (a' := { a with mocks := a.mocks.set m { k' with stubs := f } }) (ao := ao') (ao' := ao') rfl rfl (fun n hn => (hrest n hn).1) i
        rw [this]
      · rw [width_congr (a := a) (ao := ao') rfl (fun n hn => (hrest n hn).1)]
        exact l.width
  · refine obj_congr (h.obj o' ao' ho' hl') (by rw [h1]) (fun n hn => ?_) (fun n hn => by rw [h3]; simp)
    have hnm := not_mem_other h hk ho' hl' hne n hn
    refine ⟨List.getElem?_set_ne (Ne.symm hnm), ?_, ?_⟩
    · rw [h2]; exact List.getElem?_set_ne (Ne.symm hnm)
    · rw [h3]; simp [hnm]

/-- What is known of the newest mock of an object. -/
private theorem top {s : State} {a : AState} (h : Sim size s a) {m : Nat} {k : AMock} {ao : AObj} {rest : List Nat} (hk : a.mocks[m]? = some k) (ho : a.objs[k.obj]? = some ao)
    (hl : ao.live = true) (hst : ao.stack = m :: rest) :
    s.mock m = .done ⟨k.obj, k.cls, nameOf ao rest, (List.range (size k.cls)).map k.stubs, ao.base == some m, true⟩ ∧
    s.objs[k.obj]? = some ⟨.clone m, true⟩ ∧
    s.tableOf k.obj = .done (.clone m, ⟨(List.range (size k.cls)).map (content a ao (m :: rest)), some m, if ao.base == some m then some m else none, k.cls⟩) ∧
    s.tables (.clone m) = some ⟨(List.range (size k.cls)).map (content a ao (m :: rest)), some m, if ao.base == some m then some m else none, k.cls⟩ ∧
    (∃ t0, s.tables (nameOf ao rest) = some t0 ∧ t0.entries = (List.range (a.width size ao rest)).map (content a ao rest)) ∧ size k.cls ≤ a.width size ao rest ∧
    (∀ i j id, i < size k.cls → j < size k.cls → k.stubs i = some id → k.stubs j = some id → i = j) := by
  have hob := h.obj _ _ ho hl
  have hch := hob.chain
  rw [hst] at hch
  obtain ⟨⟨k', q, l⟩, hr⟩ := hch
  have hke : k' = k := by have := l.am; rw [hk] at this; cases this; rfl
  subst hke
  have ht := hob.table
  rw [hst] at ht
  simp only [nameOf] at ht
  refine ⟨by simp [State.mock, l.sm, l.eq], ht, by simp [State.tableOf, ht, l.tab], l.tab, table_at h.nat hob.own hr, l.width, l.uniq⟩

private theorem sim_stub {s : State} {a : AState} (h : Sim size s a) {m slot id : Nat} {k : AMock} {ao : AObj} {rest : List Nat} (hk : a.mocks[m]? = some k) (ho : a.objs[k.obj]? = some ao)
    (hl : ao.live = true) (hst : ao.stack = m :: rest) (hs : slot < size k.cls) :
    (∀ x, k.stubs slot = some x → s.stub m slot id = .done s) ∧
    (k.stubs slot = none → (∀ i, i < size k.cls → k.stubs i ≠ some id) → ∃ s', s.stub m slot id = .done s' ∧
      Sim size s' { a with mocks := a.mocks.set m { k with stubs := fun i => if i = slot then some id else k.stubs i } }) := by
  obtain ⟨hm, hobj, htab, hclone, ⟨t0, ht0, he0⟩, hw, huniq⟩ := top h hk ho hl hst
  constructor
  · intro x hx
    simp [State.stub, hm, get_map_range _ hs, hx]
  · intro hx hfresh
    refine ⟨_, by simp only [State.stub, hm, R.bind_done, get_map_range _ hs, hx, R.ofOption_some, State.setMethod, htab, List.length_map, List.length_range, if_pos hs]; rfl, ?_⟩
    refine sim_top h hk ho hl hst _ ?_ _ rfl ?_ ?_
    · intro i j x hi hj h1 h2
      split at h1 <;> split at h2
      · omega
      · cases h1; exact absurd h2 (hfresh j hj)
      · cases h2; exact absurd h1 (hfresh i hi)
      · exact huniq i j x hi hj h1 h2
    · simp only [State.setTable]
      rw [set_map_range k.stubs (fun i => if i = slot then some id else k.stubs i) (fun _ => rfl)]
    · simp only [State.setTable]
      funext x
      rw [set_map_range (content a ao (m :: rest)) _ (fun j => ?_)]
      by_cases hj : j = slot
      · simp [hj]
      · simp [hj, content, AState.stubbed, hk]

private theorem sim_reset {s : State} {a : AState} (h : Sim size s a) {m : Nat} {k : AMock} {ao : AObj} {rest : List Nat} (hk : a.mocks[m]? = some k) (ho : a.objs[k.obj]? = some ao)
    (hl : ao.live = true) (hst : ao.stack = m :: rest) :
    ∃ s', s.reset size m = .done s' ∧ Sim size s' { a with mocks := a.mocks.set m { k with stubs := fun _ => none } } := by
  obtain ⟨hm, hobj, htab, hclone, ⟨t0, ht0, he0⟩, hw, huniq⟩ := top h hk ho hl hst
  have hlen : size k.cls ≤ t0.entries.length := by rw [he0]; simpa using hw
  refine ⟨_, by simp only [State.reset, hm, R.bind_done, ht0, R.ofOption_some, copyFrom, if_pos hlen, hclone]; rfl, ?_⟩
  refine sim_top h hk ho hl hst _ (by simp) _ rfl ?_ ?_
  · simp only [State.setTable, replicate_none]
  · simp only [State.setTable]
    funext x
    rw [he0, take_map_range _ hw]

private theorem sim_destroy {s : State} {a : AState} (h : Sim size s a) {m : Nat} {k : AMock} {ao : AObj} {rest : List Nat} (hk : a.mocks[m]? = some k) (ho : a.objs[k.obj]? = some ao)
    (hl : ao.live = true) (hst : ao.stack = m :: rest) :
    ∃ s', s.destroy m = .done s' ∧
      Sim size s' { objs := a.objs.set k.obj { ao with stack := ao.stack.tail, live := ao.base != some m }, mocks := a.mocks.set m { k with live := false } } := by
  obtain ⟨hm, hobj, htab, hclone, ⟨t0, ht0, he0⟩, hw, huniq⟩ := top h hk ho hl hst
  have hob := h.obj _ _ ho hl
  have hnd := hob.nodup
  rw [hst] at hnd
  have hnm : ∀ n ∈ rest, n ≠ m := fun n hn he => (List.nodup_cons.mp hnd).1 (he ▸ hn)
  have hlast := hob.last
  rw [hst] at hlast
  by_cases hb : ao.base = some m
  · have hrest : rest = [] := by
      cases rest with
      | nil => rfl
      | cons y ys =>
        have := hlast m hb
        rw [List.getLast?_cons_cons] at this
        exact absurd rfl (hnm m (List.mem_of_getLast? this))
    subst hrest
    refine ⟨_, by simp only [State.destroy, hm, R.bind_done, hobj, R.ofOption_some, hb, beq_self_eq_true, if_true, nameOf]; rfl, ?_⟩
    refine ⟨fun d => by simpa [State.setTable] using h.nat d, by simp [State.setTable, h.lenO], by simp [State.setTable, h.lenM], fun o' ao' ho' hl' => ?_⟩
    rcases get_set ho' with ⟨hne, ho'⟩ | ⟨rfl, rfl⟩
    · have hnm' := not_mem_other h hk ho' hl' hne
      refine obj_congr (h.obj o' ao' ho' hl') ?_ (fun n hn => ?_) (fun n hn => ?_)
      · simp only [State.setTable]
        rw [List.getElem?_set_ne (Ne.symm hne), List.getElem?_set_ne (Ne.symm hne)]
      · refine ⟨List.getElem?_set_ne (Ne.symm (hnm' n hn)), List.getElem?_set_ne (Ne.symm (hnm' n hn)), by simp [State.setTable, hnm' n hn]⟩
      · simp [State.setTable, hnm' n hn]
    · simp [hb] at hl'
  · have hbf : (ao.base == some m) = false := by simpa using hb
    refine ⟨_, by simp only [State.destroy, hm, R.bind_done, hobj, R.ofOption_some, hbf, if_true]; rfl, ?_⟩
    refine ⟨fun d => by simpa [State.setTable] using h.nat d, by simp [State.setTable, h.lenO], by simp [State.setTable, h.lenM], fun o' ao' ho' hl' => ?_⟩
    rcases get_set ho' with ⟨hne, ho'⟩ | ⟨rfl, rfl⟩
    · have hnm' := not_mem_other h hk ho' hl' hne
      refine obj_congr (h.obj o' ao' ho' hl') ?_ (fun n hn => ?_) (fun n hn => ?_)
      · simp only [State.setTable]
        rw [List.getElem?_set_ne (Ne.symm hne)]
      · refine ⟨List.getElem?_set_ne (Ne.symm (hnm' n hn)), List.getElem?_set_ne (Ne.symm (hnm' n hn)), by simp [State.setTable, hnm' n hn]⟩
      · simp [State.setTable]
    · have hch := hob.chain
      rw [hst] at hch
      refine ⟨?_, fun n hn => ?_, ?_, fun n hn => ?_, ?_⟩
      · simp only [hst, List.tail_cons, State.setTable]
        rw [List.getElem?_set_self (lt_of_get hobj)]
        have := nameOf_congr (ao := ao) (ao' := { ao with stack := rest, live := ao.base != some m }) rfl rfl rest
        rw [this]
      · simpa [State.setTable] using hob.own n hn
      · simpa [hst] using (List.nodup_cons.mp hnd).2
      · simp only [hst, List.tail_cons]
        have := hlast n hn
        cases rest with
        | nil =>
          simp at this
          subst this
          exact absurd hn hb
        | cons y ys => rwa [List.getLast?_cons_cons] at this
      · simp only [hst, List.tail_cons]
        refine chain_congr (ao := ao) (ao' := { ao with stack := rest, live := ao.base != some m }) (s := s) (a := a) rfl rfl (fun n hn => ?_) hch.2
        refine ⟨List.getElem?_set_ne (Ne.symm (hnm n hn)), List.getElem?_set_ne (Ne.symm (hnm n hn)), by simp [State.setTable, hnm n hn]⟩

private theorem sim_delete {s : State} {a : AState} (h : Sim size s a) {o : Nat} {x : Obj} {y : AObj} (hy : y.live = false) :
    Sim size { s with objs := s.objs.set o x } { a with objs := a.objs.set o y } := by
  refine ⟨h.nat, by simp [h.lenO], h.lenM, fun o' ao' ho' hl' => ?_⟩
  rcases get_set ho' with ⟨hne, ho'⟩ | ⟨rfl, rfl⟩
  · exact obj_congr (h.obj o' ao' ho' hl') (List.getElem?_set_ne (Ne.symm hne)) (fun _ _ => ⟨rfl, rfl, rfl⟩) (fun _ _ => rfl)
  · rw [hy] at hl'; cases hl'

/-- Without stubbings the object's own code is there. -/
private theorem content_plain {a : AState} {ao : AObj} {slot : Nat} : ∀ {st : List Nat}, (∀ n ∈ st, a.stubbed n slot = none) → content a ao st slot = content a ao [] slot
  | [], _ => rfl
  | n :: rest, h => by
    simp only [content, h n (List.mem_cons_self ..)]
    rw [content_plain fun x hx => h x (List.mem_cons_of_mem _ hx)]
    rfl

private theorem findIdx_stub {n slot id : Nat} {f : Nat → Option Nat} (hs : slot < n) (hf : f slot = some id) (hu : ∀ i j id, i < n → j < n → f i = some id → f j = some id → i = j) :
    ((List.range n).map f).findIdx? (· == some id) = some slot := by
  rw [List.findIdx?_eq_some_iff_getElem]
  refine ⟨by simpa using hs, by simp [hf], fun j hj => ?_⟩
  simp only [List.getElem_map, List.getElem_range, beq_iff_eq]
  intro hjf
  have := hu j slot id (by omega) hs hjf hf
  omega

private theorem call_top {s : State} {a : AState} (h : Sim size s a) {m slot : Nat} {k : AMock} {ao : AObj} {rest : List Nat} (hk : a.mocks[m]? = some k) (ho : a.objs[k.obj]? = some ao)
    (hl : ao.live = true) (hst : ao.stack = m :: rest) (hs : slot < size k.cls) {id : Nat} (hstub : a.stubbed m slot = some id) : s.call k.obj slot = .done (.handled m slot) := by
  obtain ⟨hm, hobj, htab, hclone, ⟨t0, ht0, he0⟩, hw, huniq⟩ := top h hk ho hl hst
  have hks : k.stubs slot = some id := by simpa [AState.stubbed, hk] using hstub
  simp only [State.call, htab, R.bind_done, get_map_range _ hs, R.ofOption_some, content, hstub, hm, findIdx_stub hs hks huniq]

/-- Code of the object itself in the slot of the newest mock's table. -/
private theorem call_plain {s : State} {a : AState} {ao : AObj} {m o slot : Nat} {rest : List Nat} {x : Ans} {t : Table} {tn : TName} {q : Mck} (hst : ao.stack = m :: rest)
    (ht : s.tableOf o = .done (tn, t)) (he : t.entries[slot]? = some (content a ao rest slot)) (hi : t.impl = if ao.base == some m then some m else none)
    (hlast : ∀ n, ao.base = some n → ao.stack.getLast? = some n) (hm : s.mock m = .done q) (hx : a.plainAnswer ao slot = some x) : s.call o slot = .done x := by
  simp only [AState.plainAnswer, hst] at hx
  split at hx
  · cases hx
  · rename_i hany
    have hn : ∀ n ∈ rest, a.stubbed n slot = none := by
      intro n hn
      cases hv : a.stubbed n slot with
      | none => rfl
      | some v => exact absurd (List.any_eq_true.mpr ⟨n, hn, by simp [hv]⟩) hany
    rw [content_plain hn] at he
    cases hb : ao.base with
    | none =>
      simp only [hb] at hx
      cases hx
      simp [State.call, ht, he, content, hb]
    | some b =>
      simp only [hb] at hx
      split at hx
      · rename_i hr
        cases hx
        have := hlast b hb
        rw [hst, hr] at this
        simp at this
        subst this
        simp [State.call, ht, he, content, hb, hi, hm]
      · cases hx

private theorem sim_call {s : State} {a : AState} (h : Sim size s a) {o slot : Nat} {ao : AObj} (ho : a.objs[o]? = some ao) (hl : ao.live = true) (hs : slot < a.width size ao ao.stack) :
    (∀ m, ao.stack.head?.bind (fun m => (a.stubbed m slot).map fun _ => m) = some m → s.call o slot = .done (.handled m slot)) ∧
    (ao.stack.head?.bind (fun m => (a.stubbed m slot).map fun _ => m) = none → ∀ x, a.plainAnswer ao slot = some x → s.call o slot = .done x) := by
  have hob := h.obj o ao ho hl
  cases hst : ao.stack with
  | nil =>
    refine ⟨fun m hm => by simp at hm, fun _ x hx => ?_⟩
    simp only [AState.plainAnswer, hst] at hx
    cases hx
    obtain ⟨t, h1, _, h3⟩ := hob.tableOf h.nat
    have hb : ao.base = none := by
      cases hb : ao.base with
      | none => rfl
      | some b => have := hob.last b hb; rw [hst] at this; simp at this
    simp only [State.call, h1, R.bind_done, h3, get_map_range _ hs, R.ofOption_some]
    simp [hst, content, hb]
  | cons m rest =>
    have hch := hob.chain
    rw [hst] at hch
    obtain ⟨⟨k, q, l⟩, _⟩ := hch
    have hobj := l.obj
    subst hobj
    have hw' : slot < size k.cls := by rw [hst] at hs; simpa [AState.width, l.am] using hs
    obtain ⟨hm, hobj, htab, hclone, ⟨t0, ht0, he0⟩, hw, huniq⟩ := top h l.am ho hl hst
    simp only [List.head?_cons, Option.bind_some, Option.map_eq_some_iff, Option.map_eq_none_iff]
    refine ⟨fun n ⟨id, hid, hn⟩ => ?_, fun hn x hx => ?_⟩
    · subst hn
      exact call_top h l.am ho hl hst hw' hid
    · refine call_plain hst htab ?_ rfl hob.last hm hx
      simp only [get_map_range _ hw', content, hn]

private theorem sim_original {s : State} {a : AState} (h : Sim size s a) {m slot : Nat} {k : AMock} {ao : AObj} {rest : List Nat} {x : Ans} (hk : a.mocks[m]? = some k)
    (ho : a.objs[k.obj]? = some ao) (hl : ao.live = true) (hst : ao.stack = m :: rest) (hs : slot < size k.cls) (hx : a.plainAnswer ao slot = some x) : s.original m slot = .done (s, x) := by
  obtain ⟨hm, hobj, htab, hclone, ⟨t0, ht0, he0⟩, hw, huniq⟩ := top h hk ho hl hst
  have hob := h.obj _ _ ho hl
  have hs' : slot < a.width size ao rest := by omega
  have hcall := call_plain (a := a) (o := k.obj) (s := s.setTable (.clone m) (some ⟨((List.range (size k.cls)).map (content a ao (m :: rest))).set slot (content a ao rest slot), some m,
      if ao.base == some m then some m else none, k.cls⟩)) (slot := slot) hst (tn := .clone m) (t := ⟨((List.range (size k.cls)).map (content a ao (m :: rest))).set slot (content a ao rest slot), some m, if ao.base == some m then some m else none, k.cls⟩)
      (by simp only [State.tableOf, State.setTable, hobj, R.ofOption_some, R.bind_done, if_true])
      (by simp [hs]) rfl hob.last (q := ⟨k.obj, k.cls, nameOf ao rest, (List.range (size k.cls)).map k.stubs, ao.base == some m, true⟩) (by simpa [State.mock, State.setTable] using hm) hx
  simp only [State.original, hm, R.bind_done, htab, get_map_range _ hs, R.ofOption_some, ht0, he0, get_map_range _ hs', State.setMethod, List.length_map, List.length_range, if_pos hs, hcall]
  simp only [State.tableOf, State.setTable, hobj, R.ofOption_some, R.bind_done, if_true, List.length_set, List.length_map, List.length_range, if_pos hs, List.set_set]
  congr 2
  have : ((List.range (size k.cls)).map (content a ao (m :: rest))).set slot (content a ao (m :: rest) slot) = (List.range (size k.cls)).map (content a ao (m :: rest)) :=
    set_map_range _ _ fun j => by split <;> simp_all
  rw [this]
  cases s
  simp only [State.mk.injEq, and_true]
  funext y
  split
  · rename_i hy; rw [hy]; exact hclone.symm
  · rfl

private theorem sim_type {s : State} {a : AState} (h : Sim size s a) {o : Nat} {ao : AObj} (ho : a.objs[o]? = some ao) (hl : ao.live = true)
    (hc : ∀ k, ao.stack.head?.bind (fun m => a.mocks[m]?) = some k → k.cls = ao.cls) : s.step size (.typeId o) = .done (s, .type ao.cls) := by
  have hob := h.obj o ao ho hl
  cases hst : ao.stack with
  | nil =>
    have ht := hob.table
    have hb : ao.base = none := by
      cases hb : ao.base with
      | none => rfl
      | some b => have := hob.last b hb; rw [hst] at this; simp at this
    rw [hst] at ht
    simp only [nameOf, hb] at ht
    simp [State.step, State.tableOf, ht, h.nat, nativeTable]
  | cons m rest =>
    have hch := hob.chain
    rw [hst] at hch
    obtain ⟨⟨k, q, l⟩, _⟩ := hch
    have hobj := l.obj
    subst hobj
    obtain ⟨_, _, htab, _⟩ := top h l.am ho hl hst
    have hcls := hc k (by simp [hst, l.am])
    simp [State.step, htab, hcls]

private theorem sim_step {s : State} {a a' : AState} {op : Op} {x : Ans} (h : Sim size s a) (hs : a.step size op = some (a', x)) : ∃ s', s.step size op = .done (s', x) ∧ Sim size s' a' := by
  cases op with
  | make d =>
    cases hs
    exact ⟨_, rfl, sim_make h d⟩
  | fake c =>
    cases hs
    exact sim_fake h c
  | spy o c =>
    simp only [AState.step] at hs
    split at hs
    · cases hs
    · rename_i ao ho
      split at hs
      · rename_i hc
        cases hs
        obtain ⟨s', h1, h2⟩ := sim_spy h ho hc.1 hc.2
        exact ⟨s', by simp [State.step, h1], h2⟩
      · cases hs
  | stub m slot id =>
    simp only [AState.step] at hs
    split at hs
    · cases hs
    · rename_i k ao hn
      obtain ⟨hk, ho, hl, rest, hst⟩ := newest_some hn
      split at hs
      · rename_i hw
        obtain ⟨h1, h2⟩ := sim_stub h (id := id) hk ho hl hst hw
        split at hs
        · rename_i y hy
          cases hs
          exact ⟨s, by simp [State.step, h1 y hy], h⟩
        · rename_i hy
          split at hs
          · cases hs
          · rename_i hf
            cases hs
            obtain ⟨s', h3, h4⟩ := h2 hy fun i hi he => hf (List.any_eq_true.mpr ⟨i, List.mem_range.mpr hi, by simp [he]⟩)
            exact ⟨s', by simp [State.step, h3], h4⟩
      · cases hs
  | reset m =>
    simp only [AState.step] at hs
    split at hs
    · cases hs
    · rename_i k ao hn
      obtain ⟨hk, ho, hl, rest, hst⟩ := newest_some hn
      cases hs
      obtain ⟨s', h1, h2⟩ := sim_reset h hk ho hl hst
      exact ⟨s', by simp [State.step, h1], h2⟩
  | destroy m =>
    simp only [AState.step] at hs
    split at hs
    · cases hs
    · rename_i k ao hn
      obtain ⟨hk, ho, hl, rest, hst⟩ := newest_some hn
      cases hs
      obtain ⟨s', h1, h2⟩ := sim_destroy h hk ho hl hst
      exact ⟨s', by simp [State.step, h1], h2⟩
  | delete o =>
    simp only [AState.step] at hs
    split at hs
    · cases hs
    · rename_i ao ho
      split at hs
      · rename_i hc
        cases hs
        have hob := h.obj o ao ho hc.1
        exact ⟨_, by simp [State.step, hob.table]; rfl, sim_delete h rfl⟩
      · cases hs
  | call o slot =>
    simp only [AState.step] at hs
    split at hs
    · cases hs
    · rename_i ao ho
      split at hs
      · rename_i hc
        obtain ⟨h1, h2⟩ := sim_call h ho hc.1 hc.2
        split at hs
        · rename_i m hm
          cases hs
          exact ⟨s, by simp [State.step, h1 m hm], h⟩
        · rename_i hm
          obtain ⟨y, hy, he⟩ := Option.map_eq_some_iff.mp hs
          cases he
          exact ⟨s, by simp [State.step, h2 hm _ hy], h⟩
      · cases hs
  | original m slot =>
    simp only [AState.step] at hs
    split at hs
    · cases hs
    · rename_i k ao hn
      obtain ⟨hk, ho, hl, rest, hst⟩ := newest_some hn
      split at hs
      · rename_i hw
        obtain ⟨y, hy, he⟩ := Option.map_eq_some_iff.mp hs
        cases he
        exact ⟨s, sim_original h hk ho hl hst hw hy, h⟩
      · cases hs
  | typeId o =>
    simp only [AState.step] at hs
    split at hs
    · cases hs
    · rename_i ao ho
      split at hs
      · rename_i hc
        cases hs
        exact ⟨s, sim_type h ho hc.1 hc.2, h⟩
      · cases hs

private theorem sim_run : ∀ {ops : List Op} {s : State} {a : AState} {as : List Ans}, Sim size s a → a.run size ops = some as → s.run size ops = .done as
  | [], _, _, _, _, hr => by cases hr; rfl
  | op :: ops, s, a, as, h, hr => by
    simp only [AState.run] at hr
    split at hr
    · cases hr
    · rename_i a' x hs
      obtain ⟨as', h1, h2⟩ := Option.map_eq_some_iff.mp hr
      subst h2
      obtain ⟨s', h3, h4⟩ := sim_step h hs
      simp [State.run, h3, sim_run h4 h1]

private theorem sim_init : Sim size (init size) {} := ⟨fun _ => rfl, rfl, rfl, fun o ao ho => by simp at ho⟩

end

/-! ## The property -/

/-- **C67** (partial, see below for what it leaves out).  Tests in which mocks are used and destroyed only while they are the newest of their object behave as expected, however many objects and
mocks there are: a call is answered by the newest mock if it stubs the method, by the object itself otherwise; spied methods run the object's own code; an object whose mocks are gone is as
before; `typeid` is the object's class. -/
theorem C67_objects_with_mocks_stay_themselves_partial (size : Nat → Nat) (ops : List Op) (as : List Ans) (h : AState.run size {} ops = some as) : State.run size (init size) ops = .done as :=
  sim_run sim_init h

/-- Two classes with three and two virtual functions. -/
private def sizes : Nat → Nat := fun d => if d = 0 then 3 else 2

/-- Non-triviality: an object with two mocks one after the other on top of each other, beside a fake one. -/
example : AState.run sizes {} [.make 0, .fake 1, .spy 0 0, .stub 1 1 7, .call 0 1, .call 0 2, .original 1 1, .spy 0 0, .stub 2 0 7, .call 0 0, .original 2 0, .destroy 2, .call 0 0, .call 0 1,
      .stub 0 1 7, .call 1 1, .call 1 0, .typeId 0, .typeId 1, .reset 1, .call 0 1, .destroy 1, .call 0 1, .typeId 0, .destroy 0, .delete 0] =
    some [.nothing, .nothing, .nothing, .nothing, .handled 1 1, .native 0 2, .native 0 1, .nothing, .nothing, .handled 2 0, .native 0 0, .nothing, .native 0 0, .handled 1 1,
      .nothing, .handled 0 1, .unmocked 0, .type 0, .type 1, .nothing, .native 0 1, .nothing, .native 0 1, .type 0, .nothing, .nothing] := by decide +kernel

/-- What is missing: `typeid` of an object of a derived class while a mock of the base class is attached is the base class. -/
theorem C67_spied_objects_lose_their_type : State.run sizes (init sizes) [.make 0, .typeId 0, .spy 0 1, .typeId 0, .destroy 0, .typeId 0] =
    .done [.nothing, .type 0, .nothing, .type 1, .nothing, .type 0] := by decide +kernel

/-- Methods that the derived class adds cannot be called meanwhile: the mock's table has no entries for them. -/
theorem C67_spied_objects_lose_methods : State.run sizes (init sizes) [.make 0, .call 0 2] = .done [.nothing, .native 0 2] ∧
    State.run sizes (init sizes) [.make 0, .spy 0 1, .call 0 2] = .ub := by decide +kernel

/-- A method that an older mock stubs cannot be called while a newer one is attached: its proxy looks for its id among the newer one's. -/
theorem C67_newer_mocks_break_older_ones : State.run sizes (init sizes) [.make 0, .spy 0 0, .stub 0 1 7, .call 0 1] = .done [.nothing, .nothing, .nothing, .handled 0 1] ∧
    State.run sizes (init sizes) [.make 0, .spy 0 0, .stub 0 1 7, .spy 0 0, .call 0 1] = .ub := by decide +kernel

/-- Or, with ids used by both, the call goes to another method of the newer mock. -/
theorem C67_newer_mocks_answer_for_other_methods : State.run sizes (init sizes) [.make 0, .spy 0 0, .stub 0 1 7, .spy 0 0, .stub 1 2 7, .call 0 1] =
    .done [.nothing, .nothing, .nothing, .nothing, .nothing, .handled 1 2] := by decide +kernel

/-- Stubbing an older mock while a newer one is attached makes calls of that method undefined: the proxy is written to the newer one's table. -/
theorem C67_older_mocks_cannot_be_stubbed : State.run sizes (init sizes) [.make 0, .spy 0 0, .spy 0 0, .call 0 1, .stub 0 1 7] = .done [.nothing, .nothing, .nothing, .native 0 1, .nothing] ∧
    State.run sizes (init sizes) [.make 0, .spy 0 0, .spy 0 0, .call 0 1, .stub 0 1 7, .call 0 1] = .ub := by decide +kernel

/-- Mocks of one object have to be destroyed newest first: otherwise the object is left with a freed table. -/
theorem C67_destroying_older_mocks_first_is_undefined : State.run sizes (init sizes) [.make 0, .spy 0 0, .spy 0 0, .destroy 1, .destroy 0, .call 0 1] =
      .done [.nothing, .nothing, .nothing, .nothing, .nothing, .native 0 1] ∧
    State.run sizes (init sizes) [.make 0, .spy 0 0, .spy 0 0, .destroy 0, .destroy 1, .call 0 1] = .ub := by decide +kernel

/-- A second mock for a fake object: methods stubbed by none have no mock to complain to. -/
theorem C67_spied_fakes_cannot_complain : State.run sizes (init sizes) [.fake 0, .call 0 1] = .done [.nothing, .unmocked 0] ∧
    State.run sizes (init sizes) [.fake 0, .spy 0 0, .call 0 1] = .ub := by decide +kernel

/-- A mock that was destroyed. -/
private def Dead (s : State) (m : Nat) : Prop := ∃ k, s.mocks[m]? = some k ∧ k.live = false

private theorem dead_mock {s : State} {m : Nat} (h : Dead s m) : s.mock m = .ub := by
  obtain ⟨k, h1, h2⟩ := h
  simp [State.mock, h1, h2, R.ofOption]

private theorem dead_other {s : State} {m m' : Nat} {k : Mck} (h : Dead s m) (hk : s.mock m' = .done k) : m' ≠ m := by
  rintro rfl; rw [dead_mock h] at hk; cases hk

private theorem dead_set {s s' : State} {m m' : Nat} {k x : Mck} (h : Dead s m) (hk : s.mock m' = .done k) (hs : s'.mocks = s.mocks.set m' x) : Dead s' m := by
  obtain ⟨j, h1, h2⟩ := h
  exact ⟨j, by rw [hs, List.getElem?_set_ne (dead_other ⟨j, h1, h2⟩ hk)]; exact h1, h2⟩

private theorem dead_same {s s' : State} {m : Nat} (h : Dead s m) (hs : s'.mocks = s.mocks) : Dead s' m := by
  obtain ⟨j, h1, h2⟩ := h
  exact ⟨j, by rw [hs]; exact h1, h2⟩

private theorem dead_append {s s' : State} {m : Nat} {x : Mck} (h : Dead s m) (hs : s'.mocks = s.mocks ++ [x]) : Dead s' m := by
  obtain ⟨j, h1, h2⟩ := h
  have hl : m < s.mocks.length := by
    rcases Nat.lt_or_ge m s.mocks.length with h | h
    · exact h
    · rw [List.getElem?_eq_none h] at h1; cases h1
  exact ⟨j, by rw [hs, List.getElem?_append_left hl]; exact h1, h2⟩

private theorem setMethod_mocks {s s' : State} {o slot : Nat} {c : Code} (h : s.setMethod o slot c = .done s') : s'.mocks = s.mocks := by
  simp only [State.setMethod, R.bind_eq_done] at h
  obtain ⟨⟨tn, t⟩, _, h⟩ := h
  cases tn <;> simp only at h
  · cases h
  all_goals
    split at h
    · cases h; rfl
    · cases h

private theorem attach_mocks {size : Nat → Nat} {s s' : State} {o c : Nat} {b : Bool} (h : s.attach size o c b = .done s') : ∃ x, s'.mocks = s.mocks ++ [x] := by
  simp only [State.attach, R.bind_eq_done] at h
  obtain ⟨⟨tn, t⟩, _, es, _, h⟩ := h
  cases h
  exact ⟨_, rfl⟩

private theorem destroy_mocks {s s' : State} {m : Nat} (h : s.destroy m = .done s') : ∃ k, s.mock m = .done k ∧ s'.mocks = s.mocks.set m { k with live := false } := by
  simp only [State.destroy, R.bind_eq_done] at h
  obtain ⟨k, hk, ob, _, h⟩ := h
  refine ⟨k, hk, ?_⟩
  split at h
  · split at h
    · split at h
      · cases h
      · cases h; rfl
    · cases h; rfl
  · cases h

private theorem dead_step {size : Nat → Nat} {s s' : State} {m : Nat} {op : Op} {a : Ans} (h : Dead s m) (hs : s.step size op = .done (s', a)) : Dead s' m := by
  cases op <;> simp only [State.step, R.bind_eq_done] at hs
  case make => cases hs; exact dead_same h rfl
  case fake =>
    obtain ⟨t, h1, h2⟩ := hs
    cases h2
    obtain ⟨x, hx⟩ := attach_mocks h1
    exact dead_append h hx
  case spy =>
    obtain ⟨t, h1, h2⟩ := hs
    cases h2
    obtain ⟨x, hx⟩ := attach_mocks h1
    exact dead_append h hx
  case stub m' slot id =>
    obtain ⟨t, h1, h2⟩ := hs
    cases h2
    simp only [State.stub, R.bind_eq_done] at h1
    obtain ⟨k, hk, bound, _, h1⟩ := h1
    cases bound with
    | some _ => cases h1; exact h
    | none =>
      simp only [R.bind_eq_done] at h1
      obtain ⟨t, h2, h1⟩ := h1
      cases h1
      exact dead_set h hk (by simp only [setMethod_mocks h2]; rfl)
  case reset m' =>
    obtain ⟨t, h1, h2⟩ := hs
    cases h2
    simp only [State.reset, R.bind_eq_done] at h1
    obtain ⟨k, hk, _, _, _, _, _, _, h1⟩ := h1
    cases h1
    exact dead_set h hk rfl
  case destroy m' =>
    obtain ⟨t, h1, h2⟩ := hs
    cases h2
    obtain ⟨k, hk, h1⟩ := destroy_mocks h1
    exact dead_set h hk h1
  case delete =>
    obtain ⟨ob, _, h1⟩ := hs
    split at h1
    · cases h1; exact dead_same h rfl
    · cases h1
  case call =>
    obtain ⟨_, _, h1⟩ := hs
    cases h1; exact h
  case original =>
    simp only [State.original, R.bind_eq_done] at hs
    obtain ⟨k, hk, _, _, _, _, _, _, _, _, t, h1, _, _, u, h2, h3⟩ := hs
    cases h3
    exact dead_same h (by rw [setMethod_mocks h2, setMethod_mocks h1])
  case typeId =>
    obtain ⟨_, _, h1⟩ := hs
    cases h1; exact h

/-- What a test does with a mock, apart from calls of its object. -/
def Uses (m : Nat) (op : Op) : Prop := op = .reset m ∨ op = .destroy m ∨ (∃ slot id, op = .stub m slot id) ∨ ∃ slot, op = .original m slot

private theorem dead_uses {size : Nat → Nat} {s : State} {m : Nat} {op : Op} (h : Dead s m) (hu : Uses m op) : s.step size op = .ub := by
  rcases hu with rfl | rfl | ⟨slot, id, rfl⟩ | ⟨slot, rfl⟩ <;>
    simp [State.step, State.reset, State.destroy, State.stub, State.original, dead_mock h]

private theorem dead_run {size : Nat → Nat} {m : Nat} {op : Op} (hu : Uses m op) : ∀ (ops : List Op) {s : State} {as : List Ans}, Dead s m →
    State.run size s ops = .done as → State.run size s (ops ++ [op]) = .ub
  | [], s, as, h, _ => by simp [State.run, dead_uses h hu]
  | o :: ops, s, as, h, hr => by
    simp only [State.run, R.bind_eq_done] at hr
    obtain ⟨⟨s', a⟩, h1, as', h2, _⟩ := hr
    simp [State.run, h1, dead_run hu ops (dead_step h h1) h2]

/-- **C67**: a destroyed mock cannot be used any more, whatever happens in between: stubbing it, resetting it, spying through it and destroying it again are undefined. -/
theorem C67_destroyed_mocks_cannot_be_used (size : Nat → Nat) (before after : List Op) (m : Nat) (op : Op) (as : List Ans) (hu : Uses m op)
    (h : State.run size (init size) (before ++ .destroy m :: after) = .done as) : State.run size (init size) (before ++ .destroy m :: after ++ [op]) = .ub := by
  suffices H : ∀ (before : List Op) (s : State) (as : List Ans), State.run size s (before ++ .destroy m :: after) = .done as →
      State.run size s (before ++ .destroy m :: after ++ [op]) = .ub from H before _ as h
  intro before
  induction before with
  | nil =>
    intro s as h
    simp only [List.nil_append, State.run, R.bind_eq_done] at h
    obtain ⟨⟨s', a⟩, h1, as', h2, _⟩ := h
    have hd : Dead s' m := by
      simp only [State.step, R.bind_eq_done] at h1
      obtain ⟨t, h1, h3⟩ := h1
      cases h3
      obtain ⟨k, hk, h1⟩ := destroy_mocks h1
      have hl : m < s.mocks.length := by
        simp only [State.mock, R.bind_eq_done] at hk
        obtain ⟨k', hk, _⟩ := hk
        rcases Nat.lt_or_ge m s.mocks.length with h | h
        · exact h
        · rw [List.getElem?_eq_none h] at hk; cases hk
      exact ⟨{ k with live := false }, by rw [h1, List.getElem?_set_self hl], rfl⟩
    simp [State.run, h1, dead_run hu after hd h2]
  | cons o before ih =>
    intro s as h
    simp only [List.cons_append, State.run, R.bind_eq_done] at h
    obtain ⟨⟨s', a⟩, h1, as', h2, _⟩ := h
    have := ih s' as' (by simpa using h2)
    simp only [List.append_assoc, List.cons_append] at this ⊢
    simp [State.run, h1, this]

/-- Non-triviality: another mock of the object is used after one is destroyed; destroying that one again is undefined. -/
example : State.run sizes (init sizes) ([.make 0, .spy 0 0, .spy 0 0] ++ .destroy 1 :: [.stub 0 1 7, .call 0 1]) = .done [.nothing, .nothing, .nothing, .nothing, .nothing, .handled 0 1] ∧
    State.run sizes (init sizes) ([.make 0, .spy 0 0, .spy 0 0] ++ .destroy 1 :: [.stub 0 1 7, .call 0 1] ++ [.destroy 1]) = .ub := by decide +kernel

end FakeIt.Stacked
