import Verif.Lemmas.Hist
/-!
# Two worlds that differ in the contents of one `_offsets` array

The array is read only when a hooked entry is called, to find the method record of an id; for ids of methods (not of the destructor) the result does not
depend on what the array holds for methods without a record.
-/
namespace FakeIt
variable {V E : Type} {P : Prog V E} {nm : MockId → Nat → Nat}

/-- Two results related by `T`. -/
def RRel {α β : Type} (T : α → β → Prop) : R α → R β → Prop
  | .done a, .done b => T a b
  | .ub, .ub => True
  | .oof, .oof => True
  | _, _ => False

theorem RRel.bind {α β γ δ : Type} {T : α → β → Prop} {U : γ → δ → Prop} {x : R α} {y : R β} {f : α → R γ} {g : β → R δ}
    (h : RRel T x y) (hf : ∀ a b, x = .done a → y = .done b → T a b → RRel U (f a) (g b)) : RRel U (x >>= f) (y >>= g) := by
  cases x <;> cases y <;> first | exact hf _ _ rfl rfl h | exact h | exact h.elim

theorem RRel.mono {α β : Type} {T U : α → β → Prop} {x : R α} {y : R β} (h : RRel T x y) (hf : ∀ a b, T a b → U a b) : RRel U x y := by
  cases x <;> cases y <;> first | exact hf _ _ h | exact h

theorem RRel.refl {α : Type} {T : α → α → Prop} (hT : ∀ a, T a a) (x : R α) : RRel T x x := by
  cases x <;> first | exact hT _ | trivial

theorem modify_comm {α : Type} (l : List α) (i j : Nat) (f g : α → α) (h : i = j → ∀ x, f (g x) = g (f x)) : (l.modify i f).modify j g = (l.modify j g).modify i f := by
  apply List.ext_getElem?
  intro n
  simp only [List.getElem?_modify]
  by_cases hi : i = n <;> by_cases hj : j = n
  · subst hi hj
    cases l[j]? with
    | none => rfl
    | some x => simp [h rfl x]
  all_goals (cases l[n]? <;> simp [hi, hj])

theorem updMock_comm (w : World V E) (m m' : MockId) (f g : Mock V E → Mock V E) (h : m = m' → ∀ k, f (g k) = g (f k)) :
    (w.updMock m f).updMock m' g = (w.updMock m' g).updMock m f := by
  simp only [World.updMock, modify_comm w.mocks m m' f g h]

/-- The same world with another `_offsets` array in mock `m`. -/
def World.setOff (w : World V E) (m : MockId) (os : List Nat) : World V E := w.updMock m fun k => { k with offsets := os }

/-- Worlds that differ at most in the `_offsets` array of mock `m`. -/
def Twin (m : MockId) (w v : World V E) : Prop := ∃ os, v = w.setOff m os

/-- A mock with its `_offsets` ignored. -/
def Mock.sameButOff (k k' : Mock V E) : Prop := ∃ os, k' = { k with offsets := os }

section
variable {m : MockId} {w v : World V E}

theorem setOff_eq {k : Mock V E} (hk : w.mocks[m]? = some k) : w.setOff m k.offsets = w := by
  have : w.mocks.modify m (fun k' => { k' with offsets := k.offsets }) = w.mocks := by
    apply List.ext_getElem?
    intro n
    rw [List.getElem?_modify]
    by_cases hn : m = n
    · subst hn; simp [hk]
    · simp [hn]
  simp only [World.setOff, World.updMock, this]

theorem Twin.mocks (h : Twin m w v) (m' : MockId) : v.mocks[m']? = w.mocks[m']? ∨ (m' = m ∧ ∃ k os, w.mocks[m']? = some k ∧ v.mocks[m']? = some { k with offsets := os }) := by
  obtain ⟨os, rfl⟩ := h
  rw [World.setOff, World.mocks_updMock]
  by_cases hm : m = m'
  · subst hm
    cases hk : w.mocks[m]? with
    | none => simp
    | some k => exact .inr ⟨rfl, k, os, rfl, by simp⟩
  · exact .inl (by rw [if_neg hm])

/-- What is needed of the mocks most of the time. -/
theorem Twin.mock (h : Twin m w v) (m' : MockId) : (w.mocks[m']? = none ∧ v.mocks[m']? = none) ∨
    ∃ k os, w.mocks[m']? = some k ∧ v.mocks[m']? = some { k with offsets := os } := by
  rcases h.mocks m' with h | ⟨-, h⟩
  · cases hk : w.mocks[m']? with
    | none => exact .inl ⟨rfl, by rw [h, hk]⟩
    | some k => exact .inr ⟨k, k.offsets, rfl, by rw [h, hk]⟩
  · exact .inr h

theorem Twin.mock? (h : Twin m w v) (m' : MockId) : (w.mock? m' = none ∧ v.mock? m' = none) ∨
    ∃ k os, w.mock? m' = some k ∧ v.mock? m' = some { k with offsets := os } := by
  unfold World.mock?
  rcases h.mock m' with ⟨h1, h2⟩ | ⟨k, os, h1, h2⟩
  · exact .inl (by simp [h1, h2])
  · rw [h1, h2]
    by_cases ha : k.alive = true
    · exact .inr ⟨k, os, by simp [ha], by simp [ha]⟩
    · exact .inl (by simp [ha])

theorem Twin.body (h : Twin m w v) (m' off : Nat) : v.body? m' off = w.body? m' off := by
  unfold World.body?
  rcases h.mock m' with ⟨h1, h2⟩ | ⟨k, os, h1, h2⟩ <;> simp [h1, h2, Mock.body?]

theorem Twin.heap (h : Twin m w v) : v.heap = w.heap := by obtain ⟨os, rfl⟩ := h; rfl
theorem Twin.invTotal (h : Twin m w v) : v.invTotal = w.invTotal := by obtain ⟨os, rfl⟩ := h; rfl
theorem Twin.methTotal (h : Twin m w v) : v.methTotal = w.methTotal := by obtain ⟨os, rfl⟩ := h; rfl
theorem Twin.alloc (h : Twin m w v) : v.alloc = w.alloc := by obtain ⟨os, rfl⟩ := h; rfl
theorem Twin.log (h : Twin m w v) : v.log = w.log := by obtain ⟨os, rfl⟩ := h; rfl
theorem Twin.length (h : Twin m w v) : v.mocks.length = w.mocks.length := by obtain ⟨os, rfl⟩ := h; simp [World.setOff, World.updMock]

theorem Twin.handler? (h : Twin m w v) (m' off : Nat) (a : Addr) : v.handler? m' off a = w.handler? m' off a := by
  simp only [World.handler?, h.body]

/-- Updates of a mock that do not touch the array. -/
theorem Twin.updMock (h : Twin m w v) (m' : MockId) (f : Mock V E → Mock V E) (hf : ∀ k os, f { k with offsets := os } = { f k with offsets := os }) :
    Twin m (w.updMock m' f) (v.updMock m' f) := by
  obtain ⟨os, rfl⟩ := h
  exact ⟨os, updMock_comm _ _ _ _ _ fun _ k => (hf k os).symm⟩

/-- Updates that overwrite the whole array. -/
theorem Twin.updMock' (h : Twin m w v) (m' : MockId) (f : Mock V E → Mock V E)
    (hf : ∀ k os, ∃ os', f { k with offsets := os } = { f k with offsets := os' }) : Twin m (w.updMock m' f) (v.updMock m' f) := by
  obtain ⟨os, rfl⟩ := h
  by_cases hm : m = m'
  · subst hm
    cases hk : w.mocks[m]? with
    | none =>
      have hle : w.mocks.length ≤ m := by simpa using hk
      have e : ∀ g : Mock V E → Mock V E, w.updMock m g = w := by
        intro g
        simp only [World.updMock, List.modify_eq_self hle]
      exact ⟨os, by simp only [World.setOff, e]⟩
    | some k =>
      obtain ⟨os', h'⟩ := hf k os
      refine ⟨os', ?_⟩
      simp only [World.setOff, World.updMock, List.modify_modify_eq, World.mk.injEq, and_true]
      apply List.ext_getElem?
      intro n
      rw [List.getElem?_modify, List.getElem?_modify]
      by_cases hn : m = n
      · subst hn; simp [hk, h']
      · simp [hn]
  · exact ⟨os, updMock_comm _ _ _ _ _ fun e => absurd e hm⟩

theorem Twin.updBody (h : Twin m w v) (m' off : Nat) (f : MBody V E → MBody V E) : Twin m (w.updBody m' off f) (v.updBody m' off f) :=
  h.updMock m' _ fun _ _ => rfl

theorem Twin.setVt (h : Twin m w v) (m' off : Nat) (c : Code) : Twin m (w.setVt m' off c) (v.setVt m' off c) :=
  h.updMock m' _ fun _ _ => rfl

theorem Twin.write (h : Twin m w v) (a : Addr) (x : V) : Twin m (w.write a x) (v.write a x) := by
  obtain ⟨os, rfl⟩ := h; exact ⟨os, rfl⟩

theorem Twin.fire (h : Twin m w v) (e : Event V) : Twin m (w.fire e) (v.fire e) := by
  obtain ⟨os, rfl⟩ := h; exact ⟨os, rfl⟩

theorem Twin.bumpInv (h : Twin m w v) : Twin m w.bumpInv v.bumpInv := by
  obtain ⟨os, rfl⟩ := h; exact ⟨os, rfl⟩

theorem Twin.mark (h : Twin m w v) (uids : List Nat) : Twin m (w.mark uids) (v.mark uids) := by
  obtain ⟨os, rfl⟩ := h
  refine ⟨os, ?_⟩
  simp only [World.mark, World.setOff, World.updMock, World.mk.injEq, and_true]
  apply List.ext_getElem?
  intro n
  simp only [List.getElem?_map, List.getElem?_modify]
  by_cases hn : m = n
  · subst hn; cases w.mocks[m]? <;> simp
  · simp [hn]

theorem Twin.withMeth (h : Twin m w v) (x y : Nat) (hxy : x = y) : Twin m { w with methTotal := x } { v with methTotal := y } := by
  obtain ⟨os, rfl⟩ := h; subst hxy; exact ⟨os, rfl⟩

theorem Twin.withAlloc (h : Twin m w v) (x y : Nat) (hxy : x = y) : Twin m { w with alloc := x } { v with alloc := y } := by
  obtain ⟨os, rfl⟩ := h; subst hxy; exact ⟨os, rfl⟩

theorem Twin.newMock (h : Twin m w v) (hm : m < w.mocks.length) (k : Mock V E) : Twin m { w with mocks := w.mocks ++ [k] } { v with mocks := v.mocks ++ [k] } := by
  obtain ⟨os, rfl⟩ := h
  refine ⟨os, ?_⟩
  simp only [World.setOff, World.updMock, World.mk.injEq, and_true]
  apply List.ext_getElem?
  intro n
  simp only [List.getElem?_append, List.getElem?_modify, List.length_modify]
  by_cases hn : m = n
  · subst hn; simp [hm]
  · by_cases hl : n < w.mocks.length
    · simp [hl, hn]
    · simp [hl, hn]

/-! ## API operations -/

/-- Both runs of an API operation end alike. -/
abbrev TwinA (m : MockId) (x y : R (World V E × ApiOut)) : Prop := RRel (fun a b => a.2 = b.2 ∧ Twin m a.1 b.1) x y

theorem touch_twin (h : Twin m w v) (m' : MockId) (s : SlotRef) :
    RRel (fun a b => (a = none ∧ b = none) ∨ ∃ w' v', a = some w' ∧ b = some v' ∧ Twin m w' v') (touch P w m' s) (touch P v m' s) := by
  unfold touch
  rcases h.mock? m' with ⟨h1, h2⟩ | ⟨k, os, h1, h2⟩
  · simp only [h1, h2]; trivial
  · simp only [h1, h2]
    cases s with
    | meth off ctr =>
      dsimp only
      cases hb : k.mocks[off]? with
      | none => trivial
      | some o =>
        cases o with
        | some b => exact .inr ⟨w, v, rfl, rfl, h⟩
        | none =>
          refine .inr ⟨_, _, rfl, rfl, ?_⟩
          refine Twin.withMeth ?_ _ _ (by rw [h.methTotal])
          rw [h.methTotal]
          exact h.updMock' m' _ fun k os => ⟨os.set off (ctr + 1), rfl⟩
    | dtor =>
      dsimp only
      cases hd : (P.cls k.cls).dtor with
      | none => exact .inl ⟨rfl, rfl⟩
      | some d =>
        dsimp only
        split
        · cases hb : k.mocks[d]? with
          | none => trivial
          | some o =>
            cases o with
            | some b => exact .inr ⟨w, v, rfl, rfl, h⟩
            | none =>
              refine .inr ⟨_, _, rfl, rfl, ?_⟩
              refine Twin.withMeth ?_ _ _ (by rw [h.methTotal])
              rw [h.methTotal]
              exact h.updMock' m' _ fun k os => ⟨os.set d 0, rfl⟩
        · trivial

theorem touchAll_twin (h : Twin m w v) (l : List (MockId × SlotRef)) :
    RRel (fun a b => a.2 = b.2 ∧ Twin m a.1 b.1) (touchAll P w l) (touchAll P v l) := by
  induction l generalizing w v with
  | nil => exact ⟨rfl, h⟩
  | cons x l ih =>
    simp only [touchAll]
    refine RRel.bind (touch_twin h x.1 x.2) fun a b _ _ hab => ?_
    rcases hab with ⟨rfl, rfl⟩ | ⟨w', v', rfl, rfl, h'⟩
    · exact ⟨rfl, h⟩
    · exact ih h'

theorem commit_twin (h : Twin m w v) (t : Target V) (acts : List (Act V E)) : RRel (Twin m) (commit P w t acts) (commit P v t acts) := by
  unfold commit
  rcases h.mock? t.m with ⟨h1, h2⟩ | ⟨k, os, h1, h2⟩
  · simp only [h1, h2]; trivial
  · simp only [h1, h2]
    cases t.slot.off (P.cls k.cls) with
    | none => trivial
    | some off =>
      dsimp only
      rw [h.body]
      cases w.body? t.m off with
      | none => trivial
      | some b =>
        dsimp only
        rw [h.alloc]
        exact (h.updBody _ _ _).withAlloc _ _ rfl

theorem commitAll_twin (h : Twin m w v) (acts : List (Act V E)) (ts : List (Target V)) : RRel (Twin m) (commitAll P acts w ts) (commitAll P acts v ts) := by
  induction ts generalizing w v with
  | nil => exact h
  | cons t ts ih => exact RRel.bind (commit_twin h t acts) fun a b _ _ hab => ih hab

theorem stubOne_twin (h : Twin m w v) (t : Target V) (acts : List (Act V E)) (u : Bool) : TwinA m (stubOne P w t acts u) (stubOne P v t acts u) := by
  unfold stubOne
  refine RRel.bind (touch_twin h t.m t.slot) fun a b _ _ hab => ?_
  rcases hab with ⟨rfl, rfl⟩ | ⟨w', v', rfl, rfl, h'⟩
  · exact ⟨rfl, h⟩
  · cases u with
    | true => exact ⟨rfl, h'⟩
    | false => exact RRel.bind (commit_twin h' t acts) fun a b _ _ hab => ⟨by simp only [h'.alloc], hab⟩

theorem stubMany_twin (h : Twin m w v) (ts : List (Target V)) (a : Act V E) : TwinA m (stubMany P w ts a) (stubMany P v ts a) := by
  unfold stubMany
  refine RRel.bind (touchAll_twin h _) fun x y _ _ hxy => ?_
  obtain ⟨w', ok⟩ := x
  obtain ⟨v', ok'⟩ := y
  obtain ⟨rfl, h'⟩ := hxy
  cases ok with
  | false => exact ⟨rfl, h'⟩
  | true => exact RRel.bind (commitAll_twin h' _ _) fun a b _ _ hab => ⟨rfl, hab⟩

theorem collect_twin (h : Twin m w v) (s : Source V) (into : List (Invocation V)) : s.collect P v into = s.collect P w into := by
  induction s generalizing into with
  | empty => rfl
  | mock m' =>
    simp only [Source.collect]
    rcases h.mock? m' with ⟨h1, h2⟩ | ⟨k, os, h1, h2⟩ <;> simp only [h1, h2, Mock.allInvs]
  | ctx l =>
    simp only [Source.collect]
    rcases h.mock? l.m with ⟨h1, h2⟩ | ⟨k, os, h1, h2⟩
    · simp only [h1, h2]
    · simp only [h1, h2, h.heap]; rfl
  | unverified s ih => simp only [Source.collect, ih]
  | union s t ih1 ih2 => simp only [Source.collect, ih1, ih2]

theorem leafMatches_twin (h : Twin m w v) : leafMatches P v = leafMatches P w := by
  funext l i
  unfold leafMatches
  rcases h.mock? l.m with ⟨h1, h2⟩ | ⟨k, os, h1, h2⟩
  · simp only [h1, h2]
  · simp only [h1, h2, h.heap]; rfl

theorem analyse_twin (h : Twin m w v) (scope : Scope V) (pat : List (Seq (Leaf V))) : analyse P v scope pat = analyse P w scope pat := by
  simp only [analyse, collect_twin h, leafMatches_twin h]

theorem allAlive_twin (h : Twin m w v) (ms : List MockId) : allAlive v ms = allAlive w ms := by
  unfold allAlive
  congr 1
  funext m'
  rcases h.mock? m' with ⟨h1, h2⟩ | ⟨k, os, h1, h2⟩ <;> simp [h1, h2]

theorem verifyExpectation_twin (h : Twin m w v) (scope : Scope V) (pat : List (Seq (Leaf V))) (e : Expectation) :
    RRel (fun a b => a.1 = b.1 ∧ a.2.2 = b.2.2 ∧ Twin m a.2.1 b.2.1) (verifyExpectation P w scope pat e) (verifyExpectation P v scope pat e) := by
  unfold verifyExpectation
  split
  · exact ⟨rfl, rfl, h⟩
  · rw [analyse_twin h]
    refine RRel.bind (RRel.refl (fun _ => rfl) _ : RRel Eq _ _) fun a b _ _ hab => ?_
    subst hab
    obtain ⟨actual, n, matched⟩ := a
    dsimp only
    split
    · exact ⟨rfl, rfl, h⟩
    · exact ⟨rfl, rfl, h.mark _⟩

theorem verifyStmt_twin (h : Twin m w v) (scope : Scope V) (pat : List (Seq (Leaf V))) (q : Quant) (mode : VMode) :
    TwinA m (verifyStmt P w scope pat q mode) (verifyStmt P v scope pat q mode) := by
  unfold verifyStmt
  refine RRel.bind (touchAll_twin h _) fun x y _ _ hxy => ?_
  obtain ⟨w', ok⟩ := x
  obtain ⟨v', ok'⟩ := y
  obtain ⟨rfl, h'⟩ := hxy
  dsimp only at h'
  cases ok with
  | false => exact ⟨rfl, h'⟩
  | true =>
    dsimp only
    rw [allAlive_twin h']
    split
    · trivial
    · split
      · exact ⟨rfl, h'⟩
      · split
        · exact ⟨rfl, h'⟩
        · refine RRel.bind (verifyExpectation_twin h' scope pat _) fun a b _ _ hab => ?_
          obtain ⟨e1, w2, ev⟩ := a
          obtain ⟨e2, v2, ev'⟩ := b
          obtain ⟨rfl, rfl, h2⟩ := hab
          cases ev with
          | none => exact ⟨rfl, h2⟩
          | some e => exact ⟨rfl, Twin.fire h2 e⟩
        · refine RRel.bind (verifyExpectation_twin h' scope pat _) fun a b _ _ hab => ?_
          obtain ⟨e1, w2, ev⟩ := a
          obtain ⟨e2, v2, ev'⟩ := b
          obtain ⟨rfl, rfl, h2⟩ := hab
          cases ev <;> exact ⟨rfl, h2⟩

theorem noOtherStmt_twin (h : Twin m w v) (srcs : List (Source V)) (mode : VMode) : TwinA m (noOtherStmt P w srcs mode) (noOtherStmt P v srcs mode) := by
  unfold noOtherStmt
  refine RRel.bind (touchAll_twin h _) fun x y _ _ hxy => ?_
  obtain ⟨w', ok⟩ := x
  obtain ⟨v', ok'⟩ := y
  obtain ⟨rfl, h'⟩ := hxy
  dsimp only at h'
  have hno : noOther P v' srcs = noOther P w' srcs := by simp only [noOther, collect_twin h']
  cases ok with
  | false => exact ⟨rfl, h'⟩
  | true =>
    dsimp only
    rw [allAlive_twin h', hno]
    split
    · trivial
    · split
      · exact ⟨rfl, h'⟩
      · cases noOther P w' srcs with
        | none => exact ⟨rfl, h'⟩
        | some e => exact ⟨rfl, Twin.fire h' e⟩
      · cases noOther P w' srcs <;> exact ⟨rfl, h'⟩

theorem initData_off (k : Mock V E) (os : List Nat) : Mock.initData { k with offsets := os } = { k.initData with offsets := os } := by
  unfold Mock.initData; split <;> simp_all

theorem apiStep_twin (h : Twin m w v) (hm : m < w.mocks.length) (a : Api V E) : TwinA m (apiStep P w a) (apiStep P v a) := by
  have hmk : ∀ (m' : MockId) (f : World V E → World V E), (∀ k, w.mock? m' = some k → Twin m (f w) (f v)) → TwinA m (match w.mock? m' with
      | none => .ub
      | some _ => .done (f w, .unit)) (match v.mock? m' with
      | none => .ub
      | some _ => .done (f v, .unit)) := by
    intro m' f hf
    rcases h.mock? m' with ⟨h1, h2⟩ | ⟨k, os, h1, h2⟩
    · simp only [h1, h2]; trivial
    · simp only [h1, h2]; exact ⟨rfl, hf k h1⟩
  cases a with
  | newMock cls => exact ⟨by simp only [h.length], h.newMock hm _⟩
  | newSpy cls => exact ⟨by simp only [h.length], h.newMock hm _⟩
  | destroy m' => exact hmk m' (·.updMock m' Mock.destroy) fun _ _ => h.updMock' m' _ fun k os => ⟨[], rfl⟩
  | touch m' s =>
    refine RRel.bind (touch_twin h m' s) fun a b _ _ hab => ?_
    rcases hab with ⟨rfl, rfl⟩ | ⟨w', v', rfl, rfl, h'⟩
    · exact ⟨rfl, h⟩
    · exact ⟨rfl, h'⟩
  | when_ t acts u => exact stubOne_twin h t acts u
  | fake ts => exact stubMany_twin h ts _
  | spy move ts => exact stubMany_twin h ts _
  | assign t f => exact stubOne_twin h t _ _
  | stubData m' cell x =>
    simp only [apiStep]
    rcases h.mock? m' with ⟨h1, h2⟩ | ⟨k, os, h1, h2⟩
    · simp only [h1, h2]; trivial
    · simp only [h1, h2]
      split
      · exact ⟨rfl, h.updMock m' _ fun _ _ => rfl⟩
      · trivial
  | writeData m' cell x =>
    simp only [apiStep]
    rcases h.mock? m' with ⟨h1, h2⟩ | ⟨k, os, h1, h2⟩
    · simp only [h1, h2]; trivial
    · simp only [h1, h2]
      split
      · exact ⟨rfl, h.updMock m' _ fun _ _ => rfl⟩
      · trivial
  | reset m' => exact hmk m' (·.updMock m' Mock.reset) fun _ _ => h.updMock' m' _ fun k os => ⟨List.replicate k.orig.length 0, by
      unfold Mock.reset
      rw [show Mock.proxyReset { k with offsets := os } = k.proxyReset from rfl, ← initData_off]; rfl⟩
  | clear m' => exact hmk m' (·.updMock m' Mock.clear) fun _ _ => h.updMock m' _ fun k os => initData_off { k with mocks := k.mocks.map (Option.map MBody.clear) } os
  | write a x => exact ⟨rfl, h.write a x⟩
  | verify scope pat q mode => exact verifyStmt_twin h scope pat q mode
  | verifyNoOther srcs mode => exact noOtherStmt_twin h srcs mode

end
end FakeIt
