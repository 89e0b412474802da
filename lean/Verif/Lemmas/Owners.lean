import Verif.Spec.Owners
/-!
# Lemmas for C91: counts and owners
-/
namespace FakeIt.Owners
open Spec

@[simp] theorem Res.bind_done {α β : Type} (a : α) (f : α → Res β) : (Res.done a >>= f) = f a := rfl
@[simp] theorem Res.bind_ub {α β : Type} (f : α → Res β) : ((Res.ub : Res α) >>= f) = .ub := rfl
@[simp] theorem Res.bind_terminate {α β : Type} (f : α → Res β) : ((Res.terminate : Res α) >>= f) = .terminate := rfl
@[simp] theorem Res.ofOption_some {α : Type} (a : α) : Res.ofOption (some a) = .done a := rfl
@[simp] theorem Res.ofOption_none {α : Type} : Res.ofOption (none : Option α) = .ub := rfl

theorem Res.bind_eq_done {α β : Type} {x : Res α} {f : α → Res β} {b : β} : (x >>= f) = .done b ↔ ∃ a, x = .done a ∧ f a = .done b := by
  cases x <;> simp

theorem Res.ofOption_eq_done {α : Type} {o : Option α} {a : α} : Res.ofOption o = .done a ↔ o = some a := by
  cases o <;> simp

/-- The state without counts. -/
def State.world (s : State) : World := ⟨s.objs, s.vars, s.mocks⟩

/-- Counts are right, if the owners in `pend` still have to go. -/
structure Good (s : State) (pend : List Nat) : Prop where
  len : s.counts.length = s.objs.length
  cnt : ∀ g, g < s.objs.length → s.counts[g]? = some ((s.world.shares ++ pend).count g)
  lt : ∀ g, g ∈ s.world.shares ++ pend → g < s.objs.length
  obj : ∀ m, m ∈ s.objs → m < s.mocks.length

/-- The operation is defined exactly if the specification says so, and means the same. -/
def Agrees {α : Type} (r : Res (State × α)) (o : Option (World × α)) : Prop :=
  match o with
  | some p => ∃ s, r = .done (s, p.2) ∧ s.world = p.1 ∧ Good s []
  | none => ∀ x, r ≠ .done x

/-- The same for steps without answer. -/
def AgreesS (r : Res State) (o : Option World) : Prop :=
  match o with
  | some w => ∃ s, r = .done s ∧ s.world = w ∧ Good s []
  | none => ∀ x, r ≠ .done x

theorem react_succ (n : Nat) (k : Mck) : react (n + 1) k = (react 1 k).bind (react n) := by
  obtain ⟨fake, methods, dtorAt, dtor, phase, object⟩ := k
  cases object with
  | false => simp [react]
  | true =>
    cases phase with
    | live =>
      cases dtor with
      | none =>
        cases fake with
        | true => by_cases h : n = 0 <;> simp [react, h]
        | false => by_cases h : n = 0 <;> simp [react, h]
      | some d =>
        obtain ⟨l, c⟩ := d
        cases l with
        | none =>
          by_cases h : n = 0
          · simp [react, h]
          · simp [react, h]; omega
        | some l =>
          by_cases h : n = 0
          · subst h; by_cases h1 : 1 ≤ l <;> simp [react, h1]
          · by_cases h1 : 1 ≤ l
            · by_cases h2 : n + 1 ≤ l
              · have h3 : n ≤ l - 1 := by omega
                simp [react, h, h1, h2, h3]
                omega
              · have h3 : ¬ n ≤ l - 1 := by omega
                simp [react, h, h1, h2, h3]
            · have h2 : ¬ n + 1 ≤ l := by omega
              simp [react, h1, h2]
    | resetting =>
      cases dtor with
      | none =>
        cases fake with
        | true => by_cases h : n = 0 <;> simp [react, h]
        | false => by_cases h : n = 0 <;> simp [react, h]
      | some d => simp [react]
    | ended =>
      cases dtor <;> (cases fake with
        | true => by_cases h : n = 0 <;> simp [react, h]
        | false => by_cases h : n = 0 <;> simp [react, h])

theorem destructor_react (k k' : Mck) : k.destructor = .done k' ↔ react 1 k = some k' := by
  obtain ⟨fake, methods, dtorAt, dtor, phase, object⟩ := k
  cases object with
  | false => simp [react, Mck.destructor]
  | true =>
    cases phase with
    | live =>
      cases dtor with
      | none => cases fake <;> simp [react, Mck.destructor]
      | some d =>
        obtain ⟨l, c⟩ := d
        cases l with
        | none => simp [react, Mck.destructor]
        | some l => cases l <;> simp [react, Mck.destructor]
    | resetting => cases dtor <;> cases fake <;> simp [react, Mck.destructor]
    | ended => cases dtor <;> cases fake <;> simp [react, Mck.destructor]

theorem react_zero (k : Mck) : react 0 k = some k := by simp [react]

theorem react_methods {n : Nat} {k k' : Mck} (h : react n k = some k') : k'.methods = k.methods := by
  unfold react at h
  split at h
  · cases h; rfl
  · split at h
    · cases h
    · split at h
      · cases h; rfl
      · split at h
        · cases h; rfl
        · cases h
      · cases h
      · split at h
        · cases h; rfl
        · split at h
          · cases h; rfl
          · cases h

theorem reactAll_zero (ks : List Mck) : reactAll (fun _ => 0) ks = some ks := by
  induction ks with
  | nil => rfl
  | cons k ks ih => simp [reactAll, react_zero, ih]

theorem reactAll_methods {n : Nat → Nat} {ks ks' : List Mck} (h : reactAll n ks = some ks') : ks'.map Mck.methods = ks.map Mck.methods := by
  induction ks generalizing n ks' with
  | nil => simp only [reactAll, Option.some.injEq] at h; subst h; rfl
  | cons k ks ih =>
    simp only [reactAll, Option.bind_eq_some_iff, Option.map_eq_some_iff] at h
    obtain ⟨k1, h1, ks1, h2, rfl⟩ := h
    simp [react_methods h1, ih h2]

theorem reactAll_length {n : Nat → Nat} {ks ks' : List Mck} (h : reactAll n ks = some ks') : ks'.length = ks.length := by
  have := congrArg List.length (reactAll_methods h)
  simpa using this

theorem reactAll_add {j : Nat} {ks : List Mck} {k : Mck} (n : Nat → Nat) (h : ks[j]? = some k) :
    reactAll (fun i => n i + if i = j then 1 else 0) ks = (react 1 k).bind fun k' => reactAll n (ks.set j k') := by
  induction ks generalizing j n with
  | nil => simp at h
  | cons x xs ih =>
    cases j with
    | zero =>
      simp only [List.getElem?_cons_zero, Option.some.injEq] at h
      subst h
      have e : (fun i => n (i + 1) + if i + 1 = 0 then 1 else 0) = fun i => n (i + 1) := by funext i; simp
      simp only [reactAll, if_true, e, List.set_cons_zero]
      rw [react_succ, Option.bind_assoc]
    | succ j =>
      simp only [List.getElem?_cons_succ] at h
      have e : (fun i => n (i + 1) + if i + 1 = j + 1 then 1 else 0) = fun i => (fun i => n (i + 1)) i + if i = j then 1 else 0 := by funext i; simp
      simp only [reactAll]
      rw [e, ih (fun i => n (i + 1)) h]
      simp only [Nat.zero_ne_add_one, if_false, Nat.add_zero, List.set_cons_succ, reactAll]
      cases react (n 0) x with
      | none => cases react 1 k <;> simp
      | some y => cases react 1 k <;> simp

theorem reactAll_get {n : Nat → Nat} {ks ks' : List Mck} (h : reactAll n ks = some ks') {i : Nat} {k : Mck} (hk : ks[i]? = some k) : ∃ k', ks'[i]? = some k' ∧ react (n i) k = some k' := by
  induction ks generalizing n ks' i with
  | nil => simp at hk
  | cons x xs ih =>
    simp only [reactAll, Option.bind_eq_some_iff, Option.map_eq_some_iff] at h
    obtain ⟨k1, h1, ks1, h2, rfl⟩ := h
    cases i with
    | zero => simp only [List.getElem?_cons_zero, Option.some.injEq] at hk; subst hk; exact ⟨k1, by simp, h1⟩
    | succ i => simpa using ih h2 (by simpa using hk)

theorem shares_eq (w : World) : w.shares = w.vars.filterMap id ++ (w.mocks.map Mck.methods).flatMap sharesOf := by
  simp [World.shares, List.flatMap_map]

theorem shares_congr {w w' : World} (hv : w.vars = w'.vars) (hm : w.mocks.map Mck.methods = w'.mocks.map Mck.methods) : w.shares = w'.shares := by
  rw [shares_eq, shares_eq, hv, hm]

theorem set_methods {ks : List Mck} {j : Nat} {k k' : Mck} (h : ks[j]? = some k) (hm : k'.methods = k.methods) : (ks.set j k').map Mck.methods = ks.map Mck.methods := by
  apply List.ext_getElem?
  intro i
  simp only [List.getElem?_map, List.getElem?_set]
  by_cases hi : j = i
  · subst hi
    by_cases hl : j < ks.length
    · rw [List.getElem?_eq_getElem hl, Option.some.injEq] at h
      simp [hl, hm, h]
    · simp [hl] at h ⊢
  · simp [hi]

/-- How many groups of owners of object `j` end when the owners in `pend` go. -/
def ended (objs shares pend : List Nat) (j : Nat) : Nat :=
  (List.range objs.length).countP fun g => decide (objs[g]? = some j) && decide (g ∈ pend) && !decide (g ∈ shares)

theorem ended_nil (objs shares : List Nat) : ended objs shares [] = fun _ => 0 := by
  funext j
  simp [ended]

theorem ended_more {objs shares pend : List Nat} {g : Nat} (h : g ∈ shares ∨ g ∈ pend) : ended objs shares (g :: pend) = ended objs shares pend := by
  funext j
  unfold ended
  apply List.countP_congr
  intro x _
  simp only [Bool.and_eq_true, decide_eq_true_eq, Bool.not_eq_true', decide_eq_false_iff_not, List.mem_cons]
  constructor
  · rintro ⟨⟨h1, h2⟩, h3⟩
    refine ⟨⟨h1, ?_⟩, h3⟩
    rcases h2 with rfl | h2
    · exact h.resolve_left h3
    · exact h2
  · rintro ⟨⟨h1, h2⟩, h3⟩
    exact ⟨⟨h1, .inr h2⟩, h3⟩

theorem countP_range_one {p : Nat → Bool} {g : Nat} (n : Nat) (hg : g < n) (hp : p g = false) :
    (List.range n).countP (fun x => p x || decide (x = g)) = (List.range n).countP p + 1 := by
  have other : ∀ m, m ≤ g → (List.range m).countP (fun x => p x || decide (x = g)) = (List.range m).countP p := by
    intro m hm
    apply List.countP_congr
    intro x hx
    have : x ≠ g := by have := List.mem_range.1 hx; omega
    simp [this]
  induction n with
  | zero => omega
  | succ n ih =>
    rw [List.range_succ, List.countP_append, List.countP_append]
    by_cases h : g < n
    · rw [ih h]
      have : n ≠ g := by omega
      simp only [List.countP_cons, List.countP_nil, this, decide_false, Bool.or_false]
      omega
    · have : g = n := by omega
      subst this
      rw [other g (Nat.le_refl _)]
      simp [hp]

theorem ended_last {objs shares pend : List Nat} {g j : Nat} (h : ¬ (g ∈ shares ∨ g ∈ pend)) (hg : objs[g]? = some j) :
    ended objs shares (g :: pend) = fun i => ended objs shares pend i + if i = j then 1 else 0 := by
  simp only [not_or] at h
  have hl : g < objs.length := (List.getElem?_eq_some_iff.1 hg).1
  funext i
  unfold ended
  by_cases hi : i = j
  · subst hi
    rw [if_pos rfl, ← countP_range_one _ hl (by simp [h.2])]
    apply List.countP_congr
    intro x _
    by_cases hx : x = g
    · subst hx; simp [hg, h.1]
    · simp [hx]
  · rw [if_neg hi, Nat.add_zero]
    apply List.countP_congr
    intro x _
    by_cases hx : x = g
    · subst hx
      have : ¬ j = i := fun h => hi h.symm
      simp [hg, this]
    · simp [hx]

theorem Good.mk' {s : State} {pend : List Nat} (hl : s.counts.length = s.objs.length) (hc : ∀ g, g < s.objs.length → s.counts[g]? = some ((s.world.shares ++ pend).count g))
    (h1 : ∀ g, g ∈ s.world.shares ++ pend → g < s.objs.length) (h2 : ∀ m, m ∈ s.objs → m < s.mocks.length) : Good s pend := ⟨hl, hc, h1, h2⟩

/-- Owners go one after the other. -/
theorem releaseAll_ended {pend : List Nat} : ∀ {s : State}, Good s pend →
    match reactAll (ended s.objs s.world.shares pend) s.mocks with
    | some ks => ∃ cs, State.releaseAll pend s = .done { s with counts := cs, mocks := ks } ∧ Good { s with counts := cs, mocks := ks } []
    | none => ∀ x, State.releaseAll pend s ≠ .done x := by
  induction pend with
  | nil =>
    intro s hG
    rw [ended_nil, reactAll_zero]
    exact ⟨s.counts, rfl, hG⟩
  | cons g p ih =>
    intro s hG
    have hl : g < s.objs.length := hG.lt g (by simp)
    have hc := hG.cnt g hl
    by_cases h : g ∈ s.world.shares ∨ g ∈ p
    · rw [ended_more h]
      have h1 : 1 ≤ (s.world.shares ++ p).count g := by
        rw [List.one_le_count_iff, List.mem_append]; exact h
      have hcc : (s.world.shares ++ g :: p).count g = (s.world.shares ++ p).count g + 1 := by
        simp only [List.count_append, List.count_cons_self]; omega
      have hr : s.release g = .done { s with counts := s.counts.set g ((s.world.shares ++ p).count g) } := by
        simp only [State.release, hc, hcc, Res.ofOption_some, Res.bind_done]
        rw [if_neg (by omega), if_neg (by omega)]
        simp
      have hG' : Good { s with counts := s.counts.set g ((s.world.shares ++ p).count g) } p := by
        refine ⟨by simpa using hG.len, ?_, ?_, hG.obj⟩
        · intro x hx
          show (s.counts.set g _)[x]? = some ((s.world.shares ++ p).count x)
          by_cases hxg : g = x
          · subst hxg
            rw [List.getElem?_set_self (by rw [hG.len]; exact hl)]
          · rw [List.getElem?_set_ne hxg, hG.cnt x hx]
            simp only [List.count_append, List.count_cons]
            simp [hxg]
        · intro x hx
          refine hG.lt x ?_
          show x ∈ s.world.shares ++ g :: p
          have hx : x ∈ s.world.shares ++ p := hx
          simp only [List.mem_append, List.mem_cons] at hx ⊢
          rcases hx with h | h
          · exact .inl h
          · exact .inr (.inr h)
      have := ih hG'
      simp only [State.releaseAll, hr, Res.bind_done]
      exact this
    · have hcc : (s.world.shares ++ g :: p).count g = 1 := by
        simp only [not_or] at h
        simp only [List.count_append, List.count_cons_self, List.count_eq_zero_of_not_mem h.1, List.count_eq_zero_of_not_mem h.2]
      obtain ⟨j, hj⟩ : ∃ j, s.objs[g]? = some j := ⟨_, List.getElem?_eq_getElem hl⟩
      have hjl : j < s.mocks.length := hG.obj j (List.mem_of_getElem? hj)
      obtain ⟨k, hk⟩ : ∃ k, s.mocks[j]? = some k := ⟨_, List.getElem?_eq_getElem hjl⟩
      rw [ended_last h hj, reactAll_add _ hk]
      cases hr : react 1 k with
      | none =>
        intro x hx
        simp only [State.releaseAll, State.release, hc, hcc, hj, hk, Res.ofOption_some, Res.bind_done, Nat.one_ne_zero, if_false, if_true, Res.bind_eq_done] at hx
        obtain ⟨_, ⟨k', h1, -⟩, -⟩ := hx
        rw [destructor_react, hr] at h1
        cases h1
      | some k' =>
        have hd := (destructor_react k k').2 hr
        have hm : (s.mocks.set j k').map Mck.methods = s.mocks.map Mck.methods := set_methods hk (react_methods hr)
        have hs : World.shares ⟨s.objs, s.vars, s.mocks.set j k'⟩ = s.world.shares := shares_congr rfl hm
        have hrel : s.release g = .done { s with counts := s.counts.set g 0, mocks := s.mocks.set j k' } := by
          simp only [State.release, hc, hcc, hj, hk, hd, Res.ofOption_some, Res.bind_done, Nat.one_ne_zero, if_false, if_true]
        have hG' : Good { s with counts := s.counts.set g 0, mocks := s.mocks.set j k' } p := by
          refine ⟨by simpa using hG.len, ?_, ?_, ?_⟩
          · intro x hx
            show (s.counts.set g 0)[x]? = some ((World.shares ⟨s.objs, s.vars, s.mocks.set j k'⟩ ++ p).count x)
            rw [hs]
            by_cases hxg : g = x
            · subst hxg
              rw [List.getElem?_set_self (by rw [hG.len]; exact hl)]
              simp only [not_or] at h
              simp [List.count_append, List.count_eq_zero_of_not_mem h.1, List.count_eq_zero_of_not_mem h.2]
            · rw [List.getElem?_set_ne hxg, hG.cnt x hx]
              simp only [List.count_append, List.count_cons]
              simp [hxg]
          · intro x hx
            have hx : x ∈ World.shares ⟨s.objs, s.vars, s.mocks.set j k'⟩ ++ p := hx
            rw [hs] at hx
            refine hG.lt x ?_
            simp only [List.mem_append, List.mem_cons] at hx ⊢
            rcases hx with h | h
            · exact .inl h
            · exact .inr (.inr h)
          · intro m hm; simpa using hG.obj m hm
        have := ih hG'
        have e : State.world { s with counts := s.counts.set g 0, mocks := s.mocks.set j k' } = ⟨s.objs, s.vars, s.mocks.set j k'⟩ := rfl
        rw [e, hs] at this
        simp only [State.releaseAll, hrel, Res.bind_done, Option.bind_some]
        exact this

/-- Owners are taken away. -/
theorem releaseAll_lose {before : World} {s : State} {pend : List Nat} (hG : Good s pend) (hb : before.objs = s.objs) (hm : ∀ g, g ∈ before.shares ↔ g ∈ s.world.shares ∨ g ∈ pend) :
    AgreesS (State.releaseAll pend s) (lose before s.world) := by
  have e : endedBy before s.world = ended s.objs s.world.shares pend := by
    funext j
    unfold endedBy ended
    rw [hb]
    apply List.countP_congr
    intro x _
    simp only [Bool.and_eq_true, decide_eq_true_eq, Bool.not_eq_true', decide_eq_false_iff_not, hm]
    constructor
    · rintro ⟨⟨h1, h2⟩, h3⟩; exact ⟨⟨h1, h2.resolve_left h3⟩, h3⟩
    · rintro ⟨⟨h1, h2⟩, h3⟩; exact ⟨⟨h1, .inr h2⟩, h3⟩
  have := releaseAll_ended hG
  unfold lose
  rw [e]
  have e2 : s.world.mocks = s.mocks := rfl
  rw [e2]
  revert this
  cases reactAll (ended s.objs s.world.shares pend) s.mocks with
  | none => exact id
  | some ks =>
    rintro ⟨cs, h1, h2⟩
    exact ⟨_, h1, rfl, h2⟩

end FakeIt.Owners
