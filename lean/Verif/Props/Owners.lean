import Verif.Lemmas.OwnersLast
import Verif.Lemmas.OwnersReset
/-!
# C91: owners of mocked objects
-/
namespace FakeIt.Owners
open Spec

/-- Some owner of the group is neither in a record nor in a stubbing of mock `m`. -/
def OwnedOutside (s : State) (m g : Nat) : Prop := some g ∈ s.vars ∨ ∃ (i : Nat) (k : Mck), i ≠ m ∧ s.mocks[i]? = some k ∧ g ∈ sharesOf k.methods

/-- Some owner of the group is somewhere. -/
def Owned (s : State) (g : Nat) : Prop := some g ∈ s.vars ∨ ∃ (i : Nat) (k : Mck), s.mocks[i]? = some k ∧ g ∈ sharesOf k.methods

theorem owned_iff (s : State) (g : Nat) : Owned s g ↔ g ∈ s.world.shares := by
  simp only [Owned, World.shares, State.world, List.mem_append, List.mem_filterMap, List.mem_flatMap, id]
  constructor
  · rintro (h | ⟨i, k, h1, h2⟩)
    · exact .inl ⟨_, h, rfl⟩
    · exact .inr ⟨k, List.mem_of_getElem? h1, h2⟩
  · rintro (⟨o, h1, h2⟩ | ⟨k, h1, h2⟩)
    · subst h2; exact .inl h1
    · obtain ⟨i, hi⟩ := List.mem_iff_getElem?.1 h1
      exact .inr ⟨i, k, hi, h2⟩

theorem ownedOutside_iff {s : State} {m g : Nat} {k' : Mck} (hk : sharesOf k'.methods = []) : OwnedOutside s m g ↔ g ∈ (s.world.setMock m k').shares := by
  simp only [OwnedOutside, World.shares, World.setMock, State.world, List.mem_append, List.mem_filterMap, List.mem_flatMap, id]
  constructor
  · rintro (h | ⟨i, k, h0, h1, h2⟩)
    · exact .inl ⟨_, h, rfl⟩
    · refine .inr ⟨k, List.mem_of_getElem? (i := i) ?_, h2⟩
      rw [List.getElem?_set_ne (fun h => h0 h.symm)]
      exact h1
  · rintro (⟨o, h1, h2⟩ | ⟨k, h1, h2⟩)
    · subst h2; exact .inl h1
    · obtain ⟨i, hi⟩ := List.mem_iff_getElem?.1 h1
      by_cases him : m = i
      · subst him
        rw [List.getElem?_set] at hi
        simp only [if_true] at hi
        split at hi
        · cases hi; rw [hk] at h2; cases h2
        · cases hi
      · rw [List.getElem?_set_ne him] at hi
        exact .inr ⟨i, k, fun h => him h.symm, hi, h2⟩

theorem good_of_run {ops : List Op} {s : State} {as : List Ans} (h : start.run ops = .done (s, as)) : Good s [] := by
  have := run_agrees (ops := ops) good_start
  cases hr : start.world.run ops with
  | none => rw [hr] at this; exact absurd h (this _)
  | some p =>
    rw [hr] at this
    obtain ⟨s', h1, -, h3⟩ := this
    rw [h] at h1
    cases h1
    exact h3

/-- **C91**, exactly: a test is defined (and is not terminated) exactly if the specification says so, and sees what it says: an object's destructor is called once for each group of owners that ends
because an operation takes its last owners away, in whatever order and however many they are. -/
theorem C91_exactly (ops : List Op) (as : List Ans) : (∃ s, start.run ops = .done (s, as)) ↔ ∃ w, World.start.run ops = some (w, as) := by
  have h := run_agrees (ops := ops) good_start
  have e : start.world = World.start := rfl
  rw [e] at h
  constructor
  · rintro ⟨s, hs⟩
    cases hr : World.start.run ops with
    | none => rw [hr] at h; exact absurd hs (h _)
    | some p =>
      rw [hr] at h
      obtain ⟨s', h1, h2, -⟩ := h
      rw [hs] at h1
      cases h1
      exact ⟨p.1, rfl⟩
  · rintro ⟨w, hw⟩
    rw [hw] at h
    obtain ⟨s, h1, -, -⟩ := h
    exact ⟨s, h1⟩

/-- **C91**: a variable gives up its owner. The mocked destructor is called exactly if this was the last owner of the group. -/
theorem C91_the_last_owner_calls_the_destructor {ops : List Op} {s : State} {as : List Ans} (h : start.run ops = .done (s, as)) {v g m c : Nat} {k : Mck} (hv : s.vars[v]? = some (some g))
    (hg : s.objs[g]? = some m) (hk : s.mocks[m]? = some k) (hl : k.phase = .live) (ho : k.object = true) (hd : k.dtor = some ⟨none, c⟩) :
    ∃ s', s.step (.drop v) = .done (s', .nothing) ∧ (∀ i, i ≠ m → s'.mocks[i]? = s.mocks[i]?) ∧
      (Owned { s with vars := s.vars.set v none } g → s'.mocks = s.mocks) ∧
      (¬ Owned { s with vars := s.vars.set v none } g → s'.mocks[m]? = some { k with dtor := some ⟨none, c + 1⟩ }) := by
  have hG := good_of_run h
  have hm : g ∈ s.world.shares := by
    simp only [World.shares, State.world, List.mem_append, List.mem_filterMap]
    exact .inl ⟨some g, List.mem_of_getElem? hv, rfl⟩
  have hgl : g < s.objs.length := hG.lt g (by simp [hm])
  have hc := hG.cnt g hgl
  have h1 := count_vars_set hv g
  have e : s.world.shares.count g = (State.world { s with vars := s.vars.set v none }).shares.count g + 1 := by
    simp only [State.world, World.shares, List.count_append, h1]
    simp
    omega
  simp only [List.append_nil] at hc
  have key : s.step (.drop v) = (State.release { s with vars := s.vars.set v none } g >>= fun s => .done (s, .nothing)) := by
    simp only [State.step, hv, Res.ofOption_some, Res.bind_done, Option.toList_some, State.releaseAll]
    cases State.release { s with vars := s.vars.set v none } g <;> rfl
  rw [key]
  by_cases hx : Owned { s with vars := s.vars.set v none } g
  · have hp : 0 < (State.world { s with vars := s.vars.set v none }).shares.count g := mem_iff_count.1 ((owned_iff _ _).1 hx)
    refine ⟨{ s with vars := s.vars.set v none, counts := s.counts.set g (s.world.shares.count g - 1) }, ?_, fun _ _ => rfl, fun _ => rfl, fun hn => absurd hx hn⟩
    simp only [State.release, hc, Res.ofOption_some, Res.bind_done]
    rw [if_neg (by omega), if_neg (by omega)]
    rfl
  · have hp : (State.world { s with vars := s.vars.set v none }).shares.count g = 0 := by
      rw [List.count_eq_zero]; exact fun hh => hx ((owned_iff _ _).2 hh)
    have hml : m < s.mocks.length := (List.getElem?_eq_some_iff.1 hk).1
    refine ⟨{ s with vars := s.vars.set v none, counts := s.counts.set g 0, mocks := s.mocks.set m { k with dtor := some ⟨none, c + 1⟩ } }, ?_, fun i hi => ?_, fun hn => absurd hn hx, fun _ => ?_⟩
    · have hk' : k.destructor = .done { k with dtor := some ⟨none, c + 1⟩ } := by simp [Mck.destructor, ho, hl, hd]
      simp only [State.release, hc, e, hp, hg, hk, hk', Res.ofOption_some, Res.bind_done]
      rfl
    · simp only []; rw [List.getElem?_set_ne (fun hh => hi hh.symm)]
    · simp only []; rw [List.getElem?_set_self hml]

/-- Without an action left (or if `Dtor(mock)` has only been verified) the program is terminated when the last owner goes. -/
theorem C91_destructor_without_action_terminates {ops : List Op} {s : State} {as : List Ans} (h : start.run ops = .done (s, as)) {v g m c : Nat} {k : Mck} (hv : s.vars[v]? = some (some g))
    (hg : s.objs[g]? = some m) (hk : s.mocks[m]? = some k) (hl : k.phase = .live) (ho : k.object = true) (hd : k.dtor = some ⟨some 0, c⟩)
    (hx : ¬ Owned { s with vars := s.vars.set v none } g) : s.step (.drop v) = .terminate := by
  have hG := good_of_run h
  have hm : g ∈ s.world.shares := by
    simp only [World.shares, State.world, List.mem_append, List.mem_filterMap]
    exact .inl ⟨some g, List.mem_of_getElem? hv, rfl⟩
  have hgl : g < s.objs.length := hG.lt g (by simp [hm])
  have hc := hG.cnt g hgl
  have h1 := count_vars_set hv g
  have hp : (State.world { s with vars := s.vars.set v none }).shares.count g = 0 := by
    rw [List.count_eq_zero]; exact fun hh => hx ((owned_iff _ _).2 hh)
  have e : s.world.shares.count g = 1 := by
    simp only [State.world, World.shares, List.count_append] at hp ⊢
    simp only [Option.toList_some, List.count_cons_self, List.count_nil] at h1
    omega
  simp only [List.append_nil, e] at hc
  have hk' : k.destructor = .terminate := by simp [Mck.destructor, ho, hl, hd]
  simp [State.step, hv, State.releaseAll, State.release, hc, hg, hk, hk']

/-- A destructor that is not mocked is mocked by a verification, without an action: when the last owner goes, the program is terminated. -/
theorem C91_verifying_the_destructor_mocks_it {ops : List Op} {s : State} {as : List Ans} (h : start.run ops = .done (s, as)) {v g m : Nat} {k : Mck} (hv : s.vars[v]? = some (some g))
    (hg : s.objs[g]? = some m) (hk : s.mocks[m]? = some k) (hl : k.phase = .live) (ho : k.object = true) (hd : k.dtor = none) (hx : ¬ Owned { s with vars := s.vars.set v none } g) :
    (∃ s', s.run [.countDtor m] = .done (s', [.count 0])) ∧ s.run [.countDtor m, .drop v] = .terminate := by
  have hml : m < s.mocks.length := (List.getElem?_eq_some_iff.1 hk).1
  have h1 : s.step (.countDtor m) = .done ({ s with mocks := s.mocks.set m { k with dtor := some ⟨some 0, 0⟩ } }, .count 0) := by
    simp [State.step, State.mock, hk, hl, Mck.dtorBody, hd, ho]
  have h2 : start.run (ops ++ [.countDtor m]) = .done ({ s with mocks := s.mocks.set m { k with dtor := some ⟨some 0, 0⟩ } }, as ++ [.count 0]) := by
    rw [run_append h]
    simp [State.run, h1]
  have h3 := C91_destructor_without_action_terminates h2 (v := v) (c := 0) hv hg (List.getElem?_set_self hml) hl ho rfl (fun hw => hx (by
    rcases hw with hw | ⟨i, k', hi, hw⟩
    · exact .inl hw
    · simp only [] at hi
      by_cases him : i = m
      · subst him
        rw [List.getElem?_set_self hml] at hi
        cases hi
        exact .inr ⟨i, k, hk, hw⟩
      · rw [List.getElem?_set_ne (fun hh => him hh.symm)] at hi
        exact .inr ⟨i, k', hi, hw⟩))
  exact ⟨⟨_, by simp [State.run, h1]; rfl⟩, by simp [State.run, h1, h3]⟩

/-- **C91**: a mock whose records and stubbings own its own object (and others only together with owners elsewhere) can end: the object's destructor, mocked or not, is not called, nothing happens to
other mocks. (include/fakeit/MockImpl.hpp 109-117) -/
theorem C91_mocks_that_own_their_objects_can_end {ops : List Op} {s : State} {as : List Ans} (h : start.run ops = .done (s, as)) {m : Nat} {k : Mck} (hk : s.mocks[m]? = some k)
    (hl : k.phase = .live) (ho : k.object = true) (hf : k.fake = true) (hown : ∀ g, g ∈ sharesOf k.methods → s.objs[g]? = some m ∨ OwnedOutside s m g) :
    ∃ s', s.step (.destroy m) = .done (s', .nothing) ∧ (∀ i, i ≠ m → s'.mocks[i]? = s.mocks[i]?) ∧ s'.vars = s.vars ∧ ∃ k', s'.mocks[m]? = some k' ∧ k'.phase = .ended ∧ k'.object = false := by
  have hG := good_of_run h
  have ha := step_agrees hG (.destroy m)
  let k1 : Mck := { k with phase := .ended, dtor := none, methods := k.methods.map fun _ => none }
  have hml : m < s.mocks.length := (List.getElem?_eq_some_iff.1 hk).1
  have hw : s.world.mock m = some k := by simp [World.mock, State.world, hk, hl]
  have hlose : lose s.world (s.world.setMock m k1) = some (s.world.setMock m k1) := by
    unfold lose
    have : reactAll (endedBy s.world (s.world.setMock m k1)) (s.world.setMock m k1).mocks = some (s.world.setMock m k1).mocks := by
      refine reactAll_same fun i x hx => ?_
      by_cases him : m = i
      · subst him
        have e : (s.world.setMock m k1).mocks = s.mocks.set m k1 := rfl
        rw [e, List.getElem?_set_self hml] at hx
        cases hx
        unfold react
        split
        · rfl
        · simp [k1, ho, hf]
      · rw [endedBy_zero, react_zero]
        intro g hg hgm
        rw [← ownedOutside_iff (by simp [k1, sharesOf_none])]
        rcases (owned_iff s g).2 hgm with h1 | ⟨i', k', h1, h2⟩
        · exact .inl h1
        · by_cases hi' : i' = m
          · subst hi'
            rw [hk] at h1
            cases h1
            rcases hown g h2 with h3 | h3
            · have e : s.world.objs = s.objs := rfl
              rw [e, h3] at hg
              cases hg
              exact absurd rfl him
            · exact h3
          · exact .inr ⟨i', k', hi', h1, h2⟩
    rw [this]
    rfl
  have hs : s.world.step (.destroy m) = some ((s.world.setMock m k1).setMock m { k1 with object := false }, .nothing) := by
    simp only [World.step, hw, Option.bind_some]
    rw [if_pos ho]
    have e : (s.world.setMock m k1).mocks[m]? = some k1 := by
      show (s.mocks.set m k1)[m]? = some k1
      rw [List.getElem?_set_self hml]
    show (lose s.world (s.world.setMock m k1)).bind _ = _
    rw [hlose, Option.bind_some, e]
    simp [k1, hf]
  rw [hs] at ha
  obtain ⟨s', h1, h2, -⟩ := ha
  have hm' : s'.mocks = (s.mocks.set m k1).set m { k1 with object := false } := congrArg World.mocks h2
  refine ⟨s', h1, fun i hi => ?_, congrArg World.vars h2, _, by rw [hm', List.getElem?_set_self (by simpa using hml)], rfl, rfl⟩
  rw [hm', List.getElem?_set_ne (fun hh => hi hh.symm), List.getElem?_set_ne (fun hh => hi hh.symm)]

/-- The claim is false: resetting such a mock while its destructor is mocked is undefined, always. -/
theorem C91_mocks_that_own_their_objects_cannot_be_reset {ops : List Op} {s : State} {as : List Ans} (h : start.run ops = .done (s, as)) {m g : Nat} {k : Mck} {d : Dtor} (hk : s.mocks[m]? = some k)
    (hd : k.dtor = some d) (hg : s.objs[g]? = some m) (hown : Owned s g) (hno : ¬ OwnedOutside s m g) : ∀ x, s.step (.reset m) ≠ .done x := by
  have hG := good_of_run h
  have ha := step_agrees hG (.reset m)
  have hml : m < s.mocks.length := (List.getElem?_eq_some_iff.1 hk).1
  have hs : s.world.step (.reset m) = none := by
    simp only [World.step]
    cases hw : s.world.mock m with
    | none => rfl
    | some k' =>
      have hk' : k' = k := by
        have h1 : s.mocks[m]? = some k' := (mock_some hw).1
        rw [hk] at h1; cases h1; rfl
      subst hk'
      let k1 : Mck := { k' with phase := .resetting, methods := k'.methods.map fun _ => none }
      have hlose : lose s.world (s.world.setMock m k1) = none := by
        unfold lose
        cases hr : reactAll (endedBy s.world (s.world.setMock m k1)) (s.world.setMock m k1).mocks with
        | none => rfl
        | some ks =>
          have e : (s.world.setMock m k1).mocks[m]? = some k1 := by
            show (s.mocks.set m k1)[m]? = some k1
            rw [List.getElem?_set_self hml]
          obtain ⟨k2, -, h2⟩ := reactAll_get hr e
          have hne := endedBy_pos (b := s.world) (a := s.world.setMock m k1) hg ((owned_iff s g).1 hown) (fun hh => hno ((ownedOutside_iff (by simp [k1, sharesOf_none])).2 hh))
          unfold react at h2
          rw [if_neg hne] at h2
          split at h2
          · cases h2
          · simp [k1, hd] at h2
      simp only [Option.bind_some]
      show (lose s.world (s.world.setMock m k1)).bind _ = none
      rw [hlose]
      rfl
  rw [hs] at ha
  exact ha

/-- **C91**: a mock that has been reset without undefined behaviour has no stubbing and no record left, of no method and not of the destructor, and is in use. -/
theorem C91_reset_forgets_everything {s s' : State} {a : Ans} {m : Nat} {k : Mck} (hk : s.mocks[m]? = some k) (hs : s.step (.reset m) = .done (s', a)) :
    ∃ k', s'.mocks[m]? = some k' ∧ k'.methods = k.methods.map (fun _ => none) ∧ k'.dtor = none ∧ k'.phase = .live ∧ k'.fake = k.fake := by
  simp only [State.step, State.reset, State.mock, Res.bind_eq_done, Res.ofOption_eq_done] at hs
  obtain ⟨s1, ⟨k0, ⟨k1, h1, h2⟩, s2, h3, k3, h4, h5⟩, h6⟩ := hs
  rw [hk] at h1
  cases h1
  split at h2
  · cases h2
    cases h5
    cases h6
    have hl := (List.getElem?_eq_some_iff.1 hk).1
    obtain ⟨k4, h7, h8⟩ := releaseAll_keeps h3 (m := m) (List.getElem?_set_self hl)
    rw [h4] at h7
    cases h7
    exact ⟨_, List.getElem?_set_self (List.getElem?_eq_some_iff.1 h4).1, h8.methods, rfl, rfl, h8.fake⟩
  · cases h2

/-- The claim is false: an owner of an object that is gone (the mock that made it has ended, say) can never go. In every defined continuation of the test it is still there, so a test at whose end all
mocks and variables end is undefined. -/
theorem C91_owners_must_not_outlive_the_object {before after : List Op} {s s' : State} {as as' : List Ans} (h : start.run before = .done (s, as)) (h' : s.run after = .done (s', as'))
    {g m : Nat} {k : Mck} (hg : s.objs[g]? = some m) (hk : s.mocks[m]? = some k) (ho : k.object = false) (hown : Owned s g) : Owned s' g := by
  have hG := good_of_run h
  have ha := run_agrees (ops := after) hG
  cases hr : s.world.run after with
  | none => rw [hr] at ha; exact absurd h' (ha _)
  | some p =>
    rw [hr] at ha
    obtain ⟨s2, h1, h2, -⟩ := ha
    rw [h'] at h1
    cases h1
    have := stranded_run (g := g) ⟨(owned_iff s g).1 hown, m, k, hg, hk, ho⟩ (w' := p.1) (as := p.2) hr
    rw [owned_iff, h2]
    exact this.1

/-- What `ClearInvocationHistory` promises (`_partial`: the claim needs that the mock's object is owned elsewhere, too, see the witness below): nothing recorded is left, not even calls of the
destructor, and stubbings stay. -/
theorem C91_clear_forgets_everything_partial {ops : List Op} {s s' : State} {as : List Ans} {a : Ans} (h : start.run ops = .done (s, as)) {m : Nat} {k : Mck} (hk : s.mocks[m]? = some k)
    (hown : ∀ g, s.objs[g]? = some m → g ∈ recordsOf k.methods → OwnedOutside s m g) (hs : s.step (.clear m) = .done (s', a)) :
    ∃ k', s'.mocks[m]? = some k' ∧ recordsOf k'.methods = [] ∧ k'.dtor = k.dtor.map (fun d => ⟨d.left, 0⟩) ∧ k'.methods = k.methods.map (Option.map Body.cleared) := by
  have hG := good_of_run h
  have ha := step_agrees hG (.clear m)
  have hml : m < s.mocks.length := (List.getElem?_eq_some_iff.1 hk).1
  cases hr : s.world.step (.clear m) with
  | none => rw [hr] at ha; exact absurd hs (ha _)
  | some p =>
    rw [hr] at ha
    obtain ⟨s2, h1, h2, -⟩ := ha
    rw [hs] at h1
    cases h1
    simp only [World.step, Option.bind_eq_some_iff, Option.map_eq_some_iff] at hr
    obtain ⟨k0, hk0, w1, hw1, k2, hk2, w2, hw2, rfl⟩ := hr
    have e0 : k0 = k := by
      have h1 : s.mocks[m]? = some k0 := (mock_some hk0).1
      rw [hk] at h1; cases h1; rfl
    subst e0
    have hm1 := mocks_lose hw1 m
    have hz : ∀ (w : World) (ka kb : Mck), w.vars = s.vars → w.objs = s.objs → w.mocks[m]? = some ka → (∀ i, i ≠ m → (w.mocks[i]?).map Mck.methods = (s.mocks[i]?).map Mck.methods) →
        (∀ g, (sharesOf ka.methods).count g ≤ (sharesOf kb.methods).count g + (recordsOf k0.methods).count g) → endedBy w (w.setMock m kb) m = 0 := by
      intro w ka kb hv hobj hka hot hc
      refine endedBy_zero fun g hg hgs => ?_
      by_cases hgr : g ∈ recordsOf k0.methods
      · rw [hobj] at hg
        rcases hown g hg hgr with h3 | ⟨i, x, h3, h4, h5⟩
        · simp only [World.shares, World.setMock, List.mem_append, List.mem_filterMap]
          exact .inl ⟨some g, hv ▸ h3, rfl⟩
        · have := hot i h3
          rw [h4] at this
          cases hx : w.mocks[i]? with
          | none => rw [hx] at this; cases this
          | some y =>
            rw [hx] at this
            simp only [Option.map_some, Option.some.injEq] at this
            simp only [World.shares, World.setMock, List.mem_append, List.mem_flatMap]
            refine .inr ⟨y, List.mem_of_getElem? (i := i) ?_, this ▸ h5⟩
            rw [List.getElem?_set_ne (fun h => h3 h.symm)]
            exact hx
      · have h3 := shares_setMock hka kb g
        have h4 := hc g
        rw [List.count_eq_zero.2 hgr] at h4
        rw [mem_iff_count] at hgs ⊢
        omega
    have hz1 := hz s.world k0 { k0 with methods := forget (k0.methods.take k0.dtorAt) ++ k0.methods.drop k0.dtorAt } rfl rfl hk (fun _ _ => rfl) (fun g => by
      have := sharesOf_forget (k0.methods.take k0.dtorAt) g
      have e1 := recordsOf_append (k0.methods.take k0.dtorAt) (k0.methods.drop k0.dtorAt)
      have e2 := sharesOf_append (k0.methods.take k0.dtorAt) (k0.methods.drop k0.dtorAt)
      rw [List.take_append_drop] at e1 e2
      rw [e1, e2]
      simp only [sharesOf_append, List.count_append]
      omega)
    have e1 : (s.world.setMock m { k0 with methods := forget (k0.methods.take k0.dtorAt) ++ k0.methods.drop k0.dtorAt }).mocks[m]?
        = some { k0 with methods := forget (k0.methods.take k0.dtorAt) ++ k0.methods.drop k0.dtorAt } := by
      show (s.mocks.set m _)[m]? = _; rw [List.getElem?_set_self hml]
    have h3 := (hm1 _ e1).2 hz1
    have h4 := (mock_some hk2).1
    rw [h3] at h4
    cases h4
    have hlen : (forget (k0.methods.take k0.dtorAt)).length = (k0.methods.take k0.dtorAt).length := by simp [forget]
    have etake : (forget (k0.methods.take k0.dtorAt) ++ k0.methods.drop k0.dtorAt).take k0.dtorAt = forget (k0.methods.take k0.dtorAt) := by
      by_cases hd : k0.dtorAt ≤ k0.methods.length
      · rw [List.take_append_of_le_length (by simp [forget]; omega)]
        exact List.take_of_length_le (by simp [forget]; omega)
      · rw [List.drop_of_length_le (by omega), List.append_nil]
        exact List.take_of_length_le (by simp [forget]; omega)
    have edrop : (forget (k0.methods.take k0.dtorAt) ++ k0.methods.drop k0.dtorAt).drop k0.dtorAt = k0.methods.drop k0.dtorAt := by
      by_cases hd : k0.dtorAt ≤ k0.methods.length
      · have hl2 : (forget (k0.methods.take k0.dtorAt)).length = k0.dtorAt := by simp [forget]; omega
        rw [List.drop_append, hl2, Nat.sub_self, List.drop_zero, List.drop_of_length_le (by omega), List.nil_append]
      · rw [List.drop_of_length_le (by simp [forget]; omega), List.drop_of_length_le (by omega)]
    simp only [etake, edrop] at hw2
    have hz2 := hz w1 _ { k0 with methods := forget (k0.methods.take k0.dtorAt) ++ forget (k0.methods.drop k0.dtorAt), dtor := k0.dtor.map fun d => ⟨d.left, 0⟩ }
      (lose_fields hw1).2 (lose_fields hw1).1 h3 (fun i hi => by
        have := lose_methods hw1 i
        rw [this]
        show ((s.mocks.set m _)[i]?).map _ = _
        rw [List.getElem?_set_ne (fun h => hi h.symm)]) (fun g => by
      have := sharesOf_forget (k0.methods.drop k0.dtorAt) g
      have e1 := recordsOf_append (k0.methods.take k0.dtorAt) (k0.methods.drop k0.dtorAt)
      rw [List.take_append_drop] at e1
      rw [e1]
      simp only [sharesOf_append, List.count_append]
      omega)
    have hml1 : m < w1.mocks.length := (List.getElem?_eq_some_iff.1 h3).1
    have e3 : (w1.setMock m { k0 with methods := forget (k0.methods.take k0.dtorAt) ++ forget (k0.methods.drop k0.dtorAt), dtor := k0.dtor.map fun d => ⟨d.left, 0⟩ }).mocks[m]?
        = some { k0 with methods := forget (k0.methods.take k0.dtorAt) ++ forget (k0.methods.drop k0.dtorAt), dtor := k0.dtor.map fun d => ⟨d.left, 0⟩ } := by
      show (w1.mocks.set m _)[m]? = _; rw [List.getElem?_set_self hml1]
    have h5 := (mocks_lose hw2 m _ e3).2 hz2
    have efg : forget (k0.methods.take k0.dtorAt) ++ forget (k0.methods.drop k0.dtorAt) = forget k0.methods := by
      simp only [forget]
      rw [← List.map_append, List.take_append_drop]
    refine ⟨_, (congrArg (fun w => w.mocks[m]?) h2).trans h5, ?_, rfl, efg⟩
    show recordsOf (forget _ ++ forget _) = []
    rw [efg]
    exact recordsOf_forget _

/-- What the test sees, and whether it is defined. -/
def seen (ops : List Op) : Res (List Ans) :=
  match start.run ops with
  | .done p => .done p.2
  | .ub => .ub
  | .terminate => .terminate

/-- The claim is false: after `ClearInvocationHistory` a call of the destructor may be recorded, if the last owner was in a record that has been cleared after the destructor's; nothing is recorded if
the method comes before the destructor in the class. -/
theorem C91_clear_may_leave_a_call_of_the_destructor :
    seen [.mock true 1 1, .own 0, .stubDtor 0 none, .stub 0 0 none, .call 0 0 [(0, true)], .clear 0, .count 0 0, .countDtor 0]
      = .done [.nothing, .nothing, .nothing, .nothing, .answered, .nothing, .count 0, .count 0]
    ∧ seen [.mock true 1 0, .own 0, .stubDtor 0 none, .stub 0 0 none, .call 0 0 [(0, true)], .clear 0, .count 0 0, .countDtor 0]
      = .done [.nothing, .nothing, .nothing, .nothing, .answered, .nothing, .count 0, .count 1] := by decide +kernel

/-- The claim is false: mocks end in the reverse order of their definitions. A record of the first one that owns the object of the second makes this undefined; the other way round all is well. -/
theorem C91_records_of_earlier_mocks_must_not_own_later_objects :
    seen [.mock true 1 1, .mock true 1 1, .own 1, .stub 0 0 none, .call 0 0 [(0, true)], .destroy 1, .destroy 0] = .ub
    ∧ seen [.mock true 1 1, .mock true 1 1, .own 0, .stub 1 0 none, .call 1 0 [(0, true)], .destroy 1, .destroy 0]
      = .done [.nothing, .nothing, .nothing, .nothing, .answered, .nothing, .nothing] := by decide +kernel

namespace OwnersDemo

/-- tests/default_behaviore_tests.cpp 231-238: the variable goes, the record in the mock is the last owner, the mock ends. -/
def production : List Op := [.mock true 1 1, .own 0, .stubDtor 0 none, .stub 0 0 none, .call 0 0 [(0, false)], .drop 0]

example : seen (production ++ [.countDtor 0, .destroy 0]) = .done [.nothing, .nothing, .nothing, .nothing, .answered, .nothing, .count 0, .nothing] := by decide +kernel

-- C91_exactly: the same from the specification, with a second call of the destructor by a group of its own
example : ((World.start.run (production ++ [.own 0, .drop 1, .countDtor 0, .destroy 0])).map (·.2))
    = some [.nothing, .nothing, .nothing, .nothing, .answered, .nothing, .nothing, .nothing, .count 1, .nothing] := by decide +kernel

-- C91_the_last_owner_calls_the_destructor: another owner is left (the record), and none is
example : ∃ s as, start.run (production.take 5) = .done (s, as) ∧ s.vars[0]? = some (some 0) ∧ s.objs[0]? = some 0
    ∧ s.mocks[0]? = some ⟨true, [some ⟨true, [], [[0]]⟩], 1, some ⟨none, 0⟩, .live, true⟩ ∧ Owned { s with vars := s.vars.set 0 none } 0 := by
  refine ⟨⟨[0], [2], [some 0], [⟨true, [some ⟨true, [], [[0]]⟩], 1, some ⟨none, 0⟩, .live, true⟩]⟩, [.nothing, .nothing, .nothing, .nothing, .answered], by decide +kernel, rfl, rfl, rfl, .inr ⟨0, _, rfl, ?_⟩⟩
  decide +kernel

example : seen [.mock true 1 1, .own 0, .stubDtor 0 none, .copy 0, .drop 0, .countDtor 0, .drop 1, .countDtor 0] = .done [.nothing, .nothing, .nothing, .nothing, .nothing, .count 0, .nothing, .count 1] := by
  decide +kernel

-- C91_destructor_without_action_terminates: only verified; and one action, two groups
example : seen [.mock true 1 1, .own 0, .countDtor 0, .drop 0] = .terminate := by decide +kernel
example : seen [.mock true 1 1, .own 0, .own 0, .stubDtor 0 (some 1), .drop 0] = .done [.nothing, .nothing, .nothing, .nothing, .nothing] := by decide +kernel
example : seen [.mock true 1 1, .own 0, .own 0, .stubDtor 0 (some 1), .drop 0, .drop 1] = .terminate := by decide +kernel

example : ∃ s as, start.run [.mock true 1 1, .own 0, .countDtor 0] = .done (s, as) ∧ s.vars[0]? = some (some 0) ∧ s.objs[0]? = some 0
    ∧ s.mocks[0]? = some ⟨true, [none], 1, some ⟨some 0, 0⟩, .live, true⟩ ∧ ¬ Owned { s with vars := s.vars.set 0 none } 0 := by
  refine ⟨⟨[0], [1], [some 0], [⟨true, [none], 1, some ⟨some 0, 0⟩, .live, true⟩]⟩, [.nothing, .nothing, .count 0], by decide +kernel, rfl, rfl, rfl, ?_⟩
  rw [owned_iff]
  decide +kernel

-- C91_verifying_the_destructor_mocks_it: without the verification nothing happens to an object made by a mock
example : ∃ s as, start.run [.mock true 1 1, .own 0] = .done (s, as) ∧ s.vars[0]? = some (some 0) ∧ s.objs[0]? = some 0
    ∧ s.mocks[0]? = some ⟨true, [none], 1, none, .live, true⟩ ∧ ¬ Owned { s with vars := s.vars.set 0 none } 0 := by
  refine ⟨⟨[0], [1], [some 0], [⟨true, [none], 1, none, .live, true⟩]⟩, [.nothing, .nothing], by decide +kernel, rfl, rfl, rfl, ?_⟩
  rw [owned_iff]
  decide +kernel
example : seen [.mock true 1 1, .own 0, .drop 0, .countDtor 0] = .done [.nothing, .nothing, .nothing, .count 0] := by decide +kernel

-- C91_mocks_that_own_their_objects_can_end and C91_mocks_that_own_their_objects_cannot_be_reset: the record is the only owner
example : ∃ s as, start.run production = .done (s, as) ∧ s.mocks[0]? = some ⟨true, [some ⟨true, [], [[0]]⟩], 1, some ⟨none, 0⟩, .live, true⟩
    ∧ (∀ g, g ∈ sharesOf [some ⟨true, [], [[0]]⟩] → s.objs[g]? = some 0 ∨ OwnedOutside s 0 g) ∧ Owned s 0 ∧ ¬ OwnedOutside s 0 0 := by
  refine ⟨⟨[0], [1], [none], [⟨true, [some ⟨true, [], [[0]]⟩], 1, some ⟨none, 0⟩, .live, true⟩]⟩, [.nothing, .nothing, .nothing, .nothing, .answered, .nothing], by decide +kernel, rfl, ?_, ?_, ?_⟩
  · intro g hg
    have : g = 0 := by simpa [sharesOf, Body.shares, Body.recorded] using hg
    subst this
    exact .inl rfl
  · rw [owned_iff]; decide +kernel
  · rw [ownedOutside_iff (k' := ⟨true, [], 0, none, .live, true⟩) rfl]; decide +kernel

example : seen (production ++ [.reset 0]) = .ub := by decide +kernel
-- if the destructor is not mocked, the mock can be reset
example : seen [.mock true 1 1, .own 0, .stub 0 0 none, .call 0 0 [(0, true)], .reset 0, .destroy 0] = .done [.nothing, .nothing, .nothing, .answered, .nothing, .nothing] := by decide +kernel
-- a stubbing may be the last owner, too
example : seen [.mock true 1 1, .own 0, .stub 0 0 (some 0), .drop 0, .destroy 0] = .done [.nothing, .nothing, .nothing, .nothing, .nothing] := by decide +kernel

-- C91_reset_forgets_everything: a variable owns the object, too; afterwards the destructor is not mocked, and the variable can go
example : ∃ s as s' a, start.run (production.take 5) = .done (s, as) ∧ s.mocks[0]? = some ⟨true, [some ⟨true, [], [[0]]⟩], 1, some ⟨none, 0⟩, .live, true⟩ ∧ s.step (.reset 0) = .done (s', a) :=
  ⟨⟨[0], [2], [some 0], [⟨true, [some ⟨true, [], [[0]]⟩], 1, some ⟨none, 0⟩, .live, true⟩]⟩, [.nothing, .nothing, .nothing, .nothing, .answered],
    ⟨[0], [1], [some 0], [⟨true, [none], 1, none, .live, true⟩]⟩, .nothing, by decide +kernel, rfl, by decide +kernel⟩
example : seen (production.take 5 ++ [.reset 0, .drop 0, .countDtor 0, .count 0 0]) = .done [.nothing, .nothing, .nothing, .nothing, .answered, .nothing, .nothing, .count 0, .count 0] := by decide +kernel

-- C91_owners_must_not_outlive_the_object: a variable is left
example : ∃ s as, start.run [.mock true 1 1, .own 0, .destroy 0] = .done (s, as) ∧ s.objs[0]? = some 0 ∧ s.mocks[0]? = some ⟨true, [none], 1, none, .ended, false⟩ ∧ Owned s 0
    ∧ ∃ s' as', s.run [.mock true 2 0, .stub 1 0 (some 0), .copy 0, .drop 1] = .done (s', as') := by
  refine ⟨⟨[0], [1], [some 0], [⟨true, [none], 1, none, .ended, false⟩]⟩, [.nothing, .nothing, .nothing], by decide +kernel, rfl, rfl, .inl (by decide),
    ⟨[0], [2], [some 0, none], [⟨true, [none], 1, none, .ended, false⟩, ⟨true, [some ⟨true, [0], []⟩, none], 0, none, .live, true⟩]⟩, [.nothing, .nothing, .nothing, .nothing], by decide +kernel⟩
example : seen [.mock true 1 1, .own 0, .destroy 0, .drop 0] = .ub := by decide +kernel

-- a passed object: the last owner destroys it, its mock must end before
example : seen [.mock false 1 1, .own 0, .stub 0 0 none, .call 0 0 [(0, false)], .destroy 0, .call 0 0 [(0, false)], .drop 0]
    = .done [.nothing, .nothing, .nothing, .answered, .nothing, .native, .nothing] := by decide +kernel
example : seen [.mock false 1 1, .own 0, .drop 0, .destroy 0] = .ub := by decide +kernel
example : seen [.mock false 1 1, .own 0, .stub 0 0 none, .call 0 0 [(0, true)], .destroy 0] = .done [.nothing, .nothing, .nothing, .answered, .nothing] := by decide +kernel

-- C91_clear_forgets_everything_partial: a variable owns the object, too; another group's last owner is in a record, and its object belongs to another mock
example : ∃ s as s' a, start.run [.mock true 1 0, .mock true 1 1, .own 0, .own 1, .stubDtor 0 none, .stubDtor 1 none, .stub 0 0 none, .call 0 0 [(0, false), (1, true)]] = .done (s, as)
    ∧ s.mocks[0]? = some ⟨true, [some ⟨true, [], [[0, 1]]⟩], 0, some ⟨none, 0⟩, .live, true⟩ ∧ (∀ g, s.objs[g]? = some 0 → g ∈ recordsOf [some ⟨true, [], [[0, 1]]⟩] → OwnedOutside s 0 g)
    ∧ s.step (.clear 0) = .done (s', a) ∧ s'.mocks[1]? = some ⟨true, [none], 1, some ⟨none, 1⟩, .live, true⟩ := by
  refine ⟨⟨[0, 1], [2, 1], [some 0, none], [⟨true, [some ⟨true, [], [[0, 1]]⟩], 0, some ⟨none, 0⟩, .live, true⟩, ⟨true, [none], 1, some ⟨none, 0⟩, .live, true⟩]⟩,
    [.nothing, .nothing, .nothing, .nothing, .nothing, .nothing, .nothing, .answered],
    ⟨[0, 1], [1, 0], [some 0, none], [⟨true, [some ⟨true, [], []⟩], 0, some ⟨none, 0⟩, .live, true⟩, ⟨true, [none], 1, some ⟨none, 1⟩, .live, true⟩]⟩, .nothing,
    by decide +kernel, rfl, ?_, by decide +kernel, rfl⟩
  intro g h1 h2
  have : g = 0 ∨ g = 1 := by simpa [recordsOf, Body.recorded] using h2
  rcases this with rfl | rfl
  · exact .inl (by decide)
  · cases h1

end OwnersDemo

end FakeIt.Owners
