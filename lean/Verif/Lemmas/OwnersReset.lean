import Verif.Lemmas.OwnersLast
/-!
# Owners of mocked objects: what a destructor leaves alone
-/
namespace FakeIt.Owners
open Spec

/-- Nothing but the destructor's body and the object. -/
structure KeepsMost (k k' : Mck) : Prop where
  methods : k'.methods = k.methods
  phase : k'.phase = k.phase
  fake : k'.fake = k.fake

theorem destructor_keeps {k k' : Mck} (h : k.destructor = .done k') : KeepsMost k k' := by
  unfold Mck.destructor at h
  split at h
  · split at h
    · split at h
      · cases h; exact ⟨rfl, rfl, rfl⟩
      · cases h
      · cases h; exact ⟨rfl, rfl, rfl⟩
    · cases h
    · cases h; exact ⟨rfl, rfl, rfl⟩
  · cases h

theorem release_keeps {s s' : State} {g m : Nat} {k : Mck} (h : s.release g = .done s') (hk : s.mocks[m]? = some k) : ∃ k', s'.mocks[m]? = some k' ∧ KeepsMost k k' := by
  simp only [State.release, Res.bind_eq_done, Res.ofOption_eq_done] at h
  obtain ⟨c, -, h⟩ := h
  split at h
  · cases h
  · split at h
    · simp only [Res.bind_eq_done, Res.ofOption_eq_done] at h
      obtain ⟨i, -, k0, h0, k1, h1, h⟩ := h
      cases h
      simp only []
      by_cases hi : i = m
      · subst hi
        rw [hk] at h0
        cases h0
        exact ⟨k1, List.getElem?_set_self (List.getElem?_eq_some_iff.1 hk).1, destructor_keeps h1⟩
      · exact ⟨k, by rw [List.getElem?_set_ne hi, hk], rfl, rfl, rfl⟩
    · cases h
      exact ⟨k, hk, rfl, rfl, rfl⟩

theorem releaseAll_keeps : ∀ {gs : List Nat} {s s' : State} {m : Nat} {k : Mck}, State.releaseAll gs s = .done s' → s.mocks[m]? = some k → ∃ k', s'.mocks[m]? = some k' ∧ KeepsMost k k'
  | [], s, s', m, k, h, hk => by
    cases h
    exact ⟨k, hk, rfl, rfl, rfl⟩
  | g :: gs, s, s', m, k, h, hk => by
    simp only [State.releaseAll, Res.bind_eq_done] at h
    obtain ⟨s1, h1, h2⟩ := h
    obtain ⟨k1, hk1, a⟩ := release_keeps h1 hk
    obtain ⟨k2, hk2, b⟩ := releaseAll_keeps h2 hk1
    exact ⟨k2, hk2, b.methods.trans a.methods, b.phase.trans a.phase, b.fake.trans a.fake⟩

theorem run_append {ops ops' : List Op} : ∀ {s s1 : State} {as : List Ans}, s.run ops = .done (s1, as) → s.run (ops ++ ops') = (s1.run ops' >>= fun p => .done (p.1, as ++ p.2)) := by
  induction ops with
  | nil =>
    intro s s1 as h
    cases h
    simp only [List.nil_append]
    cases s.run ops' <;> rfl
  | cons op ops ih =>
    intro s s1 as h
    simp only [State.run, Res.bind_eq_done] at h
    obtain ⟨p, h1, p', h2, h3⟩ := h
    cases h3
    simp only [List.cons_append, State.run, h1, Res.bind_done, ih h2]
    cases p'.1.run ops' <;> rfl

end FakeIt.Owners
