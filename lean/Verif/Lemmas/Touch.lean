import Verif.Lemmas.Verify
import Verif.Lemmas.Log
/-!
# Evaluating a method expression changes no stubbing, no history, reports nothing
-/
namespace FakeIt
variable {V E : Type} {P : Prog V E} {nm : MockId → Nat → Nat}
open Spec

/-- `w'` has the stubbings (with what is left of their scripts), histories, data members, shared memory and reports of `w`. -/
structure Spec.Inert (w w' : World V E) : Prop where
  stubs : ∀ m off, stubbings w' m off = stubbings w m off
  hist : ∀ m off, history w' m off = history w m off
  data : ∀ m, (w'.mock? m).map (fun k => (k.cls, k.owner, k.data, k.members)) = (w.mock? m).map fun k => (k.cls, k.owner, k.data, k.members)
  heap : w'.heap = w.heap
  log : w'.log = w.log

theorem Spec.Inert.refl (w : World V E) : Inert w w := ⟨fun _ _ => rfl, fun _ _ => rfl, fun _ => rfl, rfl, rfl⟩

theorem Spec.Inert.trans {a b c : World V E} (h1 : Inert a b) (h2 : Inert b c) : Inert a c :=
  ⟨fun m off => (h2.stubs m off).trans (h1.stubs m off), fun m off => (h2.hist m off).trans (h1.hist m off), fun m => (h2.data m).trans (h1.data m),
    h2.heap.trans h1.heap, h2.log.trans h1.log⟩

theorem mock?_updMock_data (w : World V E) (m m' : MockId) (f : Mock V E → Mock V E)
    (hf : ∀ k, (f k).cls = k.cls ∧ (f k).alive = k.alive ∧ (f k).owner = k.owner ∧ (f k).data = k.data ∧ (f k).members = k.members) :
    ((w.updMock m f).mock? m').map (fun k => (k.cls, k.owner, k.data, k.members)) = (w.mock? m').map fun k => (k.cls, k.owner, k.data, k.members) := by
  simp only [World.mock?, World.mocks_updMock]
  by_cases hm : m = m'
  · subst hm
    rw [if_pos rfl]
    cases w.mocks[m]? with
    | none => rfl
    | some k =>
      obtain ⟨h1, h2, h3, h4, h5⟩ := hf k
      simp only [Option.map_some, h2]
      split
      · simp [h1, h3, h4, h5]
      · rfl
  · rw [if_neg hm]

theorem touch_inert {w w' : World V E} {m : MockId} {slot : SlotRef} (h : touch P w m slot = .done (some w')) : Inert w w' := by
  have hs := touch_same h
  have hl := touch_log h
  refine ⟨?_, hs.hist, ?_, hs.heap, hl⟩
  · intro m' off'
    unfold touch at h
    split at h
    · simp at h
    · rename_i k hk
      have hk' := (World.mock?_eq_some.1 hk).1
      split at h
      · split at h
        · simp at h
        · simp at h; subst h; rfl
        · rename_i off ctr _ hn
          simp only [R.done.injEq, Option.some.injEq] at h
          subst h
          have := body?_bindAt w m k off ctr hk' hn m' off'
          unfold stubbings
          rw [show World.body? { w.updMock m (·.bind off ctr (newBody w.methTotal)) with methTotal := w.methTotal + 1 } m' off' = _ from this]
          by_cases hmo : m = m' ∧ off = off'
          · rw [if_pos hmo, ← hmo.1, ← hmo.2, body?_none_of hk' hn]; rfl
          · rw [if_neg hmo]
      · split at h
        · simp at h
        · rename_i d hd
          split at h
          · split at h
            · simp at h
            · simp at h; subst h; rfl
            · rename_i hlt hn
              simp only [R.done.injEq, Option.some.injEq] at h
              subst h
              have := body?_bindDtorAt w m k d hk' hn m' off'
              unfold stubbings
              rw [show World.body? { w.updMock m (·.bindDtor d (newBody w.methTotal)) with methTotal := w.methTotal + 1 } m' off' = _ from this]
              by_cases hmo : m = m' ∧ d = off'
              · rw [if_pos hmo, ← hmo.1, ← hmo.2, body?_none_of hk' hn]; rfl
              · rw [if_neg hmo]
          · simp at h
  · intro m'
    unfold touch at h
    repeat' split at h
    all_goals first
      | (simp at h; done)
      | (simp at h; subst h; rfl)
      | (simp only [R.done.injEq, Option.some.injEq] at h; subst h; exact mock?_updMock_data w m m' _ fun k => ⟨rfl, rfl, rfl, rfl, rfl⟩)

theorem touchAll_inert {w w' : World V E} {ok : Bool} (l : List (MockId × SlotRef)) (h : touchAll P w l = .done (w', ok)) : Inert w w' := by
  induction l generalizing w with
  | nil => simp [touchAll] at h; rw [h.1]; exact .refl _
  | cons x l ih =>
    simp only [touchAll, R.bind_eq_done] at h
    obtain ⟨r, h1, h2⟩ := h
    cases r with
    | none => simp at h2; rw [h2.1]; exact .refl _
    | some w1 => exact (touch_inert h1).trans (ih h2)

end FakeIt
