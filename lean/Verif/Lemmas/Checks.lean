import Verif.Spec.Checks
import Verif.Lemmas.Reorder
/-!
# Checks that only look: lemmas
-/
namespace FakeIt.Spec.Checks
open FakeIt.Spec.Reorder (run_split run_join)

variable {V E : Type} {P : Prog V E}

/-- Evaluating method expressions one after the other. -/
theorem run_glances : ∀ (ps : List (MockId × SlotRef)) {s s' : AState V E}, mentionAll P s ps = some (s', true) → aRun P s (ps.map fun x => .api (.touch x.1 x.2)) = some (List.replicate ps.length (.api .unit), s')
  | [], s, s', h => by cases h; rfl
  | (m, slot) :: ps, s, s', h => by
    simp only [mentionAll, Option.bind_eq_bind, Option.bind_eq_some_iff] at h
    obtain ⟨r, h1, h2⟩ := h
    cases r with
    | none => cases h2
    | some s1 =>
      have e := run_glances ps h2
      simp only [List.map_cons, aRun, aStep, aApi, h1, Option.map_some, Option.bind_eq_bind, Option.bind_some, e, List.length_cons, List.replicate_succ]

/-- A check that only looks leaves the state in which its method expressions have been evaluated. -/
theorem looks {s s' : AState V E} {a : Api V E} {o : ApiOut} (h : aApi P s a = some (s', o)) (ho : OnlyLooks a o) : mentionAll P s a.slots = some (s', true) := by
  cases a with
  | verify scope pat q mode =>
    replace h : aVerify P s scope pat q mode = some (s', o) := h
    unfold aVerify at h
    simp only [Option.bind_eq_bind, Option.bind_eq_some_iff] at h
    obtain ⟨⟨s1, b⟩, h1, h2⟩ := h
    rw [mentionedBy_eq] at h1
    cases b with
    | false => cases h2; cases mode <;> exact absurd ho id
    | true =>
      simp only at h2
      split at h2
      · split at h2
        · cases h2; cases mode <;> exact absurd ho id
        · split at h2
          · cases h2; exact h1
          · split at h2
            · cases h2
              cases mode with
              | stmt u => exact absurd ho id
              | asBool => exact absurd ho (by simp [OnlyLooks])
            · split at h2
              · cases h2; exact h1
              · cases h2
                cases mode with
                | stmt u => exact absurd ho id
                | asBool => rename_i hm; exact absurd rfl hm
      · cases h2
  | verifyNoOther srcs mode =>
    replace h : aNoOther P s srcs mode = some (s', o) := h
    unfold aNoOther at h
    simp only [Option.bind_eq_bind, Option.bind_eq_some_iff] at h
    obtain ⟨⟨s1, b⟩, h1, h2⟩ := h
    rw [allOf_eq, leavesOf_eq] at h1
    cases b with
    | false => cases h2; exact absurd ho id
    | true =>
      simp only at h2
      split at h2
      · split at h2
        · cases h2; exact h1
        · split at h2
          · cases h2; exact h1
          · split at h2
            · cases h2; exact h1
            · cases h2
              rename_i hm
              rcases ho with e | e
              · cases e
              · exact absurd e hm
      · cases h2
  | _ => exact absurd ho id

theorem run_looks {heap : Addr → V} {pre post : List (Op V E)} {a : Api V E} {o : ApiOut} {o1 o2 : List (OpOut V E)} {s : AState V E} (hl : o1.length = pre.length) (h : aRun P (AState.start heap) (pre ++ .api a :: post) = some (o1 ++ .api o :: o2, s)) (ho : OnlyLooks a o) :
    aRun P (AState.start heap) (pre ++ (glances a ++ post)) = some (o1 ++ (List.replicate a.slots.length (.api .unit) ++ o2), s) := by
  obtain ⟨p1, p2, t, e, hl', h1, h2⟩ := run_split h
  obtain ⟨rfl, rfl⟩ := List.append_inj e (hl.trans hl'.symm)
  simp only [aRun, Option.bind_eq_bind, Option.bind_eq_some_iff] at h2
  obtain ⟨⟨q, t1⟩, h3, ⟨os, t2⟩, h4, h5⟩ := h2
  simp only [Option.some.injEq, Prod.mk.injEq, List.cons.injEq] at h5
  obtain ⟨⟨rfl, rfl⟩, rfl⟩ := h5
  simp only [aStep, Option.map_eq_some_iff, Prod.mk.injEq] at h3
  obtain ⟨⟨t3, o3⟩, h3, e3, rfl⟩ := h3
  cases e3
  exact run_join h1 (run_join (run_glances _ (looks h3 ho)) h4)

end FakeIt.Spec.Checks
