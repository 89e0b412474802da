import Verif.Model.DefaultValue
/-!
# C51: default answers
-/
namespace FakeIt

/-! ## Specification -/

/-- The value written last through a reference of type `t`, or else the default value. -/
def Spec.lastWritten (t : ReturnType) : Int → List CallerOp → Int
  | d, [] => d
  | d, .write u v :: os => if u = t then lastWritten t v os else lastWritten t d os
  | d, .call _ :: os => lastWritten t d os

/-- The value the caller sees. -/
def Spec.seenByCaller (s : DefaultStatics) : DefaultAnswer → Option Int
  | .copy v => some v
  | .refersTo t => s t
  | _ => none

/-- The documented default answer: the value of `T{}`, nothing for `void`. -/
def Spec.documented (dflt : Nat → Int) (t : ReturnType) : Option Int := if t.kind = .void then none else some (dflt t.naked)

open Spec

private theorem run_static {dflt : Nat → Int} {s s' : DefaultStatics} {os : List CallerOp} {t : ReturnType} (h : callerRun dflt s os = .done s') :
    (s' t).getD (dflt t.naked) = lastWritten t ((s t).getD (dflt t.naked)) os ∧ (t.kind ≠ .reference → lastWritten t ((s t).getD (dflt t.naked)) os = (s t).getD (dflt t.naked)) := by
  induction os generalizing s with
  | nil => simp only [callerRun, R.done.injEq] at h; subst h; exact ⟨rfl, fun _ => rfl⟩
  | cons o os ih =>
    simp only [callerRun, R.bind_eq_done] at h
    obtain ⟨s1, h1, h2⟩ := h
    have ih := ih h2
    cases o with
    | call u =>
      have hs1 : (s1 t).getD (dflt t.naked) = (s t).getD (dflt t.naked) := by
        simp only [callerStep, defaultAnswer, R.bind_eq_done] at h1
        obtain ⟨⟨a, s2⟩, h3, h4⟩ := h1
        cases h4
        have key : ∀ (v : DefaultStatics), (v = s ∨ v = fun x => if x = u then some ((s u).getD (dflt u.naked)) else s x) → (v t).getD (dflt t.naked) = (s t).getD (dflt t.naked) := by
          rintro v (rfl | rfl)
          · rfl
          · dsimp only
            split
            · next he => subst he; rfl
            · rfl
        apply key
        cases hk : u.kind <;> rw [hk] at h3 <;> dsimp only at h3
        · cases h3; exact .inl rfl
        all_goals
          split at h3
          · cases h3; exact .inr rfl
          · first
              | (cases h3; done)
              | (cases h3; exact .inl rfl)
      rw [hs1] at ih
      exact ih
    | write u v =>
      simp only [callerStep] at h1
      split at h1
      · next hk hu =>
        cases h1
        simp only [lastWritten]
        by_cases he : u = t
        · subst he
          rw [if_pos rfl]
          simp only [if_pos, Option.getD_some] at ih
          exact ⟨ih.1, fun hn => absurd hk hn⟩
        · rw [if_neg he]
          simp only [if_neg (Ne.symm he)] at ih
          exact ih
      · cases h1

/-- **C51** (partial: methods returning nothing, by value or by const reference, of a type that can be default constructed). Whatever happened before,
a default answer is the default value of the return type. -/
theorem C51_default_answers_partial {dflt : Nat → Int} {os : List CallerOp} {s : DefaultStatics} {t : ReturnType}
    (h : callerRun dflt (fun _ => none) os = .done s) (hk : t.kind ≠ .reference) (hc : t.kind = .void ∨ t.constructible = true) :
    ∃ a s', defaultAnswer dflt s t = .done (a, s') ∧ a ≠ .thrown ∧ seenByCaller s' a = documented dflt t := by
  obtain ⟨h1, h2⟩ := run_static (t := t) h
  rw [h2 hk] at h1
  simp only [Option.getD_none] at h1
  cases hkd : t.kind with
  | void => exact ⟨_, _, by simp only [defaultAnswer, hkd]; rfl, by simp, by simp [seenByCaller, documented, hkd]⟩
  | reference => exact absurd hkd hk
  | value =>
    have hc : t.constructible = true := hc.resolve_left (by simp [hkd])
    exact ⟨_, _, by simp only [defaultAnswer, hkd, hc, if_true]; rfl, by simp, by simp [seenByCaller, documented, hkd, h1]⟩
  | constReference =>
    have hc : t.constructible = true := hc.resolve_left (by simp [hkd])
    exact ⟨_, _, by simp only [defaultAnswer, hkd, hc, if_true]; rfl, by simp, by simp [seenByCaller, documented, hkd, h1]⟩

/-- **C51.** A method returning by reference answers with the same object on every call of every such method, so the caller sees what was last written to
it. -/
theorem C51_references_share_one_object {dflt : Nat → Int} {os : List CallerOp} {s : DefaultStatics} {t : ReturnType}
    (h : callerRun dflt (fun _ => none) os = .done s) (hk : t.kind = .reference) (hc : t.constructible = true) :
    ∃ s', defaultAnswer dflt s t = .done (.refersTo t, s') ∧ seenByCaller s' (.refersTo t) = some (lastWritten t (dflt t.naked) os) := by
  obtain ⟨h1, -⟩ := run_static (t := t) h
  simp only [Option.getD_none] at h1
  exact ⟨_, by simp only [defaultAnswer, hk, hc, if_true]; rfl, by simp only [seenByCaller, if_true, h1]⟩

/-- **C51** is false for methods returning by reference. -/
theorem C51_default_reference_can_be_changed (dflt : Nat → Int) (n : Nat) :
    ∃ os s s' t, t.kind = .reference ∧ t.naked = n ∧ t.constructible = true ∧ callerRun dflt (fun _ => none) os = .done s ∧
      defaultAnswer dflt s t = .done (.refersTo t, s') ∧ seenByCaller s' (.refersTo t) ≠ some (dflt n) := by
  let t : ReturnType := ⟨.reference, n, true⟩
  have hrun : ∃ s, callerRun dflt (fun _ => none) [.call t, .write t (dflt n + 1)] = .done s := by
    simp [callerRun, callerStep, defaultAnswer, t]
  obtain ⟨s, hs⟩ := hrun
  obtain ⟨s', h1, h2⟩ := C51_references_share_one_object hs (t := t) rfl rfl
  refine ⟨_, s, s', t, rfl, rfl, rfl, hs, h1, ?_⟩
  rw [h2]
  simp only [lastWritten, if_pos, ne_eq, Option.some.injEq]
  omega

/-- **C51.** Types that cannot be default constructed: a value answer is an exception, a reference answer is undefined behaviour. -/
theorem C51_non_constructible {dflt : Nat → Int} {s : DefaultStatics} {t : ReturnType} (hc : t.constructible = false) :
    (t.kind = .value → defaultAnswer dflt s t = .done (.thrown, s)) ∧
    (t.kind = .reference ∨ t.kind = .constReference → defaultAnswer dflt s t = .ub) := by
  refine ⟨fun hk => by simp [defaultAnswer, hk, hc], ?_⟩
  rintro (hk | hk) <;> simp [defaultAnswer, hk, hc]

namespace Demo

def intT : ReturnType := ⟨.value, 0, true⟩
def intRefT : ReturnType := ⟨.reference, 0, true⟩

example : ∃ s, callerRun (fun _ => 0) (fun _ => none) [.call intT, .call intRefT, .write intRefT 5, .call intT, .call intRefT, .write intRefT 7] = .done s :=
  ⟨_, rfl⟩

end Demo
end FakeIt
