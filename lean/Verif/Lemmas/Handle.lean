import Verif.Model.Handle
import Verif.Lemmas.Verify
/-!
# Lemmas about verification objects
-/
namespace FakeIt
variable {V E : Type} {P : Prog V E} {nm : MockId → Nat → Nat}
open Spec

instance : DecidablePred LegalQuant
  | .exactly k => inferInstanceAs (Decidable (0 ≤ k))
  | .atLeast k => inferInstanceAs (Decidable (0 ≤ k))
  | .dflt | .any | .never | .once | .twice | .atLeastOnce => inferInstanceAs (Decidable True)

/-- The count in force after a sequence of operations on the handles: the last one that was accepted, `q` if there was none. -/
def Spec.lastCount (q : Quant) : List HOp → Quant
  | [] => q
  | .quant q' :: ops => lastCount (if q' = .dflt ∨ ¬ LegalQuant q' then q else q') ops
  | _ :: ops => lastCount q ops

/-! ## Lemmas -/

theorem hrun_append (w : World V E) (h : Handles V) (a b : List HOp) : hrun P w h (a ++ b) = (do
    let (w1, h1, o1) ← hrun P w h a
    let (w2, h2, o2) ← hrun P w1 h1 b
    .done (w2, h2, o1 ++ o2)) := by
  induction a generalizing w h with
  | nil =>
    simp only [List.nil_append, hrun, R.bind_done]
    cases hrun P w h b <;> rfl
  | cons op a ih =>
    simp only [List.cons_append, hrun]
    cases hstep P w h op with
    | ub => rfl
    | oof => rfl
    | done r =>
      obtain ⟨w1, h1, o⟩ := r
      simp only [R.bind_done, ih]
      cases hrun P w1 h1 a with
      | ub => rfl
      | oof => rfl
      | done r =>
        obtain ⟨w2, h2, os⟩ := r
        simp only [R.bind_done]
        cases hrun P w2 h2 b <;> rfl

/-- The state of an expectation that has not been verified, whose last count is `q`. -/
structure Fresh (e : Expectation) (q : Quant) (any : Bool) : Prop where
  unverified : e.isVerified = false
  anything : e.anything = any
  count : q ≠ .any → Expectation.init.quant q = some { count := e.count, anything := false, isVerified := false }
  any : q = .any → any = true

theorem Fresh.init : Fresh Expectation.init .dflt false := ⟨rfl, rfl, fun _ => rfl, by intro h; cases h⟩

theorem Fresh.quant {e e' : Expectation} {q q' : Quant} {any : Bool} (h : Fresh e q any) (hq : e.quant q' = some e') :
    Fresh e' (if q' = .dflt ∨ ¬ LegalQuant q' then q else q') (any || decide (q' = .any)) := by
  obtain ⟨h1, h2, h3, h4⟩ := h
  cases q' with
  | dflt => simp [Expectation.quant] at hq; subst hq; simp; exact ⟨h1, h2, h3, h4⟩
  | any => simp [Expectation.quant] at hq; subst hq; simp [LegalQuant]; exact ⟨h1, rfl, by simp, by simp⟩
  | never => simp [Expectation.quant, Expectation.exactly] at hq; subst hq; simp [LegalQuant]; exact ⟨h1, h2, fun _ => rfl, by simp⟩
  | once => simp [Expectation.quant, Expectation.exactly] at hq; subst hq; simp [LegalQuant]; exact ⟨h1, h2, fun _ => rfl, by simp⟩
  | twice => simp [Expectation.quant, Expectation.exactly] at hq; subst hq; simp [LegalQuant]; exact ⟨h1, h2, fun _ => rfl, by simp⟩
  | atLeastOnce => simp [Expectation.quant] at hq; subst hq; simp [LegalQuant]; exact ⟨h1, h2, fun _ => rfl, by simp⟩
  | exactly n =>
    simp only [Expectation.quant, Expectation.exactly] at hq
    split at hq
    · cases hq
    · rename_i hn
      simp only [Option.some.injEq] at hq
      subst hq
      have : LegalQuant (.exactly n) := by simpa [LegalQuant] using hn
      simp [this]
      exact ⟨h1, h2, fun _ => by simp [Expectation.quant, Expectation.exactly, hn, Expectation.init], by simp⟩
  | atLeast n =>
    simp only [Expectation.quant, Expectation.atLeast] at hq
    split at hq
    · cases hq
    · rename_i hn
      simp only [Option.some.injEq] at hq
      subst hq
      have : LegalQuant (.atLeast n) := by simpa [LegalQuant] using hn
      simp [this]
      exact ⟨h1, h2, fun _ => by simp [Expectation.quant, Expectation.atLeast, hn, Expectation.init], by simp⟩

theorem Fresh.reject {e : Expectation} {q q' : Quant} {any : Bool} (h : Fresh e q any) (hq : e.quant q' = none) :
    Fresh e (if q' = .dflt ∨ ¬ LegalQuant q' then q else q') (any || decide (q' = .any)) := by
  cases q' <;> simp [Expectation.quant, Expectation.exactly, Expectation.atLeast] at hq
  all_goals
    have hq' := hq
    simp [LegalQuant, Int.not_le.2 hq']
    exact h

/-- Such an expectation decides like a statement with that count, or like `Any()` if that was ever asked for. -/
theorem Fresh.judge {e : Expectation} {q : Quant} {any : Bool} (h : Fresh e q any) : ∃ e0, Expectation.init.quant (if any then .any else q) = some e0 ∧
    e0.isVerified = false ∧ ∀ c (seq : List (Invocation V)), e.judge c seq = e0.judge c seq := by
  obtain ⟨h1, h2, h3, h4⟩ := h
  cases any with
  | true =>
    refine ⟨_, rfl, rfl, fun c seq => ?_⟩
    simp [Expectation.judge, h2]
  | false =>
    have hq : q ≠ .any := by intro h; simpa using h4 h
    refine ⟨_, h3 hq, rfl, fun c seq => ?_⟩
    simp [Expectation.judge, h2]

/-- Operations that verify nothing: copying handles, setting counts, destroying handles that are not the last one. -/
theorem hrun_quiet {w w' : World V E} {h h' : Handles V} {ops : List HOp} {outs} {scope : Scope V} {pat : List (Seq (Leaf V))} {e : Expectation}
    {q : Quant} {any : Bool}
    (hr : hrun P w h ops = .done (w', h', outs)) (hnb : HOp.toBool ∉ ops) (hrefs : h'.refs ≠ 0) (hobj : h.obj = .seq scope pat e) (hf : Fresh e q any) :
    w' = w ∧ ∃ e', h'.obj = .seq scope pat e' ∧ Fresh e' (lastCount q ops) (any || decide (HOp.quant .any ∈ ops)) := by
  induction ops generalizing w h e q any outs with
  | nil =>
    simp only [hrun, R.done.injEq, Prod.mk.injEq] at hr
    obtain ⟨rfl, rfl, -⟩ := hr
    exact ⟨rfl, e, hobj, by simpa [lastCount] using hf⟩
  | cons op ops ih =>
    simp only [hrun, R.bind_eq_done] at hr
    obtain ⟨⟨w1, h1, o⟩, hs, ⟨w2, h2, os⟩, hr2, hfin⟩ := hr
    simp only [R.done.injEq, Prod.mk.injEq] at hfin
    obtain ⟨rfl, rfl, -⟩ := hfin
    have hnb2 : HOp.toBool ∉ ops := fun hm => hnb (List.mem_cons_of_mem _ hm)
    cases op with
    | toBool => exact absurd (List.mem_cons_self) hnb
    | copy =>
      simp only [hstep] at hs
      split at hs
      · cases hs
      · simp only [R.done.injEq, Prod.mk.injEq] at hs
        obtain ⟨rfl, rfl, -⟩ := hs
        have := ih hr2 hnb2 hobj hf
        simpa [lastCount] using this
    | quant q' =>
      simp only [hstep, hobj] at hs
      split at hs
      · cases hs
      · cases hq : e.quant q' with
        | none =>
          rw [hq] at hs
          simp only [R.done.injEq, Prod.mk.injEq] at hs
          obtain ⟨rfl, rfl, -⟩ := hs
          obtain ⟨r1, e', r2, r3⟩ := ih hr2 hnb2 hobj (hf.reject hq)
          refine ⟨r1, e', r2, ?_⟩
          simpa [lastCount, Bool.or_assoc, eq_comm] using r3
        | some e1 =>
          rw [hq] at hs
          simp only [R.done.injEq, Prod.mk.injEq] at hs
          obtain ⟨rfl, rfl, -⟩ := hs
          obtain ⟨r1, e', r2, r3⟩ := ih hr2 hnb2 rfl (hf.quant hq)
          refine ⟨r1, e', r2, ?_⟩
          simpa [lastCount, Bool.or_assoc, eq_comm] using r3
    | drop u =>
      simp only [hstep] at hs
      split at hs
      · cases hs
      · -- the last handle died: nothing can follow
        exfalso
        have h10 : h1.refs = 0 := by
          split at hs
          · simp only [R.done.injEq, Prod.mk.injEq] at hs; rw [← hs.2.1]
          · simp only [R.bind_eq_done] at hs
            obtain ⟨⟨c, w3, evt⟩, -, hs⟩ := hs
            cases evt <;> (simp only [R.done.injEq, Prod.mk.injEq] at hs; rw [← hs.2.1])
        cases ops with
        | nil =>
          simp only [hrun, R.done.injEq, Prod.mk.injEq] at hr2
          rw [← hr2.2.1] at hrefs
          exact hrefs h10
        | cons op' ops' =>
          simp only [hrun, R.bind_eq_done] at hr2
          obtain ⟨⟨w4, h4, o4⟩, hs4, -⟩ := hr2
          cases op' <;> simp [hstep, h10] at hs4
      · simp only [R.done.injEq, Prod.mk.injEq] at hs
        obtain ⟨rfl, rfl, -⟩ := hs
        have := ih hr2 hnb2 hobj hf
        simpa [lastCount] using this

/-- A sequence of operations after which no handle is left ends with the destruction of the last one. -/
theorem hrun_last {w w' : World V E} {h h' : Handles V} {ops : List HOp} {outs} (hr : hrun P w h ops = .done (w', h', outs)) (h0 : h.refs ≠ 0)
    (hrefs : h'.refs = 0) : ∃ pre u w1 h1 o1 o, ops = pre ++ [.drop u] ∧ hrun P w h pre = .done (w1, h1, o1) ∧ h1.refs = 1 ∧
      hstep P w1 h1 (.drop u) = .done (w', h', o) := by
  induction ops generalizing w h outs with
  | nil =>
    simp only [hrun, R.done.injEq, Prod.mk.injEq] at hr
    rw [← hr.2.1] at hrefs
    exact absurd hrefs h0
  | cons op ops ih =>
    simp only [hrun, R.bind_eq_done] at hr
    obtain ⟨⟨w1, h1, o⟩, hs, ⟨w2, h2, os⟩, hr2, hfin⟩ := hr
    simp only [R.done.injEq, Prod.mk.injEq] at hfin
    obtain ⟨rfl, rfl, -⟩ := hfin
    by_cases h10 : h1.refs = 0
    · cases ops with
      | nil =>
        simp only [hrun, R.done.injEq, Prod.mk.injEq] at hr2
        obtain ⟨rfl, rfl, -⟩ := hr2
        cases op with
        | drop u =>
          refine ⟨[], u, w, h, [], o, rfl, rfl, ?_, hs⟩
          simp only [hstep] at hs
          split at hs
          · cases hs
          · assumption
          · simp only [R.done.injEq, Prod.mk.injEq] at hs
            rw [← hs.2.1] at h10; simp at h10
        | copy =>
          simp only [hstep, if_neg h0, R.done.injEq, Prod.mk.injEq] at hs
          rw [← hs.2.1] at h10; simp at h10
        | quant q =>
          simp only [hstep, if_neg h0] at hs
          split at hs
          · split at hs
            · simp only [R.done.injEq, Prod.mk.injEq] at hs
              rw [← hs.2.1] at h10; exact absurd h10 h0
            · simp only [R.done.injEq, Prod.mk.injEq] at hs
              rw [← hs.2.1] at h10; simp at h10
          · cases hs
        | toBool =>
          simp only [hstep, if_neg h0, R.bind_eq_done] at hs
          obtain ⟨⟨c, w3, evt⟩, -, hs⟩ := hs
          simp only [R.done.injEq, Prod.mk.injEq] at hs
          rw [← hs.2.1] at h10; exact absurd h10 h0
      | cons op' ops' =>
        exfalso
        simp only [hrun, R.bind_eq_done] at hr2
        obtain ⟨⟨w4, h4, o4⟩, hs4, -⟩ := hr2
        cases op' <;> simp [hstep, h10] at hs4
    · obtain ⟨pre, u, w3, h3, o3, o4, rfl, hp, h31, hl⟩ := ih hr2 h10
      refine ⟨op :: pre, u, w3, h3, o :: o3, o4, rfl, ?_, h31, hl⟩
      simp only [hrun, hs, R.bind_done, hp]

/-- The verification has been run. -/
def Check.Ran : Check V → Prop
  | .seq _ _ e => e.isVerified = true
  | .noOther _ v => v = true

theorem Check.Ran.verify {c : Check V} (h : c.Ran) (w : World V E) : c.verify P w = .done (c, w, none) := by
  cases c with
  | seq scope pat e => simp only [Check.Ran] at h; simp [Check.verify, verifyExpectation, h]
  | noOther srcs v => simp only [Check.Ran] at h; subst h; rfl

theorem quant_isVerified {e e' : Expectation} {q : Quant} (h : e.quant q = some e') : e'.isVerified = e.isVerified := by
  cases q <;> simp only [Expectation.quant, Expectation.exactly, Expectation.atLeast] at h <;> (try split at h) <;>
    first | (cases h; done) | (simp only [Option.some.injEq] at h; rw [← h])

/-- After the verification has run, nothing done to the handles has any effect, and every conversion yields `true`. -/
theorem hrun_ran {w w' : World V E} {h h' : Handles V} {ops : List HOp} {outs} (hr : hrun P w h ops = .done (w', h', outs)) (hv : h.obj.Ran) :
    w' = w ∧ HOut.bool false ∉ outs := by
  induction ops generalizing w h outs with
  | nil =>
    simp only [hrun, R.done.injEq, Prod.mk.injEq] at hr
    obtain ⟨rfl, -, rfl⟩ := hr
    exact ⟨rfl, by simp⟩
  | cons op ops ih =>
    simp only [hrun, R.bind_eq_done] at hr
    obtain ⟨⟨w1, h1, o⟩, hs, ⟨w2, h2, os⟩, hr2, hfin⟩ := hr
    simp only [R.done.injEq, Prod.mk.injEq] at hfin
    obtain ⟨rfl, rfl, rfl⟩ := hfin
    have key : w1 = w ∧ h1.obj.Ran ∧ o ≠ .bool false := by
      cases op with
      | copy =>
        simp only [hstep] at hs
        split at hs
        · cases hs
        · simp only [R.done.injEq, Prod.mk.injEq] at hs
          obtain ⟨rfl, rfl, rfl⟩ := hs
          exact ⟨rfl, hv, by simp⟩
      | quant q =>
        simp only [hstep] at hs
        split at hs
        · cases hs
        · split at hs
          · rename_i scope pat e hobj
            split at hs
            · simp only [R.done.injEq, Prod.mk.injEq] at hs
              obtain ⟨rfl, rfl, rfl⟩ := hs
              exact ⟨rfl, hv, by simp⟩
            · rename_i e' hq
              simp only [R.done.injEq, Prod.mk.injEq] at hs
              obtain ⟨rfl, rfl, rfl⟩ := hs
              refine ⟨rfl, ?_, by simp⟩
              rw [hobj] at hv
              simp only [Check.Ran] at hv ⊢
              rw [quant_isVerified hq, hv]
          · cases hs
      | toBool =>
        simp only [hstep] at hs
        split at hs
        · cases hs
        · simp only [hv.verify, R.bind_done, R.done.injEq, Prod.mk.injEq] at hs
          obtain ⟨rfl, rfl, rfl⟩ := hs
          exact ⟨rfl, hv, by simp⟩
      | drop u =>
        simp only [hstep] at hs
        split at hs
        · cases hs
        · split at hs
          · simp only [R.done.injEq, Prod.mk.injEq] at hs
            obtain ⟨rfl, rfl, rfl⟩ := hs
            exact ⟨rfl, hv, by simp⟩
          · simp only [hv.verify, R.bind_done, R.done.injEq, Prod.mk.injEq] at hs
            obtain ⟨rfl, rfl, rfl⟩ := hs
            exact ⟨rfl, hv, by simp⟩
        · simp only [R.done.injEq, Prod.mk.injEq] at hs
          obtain ⟨rfl, rfl, rfl⟩ := hs
          exact ⟨rfl, hv, by simp⟩
    obtain ⟨rfl, hv1, ho⟩ := key
    obtain ⟨rfl, hos⟩ := ih hr2 hv1
    refine ⟨rfl, ?_⟩
    simp only [List.mem_cons, not_or]
    exact ⟨fun h => ho h.symm, hos⟩

end FakeIt
