import Verif.Lemmas.Handle
import Verif.Props.Verification
/-!
# C24, C25: verification objects

`Verify(...)` and `VerifyNoOtherInvocations(...)` return objects that can be copied, given counts, converted to `bool` and destroyed.
The theorems compare what happens to such an object with the effect of the plain statement.
-/
namespace FakeIt
variable {V E : Type} {P : Prog V E} {nm : MockId → Nat → Nat}
open Spec

/-- `w1` is the state in which the object of the statement is created: all its method expressions are evaluated, all mocks it looks at exist. -/
structure Spec.Created (P : Prog V E) (w w1 : World V E) (leaves : List (Leaf V)) (s : Source V) : Prop where
  leaves : touchAll P w (leaves.map fun l => (l.m, l.slot)) = .done (w1, true)
  alive : allAlive w1 s.mocks = true

/-! ## C25 -/

/-- C25, as far as it holds: however the handles are copied, given counts and destroyed, nothing is verified until the last one dies. Then the
verification runs once, with the effect of the plain statement with the last count that was set - unless `Any()` was called earlier and then
replaced. If an exception is propagating then, nothing is verified. -/
theorem C25_verifies_once_at_the_end_partial {w w1 w' : World V E} {scope : Scope V} {pat : List (Seq (Leaf V))} {ops : List HOp} {h' : Handles V} {outs}
    (hc : Created P w w1 (verifyLeaves scope pat) (scope.source pat))
    (hr : hrun P w1 (.ofVerify scope pat) ops = .done (w', h', outs)) (hb : HOp.toBool ∉ ops) (hdead : h'.refs = 0)
    (hany : HOp.quant .any ∈ ops → lastCount .dflt ops = .any) :
    ∃ pre u, ops = pre ++ [.drop u] ∧
      (∀ a b, pre = a ++ b → ∃ h1 o1, hrun P w1 (.ofVerify scope pat) a = .done (w1, h1, o1) ∧ h1.refs ≠ 0) ∧
      (u = true → w' = w1) ∧
      (u = false → ∃ b, apiStep P w (.verify scope pat (lastCount .dflt ops) (.stmt false)) = .done (w', .verdict b)) := by
  obtain ⟨pre, u, w2, h2, o2, o, rfl, hp, h21, hl⟩ := hrun_last hr (by simp [Handles.ofVerify]) hdead
  have hb' : HOp.toBool ∉ pre := fun hm => hb (List.mem_append_left _ hm)
  have hq := hrun_quiet hp hb' (by rw [h21]; simp) rfl Fresh.init
  obtain ⟨rfl, e, hobj, hf⟩ := hq
  have hlc : lastCount .dflt (pre ++ [.drop u]) = lastCount .dflt pre := by
    generalize Quant.dflt = q
    clear hr hb hany hp hb' hf
    induction pre generalizing q with
    | nil => rfl
    | cons op pre ih => cases op <;> simp [lastCount, ih]
  refine ⟨pre, u, rfl, ?_, ?_, ?_⟩
  · rintro a b rfl
    rw [hrun_append] at hp
    simp only [R.bind_eq_done] at hp
    obtain ⟨⟨w3, h3, o3⟩, ha, ⟨w4, h4, o4⟩, hb4, hfin⟩ := hp
    simp only [R.done.injEq, Prod.mk.injEq] at hfin
    obtain ⟨rfl, rfl, -⟩ := hfin
    have h30 : h3.refs ≠ 0 := by
      cases b with
      | nil =>
        simp only [hrun, R.done.injEq, Prod.mk.injEq] at hb4
        rw [hb4.2.1, h21]; simp
      | cons op b =>
        intro h30
        simp only [hrun, R.bind_eq_done] at hb4
        obtain ⟨⟨w5, h5, o5⟩, hs, -⟩ := hb4
        cases op <;> simp [hstep, h30] at hs
    obtain ⟨rfl, -⟩ := hrun_quiet ha (fun hm => hb' (List.mem_append_left _ hm)) h30 rfl Fresh.init
    exact ⟨h3, o3, ha, h30⟩
  · rintro rfl
    simp only [hstep, h21, if_true, R.done.injEq, Prod.mk.injEq] at hl
    exact hl.1.symm
  · rintro rfl
    obtain ⟨e0, he0, hv0, hj⟩ := hf.judge (V := V)
    have hany' : (if (false || decide (HOp.quant Quant.any ∈ pre)) = true then Quant.any else lastCount .dflt pre) = lastCount .dflt pre := by
      split
      · rename_i hm
        simp only [Bool.false_or, decide_eq_true_eq] at hm
        rw [← hlc]; exact (hany (List.mem_append_left _ hm)).symm
      · rfl
    rw [hany'] at he0
    rw [hlc]
    simp only [apiStep, verifyStmt, hc.leaves, hc.alive, R.bind_done, Bool.not_true, if_false, he0]
    simp only [hstep, h21, hobj, Check.verify, verifyExpectation, hf.unverified, Bool.false_eq_true, if_false, R.bind_eq_done] at hl
    obtain ⟨⟨c, w3, evt⟩, ⟨⟨e1, w4, evt'⟩, ⟨⟨actual, cnt, matched⟩, hana, hjj⟩, hfin⟩, hl⟩ := hl
    simp only [R.done.injEq, Prod.mk.injEq] at hfin
    obtain ⟨rfl, rfl, rfl⟩ := hfin
    simp only [Bool.false_eq_true, if_false, verifyExpectation, hv0, hana, R.bind_done, ← hj]
    cases hje : e.judge cnt actual with
    | none =>
      rw [hje] at hjj
      simp only [R.done.injEq, Prod.mk.injEq] at hjj
      obtain ⟨-, rfl, rfl⟩ := hjj
      simp only [R.done.injEq, Prod.mk.injEq] at hl
      exact ⟨true, by simp [hl.1]⟩
    | some ev =>
      rw [hje] at hjj
      simp only [R.done.injEq, Prod.mk.injEq] at hjj
      obtain ⟨-, rfl, rfl⟩ := hjj
      simp only [R.done.injEq, Prod.mk.injEq] at hl
      exact ⟨false, by simp [hl.1]⟩

/-- The result of operations on the handles of a demo verification. -/
def Demo.hnext (w : World Nat Nat) (h : Handles Nat) (ops : List HOp) : World Nat Nat × Handles Nat × List HOut :=
  match hrun Demo.prog w h ops with
  | .done r => r
  | _ => (w, h, [])

/-- C25 is false as stated: after `Any()` a later count has no effect. `auto v = Verify(A); v.Any(); v.Never();` passes although A was called. -/
theorem C25_any_cannot_be_replaced : ∃ (w w' w'' : World Nat Nat) (h' : Handles Nat) (outs : List HOut),
    Reach Demo.prog Demo.nm w ∧ Created Demo.prog w w (verifyLeaves .involved [Demo.A]) (Scope.source [Demo.A] .involved) ∧
    hrun Demo.prog w (.ofVerify .involved [Demo.A]) [.quant .any, .drop false, .quant .never, .drop false, .drop false] = .done (w', h', outs) ∧
    h'.refs = 0 ∧ lastCount .dflt [.quant .any, .drop false, .quant .never, .drop false, .drop false] = .never ∧ w'.log = w.log ∧
    apiStep Demo.prog w (.verify .involved [Demo.A] .never (.stmt false)) = .done (w'', .verdict false) ∧ w''.log.length = w.log.length + 1 :=
  let r := Demo.hnext Demo.v (.ofVerify .involved [Demo.A]) [.quant .any, .drop false, .quant .never, .drop false, .drop false]
  ⟨Demo.v, r.1, Demo.next Demo.v (.api (.verify .involved [Demo.A] .never (.stmt false))), r.2.1, r.2.2, Demo.reach_v, ⟨rfl, rfl⟩, rfl, rfl, rfl,
    (rfl : r.1.log = []).trans (rfl : [] = Demo.v.log), rfl, rfl⟩

/-- A case meeting the hypotheses of C25: a progress object that is copied, counted twice, and dies before the terminators. -/
example : ∃ w' h' outs, Created Demo.prog Demo.v Demo.v (verifyLeaves .involved [Demo.A]) (Scope.source [Demo.A] .involved) ∧
    hrun Demo.prog Demo.v (.ofVerify .involved [Demo.A]) [.copy, .drop false, .quant .never, .quant .twice, .drop false, .drop false, .drop false] =
      .done (w', h', outs) ∧ h'.refs = 0 ∧
    lastCount .dflt [.copy, .drop false, .quant .never, .quant .twice, .drop false, .drop false, .drop false] = .twice ∧ w'.log = Demo.v.log ∧
    (history w' 0 0).map (·.verified) = [true, true] :=
  let r := Demo.hnext Demo.v (.ofVerify .involved [Demo.A]) [.copy, .drop false, .quant .never, .quant .twice, .drop false, .drop false, .drop false]
  ⟨r.1, r.2.1, r.2.2, ⟨rfl, rfl⟩, rfl, rfl, rfl, (rfl : r.1.log = []).trans (rfl : [] = Demo.v.log), rfl⟩

/-! ## C24 -/

/-- C24, as far as it holds, for `Verify`: the first conversion to `bool` yields the verdict of the plain statement, marks what the statement marks
when it passes and reports nothing; whatever is done with the handles afterwards (conversions, counts, copies, destruction of all of them) has no
effect any more. If the statement passes, every later conversion yields `true` too. Missing: if it fails, later conversions should yield `false`. -/
theorem C24_conversion_is_the_verdict_partial {w w1 w' : World V E} {scope : Scope V} {pat : List (Seq (Leaf V))} {q : Quant} {b : Bool}
    {pre : List HOp} {h1 : Handles V} {o1} (hc : Created P w w1 (verifyLeaves scope pat) (scope.source pat))
    (hs : apiStep P w (.verify scope pat q (.stmt false)) = .done (w', .verdict b))
    (hp : hrun P w1 (.ofVerify scope pat) pre = .done (w1, h1, o1)) (h10 : h1.refs ≠ 0) (hnb : HOp.toBool ∉ pre)
    (hq : lastCount .dflt pre = q) (hany : HOp.quant .any ∈ pre → q = .any) :
    ∃ w2 h2, hstep P w1 h1 .toBool = .done (w2, h2, .bool b) ∧ w2.log = w1.log ∧ (b = true → w2 = w') ∧ (b = false → w2 = w1) ∧
      ∀ ops w3 h3 outs, hrun P w2 h2 ops = .done (w3, h3, outs) → w3 = w2 ∧ (b = true → HOut.bool false ∉ outs) := by
  obtain ⟨-, e, hobj, hf⟩ := hrun_quiet hp hnb h10 rfl Fresh.init
  obtain ⟨e0, he0, hv0, hj⟩ := hf.judge (V := V)
  have hany' : (if (false || decide (HOp.quant Quant.any ∈ pre)) = true then Quant.any else lastCount .dflt pre) = q := by
    split
    · rename_i hm
      simp only [Bool.false_or, decide_eq_true_eq] at hm
      exact (hany hm).symm
    · exact hq
  rw [hany'] at he0
  simp only [apiStep, verifyStmt, hc.leaves, hc.alive, R.bind_done, Bool.not_true, if_false, he0, Bool.false_eq_true, verifyExpectation, hv0,
    R.bind_eq_done] at hs
  obtain ⟨⟨e1, w4, evt⟩, ⟨⟨actual, cnt, matched⟩, hana, hjj⟩, hfin⟩ := hs
  rw [← hj] at hjj
  have hstep' : hstep P w1 h1 .toBool = (do
      let (c, w', evt) ← h1.obj.verify P w1
      .done (w', { h1 with obj := c }, .bool evt.isNone)) := by simp only [hstep, if_neg h10]
  rw [hstep', hobj]
  simp only [Check.verify, verifyExpectation, hf.unverified, Bool.false_eq_true, if_false, hana, R.bind_done]
  cases hje : e.judge cnt actual with
  | none =>
    rw [hje] at hjj
    simp only [R.done.injEq, Prod.mk.injEq] at hjj
    obtain ⟨-, rfl, rfl⟩ := hjj
    simp only [R.done.injEq, Prod.mk.injEq, ApiOut.verdict.injEq] at hfin
    obtain ⟨rfl, rfl⟩ := hfin
    simp only [R.bind_done]
    refine ⟨_, _, rfl, rfl, fun _ => rfl, by simp, fun ops w3 h3 outs hr => ?_⟩
    have := hrun_ran hr (by simp [Check.Ran])
    exact ⟨this.1, fun _ => this.2⟩
  | some ev =>
    rw [hje] at hjj
    simp only [R.done.injEq, Prod.mk.injEq] at hjj
    obtain ⟨-, rfl, rfl⟩ := hjj
    simp only [R.done.injEq, Prod.mk.injEq, ApiOut.verdict.injEq] at hfin
    obtain ⟨rfl, rfl⟩ := hfin
    simp only [R.bind_done]
    refine ⟨_, _, rfl, rfl, by simp, fun _ => rfl, fun ops w3 h3 outs hr => ?_⟩
    have := hrun_ran hr (by simp [Check.Ran])
    exact ⟨this.1, by simp⟩

/-- C24, as far as it holds, for `VerifyNoOtherInvocations`. -/
theorem C24_noOther_conversion_is_the_verdict_partial {w w1 w' : World V E} {srcs : List (Source V)} {b : Bool}
    (hc : Created P w w1 (aggregate srcs).leaves (aggregate srcs)) (hs : apiStep P w (.verifyNoOther srcs (.stmt false)) = .done (w', .verdict b))
    {n : Nat} (hn : n ≠ 0) :
    ∃ h2, hstep P w1 { (Handles.ofNoOther srcs : Handles V) with refs := n } .toBool = .done (w1, h2, .bool b) ∧
      ∀ ops w3 h3 outs, hrun P w1 h2 ops = .done (w3, h3, outs) → w3 = w1 ∧ (b = true → HOut.bool false ∉ outs) := by
  simp only [apiStep, noOtherStmt, hc.leaves, hc.alive, R.bind_done, Bool.not_true, if_false, Bool.false_eq_true] at hs
  simp only [hstep, if_neg hn, Handles.ofNoOther, Check.verify, R.bind_done]
  cases hno : noOther P w1 srcs with
  | none =>
    rw [hno] at hs
    simp only [R.done.injEq, Prod.mk.injEq, ApiOut.verdict.injEq] at hs
    obtain ⟨-, rfl⟩ := hs
    refine ⟨_, rfl, fun ops w3 h3 outs hr => ?_⟩
    have := hrun_ran hr (by simp [Check.Ran])
    exact ⟨this.1, fun _ => this.2⟩
  | some ev =>
    rw [hno] at hs
    simp only [R.done.injEq, Prod.mk.injEq, ApiOut.verdict.injEq] at hs
    obtain ⟨-, rfl⟩ := hs
    refine ⟨_, rfl, fun ops w3 h3 outs hr => ?_⟩
    have := hrun_ran hr (by simp [Check.Ran])
    exact ⟨this.1, by simp⟩

/-- C24 is false as stated: converting a failing verification twice yields `false`, then `true`. -/
theorem C24_second_conversion_differs : ∃ (w w' : World Nat Nat) (h2 : Handles Nat), Reach Demo.prog Demo.nm w ∧
    Created Demo.prog w w (verifyLeaves .involved [Demo.A]) (Scope.source [Demo.A] .involved) ∧
    apiStep Demo.prog w (.verify .involved [Demo.A] .once (.stmt false)) = .done (w', .verdict false) ∧
    hrun Demo.prog w (.ofVerify .involved [Demo.A]) [.quant .once, .toBool, .toBool] = .done (w, h2, [.unit, .bool false, .bool true]) :=
  ⟨Demo.v, Demo.next Demo.v (.api (.verify .involved [Demo.A] .once (.stmt false))), _, Demo.reach_v, ⟨rfl, rfl⟩, rfl, rfl⟩

/-- The same for `VerifyNoOtherInvocations`. -/
theorem C24_second_noOther_conversion_differs : ∃ (w w' : World Nat Nat) (h2 : Handles Nat), Reach Demo.prog Demo.nm w ∧
    apiStep Demo.prog w (.verifyNoOther [.mock 0] (.stmt false)) = .done (w', .verdict false) ∧
    hrun Demo.prog w (.ofNoOther [.mock 0]) [.toBool, .toBool] = .done (w, h2, [.bool false, .bool true]) :=
  ⟨Demo.v, Demo.next Demo.v (.api (.verifyNoOther [.mock 0] (.stmt false))), _, Demo.reach_v, rfl, rfl⟩

/-- A case meeting the hypotheses of C24: a passing `Verify(A).Twice()`, converted three times. -/
example : ∃ w' h1 h2 o1, Created Demo.prog Demo.v Demo.v (verifyLeaves .involved [Demo.A]) (Scope.source [Demo.A] .involved) ∧
    apiStep Demo.prog Demo.v (.verify .involved [Demo.A] .twice (.stmt false)) = .done (w', .verdict true) ∧
    hrun Demo.prog Demo.v (.ofVerify .involved [Demo.A]) [.quant .twice] = .done (Demo.v, h1, o1) ∧ h1.refs ≠ 0 ∧ lastCount .dflt [.quant .twice] = .twice ∧
    hrun Demo.prog Demo.v h1 [.toBool, .toBool, .toBool, .drop false, .drop false] =
      .done (w', h2, [.bool true, .bool true, .bool true, .unit, .unit]) :=
  ⟨Demo.next Demo.v (.api (.verify .involved [Demo.A] .twice (.stmt false))), _, _, _, ⟨rfl, rfl⟩, rfl, rfl, by decide, rfl, rfl⟩

end FakeIt
