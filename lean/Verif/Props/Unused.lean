import Verif.Lemmas.Unused
import Verif.Props.Moving
/-!
# C99: a stubbing of a method that is not called any more changes nothing
-/
namespace FakeIt
open FakeIt.Spec FakeIt.Spec.Reorder FakeIt.Spec.Unused

variable {V E : Type} {P : Prog V E} {nm : MockId → Nat → Nat}

/-- **C99**. A stubbing statement for a method that is not called afterwards, or only after its mock has been reset or the method has got a stubbing that accepts all arguments, may be added to a test (wherever it can be made): every other step has the same outcome, and the test ends with the same recorded calls, reports, variables and data
members. Only the addresses of the stubbings made after it are different: there is one more stubbing before them (`a`: the address the statement gives out). -/
theorem C99_unused_stubbing_changes_nothing (hP : P.Plain) {heap : Addr → V} {pre post : List (Op V E)} {x : Stmt V E} (hi : Unused x post) (hx : (aRun P (AState.start heap) (pre ++ [x.op])).isSome)
    (hn : ∀ op ∈ pre ++ x.op :: post, op.Within (Api.Named nm) fun _ _ => True) (hwr : ∀ op ∈ pre ++ x.op :: post, op.Within Api.Writes fun _ _ => True) (hsm : Small (pre ++ x.op :: post)) {outs : List (OpOut V E)} {s : AState V E}
    (hs : aRun P (AState.start heap) (pre ++ post) = some (outs, s)) (fuel : Nat) :
    ∃ (a : Nat) (o1 o2 : List (OpOut V E)) (s' : AState V E) (w w' : World V E), outs = o1 ++ o2 ∧ o1.length = pre.length ∧ (aRun P (AState.start heap) (pre ++ [x.op])).map Prod.fst = some (o1 ++ [.api (.matcher a)]) ∧
      runOps P (fuel + 3) (World.start heap) (pre ++ post) = .done (o1 ++ o2, w) ∧
      runOps P (fuel + 3) (World.start heap) ((pre ++ x.op :: post).map (renOp (shift a))) = .done (o1 ++ .api (.matcher a) :: o2.map (renOut 1), w') ∧
      aRun P (AState.start heap) ((pre ++ x.op :: post).map (renOp (shift a))) = some (o1 ++ .api (.matcher a) :: o2.map (renOut 1), s') ∧
      (∀ m off, (history w' m off).map (recOf s'.named) = (history w m off).map fun i => renRec (shift a) (recOf s.named i)) ∧
      w'.log.map (reportOf s'.named) = w.log.map (fun e => renReport (shift a) (reportOf s.named e)) ∧ w'.heap = w.heap ∧
      w'.mocks.map (fun k => (k.cls, k.alive, k.data)) = w.mocks.map (fun k => (k.cls, k.alive, k.data)) := by
  obtain ⟨a, o1, o2, z, N, rfl, hl, ha, hr⟩ := run_added hi hs hx
  have hmap : (pre ++ x.op :: post).map (renOp (shift a)) = pre.map (renOp (shift a)) ++ x.op :: post.map (renOp (shift a)) := by
    rw [List.map_append, List.map_cons, op_ren]
  rw [← hmap] at hr
  have hin : ∀ op ∈ pre ++ post, op ∈ pre ++ x.op :: post := fun op h => by
    simp only [List.mem_append, List.mem_cons] at h ⊢
    exact h.elim .inl fun h => .inr (.inr h)
  have hmem : ∀ {A : Api V E → Prop}, (∀ op ∈ pre ++ x.op :: post, op.Within A fun _ _ => True) → (∀ op, op.Within A (fun _ _ => True) → (renOp (shift a) op).Within A fun _ _ => True) →
      ∀ op ∈ (pre ++ x.op :: post).map (renOp (shift a)), op.Within A fun _ _ => True := by
    intro A h1 h2 op hop
    obtain ⟨q, hq, rfl⟩ := List.mem_map.1 hop
    exact h2 q (h1 q hq)
  have hsm0 : Small (pre ++ post) := by
    obtain ⟨h1, h2⟩ := hsm
    simp only [List.length_append, List.length_cons, List.map_append, List.map_cons, List.sum_append, List.sum_cons] at h1 h2
    constructor
    · rw [List.length_append]; omega
    · rw [List.map_append, List.sum_append]; omega
  obtain ⟨w, w1, w2⟩ := C56_library_refines_abstract_mock (plain_named hP) (fun op h => hn op (hin op h)) (fun op h => hwr op (hin op h)) hsm0 hs fuel
  obtain ⟨w', w3, w4⟩ := C56_library_refines_abstract_mock (plain_named hP) (hmem hn fun _ => named_ren) (hmem hwr fun _ => writes_ren) (small_ren (List.Perm.refl _) hsm) hr fuel
  refine ⟨a, o1, o2, _, w, w', rfl, hl, ha, w1, w3, hr, ?_, ?_, ?_, ?_⟩
  · intro m off
    rw [w4.calls, show callsTo (O x z N (ren (shift a) 1 N s)) m off = callsTo (ren (shift a) 1 N s) m off from rfl, callsTo_ren, ← w2.calls, List.map_map]
    rfl
  · rw [w4.log, show (O x z N (ren (shift a) 1 N s)).log = s.log.map (renReport (shift a)) from rfl, ← w2.log, List.map_map]
    rfl
  · rw [w4.heap, w2.heap]; rfl
  · rw [w4.mocks, w2.mocks]
    apply List.ext_getElem?
    intro j
    simp only [O, ren, List.getElem?_map, List.getElem?_modify]
    cases s.mocks[j]? with
    | none => rfl
    | some k =>
      by_cases hj : x.m = j
      · simp only [hj, if_true]; rfl
      · simp only [hj, if_false]; rfl

/-! ## A concrete case -/
namespace UnusedDemo
open FakeIt.Demo FakeIt.ReorderDemo

/-- Another stubbing of the method of the statement `second`. -/
def again : Stmt Nat Nat := ⟨0, 1, 1, .when_ .any [.forever (.ret 9)]⟩
/-- Before the statement. -/
def before : List (Op Nat Nat) := [.api (.newMock 0), first.op]
/-- After it: a call, another stubbing, a call it serves, verifications (one by the saved expression of the other stubbing, one of the statement's method), one more stubbing of the statement's method, a reset, and a call of the statement's method. -/
def behind : List (Op Nat Nat) :=
  [.call 0 0 [.val 7], old.op, .call 0 0 [.val 8], .api (.verify .involved [.leaf ⟨0, .meth 0 0, eq 4, some 2⟩] .once (.stmt false)), .api (.verify .involved [.leaf ⟨0, .meth 1 1, .any, none⟩] .never (.stmt false)), again.op, .api (.reset 0), .call 0 1 [.val 3]]
/-- The same with the saved expression the other stubbing has when there is one more stubbing before it. -/
def renamed : List (Op Nat Nat) :=
  [.call 0 0 [.val 7], old.op, .call 0 0 [.val 8], .api (.verify .involved [.leaf ⟨0, .meth 0 0, eq 4, some 4⟩] .once (.stmt false)), .api (.verify .involved [.leaf ⟨0, .meth 1 1, .any, none⟩] .never (.stmt false)), again.op, .api (.reset 0), .call 0 1 [.val 3]]
/-- The outcomes without the statement. -/
def results : List (OpOut Nat Nat) := [.api (.mockId 0), .api (.matcher 0), .call (.ret 5), .api (.matcher 2), .call (.ret 5), .api (.verdict true), .api (.verdict true), .api (.matcher 4), .api .unit, .call .unexpected]
/-- The outcomes with it. -/
def results' : List (OpOut Nat Nat) := [.api (.mockId 0), .api (.matcher 0), .api (.matcher 2), .call (.ret 5), .api (.matcher 4), .call (.ret 5), .api (.verdict true), .api (.verdict true), .api (.matcher 6), .api .unit, .call .unexpected]

theorem behind_unused : Unused second behind := by
  exact .inr (.inr ⟨fun _ => by decide, .inr (.inr ⟨trivial, .inr (.inr ⟨fun _ => by decide, .inr (.inr ⟨trivial, .inr (.inr ⟨trivial, .inr (.inr ⟨trivial, .inl rfl⟩)⟩)⟩)⟩)⟩)⟩)

theorem all_named : ∀ op ∈ before ++ second.op :: behind, op.Within (Api.Named Demo.nm) fun _ _ => True := by
  have : (before ++ second.op :: behind).all (fun op => match op with | .api a => a.slots.all (fun x => match x.2 with | .meth off ctr => off == ctr && decide (ctr + 1 < intMax) | .dtor => true) | _ => true) = true := by decide +kernel
  intro op hop
  have := List.all_eq_true.1 this op hop
  cases op with
  | call m off args => trivial
  | api a =>
    intro x hx
    have := List.all_eq_true.1 this x hx
    obtain ⟨m, sl⟩ := x
    cases sl with
    | meth off ctr => simp at this; exact ⟨this.1.symm, this.2⟩
    | dtor => trivial

theorem all_write : ∀ op ∈ before ++ second.op :: behind, op.Within Api.Writes fun _ _ => True := by
  have : (before ++ second.op :: behind).all (fun op => match op with | .api a => tidyApi a | _ => true) = true := by decide +kernel
  intro op hop
  have := List.all_eq_true.1 this op hop
  cases op with
  | call m off args => trivial
  | api a => exact (tidyApi_script this).2

theorem without_run : ∃ s, aRun quiet (AState.start heap0) (before ++ behind) = some (results, s) := ⟨_, rfl⟩

-- the hypotheses of `C99_unused_stubbing_changes_nothing` hold for it
example : ∃ (w' : World Nat Nat), runOps quiet 3 (World.start heap0) (before ++ second.op :: renamed) = .done (results', w') := by
  obtain ⟨s, hs⟩ := without_run
  obtain ⟨a, o1, o2, s', w, w', h1, h2, ha, -, h3, -⟩ := C99_unused_stubbing_changes_nothing (nm := Demo.nm) (pre := before) (post := behind) (x := second) quiet_plain behind_unused rfl all_named all_write (by constructor <;> decide +kernel) hs 0
  obtain ⟨p, q, rfl⟩ := MovingDemo.two h2
  simp only [results, List.cons_append, List.nil_append, List.cons.injEq] at h1
  obtain ⟨rfl, rfl, rfl⟩ := h1
  cases ha
  exact ⟨w', h3⟩

/-- What a call of the method does without and with the statement. -/
theorem used : (∃ w, runOps quiet 3 (World.start heap0) [.api (.newMock 0), .call 0 0 [.val 7]] = .done ([.api (.mockId 0), .call .unexpected], w)) ∧
    ∃ w, runOps quiet 3 (World.start heap0) [.api (.newMock 0), old.op, .call 0 0 [.val 7]] = .done ([.api (.mockId 0), .api (.matcher 0), .call (.ret 5)], w) := ⟨⟨_, rfl⟩, _, rfl⟩

end UnusedDemo

/-- **C99**, the hypothesis is needed: a statement changes what a later call of its method does. -/
theorem C99_used_stubbing_matters : ∃ (P : Prog Nat Nat) (heap : Addr → Nat) (pre : List (Op Nat Nat)) (x : Stmt Nat Nat) (args : List (Arg Nat)) (o1 : List (OpOut Nat Nat)) (a b b' : OpOut Nat Nat) (w w' : World Nat Nat), P.Plain ∧
    runOps P 3 (World.start heap) (pre ++ [.call x.m x.off args]) = .done (o1 ++ [b], w) ∧ runOps P 3 (World.start heap) (pre ++ [x.op, .call x.m x.off args]) = .done (o1 ++ [a, b'], w') ∧ b ≠ b' := by
  obtain ⟨⟨w, h⟩, w', h'⟩ := UnusedDemo.used
  exact ⟨Demo.quiet, Demo.heap0, [.api (.newMock 0)], ReorderDemo.old, [.val 7], [.api (.mockId 0)], .api (.matcher 0), .call .unexpected, .call (.ret 5), w, w', Demo.quiet_plain, h, h', by simp⟩

end FakeIt
