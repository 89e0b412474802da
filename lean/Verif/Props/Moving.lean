import Verif.Lemmas.Moving
import Verif.Props.Reorder
/-!
# C98: a stubbing statement may be moved across steps that do not concern its method
-/
namespace FakeIt
open FakeIt.Spec FakeIt.Spec.Reorder FakeIt.Spec.Moving

variable {V E : Type} {P : Prog V E} {nm : MockId → Nat → Nat}

/-- Two tests in the library end with the same recorded calls, reports, variables and data members (the methods have been mentioned in an order of their own in each of them). -/
def SameEnd (N N' : List (MockId × Nat)) (w w' : World V E) : Prop :=
  (∀ m off, (history w' m off).map (recOf N') = (history w m off).map (recOf N)) ∧ w'.log.map (reportOf N') = w.log.map (reportOf N) ∧ w'.heap = w.heap ∧
    w'.mocks.map (fun k => (k.cls, k.alive, k.data)) = w.mocks.map (fun k => (k.cls, k.alive, k.data))

/-- From the abstract mock to the library. -/
theorem same_end (hP : P.Plain) {heap : Addr → V} {ops ops' : List (Op V E)} (hp : ops.Perm ops') (hn : ∀ op ∈ ops, op.Within (Api.Named nm) fun _ _ => True) (hwr : ∀ op ∈ ops, op.Within Api.Writes fun _ _ => True) (hsm : Small ops)
    {outs outs' : List (OpOut V E)} {s : AState V E} {N : List (MockId × Nat)} (hs : aRun P (AState.start heap) ops = some (outs, s)) (hs' : aRun P (AState.start heap) ops' = some (outs', ren id 0 N s)) (fuel : Nat) :
    ∃ (w w' : World V E), runOps P (fuel + 3) (World.start heap) ops = .done (outs, w) ∧ runOps P (fuel + 3) (World.start heap) ops' = .done (outs', w') ∧ SameEnd s.named N w w' := by
  have hsm' : Small ops' := ⟨by rw [← hp.length_eq]; exact hsm.1, by rw [← (hp.map Op.mentions).sum_nat]; exact hsm.2⟩
  obtain ⟨w, w1, w2⟩ := C56_library_refines_abstract_mock (plain_named hP) hn hwr hsm hs fuel
  obtain ⟨w', w3, w4⟩ := C56_library_refines_abstract_mock (plain_named hP) (fun op h => hn op (hp.mem_iff.2 h)) (fun op h => hwr op (hp.mem_iff.2 h)) hsm' hs' fuel
  rw [ren_id] at w4
  exact ⟨w, w', w1, w3, fun m off => (w4.calls m off).trans (w2.calls m off).symm, w4.log.trans w2.log.symm, w4.heap.trans w2.heap.symm, w4.mocks.trans w2.mocks.symm⟩

/-- **C98**. A stubbing statement may be made later, after steps that do not concern its method: every step of the test has the same outcome as before, and the test ends with the same recorded calls, reports, variables and data members. -/
theorem C98_stubbing_can_be_made_later (hP : P.Plain) {heap : Addr → V} {pre mid post : List (Op V E)} {x : Stmt V E} (hu : ∀ op ∈ mid, Unconcerned x op) (hn : ∀ op ∈ pre ++ x.op :: (mid ++ post), op.Within (Api.Named nm) fun _ _ => True)
    (hwr : ∀ op ∈ pre ++ x.op :: (mid ++ post), op.Within Api.Writes fun _ _ => True) (hsm : Small (pre ++ x.op :: (mid ++ post))) {outs : List (OpOut V E)} {s : AState V E}
    (hs : aRun P (AState.start heap) (pre ++ x.op :: (mid ++ post)) = some (outs, s)) (fuel : Nat) :
    ∃ (o1 om o2 : List (OpOut V E)) (a : OpOut V E) (s' : AState V E) (w w' : World V E), outs = o1 ++ a :: (om ++ o2) ∧ o1.length = pre.length ∧ om.length = mid.length ∧
      runOps P (fuel + 3) (World.start heap) (pre ++ x.op :: (mid ++ post)) = .done (o1 ++ a :: (om ++ o2), w) ∧
      runOps P (fuel + 3) (World.start heap) (pre ++ (mid ++ x.op :: post)) = .done (o1 ++ (om ++ a :: o2), w') ∧
      aRun P (AState.start heap) (pre ++ (mid ++ x.op :: post)) = some (o1 ++ (om ++ a :: o2), s') ∧ SameEnd s.named s'.named w w' := by
  obtain ⟨o1, a, om, o2, N, rfl, hl, hl', hr⟩ := run_moved hu hs
  obtain ⟨w, w', h1, h2, h3⟩ := same_end hP (List.perm_middle.symm.append_left _) hn hwr hsm hs hr fuel
  exact ⟨o1, om, o2, a, _, w, w', rfl, hl, hl', h1, h2, hr, h3⟩

/-- **C98**. It may also be made earlier, if it can be made there at all (the mock exists). -/
theorem C98_stubbing_can_be_made_earlier (hP : P.Plain) {heap : Addr → V} {pre mid post : List (Op V E)} {x : Stmt V E} (hu : ∀ op ∈ mid, Unconcerned x op) (hx : (aRun P (AState.start heap) (pre ++ [x.op])).isSome)
    (hn : ∀ op ∈ pre ++ (mid ++ x.op :: post), op.Within (Api.Named nm) fun _ _ => True)
    (hwr : ∀ op ∈ pre ++ (mid ++ x.op :: post), op.Within Api.Writes fun _ _ => True) (hsm : Small (pre ++ (mid ++ x.op :: post))) {outs : List (OpOut V E)} {s : AState V E}
    (hs : aRun P (AState.start heap) (pre ++ (mid ++ x.op :: post)) = some (outs, s)) (fuel : Nat) :
    ∃ (o1 om o2 : List (OpOut V E)) (a : OpOut V E) (s' : AState V E) (w w' : World V E), outs = o1 ++ (om ++ a :: o2) ∧ o1.length = pre.length ∧ om.length = mid.length ∧
      runOps P (fuel + 3) (World.start heap) (pre ++ (mid ++ x.op :: post)) = .done (o1 ++ (om ++ a :: o2), w) ∧
      runOps P (fuel + 3) (World.start heap) (pre ++ x.op :: (mid ++ post)) = .done (o1 ++ a :: (om ++ o2), w') ∧
      aRun P (AState.start heap) (pre ++ x.op :: (mid ++ post)) = some (o1 ++ a :: (om ++ o2), s') ∧ SameEnd s.named s'.named w w' := by
  obtain ⟨o1, a, om, o2, N, rfl, hl, hl', hr⟩ := run_moved_back hu hx hs
  obtain ⟨w, w', h1, h2, h3⟩ := same_end hP (List.perm_middle.append_left _) hn hwr hsm hs hr fuel
  exact ⟨o1, om, o2, a, _, w, w', rfl, hl, hl', h1, h2, hr, h3⟩

/-! ## A concrete case -/
namespace MovingDemo
open FakeIt.Demo FakeIt.ReorderDemo

/-- A test that stubs one method and then calls and verifies another one: the statement `second`, a call of the method of `first`, a verification. -/
def early : List (Op Nat Nat) := [.api (.newMock 0), first.op, second.op, .call 0 0 [.val 7], .api (.verifyNoOther [.mock 0] (.stmt false)), .call 0 1 [.val 3]]
/-- The same with the statement after the call and the verification. -/
def late : List (Op Nat Nat) := [.api (.newMock 0), first.op, .call 0 0 [.val 7], .api (.verifyNoOther [.mock 0] (.stmt false)), second.op, .call 0 1 [.val 3]]
/-- The steps across which it is moved. -/
def between : List (Op Nat Nat) := [.call 0 0 [.val 7], .api (.verifyNoOther [.mock 0] (.stmt false))]
/-- The outcomes of the first test. -/
def earlyOuts : List (OpOut Nat Nat) := [.api (.mockId 0), .api (.matcher 0), .api (.matcher 2), .call (.ret 5), .api (.verdict false), .call (.ret 6)]
/-- The outcomes of the second test. -/
def lateOuts : List (OpOut Nat Nat) := [.api (.mockId 0), .api (.matcher 0), .call (.ret 5), .api (.verdict false), .api (.matcher 2), .call (.ret 6)]

theorem between_unconcerned : ∀ op ∈ between, Unconcerned second op := by
  intro op h
  simp only [between, List.mem_cons, List.not_mem_nil, or_false] at h
  rcases h with rfl | rfl
  · intro _; decide
  · trivial

/-- Both consist of these steps. -/
theorem steps {op : Op Nat Nat} (h : op ∈ early ∨ op ∈ late) : op = .api (.newMock 0) ∨ op = first.op ∨ op = second.op ∨ op = .call 0 0 [.val 7] ∨ op = .call 0 1 [.val 3] ∨ op = .api (.verifyNoOther [.mock 0] (.stmt false)) := by
  simp only [early, late, List.mem_cons, List.not_mem_nil, or_false] at h
  grind

theorem steps_named (op : Op Nat Nat) (h : op ∈ early ∨ op ∈ late) : op.Within (Api.Named Demo.nm) fun _ _ => True := by
  rcases steps h with rfl | rfl | rfl | rfl | rfl | rfl
  · intro z hz; cases hz
  · exact test_named _ (by simp [test])
  · exact test_named _ (by simp [test])
  · trivial
  · trivial
  · intro z hz; cases hz

theorem steps_write (op : Op Nat Nat) (h : op ∈ early ∨ op ∈ late) : op.Within Api.Writes fun _ _ => True := by
  rcases steps h with rfl | rfl | rfl | rfl | rfl | rfl <;> trivial

theorem early_run : ∃ s, aRun quiet (AState.start heap0) early = some (earlyOuts, s) := ⟨_, rfl⟩
theorem late_run : ∃ s, aRun quiet (AState.start heap0) late = some (lateOuts, s) := ⟨_, rfl⟩

/-- A list of two elements. -/
theorem two {T : Type} {l : List T} (h : l.length = 2) : ∃ p q, l = [p, q] := by
  match l, h with
  | [p, q], _ => exact ⟨p, q, rfl⟩

-- the hypotheses of `C98_stubbing_can_be_made_later` hold for the first test
example : ∃ w' : World Nat Nat, runOps quiet 3 (World.start heap0) late = .done (lateOuts, w') := by
  obtain ⟨s, hs⟩ := early_run
  obtain ⟨o1, om, o2, a, s', w, w', h1, h2, h3, -, h4, -⟩ := C98_stubbing_can_be_made_later (nm := Demo.nm) (pre := [.api (.newMock 0), first.op]) (x := second) (mid := between) (post := [.call 0 1 [.val 3]])
    quiet_plain between_unconcerned (fun op h => steps_named op (.inl h)) (fun op h => steps_write op (.inl h)) (by constructor <;> decide +kernel) hs 0
  obtain ⟨p, q, rfl⟩ := two h2
  obtain ⟨p', q', rfl⟩ := two h3
  simp only [earlyOuts, List.cons_append, List.nil_append, List.cons.injEq] at h1
  obtain ⟨rfl, rfl, rfl, rfl, rfl, rfl⟩ := h1
  exact ⟨w', h4⟩

-- the hypotheses of `C98_stubbing_can_be_made_earlier` hold for the second test
example : ∃ w' : World Nat Nat, runOps quiet 3 (World.start heap0) early = .done (earlyOuts, w') := by
  obtain ⟨s, hs⟩ := late_run
  obtain ⟨o1, om, o2, a, s', w, w', h1, h2, h3, -, h4, -⟩ := C98_stubbing_can_be_made_earlier (nm := Demo.nm) (pre := [.api (.newMock 0), first.op]) (x := second) (mid := between) (post := [.call 0 1 [.val 3]])
    quiet_plain between_unconcerned rfl (fun op h => steps_named op (.inr h)) (fun op h => steps_write op (.inr h)) (by constructor <;> decide +kernel) hs 0
  obtain ⟨p, q, rfl⟩ := two h2
  obtain ⟨p', q', rfl⟩ := two h3
  simp only [lateOuts, List.cons_append, List.nil_append, List.cons.injEq] at h1
  obtain ⟨rfl, rfl, rfl, rfl, rfl, rfl⟩ := h1
  exact ⟨w', h4⟩

/-- What a call of the method itself does before and after the statement. -/
theorem own_call : (∃ w, runOps quiet 3 (World.start heap0) [.api (.newMock 0), old.op, .call 0 0 [.val 7]] = .done ([.api (.mockId 0), .api (.matcher 0), .call (.ret 5)], w)) ∧
    ∃ w, runOps quiet 3 (World.start heap0) [.api (.newMock 0), .call 0 0 [.val 7], old.op] = .done ([.api (.mockId 0), .call .unexpected, .api (.matcher 0)], w) := ⟨⟨_, rfl⟩, _, rfl⟩

end MovingDemo

/-- **C98**, the hypothesis is needed: a statement cannot be moved across a call of its method. -/
theorem C98_stubbing_cannot_be_moved_across_own_calls : ∃ (P : Prog Nat Nat) (heap : Addr → Nat) (pre : List (Op Nat Nat)) (x : Stmt Nat Nat) (args : List (Arg Nat)) (o1 : List (OpOut Nat Nat)) (a b b' : OpOut Nat Nat) (w w' : World Nat Nat), P.Plain ∧
    runOps P 3 (World.start heap) (pre ++ [x.op, .call x.m x.off args]) = .done (o1 ++ [a, b], w) ∧ runOps P 3 (World.start heap) (pre ++ [.call x.m x.off args, x.op]) = .done (o1 ++ [b', a], w') ∧ b ≠ b' := by
  obtain ⟨⟨w, h⟩, w', h'⟩ := MovingDemo.own_call
  exact ⟨Demo.quiet, Demo.heap0, [.api (.newMock 0)], ReorderDemo.old, [.val 7], [.api (.mockId 0)], .api (.matcher 0), .call (.ret 5), .call .unexpected, w, w', Demo.quiet_plain, h, h', by simp⟩

end FakeIt
