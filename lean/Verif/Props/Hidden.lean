import Verif.Props.Unused
/-!
# C100: a stubbing that accepts all arguments makes the older stubbings of its method irrelevant
-/
namespace FakeIt
open FakeIt.Spec FakeIt.Spec.Reorder FakeIt.Spec.Unused

variable {V E : Type} {P : Prog V E} {nm : MockId → Nat → Nat}

/-- **C100**. A stubbing `c` that accepts all arguments, whatever its script is, makes the older stubbings of its method irrelevant: a stubbing `x` of the same method may be made before it or left out (if the method is not called in between). Every other step of the
test has the same outcome, and the test ends with the same recorded calls, reports, variables and data members, up to the addresses of the stubbings made after `x`. -/
theorem C100_older_stubbings_are_hidden (hP : P.Plain) {heap : Addr → V} {pre mid post : List (Op V E)} {x c : Stmt V E} (hm : c.m = x.m) (hoff : c.off = x.off) (hc : c.what.kind = .any) (hi : ∀ op ∈ mid, Idle x op)
    (hx : (aRun P (AState.start heap) (pre ++ [x.op])).isSome) (hn : ∀ op ∈ pre ++ x.op :: (mid ++ c.op :: post), op.Within (Api.Named nm) fun _ _ => True) (hwr : ∀ op ∈ pre ++ x.op :: (mid ++ c.op :: post), op.Within Api.Writes fun _ _ => True)
    (hsm : Small (pre ++ x.op :: (mid ++ c.op :: post))) {outs : List (OpOut V E)} {s : AState V E} (hs : aRun P (AState.start heap) (pre ++ (mid ++ c.op :: post)) = some (outs, s)) (fuel : Nat) :
    ∃ (a : Nat) (o1 o2 : List (OpOut V E)) (s' : AState V E) (w w' : World V E), outs = o1 ++ o2 ∧ o1.length = pre.length ∧ (aRun P (AState.start heap) (pre ++ [x.op])).map Prod.fst = some (o1 ++ [.api (.matcher a)]) ∧
      runOps P (fuel + 3) (World.start heap) (pre ++ (mid ++ c.op :: post)) = .done (o1 ++ o2, w) ∧
      runOps P (fuel + 3) (World.start heap) ((pre ++ x.op :: (mid ++ c.op :: post)).map (renOp (shift a))) = .done (o1 ++ .api (.matcher a) :: o2.map (renOut 1), w') ∧
      aRun P (AState.start heap) ((pre ++ x.op :: (mid ++ c.op :: post)).map (renOp (shift a))) = some (o1 ++ .api (.matcher a) :: o2.map (renOut 1), s') ∧
      (∀ m off, (history w' m off).map (recOf s'.named) = (history w m off).map fun i => renRec (shift a) (recOf s.named i)) ∧
      w'.log.map (reportOf s'.named) = w.log.map (fun e => renReport (shift a) (reportOf s.named e)) ∧ w'.heap = w.heap ∧
      w'.mocks.map (fun k => (k.cls, k.alive, k.data)) = w.mocks.map (fun k => (k.cls, k.alive, k.data)) := by
  have hu : ∀ l : List (Op V E), (∀ op ∈ l, Idle x op) → Unused x (l ++ c.op :: post) := by
    intro l
    induction l with
    | nil => exact fun _ => .inr (.inl ⟨c, rfl, hm, hoff, hc⟩)
    | cons op l ih => exact fun h => .inr (.inr ⟨h op (by simp), ih fun q hq => h q (by simp [hq])⟩)
  exact C99_unused_stubbing_changes_nothing hP (hu mid hi) hx hn hwr hsm hs fuel

/-! ## A concrete case -/
namespace HiddenDemo
open FakeIt.Demo FakeIt.ReorderDemo

/-- A stubbing that accepts all arguments, and answers only one call. -/
def cover : Stmt Nat Nat := ⟨0, 0, 0, .when_ .any [.rep 1 (.ret 6)]⟩
/-- Before the statements. -/
def before : List (Op Nat Nat) := [.api (.newMock 0)]
/-- Between the statements. -/
def between : List (Op Nat Nat) := [.api (.touch 0 (.meth 1 1))]
/-- After the statements: two calls, of which the second finds the script at its end, and a verification. -/
def behind : List (Op Nat Nat) := [.call 0 0 [.val 7], .call 0 0 [.val 8], .api (.verifyNoOther [.mock 0] .asBool)]
/-- The outcomes without the older stubbing. -/
def results : List (OpOut Nat Nat) := [.api (.mockId 0), .api .unit, .api (.matcher 0), .call (.ret 6), .call .unexpected, .api (.verdict false)]
/-- The outcomes with it. -/
def results' : List (OpOut Nat Nat) := [.api (.mockId 0), .api (.matcher 0), .api .unit, .api (.matcher 2), .call (.ret 6), .call .unexpected, .api (.verdict false)]

theorem all_named : ∀ op ∈ before ++ old.op :: (between ++ cover.op :: behind), op.Within (Api.Named Demo.nm) fun _ _ => True := by
  have : (before ++ old.op :: (between ++ cover.op :: behind)).all (fun op => match op with | .api a => a.slots.all (fun x => match x.2 with | .meth off ctr => off == ctr && decide (ctr + 1 < intMax) | .dtor => true) | _ => true) = true := by decide +kernel
  intro op hop
  have := List.all_eq_true.1 this op hop
  cases op with
  | call m off args => trivial
  | api a =>
    intro x hx
    have := List.all_eq_true.1 this x hx
    obtain ⟨m, sl⟩ := x
    cases sl with
    | meth off ctr => simp at this; exact ⟨this.1.symm, this.2⟩
    | dtor => trivial

theorem all_write : ∀ op ∈ before ++ old.op :: (between ++ cover.op :: behind), op.Within Api.Writes fun _ _ => True := by
  have : (before ++ old.op :: (between ++ cover.op :: behind)).all (fun op => match op with | .api a => tidyApi a | _ => true) = true := by decide +kernel
  intro op hop
  have := List.all_eq_true.1 this op hop
  cases op with
  | call m off args => trivial
  | api a => exact (tidyApi_script this).2

theorem without_run : ∃ s, aRun quiet (AState.start heap0) (before ++ (between ++ cover.op :: behind)) = some (results, s) := ⟨_, rfl⟩

-- the hypotheses of `C100_older_stubbings_are_hidden` hold for it: the older stubbing would answer every call with 5, but is never asked
example : ∃ (w' : World Nat Nat), runOps quiet 3 (World.start heap0) (before ++ old.op :: (between ++ cover.op :: behind)) = .done (results', w') := by
  obtain ⟨s, hs⟩ := without_run
  obtain ⟨a, o1, o2, s', w, w', h1, h2, ha, -, h3, -⟩ := C100_older_stubbings_are_hidden (nm := Demo.nm) (pre := before) (mid := between) (post := behind) (x := old) (c := cover) quiet_plain rfl rfl rfl
    (fun op h => by simp only [between, List.mem_cons, List.not_mem_nil, or_false] at h; subst h; trivial) rfl all_named all_write (by constructor <;> decide +kernel) hs 0
  obtain ⟨p, rfl⟩ : ∃ p, o1 = [p] := by
    match o1, h2 with
    | [p], _ => exact ⟨p, rfl⟩
  simp only [results, List.cons_append, List.nil_append, List.cons.injEq] at h1
  obtain ⟨rfl, rfl⟩ := h1
  cases ha
  exact ⟨w', h3⟩

/-- What a call does when the newer stubbing does not accept its arguments. -/
theorem narrow : (∃ w, runOps quiet 3 (World.start heap0) [.api (.newMock 0), first.op, .call 0 0 [.val 8]] = .done ([.api (.mockId 0), .api (.matcher 0), .call .unexpected], w)) ∧
    ∃ w, runOps quiet 3 (World.start heap0) [.api (.newMock 0), old.op, first.op, .call 0 0 [.val 8]] = .done ([.api (.mockId 0), .api (.matcher 0), .api (.matcher 2), .call (.ret 5)], w) := ⟨⟨_, rfl⟩, _, rfl⟩

end HiddenDemo

/-- **C100**, the hypothesis is needed: a stubbing that does not accept all arguments leaves the other calls to the older ones. -/
theorem C100_narrower_stubbings_do_not_hide : ∃ (P : Prog Nat Nat) (heap : Addr → Nat) (pre : List (Op Nat Nat)) (x c : Stmt Nat Nat) (args : List (Arg Nat)) (o1 : List (OpOut Nat Nat)) (a b : OpOut Nat Nat) (r r' : OpOut Nat Nat) (w w' : World Nat Nat), P.Plain ∧
    c.m = x.m ∧ c.off = x.off ∧ runOps P 3 (World.start heap) (pre ++ [c.op, .call x.m x.off args]) = .done (o1 ++ [a, r], w) ∧ runOps P 3 (World.start heap) (pre ++ [x.op, c.op, .call x.m x.off args]) = .done (o1 ++ [a, b, r'], w') ∧ r ≠ r' := by
  obtain ⟨⟨w, h⟩, w', h'⟩ := HiddenDemo.narrow
  exact ⟨Demo.quiet, Demo.heap0, [.api (.newMock 0)], ReorderDemo.old, ReorderDemo.first, [.val 8], [.api (.mockId 0)], .api (.matcher 0), .api (.matcher 2), .call .unexpected, .call (.ret 5), w, w', Demo.quiet_plain, rfl, rfl, h, h', by simp⟩

end FakeIt
