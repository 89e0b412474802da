import Verif.Lemmas.TwinRun
import Verif.Lemmas.Mono
import Verif.Lemmas.Dtor
import Verif.Lemmas.Answer
import Verif.Props.Dispatch
/-!
# C32, C33, C34, C37: Reset, ClearInvocationHistory, destruction
-/
namespace FakeIt
variable {V E : Type} {P : Prog V E} {nm : MockId → Nat → Nat}
open Spec

/-! ## C32 -/

/-- The mock as it would be if it had just been constructed: on a new fake object, or (a spy) on the same real object. (`gone` is not part of the mock: the destroyed stubbings' actions,
for calls that are still performing them.) -/
def Spec.renewed (P : Prog V E) (k : Mock V E) : Mock V E :=
  { (if k.owner then Mock.mk' k.cls (P.cls k.cls) true else { Mock.mk' k.cls (P.cls k.cls) false with data := k.data }) with gone := k.buried }

/-- What can be observed of a world: reported events, variables, stubbings and recorded calls of all methods, data members of all instances. -/
structure Spec.View (V E : Type) where
  log : List (Event V)
  heap : Addr → V
  stubs : MockId → Nat → List (Handler V E)
  calls : MockId → Nat → List (Invocation V)
  data : List (List Int)

def Spec.view (w : World V E) : View V E := { log := w.log, heap := w.heap, stubs := stubbings w, calls := history w, data := w.mocks.map (·.data) }

/-- The answers a test program gets and the observable final state; undefined behaviour and running out of fuel are results of their own. -/
def Spec.observe {α : Type} : R (α × World V E) → R (α × View V E)
  | .done (outs, w) => .done (outs, view w)
  | .ub => .ub
  | .oof => .oof

theorem Twin.view {m : MockId} {w v : World V E} (h : Twin m w v) : Spec.view v = Spec.view w := by
  have h1 : stubbings v = stubbings w := by funext m off; simp only [stubbings, h.body]
  have h2 : history v = history w := by funext m off; simp only [history, h.body]
  have h3 : v.mocks.map (·.data) = w.mocks.map (·.data) := by
    apply List.ext_getElem?
    intro n
    simp only [List.getElem?_map]
    rcases h.mock n with ⟨h1, h2⟩ | ⟨k, os, h1, h2⟩ <;> simp [h1, h2]
  simp only [Spec.view, h.log, h.heap, h1, h2, h3]

theorem observe_twin {α : Type} {m : MockId} {x y : R (α × World V E)} (h : RRel (fun a b => a.1 = b.1 ∧ Twin m a.2 b.2) x y) : observe x = observe y := by
  cases x <;> cases y <;> first | rfl | exact h.elim | skip
  rename_i a b
  obtain ⟨o, w⟩ := a
  obtain ⟨o', v⟩ := b
  obtain ⟨rfl, h'⟩ := h
  simp only [observe, Twin.view h']

theorem haddrs_eq {w v : World V E} {m off : Nat} (h : v.body? m off = w.body? m off) : haddrs v m off = haddrs w m off := by
  have : ∀ w : World V E, haddrs w m off = match w.body? m off with | none => [] | some b => b.handlers.map fun h => (h.addr, h.matcher.addr) := by
    intro w
    unfold haddrs World.body? kaddrs
    cases w.mocks[m]? <;> rfl
  rw [this, this, h]

theorem Twin.inv2 {m : MockId} {w v : World V E} (h : Twin m w v) (hI : Inv2 P nm w) (ht : ∀ k, v.mocks[m]? = some k → TableOk P (nm m) k) : Inv2 P nm v := by
  have hb := h.body
  have ha := fun m off => haddrs_eq (hb m off)
  refine ⟨⟨fun m' k hk => ?_, ⟨?_, ?_, ?_⟩⟩, ⟨?_, ?_, ?_, ?_, ?_⟩⟩
  · rcases h.mocks m' with he | ⟨rfl, -⟩
    · rw [he] at hk; exact hI.1.1 m' k hk
    · exact ht k hk
  · intro m off; rw [ha, h.alloc]; exact hI.1.2.lt m off
  · intro m off; rw [ha]; exact hI.1.2.nodup m off
  · intro m off m' off'; rw [ha, ha]; exact hI.1.2.cross m off m' off'
  · intro m off b; rw [hb, h.invTotal, h.alloc]; exact hI.2.ok m off b
  · intro m off b; rw [hb]; exact hI.2.sorted m off b
  · intro m off b m' off' b'; rw [hb, hb]; exact hI.2.cross m off b m' off' b'
  · intro hm m off b; rw [h.methTotal] at hm ⊢; rw [hb]; exact hI.2.meth hm m off b
  · intro hm m off b m' off' b'; rw [h.methTotal] at hm; rw [hb, hb]; exact hI.2.mcross hm m off b m' off' b'


theorem renewed_eq {nm : Nat → Nat} {k : Mock V E} (t : TableOk P nm k) (ha : k.alive = true) (hd : k.data.length = (P.cls k.cls).dataSize) :
    renewed P k = { k.reset with offsets := List.replicate (P.cls k.cls).size intMax } := by
  have hl := t.orig_length
  have ho := t.orig_eq
  obtain ⟨cls, owner, alive, orig, vt, mocks, offsets, data, members, gone⟩ := k
  dsimp only at ha hd hl ho
  subst ha
  cases owner with
  | true =>
    simp only [if_true] at ho
    simp [renewed, Mock.mk', Mock.reset, Mock.initData, Mock.proxyReset, hl, ← ho, ← hd, List.map_const']
  | false =>
    simp only [Bool.false_eq_true, if_false] at ho
    simp [renewed, Mock.mk', Mock.reset, Mock.initData, Mock.proxyReset, hl, ← ho]

/-- Operations and callables that do not name the destructor of mock `m` (of class `c`), unless it is the first virtual function. -/
def Spec.Undestroyed (nm : MockId → Nat → Nat) (c : ClassDecl V) (m : MockId) (a : Api V E) : Prop := a.Named nm ∧ NoDtor c m a

/-- C32 (except for the destructor, see C33). After `Reset` of a mock, every later program gets the same answers and ends in the same observable
state as if the mock had been replaced by a newly constructed one, with everything else in the world as it is. The program and the callables may do
anything, except name `Dtor(mock)` of this mock, which is only allowed when the destructor is the first virtual function. Missing for the full claim:
the destructor in other positions, for which the claim is false (`C33_destructor_stubbing_is_lost_after_reset`). -/
theorem C32_reset_mock_behaves_as_new_partial {m : MockId} {w w1 : World V E} {k : Mock V E} {out : ApiOut} (hw : Reach P nm w) (hk : w.mock? m = some k)
    (hP : P.Within (Undestroyed nm (P.cls k.cls) m) (fun _ _ => True)) {ops : List (Op V E)}
    (hops : ∀ op ∈ ops, op.Within (Undestroyed nm (P.cls k.cls) m) (fun _ _ => True)) (hreset : apiStep P w (.reset m) = .done (w1, out)) (fuel : Nat) :
    observe (runOps P fuel w1 ops) = observe (runOps P fuel (w.updMock m (renewed P)) ops) := by
  have hn : P.Named nm := fun f vs => (hP f vs).mono (fun a h => h.1) (fun _ _ _ => trivial)
  obtain ⟨hk1, hka⟩ := World.mock?_eq_some.1 hk
  have hwf := hw.wf hn
  have t := hwf.steady.1.1 m k hk1
  have hr1 : Reach P nm w1 := .step (fuel := 0) (op := .api (.reset m)) (out := .api out) hw (by simp [Op.Within, Api.Named, Api.slots])
    (by simp only [opStep, hreset]; rfl)
  have hi1 := (hr1.wf hn).inv2
  simp only [apiStep, hk, R.done.injEq, Prod.mk.injEq] at hreset
  obtain ⟨rfl, -⟩ := hreset
  have hT : Twin m (w.updMock m Mock.reset) (w.updMock m (renewed P)) := by
    refine ⟨List.replicate (P.cls k.cls).size intMax, ?_⟩
    have : w.mocks.modify m (renewed P) = (w.mocks.modify m Mock.reset).modify m (fun k' => { k' with offsets := List.replicate (P.cls k.cls).size intMax }) := by
      apply List.ext_getElem?
      intro n
      simp only [List.getElem?_modify]
      by_cases hmn : m = n
      · subst hmn
        simp only [hk1, if_true, Option.map_eq_map, Option.map_some, renewed_eq t hka (hw.dataOk m k hk1)]
      · cases w.mocks[n]? <;> simp [hmn]
    simp only [World.setOff, World.updMock, this]
  have hm1 : (w.updMock m Mock.reset).mocks[m]? = some k.reset := by rw [World.mocks_updMock]; simp [hk1]
  have hm2 : (w.updMock m (renewed P)).mocks[m]? = some (renewed P k) := by rw [World.mocks_updMock]; simp [hk1]
  have hrc : k.reset.cls = k.cls ∧ k.reset.vt = k.orig := by unfold Mock.reset Mock.initData; split <;> exact ⟨rfl, rfl⟩
  have hf1 : Free0 (P.cls k.cls) P m (w.updMock m Mock.reset) := by
    intro k' off hk'
    rw [hm1] at hk'; cases hk'
    refine ⟨by rw [hrc.1], fun hv => ?_⟩
    rw [hrc.2] at hv
    exact absurd rfl ((t.orig_entry off _ hv).1 0)
  have hi2 : Inv2 P nm (w.updMock m (renewed P)) := by
    refine hT.inv2 hi1 fun k' hk' => ?_
    rw [hm2] at hk'; cases hk'
    unfold renewed
    split
    · exact (tableOk_mk' k.cls true).congr rfl rfl rfl rfl rfl rfl rfl
    · exact (tableOk_mk' k.cls false).congr rfl rfl rfl rfl rfl rfl rfl
  exact observe_twin (runOps_twin hP fuel ops hops ⟨hi1, lt_of_getElem?_some hm1, hf1⟩ ⟨hi2, lt_of_getElem?_some hm2, hT.free0 hf1⟩ hT)

/-- C32: what `Reset` itself does. No stubbing and no recorded call of the mock remains; the data members of a fake object are zero, those of a spied
object as they were; other mocks, reported events and variables are not touched. -/
theorem C32_reset_forgets {m : MockId} {w w1 : World V E} {k : Mock V E} {out : ApiOut} (hk : w.mock? m = some k)
    (hreset : apiStep P w (.reset m) = .done (w1, out)) :
    (∀ off, stubbings w1 m off = [] ∧ history w1 m off = []) ∧
    (∃ k1, w1.mock? m = some k1 ∧ k1.data = (if k.owner then k.data.map fun _ => 0 else k.data)) ∧
    (∀ m', m' ≠ m → w1.mocks[m']? = w.mocks[m']?) ∧ w1.log = w.log ∧ w1.heap = w.heap := by
  obtain ⟨hk1, hka⟩ := World.mock?_eq_some.1 hk
  simp only [apiStep, hk, R.done.injEq, Prod.mk.injEq] at hreset
  obtain ⟨rfl, -⟩ := hreset
  have hm1 : (w.updMock m Mock.reset).mocks[m]? = some k.reset := by rw [World.mocks_updMock]; simp [hk1]
  refine ⟨fun off => ?_, ⟨k.reset, World.mock?_eq_some.2 ⟨hm1, ?_⟩, ?_⟩, fun m' hm => ?_, rfl, rfl⟩
  · have : (w.updMock m Mock.reset).body? m off = none := by simp only [World.body?, hm1, Option.bind_some, Mock.body?_reset]
    simp only [stubbings, history, this, and_self]
  · unfold Mock.reset Mock.initData; split <;> exact hka
  · unfold Mock.reset Mock.initData
    by_cases ho : k.owner = true
    · simp [ho, Mock.proxyReset]
    · simp [ho, Mock.proxyReset]
  · rw [World.mocks_updMock, if_neg (Ne.symm hm)]

namespace Demo

/-- A program after `Reset` of mock 0: stub method 0 again, call it twice, call the other method, verify. -/
def afterReset : List (Op Nat Nat) := [.call 0 0 [.val 7], .api (.when_ (tgt 0 0 (eq 7)) [.rep 1 (.ret 8)] false), .call 0 0 [.val 7], .call 0 0 [.val 7],
  .call 0 1 [.val 1], .call 1 1 [.val 1], .api (.verify .involved [.leaf ⟨0, .meth 0 0, .any, none⟩] (.exactly 2) .asBool)]

theorem prog_undestroyed (m : MockId) : prog.Within (Undestroyed Demo.nm cls m) (fun _ _ => True) := by
  intro f vs
  match f with
  | 0 => trivial
  | 1 => exact ⟨trivial, fun _ => trivial⟩
  | 2 => trivial
  | 3 => trivial
  | _ + 4 => trivial

theorem afterReset_undestroyed : ∀ op ∈ afterReset, op.Within (Undestroyed Demo.nm cls 0) (fun _ _ => True) := by
  intro op h
  simp only [afterReset, List.mem_cons, List.not_mem_nil, or_false] at h
  rcases h with rfl | rfl | rfl | rfl | rfl | rfl | rfl <;>
    simp [Op.Within, Undestroyed, NoDtor, Api.Named, Api.slots, SlotRef.Named, tgt, Demo.nm, intMax, verifyLeaves, Seq.expected]

/-- The answers a program got. -/
def outs : R (List (OpOut Nat Nat) × World Nat Nat) → List (OpOut Nat Nat)
  | .done (outs, _) => outs
  | _ => []

/-- Mock 0 after `Reset` in `v` (where method 0 is stubbed and has been called). -/
def vReset : World Nat Nat := next v (.api (.reset 0))

end Demo

/-- Case: the mock is stubbed and was called twice before `Reset`; then a program with seven operations runs. -/
example : (∃ k, Demo.v.mock? 0 = some k ∧ Demo.prog.cls k.cls = Demo.cls) ∧ (history Demo.v 0 0).length = 2 ∧
    apiStep Demo.prog Demo.v (.reset 0) = .done (Demo.vReset, .unit) ∧
    observe (runOps Demo.prog 5 Demo.vReset Demo.afterReset) = observe (runOps Demo.prog 5 (Demo.v.updMock 0 (renewed Demo.prog)) Demo.afterReset) :=
  ⟨⟨_, rfl, rfl⟩, by decide, rfl, C32_reset_mock_behaves_as_new_partial (w := Demo.v) Demo.reach_v rfl (Demo.prog_undestroyed 0) Demo.afterReset_undestroyed (out := .unit) rfl 5⟩

example : Demo.outs (runOps Demo.prog 5 Demo.vReset Demo.afterReset) =
    [.call .unexpected, .api (.matcher 4), .call (.ret 8), .call .unexpected, .call .unexpected, .call (.ret 0), .api (.verdict true)] := by decide +kernel

/-! ## C33 -/

private theorem dtor_lost {m d : Nat} {w : World V E} {kf : Mock V E} (hmf : w.mocks[m]? = some kf) (ha : kf.alive = true) (hd : (P.cls kf.cls).dtor = some d)
    (hv : kf.vt[d]? = some (.proxy 0)) (hv' : kf.vt[d + 1]? = some .dtorThunk) (hg : Mock.getOffset kf.offsets 0 = 0) (hb : kf.body? 0 = none) (fuel : Nat) (args : List (Arg V)) :
    callSlot P (fuel + 1) w m d args = .ub ∧ callSlot P (fuel + 2) w m (d + 1) args = .ub := by
  have key : ∀ fuel args, callSlot P (fuel + 1) w m d args = .ub := by
    intro fuel args
    simp only [callSlot, hmf, ha, hv, runCode, hg, hb]
    rfl
  refine ⟨key fuel args, ?_⟩
  rw [callSlot]
  simp only [hmf, ha, hv', runCode, hd]
  exact key fuel []

/-- C33 is false for every class that has a virtual function before its destructor: after `Reset`, stub the destructor and destroy the instance
(through either of the destructor's entries). The id of the destructor is 0, and so are all entries of the array in which ids are looked up after
`Reset`; the first one, that of a method without a record, is taken: a null pointer is used. -/
theorem C33_destructor_stubbing_is_lost_after_reset {m d : Nat} {w w1 w2 : World V E} {k : Mock V E} {out1 out2 : ApiOut} {kind : MatcherKind V}
    {acts : List (Act V E)} (hP : P.Named nm) (hw : Reach P nm w) (hk : w.mock? m = some k) (hd : (P.cls k.cls).dtor = some d) (hpos : 0 < d)
    (hreset : apiStep P w (.reset m) = .done (w1, out1)) (hstub : apiStep P w1 (.when_ ⟨m, .dtor, kind⟩ acts false) = .done (w2, out2)) (fuel : Nat)
    (args : List (Arg V)) : callSlot P (fuel + 1) w2 m d args = .ub ∧ callSlot P (fuel + 2) w2 m (d + 1) args = .ub := by
  obtain ⟨hk1, hka⟩ := World.mock?_eq_some.1 hk
  have t := (hw.wf hP).steady.1.1 m k hk1
  simp only [apiStep, hk, R.done.injEq, Prod.mk.injEq] at hreset
  obtain ⟨rfl, -⟩ := hreset
  have hm1 : (w.updMock m Mock.reset).mocks[m]? = some k.reset := by rw [World.mocks_updMock]; simp [hk1]
  have hrs : k.reset.alive = true ∧ k.reset.cls = k.cls ∧ k.reset.vt = k.orig ∧ k.reset.mocks = List.replicate k.orig.length none ∧
      k.reset.offsets = List.replicate k.orig.length 0 := by
    unfold Mock.reset Mock.initData; split <;> exact ⟨hka, rfl, rfl, rfl, rfl⟩
  have hk1' : (w.updMock m Mock.reset).mock? m = some k.reset := World.mock?_eq_some.2 ⟨hm1, hrs.1⟩
  simp only [apiStep, stubOne, touch, hk1', hrs.2.1, hd, hrs.2.2.1, hrs.2.2.2.1] at hstub
  by_cases hlt : d + 1 < k.orig.length
  · have hld : d < k.orig.length := by omega
    simp only [hlt, if_true, List.getElem?_replicate, hld] at hstub
    simp only [R.bind_eq_done, R.done.injEq] at hstub
    obtain ⟨_, rfl, hstub⟩ := hstub
    simp only [Bool.false_eq_true, if_false, R.bind_eq_done] at hstub
    obtain ⟨w3, hc, hw3⟩ := hstub
    simp only [R.done.injEq, Prod.mk.injEq] at hw3
    obtain ⟨rfl, -⟩ := hw3
    unfold commit at hc
    split at hc
    · cases hc
    · split at hc
      · cases hc
      · rename_i off' _
        split at hc
        · cases hc
        · simp only [R.done.injEq] at hc
          obtain ⟨f, hmf⟩ : ∃ f, w3.mocks[m]? = some ((k.reset.bindDtor d (newBody (w.updMock m Mock.reset).methTotal)).updBody off' f) := by
            subst hc
            refine ⟨_, mocks_updBody (k := k.reset.bindDtor d (newBody (w.updMock m Mock.reset).methTotal)) ?_ off' _⟩
            show ((w.updMock m Mock.reset).updMock m _).mocks[m]? = _
            rw [World.mocks_updMock, hm1]; simp
          refine dtor_lost hmf hrs.1 (by rw [← hd, ← hrs.2.1]; rfl) ?_ ?_ ?_ ?_ fuel args
          · simp [Mock.updBody, Mock.bindDtor, hrs.2.2.1, hld]
          · simp [Mock.updBody, Mock.bindDtor, hrs.2.2.1, hlt]
          · refine getOffset_zero ?_ (by omega)
            simp only [Mock.updBody, Mock.bindDtor, hrs.2.2.2.2, List.getElem?_set, if_neg (Nat.ne_of_gt hpos), List.getElem?_replicate]
            rw [if_pos (by omega)]
          · simp only [Mock.body?, Mock.updBody, Mock.bindDtor, hrs.2.2.2.1, List.getElem?_modify, List.getElem?_set, if_neg (Nat.ne_of_gt hpos), List.getElem?_replicate]
            rw [if_pos (by omega)]
            simp only [Option.map_eq_map, Option.map_some]
            split <;> rfl
  · simp [hlt] at hstub

namespace Demo

/-- `Reset` of mock 0, then the destructor is stubbed. -/
def vDtor : World Nat Nat := next vReset (.api (.when_ ⟨0, .dtor, .any⟩ [.forever (.ret 0)] false))

end Demo

/-- Case: `Reset`, stub the destructor, `delete`. -/
example : callSlot Demo.prog 5 Demo.vDtor 0 2 [] = .ub ∧ callSlot Demo.prog 6 Demo.vDtor 0 3 [] = .ub :=
  C33_destructor_stubbing_is_lost_after_reset (w := Demo.v) (w1 := Demo.vReset) (out1 := .unit) (out2 := .matcher 4) (kind := .any) (acts := [.forever (.ret 0)]) Demo.prog_named
    Demo.reach_v rfl rfl (by decide) rfl rfl 4 []

/-- Constructing a mock: `Mock<C> mock;` or `Mock<C> mock(object);`. -/
def Spec.Constructs (P : Prog V E) (w w' : World V E) (m : MockId) : Prop :=
  ∃ cls, apiStep P w (.newMock cls) = .done (w', .mockId m) ∨ apiStep P w (.newSpy cls) = .done (w', .mockId m)

theorem Spec.Constructs.eq {w w' : World V E} {m : MockId} (h : Constructs P w w' m) :
    m = w.mocks.length ∧ ∃ cls own, w' = { w with mocks := w.mocks ++ [Mock.mk' cls (P.cls cls) own] } := by
  obtain ⟨cls, h | h⟩ := h
  · simp only [apiStep, R.done.injEq, Prod.mk.injEq, ApiOut.mockId.injEq] at h
    exact ⟨h.2.symm, cls, true, h.1.symm⟩
  · simp only [apiStep, R.done.injEq, Prod.mk.injEq, ApiOut.mockId.injEq] at h
    exact ⟨h.2.symm, cls, false, h.1.symm⟩

theorem Spec.Constructs.reach {w w' : World V E} {m : MockId} (h : Constructs P w w' m) (hw : Reach P nm w) : Reach P nm w' := by
  obtain ⟨cls, h | h⟩ := h
  · exact .step (fuel := 0) (op := .api (.newMock cls)) (out := .api (.mockId m)) hw (by simp [Op.Within, Api.Named, Api.slots]) (by simp only [opStep, h]; rfl)
  · exact .step (fuel := 0) (op := .api (.newSpy cls)) (out := .api (.mockId m)) hw (by simp [Op.Within, Api.Named, Api.slots]) (by simp only [opStep, h]; rfl)

theorem Spec.Constructs.mock {w w' : World V E} {m : MockId} (h : Constructs P w w' m) : ∃ cls own, w'.mocks[m]? = some (Mock.mk' cls (P.cls cls) own) := by
  obtain ⟨rfl, cls, own, rfl⟩ := h.eq
  exact ⟨cls, own, by simp⟩

/-- What destroying the instance of mock `m` does when `h` is the destructor's selected stubbing: a call of the destructor (entry `d`) answers as the
stubbing's next action says, `delete` (entry `d + 1`) calls the destructor. -/
def Spec.DestructorAnswers (P : Prog V E) (c : ClassDecl V) (spied : Bool) (w : World V E) (m d : Nat) (args : List (Arg V)) (h : Handler V E) : Prop :=
  (∀ fuel o w', callSlot P fuel w m d args = .done (o, w') →
    ∃ i act, h.seq.front = .done (i, act) ∧ Answers P c spied d (valuesOf w.heap args) act.perf o) ∧
  ∀ fuel, callSlot P (fuel + 1) w m (d + 1) args = callSlot P fuel w m d []

private theorem dtor_answers {m d : Nat} {w w0 w1 : World V E} {k : Mock V E} (hP : P.Named nm) (hw : Reach P nm w) (hnew : Constructs P w w0 m)
    {ops : List (Op V E)} (hops : ∀ op ∈ ops, op.Within (Api.Named nm) (fun _ _ => True)) {fuel : Nat} {outs : List (OpOut V E)}
    (hrun : runOps P fuel w0 ops = .done (outs, w1)) (hk : w1.mock? m = some k) (hd : (P.cls k.cls).dtor = some d) (hnm : ∀ ctr, Plain (P.cls k.cls) (nm m ctr))
    (ho : ∀ off, off < d → k.offsets[off]? ≠ some 0) {args : List (Arg V)} {h : Handler V E} (hsel : Selected (stubbings w1 m d) (valuesOf w1.heap args) h) :
    DestructorAnswers P (P.cls k.cls) (!k.owner) w1 m d args h := by
  obtain ⟨hk1, hka⟩ := World.mock?_eq_some.1 hk
  have hr0 := hnew.reach hw
  have hwf := (Reach.run ops hops hr0 hrun).wf hP
  cases hb : w1.body? m d with
  | none => obtain ⟨older, newer, hst, -⟩ := hsel; simp [stubbings, hb] at hst
  | some b =>
    have hlive := dtor_live hwf.steady hb hk1 hd ho
    constructor
    · intro fuel o w' hcall
      cases fuel with
      | zero => simp [callSlot] at hcall
      | succ fuel =>
        rw [stubbings_of hb] at hsel
        refine answerAny hwf.inv2.1 hlive hk1 ?_ hsel hcall
        intro k' d' hk' hd'
        rw [hk1] at hk'; cases hk'
        rw [hd] at hd'; cases hd'
        simp
    · intro fuel
      have hnd : NoDel P nm m d := fun ctr => hnm ctr d hd
      obtain ⟨cls, own, hm0⟩ := hnew.mock
      have hq := runOps_mono mono_dead hrun m _ hm0
      obtain ⟨k', hk', hc, -⟩ := hq
      rw [hk1] at hk'; cases hk'
      have hdel := (runOps_stable (stableDel hnd) hP _ ops hops w0 outs w1 ⟨(hr0.wf hP).inv2, _, hm0, by rw [← hc]; exact hd⟩ hrun).2 (hr0.wf hP).inv2 (by
        intro k2 b2 hk2 _ hb2
        rw [hm0] at hk2; cases hk2
        simp [Mock.mk', List.getElem?_replicate] at hb2)
      have hkb : k.mocks[d]? = some (some b) := by
        have : k.body? d = some b := by simpa [World.body?, hk1] using hb
        simp only [Mock.body?] at this
        cases hx : k.mocks[d]? with
        | none => simp [hx] at this
        | some x => simp [hx] at this; simp [this]
      simp only [callSlot, hk1, hka, hdel k b hk1 hd hkb, runCode, hd]
      rfl

/-- C33, "exactly as on a new mock": on a mock that has never been reset, a stubbing of the destructor answers the destruction of the instance, whatever
else was stubbed, called or verified since the mock was constructed. -/
theorem C33_destructor_stubbing_answers_without_reset {m d : Nat} {w w0 w1 : World V E} {k : Mock V E} (hw : Reach P nm w) (hnew : Constructs P w w0 m)
    (hP : P.Within (fun a => a.Named nm ∧ a ≠ .reset m) (fun _ _ => True)) {ops : List (Op V E)}
    (hops : ∀ op ∈ ops, op.Within (fun a => a.Named nm ∧ a ≠ .reset m) (fun _ _ => True)) {fuel : Nat} {outs : List (OpOut V E)}
    (hrun : runOps P fuel w0 ops = .done (outs, w1)) (hk : w1.mock? m = some k) (hd : (P.cls k.cls).dtor = some d) (hnm : ∀ ctr, Plain (P.cls k.cls) (nm m ctr))
    {args : List (Arg V)} {h : Handler V E} (hsel : Selected (stubbings w1 m d) (valuesOf w1.heap args) h) :
    DestructorAnswers P (P.cls k.cls) (!k.owner) w1 m d args h := by
  have hn : P.Named nm := fun f vs => (hP f vs).mono (fun a h => h.1) (fun _ _ _ => trivial)
  have hops' : ∀ op ∈ ops, op.Within (Api.Named nm) (fun _ _ => True) := fun op ho => by
    have := hops op ho
    cases op <;> first | trivial | exact this.1
  refine dtor_answers hn hw hnew hops' hrun hk hd hnm (fun off hlt h0 => ?_) hsel
  obtain ⟨hk1, hka⟩ := World.mock?_eq_some.1 hk
  have hwf := (Reach.run ops hops' (hnew.reach hw) hrun).wf hn
  have t := hwf.steady.1.1 m k hk1
  obtain ⟨cls, own, hm0⟩ := hnew.mock
  have hu := ((runOps_stable (stableU m) (fun f vs => (hP f vs).mono (fun a h => h.2) (fun _ _ _ => trivial)) _ ops (fun op ho => by
    have := hops op ho
    cases op <;> first | trivial | exact this.2) w0 outs w1 (lt_of_getElem?_some hm0) hrun) (lt_of_getElem?_some hm0)).2 (by
      intro k2 off hk2 hn2
      rw [hm0] at hk2; cases hk2
      simp only [Mock.mk', List.getElem?_replicate] at hn2 ⊢
      split at hn2
      · rename_i h; simp [h]
      · cases hn2)
  have hlo := lt_of_getElem?_some h0
  rw [(t.mlen hka).2, ← (t.mlen hka).1] at hlo
  cases hm : k.mocks[off]? with
  | none => rw [List.getElem?_eq_none_iff] at hm; omega
  | some x =>
    cases x with
    | none => rw [hu k off hk1 hm] at h0; cases h0
    | some b =>
      obtain ⟨id, hid, ⟨-, hdo⟩ | ⟨ctr, rfl, -⟩⟩ := t.bound off b hm
      · rw [hd] at hdo; have := Option.some.inj hdo; omega
      · rw [h0] at hid; cases hid

/-- C33, the part that holds after `Reset`: a stubbing of the destructor answers the destruction of the instance if every method declared before the destructor
has been named since (for example stubbed), in particular if the destructor is the first virtual function. Missing for the full claim: the other
states, for which it is false (`C33_destructor_stubbing_is_lost_after_reset`). -/
theorem C33_destructor_stubbing_answers_partial {m d : Nat} {w w0 w1 : World V E} {k : Mock V E} (hP : P.Named nm) (hw : Reach P nm w) (hnew : Constructs P w w0 m)
    {ops : List (Op V E)} (hops : ∀ op ∈ ops, op.Within (Api.Named nm) (fun _ _ => True)) {fuel : Nat} {outs : List (OpOut V E)}
    (hrun : runOps P fuel w0 ops = .done (outs, w1)) (hk : w1.mock? m = some k) (hd : (P.cls k.cls).dtor = some d) (hnm : ∀ ctr, Plain (P.cls k.cls) (nm m ctr))
    (hall : ∀ off, off < d → w1.body? m off ≠ none) {args : List (Arg V)} {h : Handler V E} (hsel : Selected (stubbings w1 m d) (valuesOf w1.heap args) h) :
    DestructorAnswers P (P.cls k.cls) (!k.owner) w1 m d args h := by
  refine dtor_answers hP hw hnew hops hrun hk hd hnm (fun off hlt h0 => ?_) hsel
  obtain ⟨hk1, hka⟩ := World.mock?_eq_some.1 hk
  have t := ((Reach.run ops hops (hnew.reach hw) hrun).wf hP).steady.1.1 m k hk1
  have := hall off hlt
  simp only [World.body?, hk1, Option.bind_some, Mock.body?] at this
  cases hm : k.mocks[off]? with
  | none => simp [hm] at this
  | some x =>
    cases x with
    | none => simp [hm] at this
    | some b =>
      obtain ⟨id, hid, ⟨-, hdo⟩ | ⟨ctr, rfl, -⟩⟩ := t.bound off b hm
      · rw [hd] at hdo; have := Option.some.inj hdo; omega
      · rw [h0] at hid; cases hid

namespace Demo

/-- A naming in which no method expression names the destructor's entries. -/
def nm2 : MockId → Nat → Nat := fun _ ctr => if ctr < 2 then ctr else 0

theorem prog_named2 (m : MockId) : prog.Within (fun a => a.Named nm2 ∧ a ≠ .reset m) (fun _ _ => True) := by
  intro f vs
  match f with
  | 0 => trivial
  | 1 => exact ⟨trivial, fun _ => trivial⟩
  | 2 => trivial
  | 3 => trivial
  | _ + 4 => trivial

theorem nm2_plain (ctr : Nat) : Plain cls (nm2 0 ctr) := by
  intro d hd; cases hd; unfold nm2; split <;> omega

/-- The destructor is stubbed, method 1 too. -/
def dtorOps : List (Op Nat Nat) := [.api (.when_ (tgt 0 1 .any) [.forever (.ret 4)] false), .call 0 1 [.val 1], .api (.when_ ⟨0, .dtor, .any⟩ [.rep 1 (.thr 3)] false)]

/-- Both methods are stubbed, the mock is reset, both methods are stubbed again, and the destructor. -/
def dtorOps' : List (Op Nat Nat) := [.api (.fake [tgt 0 0 .any, tgt 0 1 .any]), .api (.reset 0), .api (.fake [tgt 0 0 .any, tgt 0 1 .any]),
  .api (.when_ ⟨0, .dtor, .any⟩ [.rep 1 (.thr 3)] false)]

def one : World Nat Nat := after [.api (.newMock 0)]

def run (w : World Nat Nat) (ops : List (Op Nat Nat)) : World Nat Nat :=
  match runOps prog 5 w ops with
  | .done (_, w) => w
  | _ => w

end Demo

/-- Case: a stubbed destructor that throws, on a mock that was not reset. -/
example : (∃ h, DestructorAnswers Demo.prog Demo.cls false (Demo.run Demo.one Demo.dtorOps) 0 2 [] h) ∧ Demo.outs (runOps Demo.prog 5 (Demo.run Demo.one Demo.dtorOps) [.call 0 3 []]) = [.call (.exc 3)] := by
  refine ⟨⟨_, C33_destructor_stubbing_answers_without_reset (w := World.start Demo.heap0) (w0 := Demo.one) (ops := Demo.dtorOps) (fuel := 5) (.start _)
    ⟨0, .inl rfl⟩ (Demo.prog_named2 0) ?_ rfl rfl rfl Demo.nm2_plain (h := ⟨3, ⟨2, .any⟩, ActionSeq.ofActs [.rep 1 (.thr 3)]⟩) ⟨[], [], rfl, trivial, by simp⟩⟩, by decide +kernel⟩
  intro op h
  simp only [Demo.dtorOps, List.mem_cons, List.not_mem_nil, or_false] at h
  rcases h with rfl | rfl | rfl <;> simp [Op.Within, Api.Named, Api.slots, SlotRef.Named, Demo.tgt, Demo.nm2, intMax]

/-- Case: the mock was reset, all methods before the destructor were stubbed again. -/
example : (∃ h, DestructorAnswers Demo.prog Demo.cls false (Demo.run Demo.one Demo.dtorOps') 0 2 [] h) ∧ Demo.outs (runOps Demo.prog 5 (Demo.run Demo.one Demo.dtorOps') [.call 0 3 []]) = [.call (.exc 3)] := by
  refine ⟨⟨_, C33_destructor_stubbing_answers_partial (nm := Demo.nm2) (w := World.start Demo.heap0) (w0 := Demo.one) (ops := Demo.dtorOps') (fuel := 5)
    (fun f vs => (Demo.prog_named2 0 f vs).mono (fun a h => h.1) (fun _ _ _ => trivial)) (.start _)
    ⟨0, .inl rfl⟩ ?_ rfl rfl rfl Demo.nm2_plain ?_ (h := ⟨9, ⟨8, .any⟩, ActionSeq.ofActs [.rep 1 (.thr 3)]⟩) ⟨[], [], rfl, trivial, by simp⟩⟩, by decide +kernel⟩
  · intro op h
    simp only [Demo.dtorOps', List.mem_cons, List.not_mem_nil, or_false] at h
    rcases h with rfl | rfl | rfl | rfl <;> simp [Op.Within, Api.Named, Api.slots, SlotRef.Named, Demo.tgt, Demo.nm2, intMax]
  · intro off hlt
    match off, hlt with
    | 0, _ => intro h; cases h
    | 1, _ => intro h; cases h

/-! ## C34 -/

/-- C34 (without data members of fake objects). `ClearInvocationHistory` removes all recorded calls of the mock. All stubbings of all mocks with what is
left of their scripts, the mock's dispatch table, the recorded calls of other mocks, reported events and variables stay as they are, and so do the data
members of spied objects. Missing for the full claim: data members of fake objects, which are set to zero (`C34_clear_zeroes_data_members`). -/
theorem C34_clear_forgets_calls_only_partial {m : MockId} {w w1 : World V E} {k : Mock V E} {out : ApiOut} (hk : w.mock? m = some k)
    (hclear : apiStep P w (.clear m) = .done (w1, out)) :
    (∀ off, history w1 m off = []) ∧ (∀ m' off, stubbings w1 m' off = stubbings w m' off) ∧
    (∀ m' off, m' ≠ m → history w1 m' off = history w m' off) ∧
    (∃ k1, w1.mock? m = some k1 ∧ k1.vt = k.vt ∧ k1.offsets = k.offsets ∧ k1.members = k.members ∧ (k.owner = false → k1.data = k.data)) ∧
    (∀ m', m' ≠ m → w1.mocks[m']? = w.mocks[m']?) ∧ w1.log = w.log ∧ w1.heap = w.heap ∧ w1.invTotal = w.invTotal := by
  obtain ⟨hk1, hka⟩ := World.mock?_eq_some.1 hk
  simp only [apiStep, hk, R.done.injEq, Prod.mk.injEq] at hclear
  obtain ⟨rfl, -⟩ := hclear
  have hm1 : (w.updMock m Mock.clear).mocks[m]? = some k.clear := by rw [World.mocks_updMock]; simp [hk1]
  have hother : ∀ m', m' ≠ m → (w.updMock m Mock.clear).mocks[m']? = w.mocks[m']? := fun m' hm => by rw [World.mocks_updMock, if_neg (Ne.symm hm)]
  have hbody : ∀ m' off, (w.updMock m Mock.clear).body? m' off = if m' = m then (w.body? m' off).map MBody.clear else w.body? m' off := by
    intro m' off
    by_cases hm : m' = m
    · subst hm; simp only [World.body?, hm1, hk1, Option.bind_some, Mock.body?_clear, if_true]
    · simp only [World.body?, hother m' hm, if_neg hm]
  refine ⟨fun off => ?_, fun m' off => ?_, fun m' off hm => ?_, ⟨k.clear, World.mock?_eq_some.2 ⟨hm1, ?_⟩, ?_, ?_, ?_, fun ho => ?_⟩, hother, rfl, rfl, rfl⟩
  · simp only [history, hbody, if_true]
    cases w.body? m off <;> rfl
  · simp only [stubbings, hbody]
    by_cases hm : m' = m
    · simp only [if_pos hm]; cases w.body? m' off <;> rfl
    · simp only [if_neg hm]
  · simp only [history, hbody, if_neg hm]
  · unfold Mock.clear Mock.initData; split <;> exact hka
  · unfold Mock.clear Mock.initData; split <;> rfl
  · unfold Mock.clear Mock.initData; split <;> rfl
  · unfold Mock.clear Mock.initData; split <;> rfl
  · unfold Mock.clear Mock.initData; simp [ho]

/-- Case: two calls are recorded. -/
example : (history Demo.v 0 0).length = 2 ∧ ∃ w1, apiStep Demo.prog Demo.v (.clear 0) = .done (w1, .unit) ∧ history w1 0 0 = [] ∧ stubbings w1 0 0 = stubbings Demo.v 0 0 :=
  ⟨by decide, _, rfl, (C34_clear_forgets_calls_only_partial (P := Demo.prog) (w := Demo.v) (m := 0) (out := .unit) rfl rfl).1 0,
    (C34_clear_forgets_calls_only_partial (P := Demo.prog) (w := Demo.v) (m := 0) (out := .unit) rfl rfl).2.1 0 0⟩

/-- C34 is false for stubbed data members of fake objects: `ClearInvocationHistory` sets them to zero, although the data member stubbing is still there. -/
theorem C34_clear_zeroes_data_members {m cell : Nat} {v : Int} {w w1 w2 : World V E} {k : Mock V E} {out1 out2 : ApiOut} (hk : w.mock? m = some k) (hown : k.owner = true)
    (hdata : apiStep P w (.stubData m cell v) = .done (w1, out1)) (hclear : apiStep P w1 (.clear m) = .done (w2, out2)) :
    ∃ k2, w2.mock? m = some k2 ∧ cell ∈ k2.members ∧ k2.data[cell]? = some 0 := by
  obtain ⟨hk1, hka⟩ := World.mock?_eq_some.1 hk
  simp only [apiStep, hk] at hdata
  split at hdata
  · rename_i hlt
    simp only [R.done.injEq, Prod.mk.injEq] at hdata
    obtain ⟨rfl, -⟩ := hdata
    have hm1 : (w.updMock m fun k => { k with data := k.data.set cell v, members := k.members ++ [cell] }).mocks[m]? =
        some { k with data := k.data.set cell v, members := k.members ++ [cell] } := by rw [World.mocks_updMock]; simp [hk1]
    simp only [apiStep, World.mock?_eq_some.2 ⟨hm1, hka⟩, R.done.injEq, Prod.mk.injEq] at hclear
    obtain ⟨rfl, -⟩ := hclear
    refine ⟨_, World.mock?_eq_some.2 ⟨by rw [World.mocks_updMock, hm1, if_pos rfl]; rfl, ?_⟩, ?_, ?_⟩
    · simp [Mock.clear, Mock.initData, hown, hka]
    · simp [Mock.clear, Mock.initData, hown]
    · simp [Mock.clear, Mock.initData, hown, hlt]
  · cases hdata

/-- Case: data member number 1 is stubbed with 5, then the history is cleared. -/
example : ∃ k2, (Demo.next (Demo.next Demo.v (.api (.stubData 0 1 5))) (.api (.clear 0))).mock? 0 = some k2 ∧ 1 ∈ k2.members ∧ k2.data[1]? = some 0 :=
  C34_clear_zeroes_data_members (P := Demo.prog) (w := Demo.v) (m := 0) (cell := 1) (v := 5) (out1 := .unit) (out2 := .unit) rfl rfl rfl rfl

/-! ## C37 -/

/-- C37. After a spying mock was destroyed, every virtual call on the object runs its original implementation, now and after whatever else happens,
and whatever was done with the mock before. -/
theorem C37_destroyed_spy_restores_the_object {m : MockId} {w w1 w2 : World V E} {k : Mock V E} {out : ApiOut} (hP : P.Named nm) (hw : Reach P nm w)
    (hk : w.mock? m = some k) (hspy : k.owner = false) (hdestroy : apiStep P w (.destroy m) = .done (w1, out)) {ops : List (Op V E)}
    (hops : ∀ op ∈ ops, op.Within (Api.Named nm) (fun _ _ => True)) {fuel : Nat} {outs : List (OpOut V E)} (hrun : runOps P fuel w1 ops = .done (outs, w2))
    {off : Nat} (hoff : off < (P.cls k.cls).size) (args : List (Arg V)) (fuel' : Nat) :
    callSlot P (fuel' + 1) w2 m off args = runBody P (callSlot P fuel') none args (P.fn ((P.cls k.cls).impl off) (valuesOf w2.heap args)) w2 := by
  obtain ⟨hk1, hka⟩ := World.mock?_eq_some.1 hk
  have hr1 : Reach P nm w1 := .step (fuel := 0) (op := .api (.destroy m)) (out := .api out) hw (by simp [Op.Within, Api.Named, Api.slots])
    (by simp only [opStep, hdestroy]; rfl)
  simp only [apiStep, hk, R.done.injEq, Prod.mk.injEq] at hdestroy
  obtain ⟨rfl, -⟩ := hdestroy
  obtain ⟨k2, hk2, hc, ho, ha⟩ := runOps_mono mono_dead hrun m k.destroy (by rw [World.mocks_updMock]; simp [hk1])
  have t := ((Reach.run ops hops hr1 hrun).wf hP).steady.1.1 m k2 hk2
  have hv : k2.vt[off]? = some (.native ((P.cls k.cls).impl off)) := by
    rw [(t.dead (ha rfl)).1, t.orig_eq, ho, hc]
    show (if k.owner then _ else _)[off]? = _
    rw [hspy]
    simp [nativeVt, Mock.destroy, hoff]
  have hown : k2.owner = false := by rw [ho]; exact hspy
  simp only [callSlot, hk2, hown, hv, runCode, derefAll_eq]
  simp

namespace Demo

/-- A spy whose method 0 is stubbed; it is called. Then the mock is destroyed. -/
def spyOps : List (Op Nat Nat) := [.api (.newSpy 0), .api (.newMock 0), .api (.when_ (tgt 0 0 .any) [.forever (.ret 1)] false), .api (.fake [⟨0, .dtor, .any⟩]), .call 0 0 [.val 2]]

def spied : World Nat Nat := after spyOps

theorem reach_spied : Reach prog Demo.nm spied := by
  refine Reach.run (fuel := 5) (w' := spied) spyOps ?_ (.start heap0) rfl
  intro op h
  simp only [spyOps, List.mem_cons, List.not_mem_nil, or_false] at h
  rcases h with rfl | rfl | rfl | rfl | rfl <;> simp [Op.Within, Api.Named, Api.slots, SlotRef.Named, tgt, Demo.nm, intMax]

end Demo

/-- Case: the stubbed method 0 of the spy answers 1; after the mock is destroyed, the original method 0 (callable 10, which returns 10) runs. -/
example : Demo.outs (runOps Demo.prog 5 Demo.spied [.call 0 0 [.val 2], .api (.destroy 0), .call 1 1 [], .call 0 0 [.val 2]]) = [.call (.ret 1), .api .unit, .call .unexpected, .call (.ret 10)] ∧
    callSlot Demo.prog 5 (Demo.next Demo.spied (.api (.destroy 0))) 0 0 [.val 2] =
      runBody Demo.prog (callSlot Demo.prog 4) none [.val 2] (Demo.prog.fn 10 [2]) (Demo.next Demo.spied (.api (.destroy 0))) :=
  ⟨by decide +kernel, C37_destroyed_spy_restores_the_object (w := Demo.spied) Demo.prog_named Demo.reach_spied rfl rfl (out := .unit) rfl (ops := []) (by simp) (fuel := 0) rfl
    (by decide) [.val 2] 4⟩

end FakeIt
