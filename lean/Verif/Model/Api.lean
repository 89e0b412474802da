import Verif.Model.World
import Verif.Model.MatchAnalysis
/-!
# API operations other than calls

`Mock`, `When`, `Fake`, `Spy`, assignment, `Reset`, `ClearInvocationHistory`, `Verify`, `VerifyNoOtherInvocations`.
-/
namespace FakeIt

variable {V E : Type}

/-- `std::numeric_limits<int>::max()`, the initial value of `_offsets` entries (include/mockutils/DynamicProxy.hpp 49-52). -/
def intMax : Nat := 2147483647

/-! ## Construction, reset, destruction of mocks -/

/-- The method entries of a fake object's own table: `initAll(unmocked)`, then `setDtor(unmockedDtor)` if the class has a virtual
destructor (include/fakeit/MockImpl.hpp 284-292; include/mockutils/gcc/VirtualTable.hpp 107-115, 122-127). -/
def fakeVt (c : ClassDecl V) : List Code :=
  match c.dtor with
  | none => List.replicate c.size .unmocked
  | some d => ((List.replicate c.size .unmocked).set d .unmockedDtor).set (d + 1) .dtorThunk

/-- The compiler's table of a real object: the class' own implementations (what include/mockutils/DynamicProxy.hpp 68-77 finds in a real object). -/
def nativeVt (c : ClassDecl V) : List Code := (List.range c.size).map fun i => .native (c.impl i)

/-- `DynamicProxy(C &inst)` (include/mockutils/DynamicProxy.hpp 68-77, 49-52) inside `MockImpl` (include/fakeit/MockImpl.hpp 30-38,
122-125): the clone starts as a copy of the original table, no method is mocked, all `_offsets` are `INT_MAX`. -/
def Mock.mk' (cls : Nat) (c : ClassDecl V) (owner : Bool) : Mock V E :=
  let vt := if owner then fakeVt c else nativeVt c
  { cls := cls, owner := owner, alive := true, orig := vt, vt := vt,
    mocks := List.replicate c.size none, offsets := List.replicate c.size intMax,
    data := List.replicate c.dataSize 0, members := [] }

/-- `initDataMembersIfOwner` (include/fakeit/MockImpl.hpp 55-61, include/mockutils/FakeObject.hpp 23-29). -/
def Mock.initData (k : Mock V E) : Mock V E :=
  if k.owner then { k with data := k.data.map fun _ => 0 } else k

/-- The action sequences that have been destroyed when all bodies are (include/mockutils/DynamicProxy.hpp 213, include/fakeit/RecordedMethodBody.hpp 62, 31-56). -/
def Mock.buried (k : Mock V E) (off : Nat) (h : Addr) : Option (ActionSeq V E) :=
  match (k.body? off).bind fun b => b.handlers.find? (·.addr == h) with
  | some hd => some hd.seq
  | none => k.gone off h

/-- `DynamicProxy::Reset` (include/mockutils/DynamicProxy.hpp 91-98): note that `_offsets` is re-created with zeros, not `INT_MAX`. -/
def Mock.proxyReset (k : Mock V E) : Mock V E :=
  { k with mocks := List.replicate k.orig.length none, members := [],
           offsets := List.replicate k.orig.length 0, vt := k.orig, gone := k.buried }

/-- `MockImpl::reset` (include/fakeit/MockImpl.hpp 63-66, include/fakeit/Mock.hpp 61-63). -/
def Mock.reset (k : Mock V E) : Mock V E := k.proxyReset.initData

/-- `RecordedMethodBody::clear` (include/fakeit/RecordedMethodBody.hpp 122-124). -/
def MBody.clear (b : MBody V E) : MBody V E := { b with invs := [] }

/-- `MockImpl::clear` (include/fakeit/MockImpl.hpp 68-76, include/fakeit/Mock.hpp 65-67). -/
def Mock.clear (k : Mock V E) : Mock V E :=
  Mock.initData { k with mocks := k.mocks.map (Option.map MBody.clear) }

/-- `~MockImpl` and its members' destructors (include/fakeit/MockImpl.hpp 40-42, 118-120; include/mockutils/DynamicProxy.hpp 79-85):
the object gets its original table back, all recorded bodies and data member wrappers are destroyed. -/
def Mock.destroy (k : Mock V E) : Mock V E :=
  { k with alive := false, vt := k.orig, mocks := [], offsets := [], members := [], gone := k.buried }

/-! ## Mentioning a method: `stubMethodIfNotStubbed` -/

/-- The vtable offset of a method expression (include/mockutils/VTUtils.hpp 31-35; 40-53 for the destructor, `none` =
`NoVirtualDtor` is thrown). -/
def SlotRef.off (c : ClassDecl V) : SlotRef → Option Nat
  | .meth off _ => some off
  | .dtor => c.dtor

/-- `createRecordedMethodBody` (include/fakeit/MockImpl.hpp 334-342, include/fakeit/RecordedMethodBody.hpp 95-96):
a new body whose `MethodInfo` id is the next method ordinal. -/
def newBody (methTotal : Nat) : MBody V E := { method := (methTotal + 1) % wrap32, handlers := [], invs := [] }

/-- `DynamicProxy::bind` (include/mockutils/DynamicProxy.hpp 222-226) as called by `stubMethod<id>` with id `ctr + 1` (104-109). -/
def Mock.bind (k : Mock V E) (off ctr : Nat) (b : MBody V E) : Mock V E :=
  { k with vt := k.vt.set off (.proxy (ctr + 1)), mocks := k.mocks.set off (some b), offsets := k.offsets.set off (ctr + 1) }

/-- `DynamicProxy::bindDtor` (include/mockutils/DynamicProxy.hpp 228-232, id 0 at 111-125) with `VirtualTable::setDtor`
(include/mockutils/gcc/VirtualTable.hpp 107-115). -/
def Mock.bindDtor (k : Mock V E) (d : Nat) (b : MBody V E) : Mock V E :=
  { k with vt := (k.vt.set d (.proxy 0)).set (d + 1) .dtorThunk, mocks := k.mocks.set d (some b), offsets := k.offsets.set d 0 }

/-- `stubMethodIfNotStubbed` / `stubDtorIfNotStubbed` (include/fakeit/MockImpl.hpp 314-332), reached by every
`Method(mock, f)` / `Dtor(mock)` through `setMethodDetails` (include/fakeit/api_macros.hpp 28-32, include/fakeit/MockImpl.hpp 152-154).
`done none` = `NoVirtualDtor` thrown; offsets outside the table are undefined behaviour. The method's printable name is not kept. -/
def touch (P : Prog V E) (w : World V E) (m : MockId) (slot : SlotRef) : R (Option (World V E)) :=
  match w.mock? m with
  | none => .ub
  | some k =>
    match slot with
    | .meth off ctr =>
      match k.mocks[off]? with
      | none => .ub
      | some (some _) => .done (some w)
      | some none =>
        .done (some { w.updMock m (·.bind off ctr (newBody w.methTotal)) with methTotal := w.methTotal + 1 })
    | .dtor =>
      match (P.cls k.cls).dtor with
      | none => .done none
      | some d =>
        if d + 1 < k.vt.length then
          match k.mocks[d]? with
          | none => .ub
          | some (some _) => .done (some w)
          | some none =>
            .done (some { w.updMock m (·.bindDtor d (newBody w.methTotal)) with methTotal := w.methTotal + 1 })
        else .ub

/-- Evaluating several method expressions one after the other; `false` = one of them threw `NoVirtualDtor`, the effects of those before it
remain. C++ leaves the order of evaluation of function arguments open; only the numbering of method ids (and, if one of them throws, which of
the others have been evaluated) depends on it (include/fakeit/api_macros.hpp 31-50, include/fakeit/MockImpl.hpp 314-323). -/
def touchAll (P : Prog V E) : World V E → List (MockId × SlotRef) → R (World V E × Bool)
  | w, [] => .done (w, true)
  | w, (m, s) :: rest => do
    match ← touch P w m s with
    | none => .done (w, false)
    | some w' => touchAll P w' rest

/-! ## Stubbing -/

/-- `Implementation::commit` -> `addMethodInvocationHandler` (include/fakeit/MethodMockingContext.hpp 135-138,
include/fakeit/MockImpl.hpp 143-146, include/fakeit/RecordedMethodBody.hpp 110-115) of a fresh context whose action sequence is
`ofActs acts`: a new handler at the end of `_invocationHandlers`. -/
def commit (P : Prog V E) (w : World V E) (t : Target V) (acts : List (Act V E)) : R (World V E) :=
  match w.mock? t.m with
  | none => .ub
  | some k =>
    match t.slot.off (P.cls k.cls) with
    | none => .ub
    | some off =>
      match w.body? t.m off with
      | none => .ub
      | some _ =>
        let h : Handler V E :=
          { addr := w.alloc + 1, matcher := { addr := w.alloc, kind := t.kind }, seq := ActionSeq.ofActs acts }
        .done { w.updBody t.m off (fun b => { b with handlers := b.handlers ++ [h] }) with alloc := w.alloc + 2 }

/-- Commit several contexts in order with the same action list (include/fakeit/FakeFunctor.hpp 31-35, SpyFunctor.hpp 40-44). -/
def commitAll (P : Prog V E) (acts : List (Act V E)) : World V E → List (Target V) → R (World V E)
  | w, [] => .done w
  | w, t :: ts => do
    let w' ← commit P w t acts
    commitAll P acts w' ts

/-- One stubbing statement on one method expression: evaluate it, append the actions, commit
(include/fakeit/WhenFunctor.hpp 27-34 commits in the destructor of the last progress object, unless an exception is propagating;
include/fakeit/MethodMockingContext.hpp 144-147 for assignment). -/
def stubOne (P : Prog V E) (w : World V E) (t : Target V) (acts : List (Act V E)) (uncaught : Bool) :
    R (World V E × ApiOut) := do
  match ← touch P w t.m t.slot with
  | none => .done (w, .threw)
  | some w1 =>
    if uncaught then .done (w1, .skipped)
    else do
      let w2 ← commit P w1 t acts
      .done (w2, .matcher w1.alloc)

/-- `Fake(...)`, `Spy(...)`, `SpyWithoutVerify(...)`: all expressions are evaluated, then each gets one action and is committed
(include/fakeit/FakeFunctor.hpp 20-35, SpyFunctor.hpp 22-44, SpyWithoutVerifyFunctor.hpp). -/
def stubMany (P : Prog V E) (w : World V E) (ts : List (Target V)) (act : Act V E) : R (World V E × ApiOut) := do
  match ← touchAll P w (ts.map fun t => (t.m, t.slot)) with
  | (w1, false) => .done (w1, .threw)
  | (w1, true) => do
    let w2 ← commitAll P [act] w1 ts
    .done (w2, .unit)

/-! ## Verification -/

/-- `MethodMockingContext::Implementation::matches` (include/fakeit/MethodMockingContext.hpp 125-133): same method (by id,
include/fakeit/RecordedMethodBody.hpp 105-108) and the matcher accepts. -/
def leafMatches (P : Prog V E) (w : World V E) (l : Leaf V) (inv : Invocation V) : Bool :=
  match w.mock? l.m with
  | none => false
  | some k =>
    match l.slot.off (P.cls k.cls) with
    | none => false
    | some off =>
      match k.body? off with
      | none => false
      | some b => inv.method == b.method && matcherMatches l.addr l.kind w.heap inv

/-- All recorded invocations of a mock, method by method (include/fakeit/MockImpl.hpp 47-53,
include/mockutils/DynamicProxy.hpp 162-170, include/fakeit/RecordedMethodBody.hpp 159-164). -/
def Mock.allInvs (k : Mock V E) : List (Invocation V) :=
  k.mocks.flatMap fun o => match o with | none => [] | some b => b.invs

/-- `getActualInvocations(into)` of a source: a mock (include/fakeit/MockImpl.hpp 47-53), a method expression
(include/fakeit/MethodMockingContext.hpp 113-120: that method's invocations its matcher accepts), `Unverified`
(include/fakeit/ActualInvocationsSource.hpp 41-49), an aggregate (60-66, 76-82). -/
def Source.collect (P : Prog V E) (w : World V E) : Source V → List (Invocation V) → List (Invocation V)
  | .empty, into => into
  | .mock m, into =>
    match w.mock? m with
    | none => into
    | some k => insertAllU into k.allInvs
  | .ctx l, into =>
    match w.mock? l.m with
    | none => into
    | some k =>
      match (l.slot.off (P.cls k.cls)).bind k.body? with
      | none => into
      | some b => insertAllU into (b.invs.filter fun i => matcherMatches l.addr l.kind w.heap i)
  | .unverified s, into => insertAllU into ((s.collect P w []).filter fun i => !i.verified)
  | .union s t, into => insertAllU into (t.collect P w (s.collect P w []))

/-- The method expressions a source mentions (include/fakeit/UsingFunctor.hpp 31-37, include/fakeit/MethodMockingContext.hpp 153-155). -/
def Source.leaves : Source V → List (Leaf V)
  | .empty => []
  | .mock _ => []
  | .ctx l => [l]
  | .unverified s => s.leaves
  | .union s t => s.leaves ++ t.leaves

/-- The mocks a source reads (include/fakeit/UsingFunctor.hpp 31-37, include/fakeit/MethodMockingContext.hpp 153-155). -/
def Source.mocks : Source V → List MockId
  | .empty => []
  | .mock m => [m]
  | .ctx l => [l.m]
  | .unverified s => s.mocks
  | .union s t => s.mocks ++ t.mocks

/-- Several sources collected into one set (include/fakeit/SortInvocations.hpp 33-38; ActualInvocationsSource.hpp 60-66). -/
def aggregate (srcs : List (Source V)) : Source V := srcs.foldr Source.union .empty

/-- The source a sequence verification uses (include/fakeit/VerifyFunctor.hpp 33-43: the mocks involved in the pattern;
UsingFunctor.hpp 31-37; UnverifiedFunctor.hpp 21-34: the unverified invocations of the involved mocks). -/
def Scope.source (pat : List (Seq (Leaf V))) : Scope V → Source V
  | .involved => aggregate ((pat.flatMap (Seq.involved Leaf.m)).map Source.mock)
  | .using_ s => s
  | .unverified => .unverified (aggregate ((pat.flatMap (Seq.involved Leaf.m)).map Source.mock))

/-- `SequenceVerificationExpectation`'s own state (include/fakeit/SequenceVerificationExpectation.hpp 42-64):
`_expectedCount` (negative: at least), `_expectAnything`, `_isVerified`. -/
structure Expectation where
  count : Int
  anything : Bool
  isVerified : Bool
  deriving DecidableEq, Repr

/-- The constructor (include/fakeit/SequenceVerificationExpectation.hpp 53-64): at least once. -/
def Expectation.init : Expectation := { count := -1, anything := false, isVerified := false }

/-- `Exactly(int)` (include/fakeit/SequenceVerificationProgress.hpp 98-104); `none` = `invalid_argument`. -/
def Expectation.exactly (e : Expectation) (n : Int) : Option Expectation :=
  if n < 0 then none else some { e with count := n }

/-- `AtLeast(int)` (include/fakeit/SequenceVerificationProgress.hpp 111-117): stores `-times`. -/
def Expectation.atLeast (e : Expectation) (n : Int) : Option Expectation :=
  if n < 0 then none else some { e with count := -n }

/-- The quantifier of a statement (include/fakeit/SequenceVerificationProgress.hpp 73-122). -/
def Expectation.quant (e : Expectation) : Quant → Option Expectation
  | .dflt => some e
  | .any => some { e with anything := true }
  | .never => e.exactly 0
  | .once => e.exactly 1
  | .twice => e.exactly 2
  | .atLeastOnce => some { e with count := -1 }
  | .exactly n => e.exactly n
  | .atLeast n => e.atLeast n

/-- `markAsVerified` on the given invocation objects (include/fakeit/SequenceVerificationExpectation.hpp 100-104). -/
def World.mark (w : World V E) (uids : List Nat) : World V E :=
  { w with mocks := w.mocks.map fun k =>
      { k with mocks := k.mocks.map (Option.map fun b =>
          { b with invs := b.invs.map fun i => if uids.contains i.uid then { i with verified := true } else i }) } }

/-- The decision part of `VerifyExpectation` (include/fakeit/SequenceVerificationExpectation.hpp 75-83, 106-141): the event handed to the
error handler, if any. -/
def Expectation.judge (e : Expectation) (count : Nat) (actualSeq : List (Invocation V)) : Option (Event V) :=
  if !e.anything && decide (e.count < 0) && decide ((count : Int) < -e.count) then
    some (.sequence .atLeast (-e.count) count actualSeq)
  else if !e.anything && !decide (e.count < 0) && decide ((count : Int) ≠ e.count) then
    some (.sequence .exact e.count count actualSeq)
  else none

/-- `MatchAnalysis::run` (include/fakeit/MatchAnalysis.hpp 16-27): the actual sequence, the count, the matched invocations. -/
def analyse (P : Prog V E) (w : World V E) (scope : Scope V) (pat : List (Seq (Leaf V))) :
    R (List (Invocation V) × Nat × List (Invocation V)) := do
  let actual := sortByOrder ((scope.source pat).collect P w [])
  let (count, matched) ← MatchAnalysis.countMatches (leafMatches P w) actual pat
  .done (actual, count, matched)

/-- `VerifyExpectation` (include/fakeit/SequenceVerificationExpectation.hpp 67-86): at most once per expectation object; returns the
new object state, the world with marks, and the event for the handler (none = passed). -/
def verifyExpectation (P : Prog V E) (w : World V E) (scope : Scope V) (pat : List (Seq (Leaf V))) (e : Expectation) :
    R (Expectation × World V E × Option (Event V)) :=
  if e.isVerified then .done (e, w, none)
  else do
    let (actual, count, matched) ← analyse P w scope pat
    match e.judge count actual with
    | some evt => .done ({ e with isVerified := true }, w, some evt)
    | none => .done ({ e with isVerified := true }, w.mark (matched.map (·.uid)), none)

/-- The method expressions evaluated by a verification statement (include/fakeit/VerifyFunctor.hpp 33-43, include/fakeit/UsingProgress.hpp 33-38). -/
def verifyLeaves (scope : Scope V) (pat : List (Seq (Leaf V))) : List (Leaf V) :=
  (match scope with | .using_ s => s.leaves | _ => []) ++ pat.flatMap Seq.expected

/-- Using a destroyed mock as a source is undefined behaviour (include/fakeit/SortInvocations.hpp 33-38 reads them). -/
def allAlive (w : World V E) (ms : List MockId) : Bool := ms.all fun m => (w.mock? m).isSome

/-- A whole sequence verification statement. The method expressions are evaluated; the quantifier may throw `invalid_argument`, in which case
the expectation dies while that exception propagates and verifies nothing; in statement mode the expectation's destructor verifies
(include/fakeit/SequenceVerificationExpectation.hpp 15-20) and hands a failure to the context; converted to `bool`
the failure goes to `ThrowFalseEventHandler` (include/fakeit/SequenceVerificationProgress.hpp 42-51,
include/fakeit/ThrowFalseEventHandler.hpp) and the later destructor finds `_isVerified` set. -/
def verifyStmt (P : Prog V E) (w : World V E) (scope : Scope V) (pat : List (Seq (Leaf V))) (q : Quant) (mode : VMode) :
    R (World V E × ApiOut) := do
  match ← touchAll P w ((verifyLeaves scope pat).map fun l => (l.m, l.slot)) with
  | (w1, false) => .done (w1, .threw)
  | (w1, true) =>
    if !allAlive w1 (scope.source pat).mocks then .ub
    else
      match Expectation.init.quant q with
      | none => .done (w1, .threw)
      | some e =>
        match mode with
        | .stmt true => .done (w1, .skipped)
        | .stmt false => do
          match ← verifyExpectation P w1 scope pat e with
          | (_, w2, some evt) => .done (w2.fire evt, .verdict false)
          | (_, w2, none) => .done (w2, .verdict true)
        | .asBool => do
          match ← verifyExpectation P w1 scope pat e with
          | (_, w2, some _) => .done (w2, .verdict false)
          | (_, w2, none) => .done (w2, .verdict true)

/-- `VerifyNoOtherInvocationsExpectation::VerifyExpectation` (include/fakeit/VerifyNoOtherInvocationsVerificationProgress.hpp 59-81,
first run): the event, if any unverified invocation exists. -/
def noOther (P : Prog V E) (w : World V E) (srcs : List (Source V)) : Option (Event V) :=
  let actual := (aggregate srcs).collect P w []
  let unverified := actual.filter fun i => !i.verified
  if unverified.length > 0 then some (.noMoreInvocations (sortByOrder actual) (sortByOrder unverified)) else none

/-- A whole `VerifyNoOtherInvocations(...)` statement (include/fakeit/VerifyNoOtherInvocationsVerificationProgress.hpp 25-31, 98-125). -/
def noOtherStmt (P : Prog V E) (w : World V E) (srcs : List (Source V)) (mode : VMode) : R (World V E × ApiOut) := do
  match ← touchAll P w (((aggregate srcs).leaves).map fun l => (l.m, l.slot)) with
  | (w1, false) => .done (w1, .threw)
  | (w1, true) =>
    if !allAlive w1 (aggregate srcs).mocks then .ub
    else
      match mode with
      | .stmt true => .done (w1, .skipped)
      | .stmt false =>
        match noOther P w1 srcs with
        | some evt => .done (w1.fire evt, .verdict false)
        | none => .done (w1, .verdict true)
      | .asBool =>
        match noOther P w1 srcs with
        | some _ => .done (w1, .verdict false)
        | none => .done (w1, .verdict true)

/-! ## The API as one function -/

/-- One API operation (dispatch only; see the constructors of `Api`) (the places cited at `Api` and at the functions called here, e.g. include/fakeit/WhenFunctor.hpp 82-87). -/
def apiStep (P : Prog V E) (w : World V E) : Api V E → R (World V E × ApiOut)
  | .newMock cls => .done ({ w with mocks := w.mocks ++ [Mock.mk' cls (P.cls cls) true] }, .mockId w.mocks.length)
  | .newSpy cls => .done ({ w with mocks := w.mocks ++ [Mock.mk' cls (P.cls cls) false] }, .mockId w.mocks.length)
  | .destroy m =>
    match w.mock? m with
    | none => .ub
    | some _ => .done (w.updMock m Mock.destroy, .unit)
  | .touch m slot => do
    match ← touch P w m slot with
    | none => .done (w, .threw)
    | some w' => .done (w', .unit)
  | .when_ t acts uncaught => stubOne P w t acts uncaught
  | .fake ts => stubMany P w ts .dflt
  | .spy move ts => stubMany P w ts (.deleg move)
  | .assign t f => stubOne P w t [.forever f] false
  | .stubData m cell v =>
    match w.mock? m with
    | none => .ub
    | some k =>
      if cell < k.data.length then
        .done (w.updMock m fun k => { k with data := k.data.set cell v, members := k.members ++ [cell] }, .unit)
      else .ub
  | .writeData m cell v =>
    match w.mock? m with
    | none => .ub
    | some k =>
      if cell < k.data.length then .done (w.updMock m fun k => { k with data := k.data.set cell v }, .unit) else .ub
  | .reset m =>
    match w.mock? m with
    | none => .ub
    | some _ => .done (w.updMock m Mock.reset, .unit)
  | .clear m =>
    match w.mock? m with
    | none => .ub
    | some _ => .done (w.updMock m Mock.clear, .unit)
  | .write a v => .done (w.write a v, .unit)
  | .verify scope pat q mode => verifyStmt P w scope pat q mode
  | .verifyNoOther srcs mode => noOtherStmt P w srcs mode

end FakeIt
