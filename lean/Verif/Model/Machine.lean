import Verif.Model.Api
/-!
# Virtual calls: the re-entrant machine
-/
namespace FakeIt

variable {V E : Type}

/-- Type of "make a virtual call" (used to tie the recursive knot of the interpreter) (a call arrives at include/mockutils/MethodProxyCreator.hpp 44-56). -/
abbrev CallFn (V E : Type) := World V E → MockId → Nat → List (Arg V) → R (Outcome V E × World V E)

/-- The frame of a running user callable: which recorded invocation its parameters belong to (`none`: the parameters are the callable's own) (include/fakeit/RecordedMethodBody.hpp 126-150, include/fakeit/MockImpl.hpp 183-213). -/
structure Frame where
  m : MockId
  off : Nat
  uid : Nat

/-- Assignment to parameter `i`: a by-value parameter is the element of the recorded tuple (include/mockutils/type_utils.hpp 39-41:
callables get `T&`), a reference parameter is the caller's object. -/
def setArg (w : World V E) (fr : Option Frame) (args : List (Arg V)) (i : Nat) (v : V) : World V E :=
  match args[i]? with
  | none => w
  | some (.ref a) => w.write a v
  | some (.val _) =>
    match fr with
    | none => w
    | some f => w.updInv f.m f.off f.uid fun inv => { inv with args := inv.args.set i (.val v) }

/-- Running a user callable: interpreter of `Body`. `call` is how virtual calls are made (code of the user called from include/fakeit/RecordedMethodBody.hpp 126-150). -/
def runBody (P : Prog V E) (call : CallFn V E) (fr : Option Frame) (args : List (Arg V)) :
    Body V E → World V E → R (Outcome V E × World V E)
  | .done o, w => .done (o, w)
  | .setArg i v k, w => runBody P call fr args k (setArg w fr args i v)
  | .call m off as k, w => do
    let (o, w') ← call w m off as
    runBody P call fr args (k o) w'
  | .api a k, w => do
    let (w', out) ← apiStep P w a
    runBody P call fr args (k out) w'

/-- The code of the function object inside an action (include/fakeit/StubbingProgress.hpp 50-60 `Return`, 107-111 `Throw`,
145-149 `Do`). -/
def Fn.code (P : Prog V E) : Fn V E → List V → Body V E
  | .ret v, _ => .done (.ret v)
  | .thr e, _ => .done (.exc e)
  | .user f, vs => P.fn f vs

/-- `MockImpl::unmocked` (include/fakeit/MockImpl.hpp 273-282): takes an ordinal, fires an `Unmocked` event for an invocation of the
unknown method (id 0 here) without arguments, throws. -/
def unmockedCall (w : World V E) : Outcome V E × World V E :=
  let w1 := w.bumpInv
  let inv : Invocation V :=
    { uid := w1.invTotal, ordinal := w1.lastOrdinal, method := 0, args := [], verified := false, matcher := none }
  (.unexpected, w1.fire (.unexpectedCall .unmocked inv))

/-- `std::forward<arglist>(args)` of by-value arguments leaves moved-from values in the recorded tuple
(include/fakeit/MockImpl.hpp 205-213); reference arguments are unaffected. -/
def moveArgs (P : Prog V E) (args : List (Arg V)) : List (Arg V) :=
  args.map fun a => match a with | .val v => .val (P.movedFrom v) | .ref r => .ref r

/-- `ReturnDelegateValue` around the original method: `createRaiiMethodSwapper`, virtual call, swapper's destructor
(include/fakeit/MockImpl.hpp 183-213, include/mockutils/DynamicProxy.hpp 177-187). The clone's entry is set to the original function,
the method is called virtually on the instance, and on every exit the previous entry is put back.
For the destructor the delegate does nothing (include/fakeit/MockImpl.hpp 250-258). -/
def runDelegate (P : Prog V E) (call : CallFn V E) (w : World V E) (m : MockId) (off : Nat) (args : List (Arg V)) :
    R (Outcome V E × World V E) :=
  match w.mocks[m]? with
  | none => .ub
  | some k =>
    if (P.cls k.cls).dtor = some off then .done (.ret P.void, w)
    else
      match k.vt[off]?, k.orig[off]? with
      | some fakeMethod, some originalMethod => do
        let (o, w') ← call (w.setVt m off originalMethod) m off args
        .done (o, w'.setVt m off fakeMethod)
      | _, _ => .ub

/-- `action.invoke(args)` after `times--` (include/fakeit/Action.hpp 43-46, 66-68, 82-84, 98-100;
include/fakeit/ActionSequence.hpp 66-68; default values: include/mockutils/DefaultValue.hpp). -/
def invokeAct (P : Prog V E) (call : CallFn V E) (w : World V E) (fr : Frame) (args : List (Arg V)) :
    Act V E → R (Outcome V E × World V E)
  | .rep _ f => runBody P call (some fr) args (f.code P (derefAll w.heap args)) w
  | .forever f => runBody P call (some fr) args (f.code P (derefAll w.heap args)) w
  | .dflt =>
    match w.mocks[fr.m]? with
    | none => .ub
    | some k =>
      match (P.cls k.cls).dflt fr.off with
      | .value v => .done (.ret v, w)
      | .throws => .done (.exc P.dfltExc, w)
      | .nullRef => .ub
  | .deleg move =>
    let w1 := if move then w.updInv fr.m fr.off fr.uid (fun i => { i with args := moveArgs P i.args }) else w
    runDelegate P call w1 fr.m fr.off args
  | .noMore => .done (.noMore, w)

/-- What the end of a call uses when its stubbing has been destroyed meanwhile (the mock was reset or destroyed from inside the action). `act` is the action as the call found it, `a` is
the action object now, which the call holds (include/fakeit/ActionSequence.hpp 42); if it is not used up, nothing else is touched, but if it is, an action is erased from the destroyed
vector (46-50). After a `NoMoreRecordedActionException` (here: thrown by user code) the destroyed body's context would be used (include/fakeit/RecordedMethodBody.hpp 145-146).
Simplified: for a delegating action this is undefined here. In the code the method swapper uses the proxy, which is destroyed with the mock (include/mockutils/DynamicProxy.hpp 184-186),
so that is right if the mock was destroyed; if it was reset, the swapper puts an entry into the table whose handler does not exist any more, and it is the next call of
the method that is undefined. -/
def orphanEnd (w : World V E) (act a : Act V E) (o : Outcome V E) : R (World V E) :=
  if a.isDone then .ub
  else
    match act, o with
    | .deleg _, _ => .ub
    | _, .noMore => .ub
    | _, _ => .done w

/-- The action object `i` of the destroyed sequence whose handler had the address `h` (include/fakeit/ActionSequence.hpp 42-44). -/
def World.orphan? (w : World V E) (m : MockId) (off : Nat) (h : Addr) (i : Nat) : Option (Act V E) :=
  (w.mocks[m]?).bind fun k => (k.gone off h).bind fun s => s.objs[i]?

/-- The `finallyClause` in the world (include/fakeit/ActionSequence.hpp 45-52), run when the action `act` has ended with outcome `o`. -/
def worldFinally (w : World V E) (m : MockId) (off : Nat) (h : Addr) (i : Nat) (act : Act V E) (o : Outcome V E) : R (World V E) :=
  match w.handler? m off h with
  | none =>
    match w.orphan? m off h i with
    | none => .ub
    | some a => orphanEnd w act a o
  | some hd => do
    let s ← hd.seq.finallyClause i
    .done (w.updSeq m off h fun _ => s)

/-- `ActionSequence::handleMethodInvocation` (include/fakeit/ActionSequence.hpp 40-54) of handler `h`. -/
def runHandler (P : Prog V E) (call : CallFn V E) (w : World V E) (fr : Frame) (h : Handler V E) (args : List (Arg V)) :
    R (Outcome V E × World V E) := do
  let (i, act) ← h.seq.front
  let (o, w') ← invokeAct P call (w.updSeq fr.m fr.off h.addr fun s => s.tick i) fr args act
  let w'' ← worldFinally w' fr.m fr.off h.addr i act o
  .done (o, w'')

/-- The tail of `RecordedMethodBody::handleMethodInvocation`: fire `Unmatched`, throw
(include/fakeit/RecordedMethodBody.hpp 145-149). -/
def unmatched (w : World V E) (inv : Invocation V) : Outcome V E × World V E :=
  (.unexpected, w.fire (.unexpectedCall .unmatched inv))

/-- `RecordedMethodBody::handleMethodInvocation` (include/fakeit/RecordedMethodBody.hpp 126-150) of method `off` of mock `m`.
The recorded tuple is built from the arguments; the invocation object's address is the (unwrapped) running number.  -/
def handleCall (P : Prog V E) (call : CallFn V E) (w : World V E) (m : MockId) (off : Nat) (b : MBody V E) (args : List (Arg V)) :
    R (Outcome V E × World V E) :=
  let w1 := w.bumpInv
  let inv : Invocation V :=
    { uid := w1.invTotal, ordinal := w1.lastOrdinal, method := b.method, args := args, verified := false, matcher := none }
  match findHandler w1.heap b.handlers inv with
  | none => .done (unmatched w1 inv)
  | some h => do
    let inv' := { inv with matcher := some h.matcher.addr }
    let w2 := w1.pushInv m off inv'
    match ← runHandler P call w2 { m := m, off := off, uid := inv.uid } h args with
    | (.noMore, w3) => .done (unmatched w3 inv')
    | (o, w3) => .done (o, w3)

/-- The code a virtual table entry points to is run (`methodProxyX<id>`: include/mockutils/MethodProxyCreator.hpp 44-56 with
`getInvocatoinHandlerPtrById`, include/mockutils/DynamicProxy.hpp 55-59: an index past the end or a null handler is undefined behaviour;
`VirtualTable::dtor`: include/mockutils/gcc/VirtualTable.hpp 95-104). -/
def runCode (P : Prog V E) (call : CallFn V E) (w : World V E) (m : MockId) (k : Mock V E) (args : List (Arg V)) :
    Code → R (Outcome V E × World V E)
  | .unmocked => .done (unmockedCall w)
  | .unmockedDtor => .done (.ret P.void, w)
  | .dtorThunk =>
    match (P.cls k.cls).dtor with
    | none => .ub
    | some d => call w m d []
  | .proxy id =>
    let off := Mock.getOffset k.offsets id
    match k.body? off with
    | none => .ub
    | some b => handleCall P call w m off b args
  | .native f => runBody P call none args (P.fn f (derefAll w.heap args)) w

/-- A virtual call of method number `off` on mock `m`'s object, with at most `fuel` nested virtual calls.
The object of a destroyed spy still exists (with its original table); that of a destroyed plain mock does not (include/mockutils/MethodProxyCreator.hpp 44-56, include/fakeit/RecordedMethodBody.hpp 126-150, include/fakeit/MockImpl.hpp 250-282). -/
def callSlot (P : Prog V E) : Nat → CallFn V E
  | 0, _, _, _, _ => .oof
  | fuel + 1, w, m, off, args =>
    match w.mocks[m]? with
    | none => .ub
    | some k =>
      if !k.alive && k.owner then .ub
      else
        match k.vt[off]? with
        | none => .ub
        | some c => runCode P (callSlot P fuel) w m k args c

/-- What one step of the main program yields (what tests see of include/mockutils/MethodProxyCreator.hpp 44-56 and of the statements cited at `Api`). -/
inductive OpOut (V E : Type) where
  | call (o : Outcome V E)
  | api (o : ApiOut)
  deriving DecidableEq, Repr

/-- One step of the main program (include/mockutils/MethodProxyCreator.hpp 44-56, and the statements cited at `Api`). -/
def opStep (P : Prog V E) (fuel : Nat) (w : World V E) : Op V E → R (OpOut V E × World V E)
  | .call m off args => do
    let (o, w') ← callSlot P fuel w m off args
    .done (.call o, w')
  | .api a => do
    let (w', o) ← apiStep P w a
    .done (.api o, w')

/-- A whole test program (exceptions are caught by the program between steps) (a list of the steps above, e.g. include/mockutils/MethodProxyCreator.hpp 44-56). -/
def runOps (P : Prog V E) (fuel : Nat) : World V E → List (Op V E) → R (List (OpOut V E) × World V E)
  | w, [] => .done ([], w)
  | w, op :: ops => do
    let (o, w') ← opStep P fuel w op
    let (os, w'') ← runOps P fuel w' ops
    .done (o :: os, w'')

/-- The state when the test starts: no mocks, counters at 0 (counters: include/fakeit/Invocation.hpp 24, include/fakeit/DomainObjects.hpp 28). -/
def World.start (heap : Addr → V) : World V E :=
  { mocks := [], heap := heap, invTotal := 0, methTotal := 0, alloc := 0, log := [] }

end FakeIt
