import Verif.Model.Result
/-!
# Exceptions thrown anywhere during a call

The code of the user and the allocator take part in a call at many places: arguments are copied, matchers are asked, returned values are copied,
callbacks run, arguments are printed, memory is allocated.  Each of these may throw.  Here they are counted: the n-th of them throws `th n`, if that is an
exception.  The objects that the library constructs and destroys and the memory it allocates are counted too; destroying what does not exist is undefined.

Not modelled here: code of the user that itself uses the library (see `Model/Machine.lean`, `Model/Predicates.lean`, `Model/Handlers.lean`), destructors that throw.
-/
namespace FakeIt.Throwing

/-- Why memory is allocated during a call: the record of the call (include/fakeit/RecordedMethodBody.hpp 129), its reference count (132), its place in the list of
calls (138), the `std::function` of the clean-up of the action and its copy (include/fakeit/ActionSequence.hpp 45, 52), the place of the used action (49), the
`std::function` that puts the entry of the table back and its copy (include/mockutils/DynamicProxy.hpp 184-186, include/mockutils/Finally.hpp 24-26). -/
inductive Why where
  | record | count | place | clause | clauseCopy | used | swapper | swapperCopy
  deriving DecidableEq, Repr

/-- What may throw: the copy of an argument into the record (include/fakeit/ActualInvocation.hpp 38), the question to the matchers of a stubbing
(include/fakeit/RecordedMethodBody.hpp 75), the copy or construction of the returned value and the callback of the user (include/fakeit/Action.hpp 45, 67, 83, 99), the copy of an
argument for the original method (include/fakeit/MockImpl.hpp 190, 211), the original method itself, those who handle events (include/fakeit/RecordedMethodBody.hpp 146), the
formatting of the event, which prints arguments (147), an allocation. -/
inductive Op where
  | arg (i : Nat)
  | ask (h : Nat)
  | result
  | body
  | param (i : Nat)
  | original
  | told
  | print
  | memory (w : Why)
  deriving DecidableEq, Repr

/-- What leaves a piece of code as an exception: one that came from outside of the library, or the library's own
(include/fakeit/FakeitExceptions.hpp 27-55). -/
inductive Exc (X : Type) where
  | user (x : X)
  | noMore
  | unexpected
  deriving DecidableEq, Repr

/-- How a piece of code ends; `dead`: an exception leaves a destructor and `std::terminate` is called. (C++ semantics used by every file cited here, e.g.
include/mockutils/Finally.hpp 32-34.) -/
inductive Res (X α : Type) where
  | ok (a : α)
  | exc (e : Exc X)
  | dead
  deriving DecidableEq, Repr

/-- What an action does (include/fakeit/Action.hpp 31-108, include/fakeit/StubbingProgress.hpp 44-309): return something that needs no code of the user, copy or construct a value, call a function of
the user, call the original method with copied or moved arguments. -/
inductive Kind where
  | plain
  | ret
  | fn
  | spy (params : List Nat)
  deriving DecidableEq, Repr

/-- An action and how often it may still be used; `none`: for ever (include/fakeit/Action.hpp 52-54, 57-108). -/
structure Act where
  kind : Kind
  times : Option Int
  deriving DecidableEq, Repr

/-- One mocked method and the world around it. `live`: the objects of class type that exist; `next`: the name of the next one; `blocks`: the records of calls that are allocated; `hist`: `_actualInvocations`, each
with the objects in it; `stubs`: the stubbings, newest first, each with its actions before the sentinel (include/fakeit/RecordedMethodBody.hpp 62-63, include/fakeit/ActionSequence.hpp 87-88);
`faked`: the entry of the table is the library's (include/mockutils/DynamicProxy.hpp 178-187); `ordinal`: the last number given to a call (include/fakeit/Invocation.hpp 23-26); `log`: what the user and the allocator did. -/
structure St where
  live : List Nat
  next : Nat
  blocks : Nat
  hist : List (List Nat)
  stubs : List (List Act)
  faked : Bool
  ordinal : Nat
  log : List Op
  deriving DecidableEq, Repr

/-- A call: the arguments that are copied into the record, in the order of construction, and the answers of the matchers of each stubbing
(include/fakeit/ActualInvocation.hpp 36-40, include/fakeit/RecordedMethodBody.hpp 71-81). -/
structure Call where
  args : List Nat
  accepts : Nat → Bool

variable {X : Type} (th : Nat → Option X)

/-- Something that may throw (all the places cited at `Op`) (e.g. include/fakeit/ActualInvocation.hpp 38). -/
def op (o : Op) (s : St) : Res X Unit × St :=
  let s' := { s with log := s.log ++ [o] }
  match th s.log.length with
  | none => (.ok (), s')
  | some x => (.exc (.user x), s')

/-- Something that may throw and otherwise makes an object (include/fakeit/ActualInvocation.hpp 38, include/fakeit/MockImpl.hpp 190, include/fakeit/Action.hpp 45). -/
def make (o : Op) (s : St) : Res X Nat × St :=
  match op th o s with
  | (.ok _, s) => (.ok s.next, { s with live := s.live ++ [s.next], next := s.next + 1 })
  | (.exc e, s) => (.exc e, s)
  | (.dead, s) => (.dead, s)

/-- The destructor of an object (of the tuple in include/fakeit/ActualInvocation.hpp 67, of the parameters in include/fakeit/MockImpl.hpp 190). -/
def destroy (id : Nat) (s : St) : R St :=
  if id ∈ s.live then .done { s with live := s.live.erase id } else .ub

/-- The destructors of several objects (same places as `destroy`) (e.g. include/fakeit/RecordedMethodBody.hpp 122-124). -/
def destroyAll : List Nat → St → R St
  | [], s => .done s
  | id :: ids, s => destroy id s >>= destroyAll ids

/-- Several objects, one after the other; if one cannot be made, those that exist are destroyed again, the last one first (tuple construction in
include/fakeit/ActualInvocation.hpp 38, parameters in include/fakeit/MockImpl.hpp 190, 211). `acc`: those made so far, the last one first. -/
def makeAll (mk : Nat → Op) : List Nat → List Nat → St → R (Res X (List Nat) × St)
  | [], acc, s => .done (.ok acc.reverse, s)
  | i :: is, acc, s =>
    match make th (mk i) s with
    | (.ok id, s) => makeAll mk is (id :: acc) s
    | (.exc e, s) => destroyAll acc s >>= fun s => .done (.exc e, s)
    | (.dead, s) => .done (.dead, s)

/-- The memory of a record is given back (include/fakeit/RecordedMethodBody.hpp 129, 132). -/
def free (s : St) : R St :=
  match s.blocks with
  | 0 => .ub
  | n + 1 => .done { s with blocks := n }

/-- The last `shared_ptr` to a record is gone: its objects are destroyed and the memory is given back (include/fakeit/RecordedMethodBody.hpp 131-132). -/
def release (ids : List Nat) (s : St) : R St := destroyAll ids.reverse s >>= free

/-- `getInvocationHandlerForActualArgs` (include/fakeit/RecordedMethodBody.hpp 71-81): the stubbings are asked, newest first, until one accepts. `n`: those not asked yet, `h`: the next one. -/
def pick (accepts : Nat → Bool) : Nat → Nat → St → Res X (Option Nat) × St
  | 0, _, s => (.ok none, s)
  | n + 1, h, s =>
    match op th (.ask h) s with
    | (.ok _, s) => if accepts h then (.ok (some h), s) else pick accepts n (h + 1) s
    | (.exc e, s) => (.exc e, s)
    | (.dead, s) => (.dead, s)

/-- The result of `make` as the result of an action (include/fakeit/Action.hpp 45). -/
def some' : Res X Nat × St → R (Res X (Option Nat) × St)
  | (.ok id, s) => .done (.ok (some id), s)
  | (.exc e, s) => .done (.exc e, s)
  | (.dead, s) => .done (.dead, s)

/-- The original method with its parameters (include/fakeit/MockImpl.hpp 190, 211): parameters, body, destruction of the parameters. -/
def original (params : List Nat) (s : St) : R (Res X (Option Nat) × St) :=
  makeAll th .param params [] s >>= fun
    | (.ok ps, s) =>
      let (r, s) := make th .original s
      destroyAll ps.reverse s >>= fun s => some' (r, s)
    | (.exc e, s) => .done (.exc e, s)
    | (.dead, s) => .done (.dead, s)

/-- `createRaiiMethodSwapper` and the call behind it (include/mockutils/DynamicProxy.hpp 178-187, include/fakeit/MockImpl.hpp 188-191, 209-212): the entry of the table is set to
the original method *before* the object that puts it back exists. -/
def viaOriginal (params : List Nat) (s : St) : R (Res X (Option Nat) × St) :=
  let before := s.faked
  let s := { s with faked := false }
  match op th (.memory .swapper) s with
  | (.exc e, s) => .done (.exc e, s)
  | (.dead, s) => .done (.dead, s)
  | (.ok _, s) =>
    match op th (.memory .swapperCopy) s with
    | (.exc e, s) => .done (.exc e, s)
    | (.dead, s) => .done (.dead, s)
    | (.ok _, s) => original th params s >>= fun (r, s) => .done (r, { s with faked := before })

/-- `Action::invoke` (include/fakeit/Action.hpp 43-46, 66-68, 82-84, 98-100) after the count was taken down. -/
def invoke (k : Kind) (s : St) : R (Res X (Option Nat) × St) :=
  match k with
  | .plain => .done (.ok none, s)
  | .ret => some' (make th .result s)
  | .fn => some' (make th .body s)
  | .spy params => viaOriginal th params s

/-- `times--` (include/fakeit/Action.hpp 44). -/
def Act.tick (a : Act) : Act := { a with times := a.times.map (· - 1) }

/-- `isDone` (include/fakeit/Action.hpp 48-50, 70-72, 86-88, 102-104). -/
def Act.isDone (a : Act) : Bool := a.times == some 0

/-- The clean-up in the destructor of `Finally` (include/fakeit/ActionSequence.hpp 45-52): a used up action is taken from the list, then stored with the used ones; if the latter
fails the exception cannot leave the destructor. `a`: the action that was run. -/
def cleanUp (h : Nat) (a : Act) (r : Res X (Option Nat)) (s : St) : Res X (Option Nat) × St :=
  if a.isDone then
    let s := { s with stubs := s.stubs.modify h List.tail }
    match op th (.memory .used) s with
    | (.ok _, s) => (r, s)
    | (_, s) => (.dead, s)
  else (r, s)

/-- The action returns or throws, so that the destructor of `Finally` runs (include/fakeit/ActionSequence.hpp 52-53). After `std::terminate` nothing does. -/
def leave (h : Nat) (a : Act) : Res X (Option Nat) × St → R (Res X (Option Nat) × St)
  | (.dead, s) => .done (.dead, s)
  | (.ok r, s) => .done (cleanUp th h a (.ok r) s)
  | (.exc e, s) => .done (cleanUp th h a (.exc e) s)

/-- `ActionSequence::handleMethodInvocation` (include/fakeit/ActionSequence.hpp 40-54) of the stubbing `h`. -/
def answer (h : Nat) (s : St) : R (Res X (Option Nat) × St) :=
  match s.stubs[h]? with
  | none => .ub
  | some script =>
    match op th (.memory .clause) s with
    | (.exc e, s) => .done (.exc e, s)
    | (.dead, s) => .done (.dead, s)
    | (.ok _, s) =>
      match op th (.memory .clauseCopy) s with
      | (.exc e, s) => .done (.exc e, s)
      | (.dead, s) => .done (.dead, s)
      | (.ok _, s) =>
        match script with
        | [] => .done (.exc .noMore, s)
        | a :: rest =>
          let s := { s with stubs := s.stubs.set h (a.tick :: rest) }
          invoke th a.kind s >>= leave th h a.tick

/-- The end of a call that nothing answers (include/fakeit/RecordedMethodBody.hpp 145-149): the event is handled, formatted and thrown. -/
def unexpected (s : St) : Res X (Option Nat) × St :=
  match op th .told s with
  | (.exc e, s) => (.exc e, s)
  | (.dead, s) => (.dead, s)
  | (.ok _, s) =>
    match op th .print s with
    | (.exc e, s) => (.exc e, s)
    | (.dead, s) => (.dead, s)
    | (.ok _, s) => (.exc .unexpected, s)

/-- The end of a call whose record is in no list: it is destroyed (include/fakeit/RecordedMethodBody.hpp 131-132). After `std::terminate` nothing is. -/
def dropping (ids : List Nat) : Res X (Option Nat) × St → R (Res X (Option Nat) × St)
  | (.dead, s) => .done (.dead, s)
  | (.ok r, s) => release ids s >>= fun s => .done (.ok r, s)
  | (.exc e, s) => release ids s >>= fun s => .done (.exc e, s)

/-- The `catch` clause for "no more actions" and what comes behind it (include/fakeit/RecordedMethodBody.hpp 139-149). -/
def caught : Res X (Option Nat) × St → R (Res X (Option Nat) × St)
  | (.exc .noMore, s) => .done (unexpected th s)
  | (.exc e, s) => .done (.exc e, s)
  | (.ok r, s) => .done (.ok r, s)
  | (.dead, s) => .done (.dead, s)

/-- The part of `handleMethodInvocation` after the matcher was found (include/fakeit/RecordedMethodBody.hpp 136-149). -/
def matched (ids : List Nat) (h : Nat) (s : St) : R (Res X (Option Nat) × St) :=
  match op th (.memory .place) s with
  | (.exc e, s) => dropping ids (.exc e, s)
  | (.dead, s) => .done (.dead, s)
  | (.ok _, s) =>
    answer th h { s with hist := s.hist ++ [ids] } >>= caught th

/-- The part of `handleMethodInvocation` after the record was made (include/fakeit/RecordedMethodBody.hpp 131-149). -/
def recorded (c : Call) (ids : List Nat) (s : St) : R (Res X (Option Nat) × St) :=
  match op th (.memory .count) s with
  | (.exc e, s) => dropping ids (.exc e, s)
  | (.dead, s) => .done (.dead, s)
  | (.ok _, s) =>
    match pick th c.accepts s.stubs.length 0 s with
    | (.exc e, s) => dropping ids (.exc e, s)
    | (.dead, s) => .done (.dead, s)
    | (.ok none, s) => dropping ids (unexpected th s)
    | (.ok (some h), s) => matched th ids h s

/-- After the constructor of the record: if it threw, the memory of the record is given back by the `new` expression (include/fakeit/RecordedMethodBody.hpp 129). -/
def constructed (c : Call) : Res X (List Nat) × St → R (Res X (Option Nat) × St)
  | (.exc e, s) => free s >>= fun s => .done (.exc e, s)
  | (.dead, s) => .done (.dead, s)
  | (.ok ids, s) => recorded th c ids s

/-- `handleMethodInvocation` (include/fakeit/RecordedMethodBody.hpp 126-150). -/
def call (c : Call) (s : St) : R (Res X (Option Nat) × St) :=
  let s := { s with ordinal := s.ordinal + 1 }
  match op th (.memory .record) s with
  | (.exc e, s) => .done (.exc e, s)
  | (.dead, s) => .done (.dead, s)
  | (.ok _, s) =>
    makeAll th .arg c.args [] { s with blocks := s.blocks + 1 } >>= constructed th c

/-- A test that calls the method again and again and catches what is thrown, keeping what is returned (`out`); `none`: it was terminated. A call through an entry that is not the library's is not the library's matter: it
stands for nothing here (include/mockutils/DynamicProxy.hpp 183). -/
def calls : List Call → List Nat → St → R (Option (List Nat × St))
  | [], out, s => .done (some (out, s))
  | c :: cs, out, s =>
    if s.faked then
      call th c s >>= fun
        | (.ok r, s) => calls cs (out ++ r.toList) s
        | (.exc _, s) => calls cs out s
        | (.dead, _) => .done none
    else calls cs out s

/-- The list of calls is destroyed with the mock or emptied by `ClearInvocationHistory` (include/fakeit/RecordedMethodBody.hpp 63, 122-124). -/
def forget : List (List Nat) → St → R St
  | [], s => .done s
  | ids :: rest, s => release ids s >>= forget rest

/-- All records are destroyed (include/fakeit/RecordedMethodBody.hpp 63, 122-124). -/
def clear (s : St) : R St := forget s.hist { s with hist := [] }

end FakeIt.Throwing
