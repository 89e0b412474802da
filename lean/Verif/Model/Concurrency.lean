import Verif.Model.Result
/-!
# Ordinals when several threads call mocked methods (include/fakeit/Invocation.hpp 23-26, include/fakeit/RecordedMethodBody.hpp 126-129)

Only the ordinal counter is shared here. The other shared data (the vectors of recorded invocations) is not protected by the library and is not part of this
model.
-/
namespace FakeIt

/-- One thread: how many calls it has begun, and its unfinished calls, innermost first: the number of the call and whether it has its ordinal already
(`handleMethodInvocation` takes it first, include/fakeit/RecordedMethodBody.hpp 126-129; a callback of an action may call again before it ends). -/
structure CThread where
  begun : Nat := 0
  stack : List (Nat × Bool) := []

/-- The counter (`static std::atomic_uint invocationOrdinal{0}`, include/fakeit/Invocation.hpp 24) and the threads. -/
structure CState where
  counter : Nat := 0
  threads : Nat → CThread := fun _ => {}

/-- What a thread does next (the steps of include/fakeit/Invocation.hpp 23-26). -/
inductive CMove where
  /-- calls a mocked method -/
  | enter
  /-- executes `++invocationOrdinal` (include/fakeit/Invocation.hpp 25) -/
  | take
  /-- finishes the innermost call -/
  | leave

/-- What is seen of a step: thread, number of the call within the thread, the ordinal (include/fakeit/Invocation.hpp 25). -/
inductive CEvent where
  | entered (t k : Nat)
  | took (t k o : Nat)
  | left (t k : Nat)
  deriving DecidableEq

/-- A thread's new state (plumbing) (include/fakeit/Invocation.hpp 23-26). -/
def CState.setThread (s : CState) (t : Nat) (x : CThread) : CState := { s with threads := fun u => if u = t then x else s.threads u }

/-- One atomic step of thread `t`; `none` if the thread cannot do that now: the ordinal is taken first thing in a call, and once
(include/fakeit/RecordedMethodBody.hpp 127). The increment is atomic and wraps at 2^32 (`unsigned int`). -/
def cstep (s : CState) (t : Nat) : CMove → Option (CState × CEvent)
  | .enter =>
    let x := s.threads t
    match x.stack with
    | (_, false) :: _ => none
    | st => some (s.setThread t { begun := x.begun + 1, stack := (x.begun, false) :: st }, .entered t x.begun)
  | .take =>
    let x := s.threads t
    match x.stack with
    | (k, false) :: st =>
      let o := (s.counter + 1) % 2 ^ 32
      some ({ s.setThread t { x with stack := (k, true) :: st } with counter := o }, .took t k o)
    | _ => none
  | .leave =>
    let x := s.threads t
    match x.stack with
    | (k, true) :: st => some (s.setThread t { x with stack := st }, .left t k)
    | _ => none

end FakeIt
