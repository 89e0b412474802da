import Verif.Model.ActionSeq
/-!
# Invocation matchers and the choice of a handler
(include/fakeit/invocation_matchers.hpp, include/fakeit/RecordedMethodBody.hpp)
-/
namespace FakeIt

variable {V E : Type}

/-- Reading one element of the recorded argument tuple: a reference element is read through the reference, now
(include/mockutils/type_utils.hpp 36-37). -/
def Arg.deref (heap : Addr → V) : Arg V → V
  | .val v => v
  | .ref a => heap a

/-- The argument values a matcher or callable sees (include/mockutils/TupleDispatcher.hpp 14-58). -/
def derefAll (heap : Addr → V) (args : List (Arg V)) : List V := args.map (Arg.deref heap)

/-- `MatchingLambda` driven by `TupleDispatcher::for_each` (include/fakeit/invocation_matchers.hpp 57-83): the flag starts as
`true`; at each position, left to right, if it is still true it becomes `matcher->matches(arg)`.
`Using` makes the number of matchers equal to the number of parameters at compile time
(include/fakeit/MethodMockingContext.hpp 253-263); a missing matcher or argument, impossible in C++, is a mismatch here. -/
def matchArgs (flag : Bool) : List (V → Bool) → List V → Bool
  | [], [] => flag
  | m :: ms, a :: as => matchArgs (if flag then m a else flag) ms as
  | _, _ => false

/-- `Matcher::matches(ActualInvocation&)` (include/fakeit/invocation_matchers.hpp 37-41, 127-131, 153-155):
the matcher that served the invocation accepts it at once (address comparison), otherwise the arguments decide. `addr = none`
stands for a matcher object created after the invocation (so never equal to its `_matcher`). -/
def matcherMatches (addr : Option Addr) (kind : MatcherKind V) (heap : Addr → V) (inv : Invocation V) : Bool :=
  match kind with
  | .any => true
  | .args ms =>
    if addr.isSome && inv.matcher == addr then true else matchArgs true ms (derefAll heap inv.args)
  | .user p =>
    if addr.isSome && inv.matcher == addr then true else p (derefAll heap inv.args)

/-- `im.getMatcher().matches(invocation)` (include/fakeit/RecordedMethodBody.hpp 76). -/
def Handler.accepts (h : Handler V E) (heap : Addr → V) (inv : Invocation V) : Bool :=
  matcherMatches (some h.matcher.addr) h.matcher.kind heap inv

/-- The loop of `getInvocationHandlerForActualArgs` over a range (include/fakeit/RecordedMethodBody.hpp 72-79). -/
def scanHandlers (heap : Addr → V) (inv : Invocation V) : List (Handler V E) → Option (Handler V E)
  | [] => none
  | h :: rest => if h.accepts heap inv then some h else scanHandlers heap inv rest

/-- `getInvocationHandlerForActualArgs` (include/fakeit/RecordedMethodBody.hpp 71-81): from `rbegin()` to `rend()`, i.e. newest
first. -/
def findHandler (heap : Addr → V) (handlers : List (Handler V E)) (inv : Invocation V) : Option (Handler V E) :=
  scanHandlers heap inv handlers.reverse

end FakeIt
