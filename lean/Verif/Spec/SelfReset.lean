import Verif.Model.Machine
/-!
# Callbacks that reset or destroy the mock whose call they answer (C80)
-/
namespace FakeIt.Spec
variable {V E : Type}

/-- Code that resets or destroys mock `m` itself, whatever happens on the way. -/
inductive EndsMock (m : MockId) : Body V E → Prop where
  | reset (k : ApiOut → Body V E) : EndsMock m (.api (.reset m) k)
  | destroy (k : ApiOut → Body V E) : EndsMock m (.api (.destroy m) k)
  | api (a : Api V E) (k : ApiOut → Body V E) : (∀ o, EndsMock m (k o)) → EndsMock m (.api a k)
  | setArg (i : Nat) (v : V) (k : Body V E) : EndsMock m k → EndsMock m (.setArg i v k)
  | call (m' off : Nat) (as : List (Arg V)) (k : Outcome V E → Body V E) : (∀ o, EndsMock m (k o)) → EndsMock m (.call m' off as k)

/-- The same without calls before. -/
inductive EndsEarly (m : MockId) : Body V E → Prop where
  | reset (k : ApiOut → Body V E) : EndsEarly m (.api (.reset m) k)
  | destroy (k : ApiOut → Body V E) : EndsEarly m (.api (.destroy m) k)
  | api (a : Api V E) (k : ApiOut → Body V E) : (∀ o, EndsEarly m (k o)) → EndsEarly m (.api a k)
  | setArg (i : Nat) (v : V) (k : Body V E) : EndsEarly m k → EndsEarly m (.setArg i v k)

/-- The state in which the callback of a call of method `off` of mock `m` starts: the call has been recorded for the stubbing `h`, whose action `i` has one use less. -/
def begun (w : World V E) (m : MockId) (off : Nat) (name : Nat) (args : List (Arg V)) (h : Handler V E) (i : Nat) : World V E :=
  ({ w with invTotal := w.invTotal + 1 }.pushInv m off
    { uid := w.invTotal + 1, ordinal := (w.invTotal + 1) % wrap32, method := name, args := args, verified := false, matcher := some h.matcher.addr }).updSeq m off h.addr
      fun s => { s with objs := s.objs.modify i Act.tick }

end FakeIt.Spec
