import Verif.Model.Machine
/-!
# Calls of mocked methods by several threads (include/fakeit/RecordedMethodBody.hpp 126-150, include/fakeit/ActionSequence.hpp 40-54)

A call of `callSlot`, cut into the steps between which another thread may run.  The threads share the ordinal counter (atomic, include/fakeit/Invocation.hpp
23-26), the list of events, and whatever methods they both call.  Described are calls with by-value arguments of stubbed or spied methods whose callables
do not use mocks themselves; everything else gives `none`.  A call keeps what it has read so far in its `Phase`.  Steps are executed one at a time: what the
hardware and the optimizer make of unprotected simultaneous accesses to the same object is not modelled.
-/
namespace FakeIt.Threads

variable {V E : Type}

/-- One call a thread makes: method `off` of mock `m`'s object (include/mockutils/MethodProxyCreator.hpp 44-56, include/fakeit/RecordedMethodBody.hpp 126-150). -/
structure Job (V : Type) where
  m : MockId
  off : Nat
  args : List V
  deriving DecidableEq, Repr

/-- Where a running call is.
`entered`: has its ordinal (include/fakeit/RecordedMethodBody.hpp 127-131); `found`: has chosen the stubbing at address `h` (133-137);
`recorded`: has been recorded (138-140); `acting`: has taken the first action, object number `i` (include/fakeit/ActionSequence.hpp 42-44), and counted it;
`swapped`: the original method is in the virtual table, `fake` was there before (include/mockutils/DynamicProxy.hpp 177-187);
`running`: a user callable (`own`: its parameters are the recorded arguments) or the original method; `back` is the entry to put back;
`acted`: the action has ended with `o`; `left`: the action sequence has been updated (include/fakeit/ActionSequence.hpp 45-52);
`lost`: no stubbing accepts the call (include/fakeit/RecordedMethodBody.hpp 145-149); `finished`: back at the caller. -/
inductive Phase (V E : Type) where
  | entered (inv : Invocation V)
  | found (inv : Invocation V) (h : Addr)
  | recorded (inv : Invocation V) (h : Addr)
  | acting (inv : Invocation V) (h : Addr) (i : Nat) (act : Act V E)
  | swapped (inv : Invocation V) (h : Addr) (i : Nat) (fake : Code)
  | running (inv : Invocation V) (h : Addr) (i : Nat) (own : Bool) (back : Option Code) (b : Body V E)
  | acted (inv : Invocation V) (h : Addr) (i : Nat) (back : Option Code) (o : Outcome V E)
  | left (inv : Invocation V) (o : Outcome V E)
  | lost (inv : Invocation V)
  | finished (o : Outcome V E)

/-- What the calls of one method write: the `RecordedMethodBody` (include/fakeit/RecordedMethodBody.hpp 28-171) and the method's entry in the virtual table
(include/mockutils/DynamicProxy.hpp 177-187). -/
structure Cell (V E : Type) where
  body : MBody V E
  entry : Code

/-- What a call reads and no call writes: the class, the original entry of the table (include/mockutils/DynamicProxy.hpp 209-216), the arguments. -/
structure Site (V : Type) where
  off : Nat
  cls : ClassDecl V
  orig : Code
  args : List V

/-- The new state of the stubbing at address `h` (plumbing for include/fakeit/ActionSequence.hpp 40-54). -/
def Cell.updSeq (c : Cell V E) (h : Addr) (f : ActionSeq V E → ActionSeq V E) : Cell V E :=
  { c with body := { c.body with handlers := c.body.handlers.map fun x => if x.addr == h then { x with seq := f x.seq } else x } }

/-- The new state of the recorded call `uid` (plumbing) (include/fakeit/RecordedMethodBody.hpp 138). -/
def Cell.updInv (c : Cell V E) (uid : Nat) (f : Invocation V → Invocation V) : Cell V E :=
  { c with body := { c.body with invs := c.body.invs.map fun i => if i.uid == uid then f i else i } }

/-- One step of a running call (`entered`, `found`, `lost`, `left`: include/fakeit/RecordedMethodBody.hpp 126-150; `recorded`, `acted`:
include/fakeit/ActionSequence.hpp 40-54; `acting`: include/fakeit/Action.hpp 43-46, 66-68, 82-84, 98-100, include/mockutils/DefaultValue.hpp;
`swapped`, `acted`: include/fakeit/MockImpl.hpp 183-213, include/mockutils/DynamicProxy.hpp 177-187).  It works on the method's `Cell` only. -/
def advance (P : Prog V E) (st : Site V) (c : Cell V E) : Phase V E → Option (Cell V E × List (Event V) × Phase V E)
  | .entered inv =>
    match findHandler (fun _ => P.void) c.body.handlers inv with
    | none => some (c, [], .lost inv)
    | some h => some (c, [], .found { inv with matcher := some h.matcher.addr } h.addr)
  | .found inv h => some ({ c with body := { c.body with invs := c.body.invs ++ [inv] } }, [], .recorded inv h)
  | .recorded inv h =>
    match c.body.handlers.find? (·.addr == h) with
    | none => none
    | some hd =>
      match hd.seq.front with
      | .done (i, act) => some (c.updSeq h (·.tick i), [], .acting inv h i act)
      | _ => none
  | .acting inv h i (.rep _ f) => some (c, [], .running inv h i true none (f.code P st.args))
  | .acting inv h i (.forever f) => some (c, [], .running inv h i true none (f.code P st.args))
  | .acting inv h i .dflt =>
    match st.cls.dflt st.off with
    | .value v => some (c, [], .acted inv h i none (.ret v))
    | .throws => some (c, [], .acted inv h i none (.exc P.dfltExc))
    | .nullRef => none
  | .acting inv h i (.deleg move) =>
    let c1 := if move then c.updInv inv.uid (fun x => { x with args := moveArgs P x.args }) else c
    if st.cls.dtor = some st.off then some (c1, [], .acted inv h i none (.ret P.void))
    else some ({ c1 with entry := st.orig }, [], .swapped inv h i c.entry)
  | .acting inv h i .noMore => some (c, [], .acted inv h i none .noMore)
  | .swapped inv h i fake =>
    match c.entry with
    | .native f => some (c, [], .running inv h i false (some fake) (P.fn f st.args))
    | _ => none
  | .running inv h i _ back (.done o) => some (c, [], .acted inv h i back o)
  | .running inv h i own back (.setArg n v b) =>
    some (if own && decide (n < st.args.length) then c.updInv inv.uid (fun x => { x with args := x.args.set n (.val v) }) else c, [],
      .running inv h i own back b)
  | .running _ _ _ _ _ (.call _ _ _ _) => none
  | .running _ _ _ _ _ (.api _ _) => none
  | .acted inv h i (some fake) o => some ({ c with entry := fake }, [], .acted inv h i none o)
  | .acted inv h i none o =>
    match c.body.handlers.find? (·.addr == h) with
    | none => none
    | some hd =>
      match hd.seq.finallyClause i with
      | .done s => some (c.updSeq h (fun _ => s), [], .left inv o)
      | _ => none
  | .left inv .noMore => some (c, [.unexpectedCall .unmatched inv], .finished .unexpected)
  | .left _ o => some (c, [], .finished o)
  | .lost inv => some (c, [.unexpectedCall .unmatched inv], .finished .unexpected)
  | .finished _ => none

/-- A thread: the calls it still has to make, the call it is in, how its calls have ended so far (include/mockutils/MethodProxyCreator.hpp 44-56, include/fakeit/RecordedMethodBody.hpp 126-150). -/
structure Thread (V E : Type) where
  jobs : List (Job V)
  cur : Option (Job V × Phase V E)
  outs : List (Outcome V E)

/-- The mocks and the threads (include/fakeit/RecordedMethodBody.hpp 28-171). -/
structure Config (V E : Type) where
  w : World V E
  ts : List (Thread V E)

/-- The cell of a method, if it has been stubbed (include/mockutils/DynamicProxy.hpp 138-143). -/
def cell? (w : World V E) (m : MockId) (off : Nat) : Option (Cell V E) :=
  match w.mocks[m]? with
  | none => none
  | some k =>
    match k.body? off, k.vt[off]? with
    | some b, some e => some { body := b, entry := e }
    | _, _ => none

/-- The new contents of a method's cell (plumbing for include/fakeit/RecordedMethodBody.hpp's member updates and include/mockutils/FakeObject.hpp 66-69). -/
def putCell (w : World V E) (m : MockId) (off : Nat) (c : Cell V E) : World V E :=
  w.updMock m fun k => { k with vt := k.vt.set off c.entry, mocks := k.mocks.set off (some c.body) }

/-- The read-only part (include/fakeit/MockImpl.hpp 183-213, 250-258). -/
def site? (P : Prog V E) (w : World V E) (j : Job V) : Option (Site V) :=
  match w.mocks[j.m]? with
  | none => none
  | some k => (k.orig[j.off]?).map fun o => { off := j.off, cls := P.cls k.cls, orig := o, args := j.args }

/-- The beginning of a call (include/mockutils/MethodProxyCreator.hpp 44-56, include/mockutils/DynamicProxy.hpp 55-59, include/fakeit/RecordedMethodBody.hpp
126-131): the entry of the virtual table is a proxy, its number leads to this method's body, the call takes its ordinal. -/
def enter (w : World V E) (j : Job V) : Option (World V E × Phase V E) :=
  match w.mocks[j.m]? with
  | none => none
  | some k =>
    if !k.alive && k.owner then none
    else
      match k.vt[j.off]? with
      | some (.proxy id) =>
        if Mock.getOffset k.offsets id = j.off then
          match k.body? j.off with
          | none => none
          | some b =>
            let w1 := w.bumpInv
            some (w1, .entered { uid := w1.invTotal, ordinal := w1.lastOrdinal, method := b.method, args := j.args.map .val, verified := false,
                                 matcher := none })
        else none
      | _ => none

/-- Thread number `t` makes one step; `none`: it has nothing left to do, or what it does is not described here or undefined (include/mockutils/MethodProxyCreator.hpp 44-56, include/fakeit/RecordedMethodBody.hpp 126-150). -/
def tstep (P : Prog V E) (c : Config V E) (t : Nat) : Option (Config V E) :=
  match c.ts[t]? with
  | none => none
  | some th =>
    match th.cur with
    | none =>
      match th.jobs with
      | [] => none
      | j :: js =>
        match enter c.w j with
        | none => none
        | some (w1, ph) => some { w := w1, ts := c.ts.set t { th with jobs := js, cur := some (j, ph) } }
    | some (_, .finished o) => some { c with ts := c.ts.set t { th with cur := none, outs := th.outs ++ [o] } }
    | some (j, ph) =>
      match cell? c.w j.m j.off, site? P c.w j with
      | some x, some st =>
        match advance P st x ph with
        | none => none
        | some (x1, evs, ph1) =>
          some { w := { putCell c.w j.m j.off x1 with log := c.w.log ++ evs }, ts := c.ts.set t { th with cur := some (j, ph1) } }
      | _, _ => none

/-- The threads take turns as the scheduler says (include/mockutils/MethodProxyCreator.hpp 44-56, include/fakeit/RecordedMethodBody.hpp 126-150). -/
def trun (P : Prog V E) : Config V E → List Nat → Option (Config V E)
  | c, [] => some c
  | c, t :: ts => (tstep P c t).bind fun c1 => trun P c1 ts

/-- The threads at the start (include/mockutils/MethodProxyCreator.hpp 44-56, include/fakeit/RecordedMethodBody.hpp 126-150). -/
def begin_ (w : World V E) (progs : List (List (Job V))) : Config V E := { w := w, ts := progs.map fun js => { jobs := js, cur := none, outs := [] } }

/-- All threads are through (include/mockutils/MethodProxyCreator.hpp 44-56, include/fakeit/RecordedMethodBody.hpp 126-150). -/
def Config.over (c : Config V E) : Prop := ∀ th ∈ c.ts, th.jobs = [] ∧ th.cur = none

end FakeIt.Threads
