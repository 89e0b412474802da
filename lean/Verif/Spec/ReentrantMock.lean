import Verif.Spec.AbstractMock
/-!
# Specification: the abstract mock with callbacks that use mocks

`Spec/AbstractMock.lean` describes test programs whose callbacks use no mocks. Here callbacks – functions given to `Do`, and the original methods of spied
objects – may call mocks, stub, verify and create mocks. A call is recorded and the script of its stubbing advances *before* the callback runs; while an original method
runs on behalf of a stubbing, calls of the same method of the same object go straight to the original.

A callback may also reset or destroy the very mock that is answering the call, if the entry of the script it was given in still has uses left (`enduring`; see C80).

`none` stands, in addition to what `AbstractMock` leaves out, for four things a callback may not do: use the very stubbing whose counted action it
is performing (see C06), reset or destroy a mock that is in the middle of answering a call with the last use of an entry or with an original method, say that there are no
more recorded actions when its stubbing is gone, and nest calls deeper than `fuel`.
-/
namespace FakeIt.Spec
variable {V E : Type}

/-- What is going on: the stubbings whose counted action is being performed, the methods whose original is being run for a stubbing, the mocks that are
answering calls with actions that are not enduring. -/
structure Ctx where
  busy : List Nat
  bypass : List (MockId × Nat)
  active : List MockId

/-- Nothing is going on. -/
def Ctx.idle : Ctx := ⟨[], [], []⟩

/-- The recorded call with the given method and number. -/
def isCall (m : MockId) (off n : Nat) (r : Rec V) : Bool := r.meth == some (m, off) && r.number == n

/-- The recorded arguments of one call are changed. -/
def onArgs (s : AState V E) (m : MockId) (off n : Nat) (f : List (Arg V) → List (Arg V)) : AState V E :=
  { s with calls := s.calls.map fun r => if isCall m off n r then { r with args := f r.args } else r }

/-- Assignment to parameter `i` by a callback: the caller's variable, or the recorded argument of the call it was run for (`fr`: method and number). -/
def rSetArg (s : AState V E) (fr : Option (MockId × Nat × Nat)) (args : List (Arg V)) (i : Nat) (v : V) : AState V E :=
  match args[i]? with
  | none => s
  | some (.ref a) => { s with heap := fun b => if b = a then v else s.heap b }
  | some (.val _) =>
    match fr with
    | none => s
    | some (m, off, n) => onArgs s m off n fun as => as.set i (.val v)

/-- The operation ends the life of one of these mocks' stubbings. -/
def ends (active : List MockId) : Api V E → Bool
  | .reset m => active.contains m
  | .destroy m => active.contains m
  | _ => false

/-- Code is run. `call`: how calls are made. -/
def rBody (P : Prog V E) (call : AState V E → MockId → Nat → List (Arg V) → Option (Outcome V E × AState V E)) (c : Ctx) (fr : Option (MockId × Nat × Nat))
    (args : List (Arg V)) : Body V E → AState V E → Option (Outcome V E × AState V E)
  | .done o, s => some (o, s)
  | .setArg i v k, s => rBody P call c fr args k (rSetArg s fr args i v)
  | .call m off as k, s => do
    let (o, s') ← call s m off as
    rBody P call c fr args (k o) s'
  | .api a k, s =>
    if ends c.active a then none
    else do
      let (s', out) ← aApi P s a
      rBody P call c fr args (k out) s'

/-- The code of a function object of a script. -/
def codeOf (P : Prog V E) (vs : List V) : Fn V E → Body V E
  | .ret v => .done (.ret v)
  | .thr e => .done (.exc e)
  | .user f => P.fn f vs

/-- How a call is made in a context. -/
abbrev RCall (V E : Type) := Ctx → AState V E → MockId → Nat → List (Arg V) → Option (Outcome V E × AState V E)

/-- The first entry of a script is performed for call number `n` of method `off` of mock `m` (of class `cd`). -/
def rPerform (P : Prog V E) (call : RCall V E) (c : Ctx) (m : MockId) (cd : ClassDecl V) (spied : Bool) (off n : Nat) (args : List (Arg V)) (s : AState V E) :
    List (Act V E) → Option (Outcome V E × AState V E)
  | [] => some (.noMore, s)
  | .rep _ f :: _ => rBody P (call c) c (some (m, off, n)) args (codeOf P (valuesOf s.heap args) f) s
  | .forever f :: _ => rBody P (call c) c (some (m, off, n)) args (codeOf P (valuesOf s.heap args) f) s
  | .dflt :: _ =>
    match cd.dflt off with
    | .value v => some (.ret v, s)
    | .throws => some (.exc P.dfltExc, s)
    | .nullRef => none
  | .deleg mv :: _ =>
    let s1 := if mv then onArgs s m off n (moved P) else s
    if cd.dtor = some off then some (.ret P.void, s1)
    else if spied then
      let c1 := { c with bypass := (m, off) :: c.bypass }
      rBody P (call c1) c1 none args (P.fn (cd.impl off) (valuesOf s1.heap args)) s1
    else some (unstubbed s1)
  | .noMore :: _ => none

/-- The first entry is one that is used up. -/
def counted : List (Act V E) → Bool
  | .rep _ _ :: _ => true
  | _ => false

/-- The first entry is a function with uses left after this one. -/
def enduring : List (Act V E) → Bool
  | .rep n _ :: _ => decide (2 ≤ n)
  | .forever _ :: _ => true
  | _ => false

/-- What is going on while the stubbing performs its first entry for mock `m`. -/
def Ctx.enter (c : Ctx) (m : MockId) (st : Stub V E) : Ctx :=
  { c with
    busy := if counted st.script then st.name :: c.busy else c.busy
    active := if enduring st.script then c.active else m :: c.active }

/-- The stubbing still exists. -/
def present (s : AState V E) (m : MockId) (off name : Nat) : Bool :=
  match s.mocks[m]? with
  | none => false
  | some k =>
    match k.stubs off with
    | none => false
    | some l => l.any fun st => st.name == name

/-- The call is recorded and the script of stubbing `name` advances. -/
def accept (s : AState V E) (m : MockId) (off : Nat) (args : List (Arg V)) (name : Nat) : AState V E :=
  { s with
    made := s.made + 1
    calls := s.calls ++ [⟨some (m, off), s.made + 1, args, some name, false⟩]
    mocks := s.mocks.modify m fun k => k.onStubs off fun l => l.map fun x => if x.name = name then { x with script := rest x.script } else x }

/-- A call of a mentioned method with these stubbings. -/
def rServe (P : Prog V E) (call : RCall V E) (c : Ctx) (s : AState V E) (m : MockId) (k : AMock V E) (off : Nat) (stubs : List (Stub V E)) (args : List (Arg V)) :
    Option (Outcome V E × AState V E) :=
  match stubs.find? fun st => accepts st.kind (valuesOf s.heap args) with
  | none => some (.unexpected, { s with made := s.made + 1, log := s.log ++ [.unexpected .unmatched ⟨some (m, off), s.made + 1, args, none, false⟩] })
  | some st =>
    if st.name ∈ c.busy then none
    else do
      let (o, s2) ← rPerform P call (c.enter m st) m (P.cls k.cls) k.spied off (s.made + 1) args (accept s m off args st.name) st.script
      match o with
      | .noMore =>
        if present s2 m off st.name then
          some (.unexpected, { s2 with log := s2.log ++ [.unexpected .unmatched ⟨some (m, off), s.made + 1, args, some st.name, false⟩] })
        else none
      | o => some (o, s2)

/-- A call of method `off` of mock `m`, with calls nested at most `fuel` deep. -/
def rCall (P : Prog V E) : Nat → RCall V E
  | 0, _, _, _, _, _ => none
  | fuel + 1, c, s, m, off, args =>
    match s.mocks[m]? with
    | none => none
    | some k =>
      let cd := P.cls k.cls
      if (k.alive = true ∨ k.spied = true) ∧ off < cd.size then
        let (off', args') := arrives cd k off args
        if (m, off') ∈ c.bypass then rBody P (rCall P fuel c) c none args' (P.fn (cd.impl off') (valuesOf s.heap args')) s
        else
          match k.stubs off' with
          | some stubs => rServe P (rCall P fuel) c s m k off' stubs args'
          | none =>
            if k.spied then rBody P (rCall P fuel c) c none args' (P.fn (cd.impl off') (valuesOf s.heap args')) s
            else if cd.dtor = some off' then some (.ret P.void, s)
            else some (unstubbed s)
      else none

/-- One step of a test program. -/
def rStep (P : Prog V E) (fuel : Nat) (s : AState V E) : Op V E → Option (OpOut V E × AState V E)
  | .call m off args => (rCall P fuel .idle s m off args).map fun r => (.call r.1, r.2)
  | .api a => (aApi P s a).map fun r => (.api r.2, r.1)

/-- A test program. -/
def rRun (P : Prog V E) (fuel : Nat) : AState V E → List (Op V E) → Option (List (OpOut V E) × AState V E)
  | s, [] => some ([], s)
  | s, op :: ops => do
    let (o, s') ← rStep P fuel s op
    let (os, s'') ← rRun P fuel s' ops
    some (o :: os, s'')

end FakeIt.Spec
