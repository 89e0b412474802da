import Verif.Model.Machine
import Verif.Spec.Select
import Verif.Spec.History
import Verif.Spec.Writable
import Verif.Spec.Discipline
/-!
# Specification: the abstract mock

A second, much simpler machine for the same test programs (`Op`, `Api`): no virtual tables, no offsets, no addresses, no sets, no sorting, no
indices. A mock is a table from methods to newest-first lists of stubbings (a matcher and the rest of a script); the recorded calls of all mocks are
one list in call order. Operations are partial: `none` stands for programs this machine does not describe (using a destroyed mock, a method number
the class does not have, a callback that itself uses mocks, multiplicities below 1, `Dtor(mock)` after `mock.Reset()`, the default value of a reference to a type
that cannot be constructed).
-/
namespace FakeIt.Spec
variable {V E : Type}

/-- A call as it is recorded or reported: the mock and method (`none`: not known), its running number, the arguments, the name of the stubbing that
served it, and whether it has been verified. -/
structure Rec (V : Type) where
  meth : Option (MockId × Nat)
  number : Nat
  args : List (Arg V)
  served : Option Nat
  verified : Bool
  deriving DecidableEq, Repr

/-- What is reported to the test framework. -/
inductive Report (V : Type) where
  | unexpected (ty : UnexpectedType) (call : Rec V)
  | mismatch (ty : VerificationType) (expected : Int) (actual : Nat) (calls : List (Rec V))
  | others (all unverified : List (Rec V))
  deriving DecidableEq, Repr

/-- A stubbing: its name, its matcher, and what is left of its script. -/
structure Stub (V E : Type) where
  name : Nat
  kind : MatcherKind V
  script : List (Act V E)

/-- A mock. `stubs off = none`: method `off` has never been mentioned; `some l`: its stubbings, newest first. -/
structure AMock (V E : Type) where
  cls : Nat
  spied : Bool
  alive : Bool
  wasReset : Bool
  stubs : Nat → Option (List (Stub V E))
  data : List Int

/-- The stubbings of one method are changed. -/
def AMock.onStubs (k : AMock V E) (off : Nat) (f : List (Stub V E) → List (Stub V E)) : AMock V E :=
  { k with stubs := fun o => if o = off then (k.stubs o).map f else k.stubs o }

/-- The state: mocks, all recorded calls in call order, the test's variables, the number of calls made, the methods in the order in which they were first
mentioned, the number of stubbings installed, the reports. -/
structure AState (V E : Type) where
  mocks : List (AMock V E)
  calls : List (Rec V)
  heap : Addr → V
  made : Nat
  named : List (MockId × Nat)
  installed : Nat
  log : List (Report V)

/-- Does the matcher accept the argument values? -/
def accepts : MatcherKind V → List V → Bool
  | .any, _ => true
  | .args ms, vs => ms.length == vs.length && (ms.zip vs).all fun x => x.1 x.2
  | .user p, vs => p vs

/-! ## Calls -/

/-- Running code that uses no mocks (`none` if it does): its outcome, the parameters afterwards, the test's variables afterwards. -/
def plain : Body V E → List (Arg V) → (Addr → V) → Option (Outcome V E × List (Arg V) × (Addr → V))
  | .done o, as, heap => some (o, as, heap)
  | .setArg i v k, as, heap =>
    match as[i]? with
    | none => plain k as heap
    | some (.ref a) => plain k as (fun b => if b = a then v else heap b)
    | some (.val _) => plain k (as.set i (.val v)) heap
  | .call _ _ _ _, _, _ => none
  | .api _ _, _, _ => none

/-- A call nobody has stubbed: it is reported and answered by an exception. -/
def unstubbed (s : AState V E) : Outcome V E × AState V E :=
  (.unexpected, { s with made := s.made + 1, log := s.log ++ [.unexpected .unmocked ⟨none, s.made + 1, [], none, false⟩] })

/-- Running a function object of a script. -/
def runFn (P : Prog V E) (s : AState V E) (args : List (Arg V)) : Fn V E → Option (Outcome V E × List (Arg V) × AState V E)
  | .ret v => some (.ret v, args, s)
  | .thr e => some (.exc e, args, s)
  | .user f => (plain (P.fn f (valuesOf s.heap args)) args s.heap).map fun r => (r.1, r.2.1, { s with heap := r.2.2 })

/-- By-value arguments after they have been moved from. -/
def moved (P : Prog V E) (args : List (Arg V)) : List (Arg V) :=
  args.map fun a => match a with | .val v => .val (P.movedFrom v) | .ref r => .ref r

/-- The next entry of a script is performed for a call of method `off`; the result is the outcome, the arguments to be recorded, and the state. -/
def perform (P : Prog V E) (c : ClassDecl V) (spied : Bool) (off : Nat) (args : List (Arg V)) (s : AState V E) :
    List (Act V E) → Option (Outcome V E × List (Arg V) × AState V E)
  | [] => some (.noMore, args, s)
  | .rep _ f :: _ => runFn P s args f
  | .forever f :: _ => runFn P s args f
  | .dflt :: _ =>
    match c.dflt off with
    | .value v => some (.ret v, args, s)
    | .throws => some (.exc P.dfltExc, args, s)
    | .nullRef => none
  | .deleg mv :: _ =>
    let kept := if mv then moved P args else args
    if c.dtor = some off then some (.ret P.void, kept, s)
    else if spied then
      (plain (P.fn (c.impl off) (valuesOf s.heap args)) args s.heap).map fun r => (r.1, kept, { s with heap := r.2.2 })
    else some ((unstubbed s).1, kept, (unstubbed s).2)
  | .noMore :: _ => none

/-- What is left of a script after one call. -/
def rest : List (Act V E) → List (Act V E)
  | .rep n f :: l => if n ≤ 1 then l else .rep (n - 1) f :: l
  | l => l

/-- A call of a mentioned method with these stubbings: the newest one that accepts the arguments serves it. -/
def serve (P : Prog V E) (s : AState V E) (m : MockId) (k : AMock V E) (off : Nat) (stubs : List (Stub V E)) (args : List (Arg V)) :
    Option (Outcome V E × AState V E) :=
  let n := s.made + 1
  let s1 := { s with made := n }
  match stubs.find? fun st => accepts st.kind (valuesOf s.heap args) with
  | none => some (.unexpected, { s1 with log := s1.log ++ [.unexpected .unmatched ⟨some (m, off), n, args, none, false⟩] })
  | some st => do
    let (o, as, s2) ← perform P (P.cls k.cls) k.spied off args s1 st.script
    let s3 := { s2 with
      calls := s2.calls ++ [⟨some (m, off), n, as, some st.name, false⟩]
      mocks := s2.mocks.modify m fun k => k.onStubs off fun l => l.map fun x => if x.name = st.name then { x with script := rest x.script } else x }
    match o with
    | .noMore => some (.unexpected, { s3 with log := s3.log ++ [.unexpected .unmatched ⟨some (m, off), n, args, some st.name, false⟩] })
    | o => some (o, s3)

/-- The method a call arrives at: deleting an object (entry `d + 1`) runs its destructor (entry `d`), unless the object is a real one whose destructor
nobody has mentioned. -/
def arrives (c : ClassDecl V) (k : AMock V E) (off : Nat) (args : List (Arg V)) : Nat × List (Arg V) :=
  match c.dtor with
  | none => (off, args)
  | some d => if off = d + 1 ∧ (k.spied = false ∨ (k.stubs d).isSome) then (d, []) else (off, args)

/-- A call of method `off` of mock `m`. -/
def aCall (P : Prog V E) (s : AState V E) (m : MockId) (off : Nat) (args : List (Arg V)) : Option (Outcome V E × AState V E) :=
  match s.mocks[m]? with
  | none => none
  | some k =>
    let c := P.cls k.cls
    if (k.alive = true ∨ k.spied = true) ∧ off < c.size then
      let (off', args') := arrives c k off args
      match k.stubs off' with
      | some stubs => serve P s m k off' stubs args'
      | none =>
        if k.spied then (plain (P.fn (c.impl off') (valuesOf s.heap args')) args' s.heap).map fun r => (r.1, { s with heap := r.2.2 })
        else if c.dtor = some off' then some (.ret P.void, s)
        else some (unstubbed s)
    else none

/-! ## Mentioning and stubbing methods -/

/-- The number of the method an expression names. -/
def methodOf (c : ClassDecl V) : SlotRef → Option Nat
  | .meth off _ => some off
  | .dtor => c.dtor

/-- Method `off` of mock `m` is mentioned. -/
def hook (s : AState V E) (m : MockId) (k : AMock V E) (off : Nat) : AState V E :=
  if (k.stubs off).isSome then s
  else { s with
    mocks := s.mocks.modify m fun k => { k with stubs := fun o => if o = off then some [] else k.stubs o }
    named := s.named ++ [(m, off)] }

/-- A method expression is evaluated. `some none`: it throws, because the class has no virtual destructor. -/
def mention (P : Prog V E) (s : AState V E) (m : MockId) (slot : SlotRef) : Option (Option (AState V E)) :=
  match s.mocks[m]? with
  | none => none
  | some k =>
    let c := P.cls k.cls
    if k.alive then
      match slot with
      | .meth off _ => if off < c.size ∧ ∀ d ∈ c.dtor, off ≠ d ∧ off ≠ d + 1 then some (some (hook s m k off)) else none
      | .dtor =>
        match c.dtor with
        | none => some none
        | some d => if d + 1 < c.size ∧ k.wasReset = false then some (some (hook s m k d)) else none
    else none

/-- Several method expressions are evaluated; `false`: one of them threw. -/
def mentionAll (P : Prog V E) : AState V E → List (MockId × SlotRef) → Option (AState V E × Bool)
  | s, [] => some (s, true)
  | s, (m, slot) :: l => do
    match ← mention P s m slot with
    | none => some (s, false)
    | some s' => mentionAll P s' l

/-- The name of a stubbing: names are unique (the model uses addresses two apart). -/
def nameOf (s : AState V E) : Nat := 2 * s.installed

/-- Multiplicities of at least one, and no internal actions. -/
def writable (acts : List (Act V E)) : Bool :=
  acts.all fun a => match a with | .rep n _ => decide (1 ≤ n) | .noMore => false | _ => true

/-- A stubbing is installed for a mentioned method. -/
def install (P : Prog V E) (s : AState V E) (t : Target V) (acts : List (Act V E)) : Option (AState V E) :=
  match s.mocks[t.m]? with
  | none => none
  | some k =>
    match methodOf (P.cls k.cls) t.slot with
    | none => none
    | some off =>
      if k.alive = true ∧ writable acts = true ∧ (k.stubs off).isSome then
        some { s with
          mocks := s.mocks.modify t.m fun k => k.onStubs off fun l => ⟨nameOf s, t.kind, acts⟩ :: l
          installed := s.installed + 1 }
      else none

/-- Several stubbings with the same script. -/
def installAll (P : Prog V E) (acts : List (Act V E)) : AState V E → List (Target V) → Option (AState V E)
  | s, [] => some s
  | s, t :: ts => do
    let s' ← install P s t acts
    installAll P acts s' ts

/-- `When` and assignment. -/
def aStubOne (P : Prog V E) (s : AState V E) (t : Target V) (acts : List (Act V E)) (uncaught : Bool) : Option (AState V E × ApiOut) := do
  match ← mention P s t.m t.slot with
  | none => some (s, .threw)
  | some s1 =>
    if uncaught then some (s1, .skipped)
    else do
      let s2 ← install P s1 t acts
      some (s2, .matcher (nameOf s1))

/-- `Fake` and `Spy`. -/
def aStubMany (P : Prog V E) (s : AState V E) (ts : List (Target V)) (act : Act V E) : Option (AState V E × ApiOut) := do
  match ← mentionAll P s (ts.map fun t => (t.m, t.slot)) with
  | (s1, false) => some (s1, .threw)
  | (s1, true) => do
    let s2 ← installAll P [act] s1 ts
    some (s2, .unit)

/-! ## Verification -/

/-- A recorded call is one the method expression stands for: a call of that method, served by that very expression or with arguments it accepts. -/
def denotes (P : Prog V E) (s : AState V E) (l : Leaf V) (r : Rec V) : Bool :=
  match s.mocks[l.m]? with
  | none => false
  | some k =>
    match methodOf (P.cls k.cls) l.slot with
    | none => false
    | some off => r.meth == some (l.m, off) && ((l.addr.isSome && r.served == l.addr) || accepts l.kind (valuesOf s.heap r.args))

/-- The call belongs to mock `m`. -/
def ofMock (m : MockId) (r : Rec V) : Bool :=
  match r.meth with
  | none => false
  | some p => p.1 == m

/-- The call belongs to the source. -/
def inSource (P : Prog V E) (s : AState V E) : Source V → Rec V → Bool
  | .empty, _ => false
  | .mock m, r => ofMock m r
  | .ctx l, r => denotes P s l r
  | .unverified src, r => inSource P s src r && !r.verified
  | .union a b, r => inSource P s a r || inSource P s b r

/-- The method expressions and mocks a source names. -/
def leavesOf : Source V → List (Leaf V)
  | .empty => []
  | .mock _ => []
  | .ctx l => [l]
  | .unverified s => leavesOf s
  | .union s t => leavesOf s ++ leavesOf t

/-- The mocks a source names. -/
def mocksOf : Source V → List MockId
  | .empty => []
  | .mock m => [m]
  | .ctx l => [l.m]
  | .unverified s => mocksOf s
  | .union s t => mocksOf s ++ mocksOf t

/-- The pattern: blocks of method expressions. -/
def patternOf (pat : List (Seq (Leaf V))) : List (List (Leaf V)) := pat.map Seq.expected

/-- The mocks in a pattern. -/
def mocksIn (pat : List (Seq (Leaf V))) : List MockId := (patternOf pat).flatten.map Leaf.m

/-- The call is one the statement looks at. -/
def inScope (P : Prog V E) (s : AState V E) (pat : List (Seq (Leaf V))) : Scope V → Rec V → Bool
  | .involved, r => (mocksIn pat).any fun m => ofMock m r
  | .using_ src, r => inSource P s src r
  | .unverified, r => (mocksIn pat).any (fun m => ofMock m r) && !r.verified

variable {L I : Type}

/-- The block matches the beginning of the list: the calls it takes and the rest. -/
def takeBlock (mt : L → I → Bool) : List L → List I → Option (List I × List I)
  | [], cs => some ([], cs)
  | _ :: _, [] => none
  | l :: ls, c :: cs => if mt l c then (takeBlock mt ls cs).map fun r => (c :: r.1, r.2) else none

/-- The first place where the block matches: the calls it takes and the rest after them. -/
def findBlock (mt : L → I → Bool) (e : List L) : List I → Option (List I × List I)
  | [] => takeBlock mt e []
  | c :: cs =>
    match takeBlock mt e (c :: cs) with
    | some r => some r
    | none => findBlock mt e cs

/-- The blocks of the pattern one after the other, each at the first possible place: the calls taken, and the rest if all blocks were found. -/
def findPattern (mt : L → I → Bool) : List (List L) → List I → List I × Option (List I)
  | [], cs => ([], some cs)
  | e :: es, cs =>
    match findBlock mt e cs with
    | none => ([], none)
    | some (taken, cs') => (taken ++ (findPattern mt es cs').1, (findPattern mt es cs').2)

/-- How often the whole pattern is found, and all the calls taken on the way. (`fuel`: at most that often.) -/
def findAll (mt : L → I → Bool) (pat : List (List L)) : Nat → List I → Nat × List I
  | 0, _ => (0, [])
  | fuel + 1, cs =>
    match findPattern mt pat cs with
    | (taken, none) => (0, taken)
    | (taken, some cs') => ((findAll mt pat fuel cs').1 + 1, taken ++ (findAll mt pat fuel cs').2)

/-- What a quantifier expects: the kind of comparison and the number; `none` if it is illegal. (`AtLeast(0)` is taken for `Exactly(0)`, see C20.) -/
def expects : Quant → Option (VerificationType × Int)
  | .dflt => some (.atLeast, 1)
  | .any => some (.atLeast, 0)
  | .never => some (.exact, 0)
  | .once => some (.exact, 1)
  | .twice => some (.exact, 2)
  | .atLeastOnce => some (.atLeast, 1)
  | .exactly n => if n < 0 then none else some (.exact, n)
  | .atLeast n => if n < 0 then none else if n = 0 then some (.exact, 0) else some (.atLeast, n)

/-- Is the count as expected? -/
def fulfils : VerificationType × Int → Nat → Bool
  | (.atLeast, n), k => decide (n ≤ (k : Int))
  | (_, n), k => decide ((k : Int) = n)

/-- Calls with the given numbers are marked as verified. -/
def marked (numbers : List Nat) (r : Rec V) : Rec V := if numbers.contains r.number then { r with verified := true } else r

/-- Only live mocks are used. -/
def live (s : AState V E) (ms : List MockId) : Bool := ms.all fun m => match s.mocks[m]? with | none => false | some k => k.alive

/-- The mocks a statement looks at. -/
def looksAt (pat : List (Seq (Leaf V))) : Scope V → List MockId
  | .using_ src => mocksOf src
  | _ => mocksIn pat

/-- The method expressions of a verification statement. -/
def mentionedBy (scope : Scope V) (pat : List (Seq (Leaf V))) : List (Leaf V) :=
  (match scope with | .using_ s => leavesOf s | _ => []) ++ (patternOf pat).flatten

/-- A verification statement. -/
def aVerify (P : Prog V E) (s : AState V E) (scope : Scope V) (pat : List (Seq (Leaf V))) (q : Quant) (mode : VMode) : Option (AState V E × ApiOut) := do
  match ← mentionAll P s ((mentionedBy scope pat).map fun l => (l.m, l.slot)) with
  | (s1, false) => some (s1, .threw)
  | (s1, true) =>
    if live s1 (looksAt pat scope) then
      match expects q with
      | none => some (s1, .threw)
      | some ex =>
        if mode = .stmt true then some (s1, .skipped)
        else
          let seq := s1.calls.filter (inScope P s1 pat scope)
          let r := findAll (denotes P s1) (patternOf pat) (seq.length + 1) seq
          if fulfils ex r.1 then some ({ s1 with calls := s1.calls.map (marked (r.2.map Rec.number)) }, .verdict true)
          else if mode = .asBool then some (s1, .verdict false)
          else some ({ s1 with log := s1.log ++ [.mismatch ex.1 ex.2 r.1 seq] }, .verdict false)
    else none

/-- Several sources together. -/
def allOf (srcs : List (Source V)) : Source V := srcs.foldr Source.union .empty

/-- A `VerifyNoOtherInvocations` statement. -/
def aNoOther (P : Prog V E) (s : AState V E) (srcs : List (Source V)) (mode : VMode) : Option (AState V E × ApiOut) := do
  match ← mentionAll P s ((leavesOf (allOf srcs)).map fun l => (l.m, l.slot)) with
  | (s1, false) => some (s1, .threw)
  | (s1, true) =>
    if live s1 (mocksOf (allOf srcs)) then
      if mode = .stmt true then some (s1, .skipped)
      else
        let all := s1.calls.filter (inSource P s1 (allOf srcs))
        let open_ := all.filter fun r => !r.verified
        if open_.isEmpty then some (s1, .verdict true)
        else if mode = .asBool then some (s1, .verdict false)
        else some ({ s1 with log := s1.log ++ [.others all open_] }, .verdict false)
    else none

/-! ## Programs -/

/-- An operation on a live mock. -/
def onMock (s : AState V E) (m : MockId) (f : AMock V E → Option (AMock V E)) : Option (AState V E) :=
  match s.mocks[m]? with
  | none => none
  | some k => if k.alive then (f k).map fun k' => { s with mocks := s.mocks.set m k' } else none

/-- Mock `m`'s calls are forgotten. -/
def forget (s : AState V E) (m : MockId) : AState V E := { s with calls := s.calls.filter fun r => !ofMock m r }

/-- Data members of a fake object are zeroed. -/
def zeroed (k : AMock V E) : List Int := if k.spied then k.data else k.data.map fun _ => 0

/-- A data member gets a value. -/
def setCell (k : AMock V E) (cell : Nat) (v : Int) : Option (AMock V E) :=
  if cell < k.data.length then some { k with data := k.data.set cell v } else none

/-- A new mock. -/
def aNew (P : Prog V E) (s : AState V E) (cls : Nat) (spied : Bool) : AState V E :=
  { s with mocks := s.mocks ++ [⟨cls, spied, true, false, fun _ => none, List.replicate (P.cls cls).dataSize 0⟩] }

/-- One API operation. -/
def aApi (P : Prog V E) (s : AState V E) : Api V E → Option (AState V E × ApiOut)
  | .newMock cls => some (aNew P s cls false, .mockId s.mocks.length)
  | .newSpy cls => some (aNew P s cls true, .mockId s.mocks.length)
  | .destroy m => (onMock (forget s m) m fun k => some { k with alive := false, stubs := fun _ => none }).map (·, .unit)
  | .touch m slot => (mention P s m slot).map fun r => match r with | none => (s, .threw) | some s' => (s', .unit)
  | .when_ t acts uncaught => aStubOne P s t acts uncaught
  | .fake ts => aStubMany P s ts .dflt
  | .spy mv ts => aStubMany P s ts (.deleg mv)
  | .assign t f => aStubOne P s t [.forever f] false
  | .stubData m cell v => (onMock s m fun k => setCell k cell v).map (·, .unit)
  | .writeData m cell v => (onMock s m fun k => setCell k cell v).map (·, .unit)
  | .reset m => (onMock (forget s m) m fun k => some { k with stubs := fun _ => none, wasReset := true, data := zeroed k }).map (·, .unit)
  | .clear m => (onMock (forget s m) m fun k => some { k with data := zeroed k }).map (·, .unit)
  | .write a v => some ({ s with heap := fun b => if b = a then v else s.heap b }, .unit)
  | .verify scope pat q mode => aVerify P s scope pat q mode
  | .verifyNoOther srcs mode => aNoOther P s srcs mode

/-- One step of a test program. -/
def aStep (P : Prog V E) (s : AState V E) : Op V E → Option (OpOut V E × AState V E)
  | .call m off args => (aCall P s m off args).map fun r => (.call r.1, r.2)
  | .api a => (aApi P s a).map fun r => (.api r.2, r.1)

/-- A test program. -/
def aRun (P : Prog V E) : AState V E → List (Op V E) → Option (List (OpOut V E) × AState V E)
  | s, [] => some ([], s)
  | s, op :: ops => do
    let (o, s') ← aStep P s op
    let (os, s'') ← aRun P s' ops
    some (o :: os, s'')

/-- Where a test program starts. -/
def AState.start (heap : Addr → V) : AState V E :=
  { mocks := [], calls := [], heap := heap, made := 0, named := [], installed := 0, log := [] }

/-! ## The library's objects seen by the abstract mock -/

/-- The method with the given id: ids are handed out in the order in which methods are first mentioned, starting with 1. -/
def methodWithId (names : List (MockId × Nat)) : Nat → Option (MockId × Nat)
  | 0 => none
  | j + 1 => names[j]?

/-- An invocation object as a recorded call. -/
def recOf (names : List (MockId × Nat)) (i : Invocation V) : Rec V := ⟨methodWithId names i.method, i.uid, i.args, i.matcher, i.verified⟩

/-- An event as a report. -/
def reportOf (names : List (MockId × Nat)) : Event V → Report V
  | .unexpectedCall ty i => .unexpected ty (recOf names i)
  | .sequence ty ex n l => .mismatch ty ex n (l.map (recOf names))
  | .noMoreInvocations l k => .others (l.map (recOf names)) (k.map (recOf names))

/-- The recorded calls of one method. -/
def callsTo (s : AState V E) (m off : Nat) : List (Rec V) := s.calls.filter fun r => r.meth == some (m, off)

/-- Everything a test can see agrees: the mocks and their data members, the recorded calls of every method with their verified flags, the test's variables, the reports. -/
structure Agrees (s : AState V E) (w : World V E) : Prop where
  mocks : w.mocks.map (fun k => (k.cls, k.alive, k.data)) = s.mocks.map fun k => (k.cls, k.alive, k.data)
  calls : ∀ m off, (history w m off).map (recOf s.named) = callsTo s m off
  heap : w.heap = s.heap
  log : w.log.map (reportOf s.named) = s.log

/-! ## Programs the abstract mock describes -/

/-- Patterns in verification statements are ones a user can write. -/
def _root_.FakeIt.Api.Writes : Api V E → Prop
  | .verify _ pat _ _ => WritablePattern pat
  | _ => True

/-- The number of method expressions in a step. -/
def _root_.FakeIt.Op.mentions : Op V E → Nat
  | .call _ _ _ => 0
  | .api a => a.slots.length

/-- The program is small enough for the 32-bit counters: every step makes at most two calls. -/
def Small (ops : List (Op V E)) : Prop := 2 * ops.length < wrap32 ∧ (ops.map Op.mentions).sum < wrap32

/-- The method expression names what it seems to name: no virtual method occupies a destructor's entries, and `Dtor(mock)` is not used again after
`mock.Reset()` (see C33: that is undefined behaviour if other methods had been mentioned before). -/
def slotOk (P : Prog V E) (s : AState V E) (x : MockId × SlotRef) : Prop :=
  ∀ k, s.mocks[x.1]? = some k →
    match x.2 with
    | .meth off _ => ∀ d, (P.cls k.cls).dtor = some d → off ≠ d ∧ off ≠ d + 1
    | .dtor => k.wasReset = false

/-- All stubbings have multiplicities of at least one. -/
def scriptOk : Api V E → Prop
  | .when_ _ acts false => writable acts = true
  | _ => True

/-- A program that keeps to the rules above at every step it reaches. -/
def Orderly (P : Prog V E) : AState V E → List (Op V E) → Prop
  | _, [] => True
  | s, op :: ops => (op.Within (fun a => (∀ x ∈ a.slots, slotOk P s x) ∧ scriptOk a ∧ a.Writes) fun _ _ => True) ∧
      ∀ o s', aStep P s op = some (o, s') → Orderly P s' ops

end FakeIt.Spec
