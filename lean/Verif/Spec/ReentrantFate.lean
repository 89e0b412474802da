import Verif.Spec.ReentrantMock
/-!
# Specification: what becomes of a test program whose callbacks use mocks

The abstract mock of `ReentrantMock.lean` answers `none` for several different reasons. Here they are told apart: the program's behaviour is *undefined* in C++ (a mock that
does not exist or has been destroyed is used, a call has no entry in the table, a null reference is returned, ...), or the program is *outside* the description (a stubbing whose counted action is being
performed is used again, a mock is reset or destroyed while it answers a call with an action that is not enduring, a method expression does not name what it seems to name or a multiplicity is not positive), or calls are
nested too *deep* to tell.
-/
namespace FakeIt.Spec
variable {V E : Type}

/-- What becomes of a program. With `undefined`: the number of calls made and of method expressions evaluated by then (at most). -/
inductive Fate (α : Type) where
  | runs (a : α)
  | undefined (made names : Nat)
  | outside
  | deep

/-- First this, then that. -/
def Fate.bind {α β : Type} : Fate α → (α → Fate β) → Fate β
  | .runs a, f => f a
  | .undefined a b, _ => .undefined a b
  | .outside, _ => .outside
  | .deep, _ => .deep

/-- The result, if there is one. -/
def Fate.result {α : Type} : Fate α → Option α
  | .runs a => some a
  | _ => none

/-- The method expression names what it seems to name (see `slotOk`). -/
def slotFits (P : Prog V E) (s : AState V E) (x : MockId × SlotRef) : Bool :=
  match s.mocks[x.1]? with
  | none => true
  | some k =>
    match x.2 with
    | .meth off _ =>
      match (P.cls k.cls).dtor with
      | none => true
      | some d => off != d && off != d + 1
    | .dtor => !k.wasReset

/-- All multiplicities are at least one (see `scriptOk`). -/
def scriptFits : Api V E → Bool
  | .when_ _ acts false => writable acts
  | _ => true

/-- An operation other than a call. -/
def fApi (P : Prog V E) (c : Ctx) (s : AState V E) (a : Api V E) : Fate (AState V E × ApiOut) :=
  if ends c.active a then .outside
  else
    match aApi P s a with
    | some r => .runs r
    | none => if a.slots.all (slotFits P s) && scriptFits a then .undefined s.made (s.named.length + a.slots.length) else .outside

/-- Code is run. `call`: how calls are made. -/
def fBody (P : Prog V E) (call : AState V E → MockId → Nat → List (Arg V) → Fate (Outcome V E × AState V E)) (c : Ctx) (fr : Option (MockId × Nat × Nat))
    (args : List (Arg V)) : Body V E → AState V E → Fate (Outcome V E × AState V E)
  | .done o, s => .runs (o, s)
  | .setArg i v k, s => fBody P call c fr args k (rSetArg s fr args i v)
  | .call m off as k, s => (call s m off as).bind fun r => fBody P call c fr args (k r.1) r.2
  | .api a k, s => (fApi P c s a).bind fun r => fBody P call c fr args (k r.2) r.1

/-- How a call is made in a context. -/
abbrev FCall (V E : Type) := Ctx → AState V E → MockId → Nat → List (Arg V) → Fate (Outcome V E × AState V E)

/-- The first entry of a script is performed (see `rPerform`). -/
def fPerform (P : Prog V E) (call : FCall V E) (c : Ctx) (m : MockId) (cd : ClassDecl V) (spied : Bool) (off n : Nat) (args : List (Arg V)) (s : AState V E) :
    List (Act V E) → Fate (Outcome V E × AState V E)
  | [] => .runs (.noMore, s)
  | .rep _ f :: _ => fBody P (call c) c (some (m, off, n)) args (codeOf P (valuesOf s.heap args) f) s
  | .forever f :: _ => fBody P (call c) c (some (m, off, n)) args (codeOf P (valuesOf s.heap args) f) s
  | .dflt :: _ =>
    match cd.dflt off with
    | .value v => .runs (.ret v, s)
    | .throws => .runs (.exc P.dfltExc, s)
    | .nullRef => .undefined s.made s.named.length
  | .deleg mv :: _ =>
    let s1 := if mv then onArgs s m off n (moved P) else s
    if cd.dtor = some off then .runs (.ret P.void, s1)
    else if spied then
      let c1 := { c with bypass := (m, off) :: c.bypass }
      fBody P (call c1) c1 none args (P.fn (cd.impl off) (valuesOf s1.heap args)) s1
    else .runs (unstubbed s1)
  | .noMore :: _ => .outside

/-- A call of a mentioned method with these stubbings. -/
def fServe (P : Prog V E) (call : FCall V E) (c : Ctx) (s : AState V E) (m : MockId) (k : AMock V E) (off : Nat) (stubs : List (Stub V E)) (args : List (Arg V)) :
    Fate (Outcome V E × AState V E) :=
  match stubs.find? fun st => accepts st.kind (valuesOf s.heap args) with
  | none => .runs (.unexpected, { s with made := s.made + 1, log := s.log ++ [.unexpected .unmatched ⟨some (m, off), s.made + 1, args, none, false⟩] })
  | some st =>
    if st.name ∈ c.busy then .outside
    else
      (fPerform P call (c.enter m st) m (P.cls k.cls) k.spied off (s.made + 1) args (accept s m off args st.name) st.script).bind fun r =>
        match r.1 with
        | .noMore =>
          if present r.2 m off st.name then
            .runs (.unexpected, { r.2 with log := r.2.log ++ [.unexpected .unmatched ⟨some (m, off), s.made + 1, args, some st.name, false⟩] })
          else .undefined r.2.made r.2.named.length
        | o => .runs (o, r.2)

/-- A call of method `off` of mock `m`, with calls nested at most `fuel` deep. -/
def fCall (P : Prog V E) : Nat → FCall V E
  | 0, _, _, _, _, _ => .deep
  | fuel + 1, c, s, m, off, args =>
    match s.mocks[m]? with
    | none => .undefined s.made s.named.length
    | some k =>
      let cd := P.cls k.cls
      if (k.alive = true ∨ k.spied = true) ∧ off < cd.size then
        let (off', args') := arrives cd k off args
        if (m, off') ∈ c.bypass then fBody P (fCall P fuel c) c none args' (P.fn (cd.impl off') (valuesOf s.heap args')) s
        else
          match k.stubs off' with
          | some stubs => fServe P (fCall P fuel) c s m k off' stubs args'
          | none =>
            if k.spied then fBody P (fCall P fuel c) c none args' (P.fn (cd.impl off') (valuesOf s.heap args')) s
            else if cd.dtor = some off' then .runs (.ret P.void, s)
            else .runs (unstubbed s)
      else .undefined s.made s.named.length

/-- One step of a test program. -/
def fStep (P : Prog V E) (fuel : Nat) (s : AState V E) : Op V E → Fate (OpOut V E × AState V E)
  | .call m off args => (fCall P fuel .idle s m off args).bind fun r => .runs (.call r.1, r.2)
  | .api a => (fApi P .idle s a).bind fun r => .runs (.api r.2, r.1)

/-- A test program. -/
def fRun (P : Prog V E) (fuel : Nat) : AState V E → List (Op V E) → Fate (List (OpOut V E) × AState V E)
  | s, [] => .runs ([], s)
  | s, op :: ops => (fStep P fuel s op).bind fun r => (fRun P fuel r.2 ops).bind fun r' => .runs (r.1 :: r'.1, r'.2)

end FakeIt.Spec
