import Verif.Model.Inside
/-!
# Handlers of events that use and change mocks: specification

Mocks without objects: a method has a name and stubbings, a recorded call is a value. A report shows the calls as they were when the event happened, under the names the methods have now, and it can be
made as long as the histories of the mocks whose calls it shows have not been deleted since. An unexpected call can be reported as long as its mock has not been reset.
-/
namespace FakeIt.Inside.Spec

variable {A V X : Type}

/-- A known method: its name, its stubbings, newest first. -/
structure Method (A V : Type) where
  name : Name
  stubs : List (Stub A V)

/-- A recorded call. -/
structure Rec (A : Type) where
  mock : Nat
  method : Nat
  args : A
  verified : Bool := false
  deriving DecidableEq, Repr

/-- The mocks, how often the history of each has been deleted (cleared, reset, ended) and how often each has been reset or ended. -/
structure Mocks (A V : Type) where
  methods : Nat → Nat → Option (Method A V) := fun _ _ => none
  recs : List (Rec A) := []
  ended : Nat → Bool := fun _ => false
  deletions : Nat → Nat := fun _ => 0
  resets : Nat → Nat := fun _ => 0
  events : Nat := 0
  printed : List (Report A) := []

/-- A call an event shows, and how often the history of its mock had been deleted when the event happened. -/
structure Shown (A : Type) where
  mock : Nat
  method : Nat
  args : A
  deletions : Nat
  deriving DecidableEq, Repr

/-- What happens: a call of an unknown method; a call without an answer (with the number of resets of the mock then); a verification that fails. -/
inductive Happening (A : Type) where
  | unmocked
  | unexpected (mock method : Nat) (args : A) (resets : Nat)
  | failed (mock method : Nat) (count total : Nat) (shown : List (Shown A))
  | noMore (total : Nat) (shown : List (Shown A))
  deriving DecidableEq, Repr

def Happening.kind : Happening A → Kind
  | .unmocked => .unmocked
  | .unexpected .. => .unmatched
  | .failed .. => .failed
  | .noMore .. => .noMore

/-- The name of a method that is known. -/
def Mocks.nameOf (s : Mocks A V) (m f : Nat) : Option Name := (s.methods m f).map Method.name

def Mocks.put (s : Mocks A V) (m f : Nat) (d : Method A V) : Mocks A V :=
  { s with methods := fun m' f' => if m' = m ∧ f' = f then some d else s.methods m' f' }

/-- A method that has been named in any way is known, without stubbings at first. -/
def Mocks.methodOf (s : Mocks A V) (m f : Nat) : Method A V := (s.methods m f).getD ⟨.compiler m f, []⟩

/-- The line of a call, if its history has not been deleted since. -/
def Mocks.line (s : Mocks A V) (c : Shown A) : Option (Name × A) :=
  if s.deletions c.mock = c.deletions then (s.nameOf c.mock c.method).map fun n => (n, c.args) else none

/-- All lines, if they can all be made. -/
def Mocks.lines (s : Mocks A V) : List (Shown A) → Option (List (Name × A))
  | [] => some []
  | c :: cs =>
    match s.line c, s.lines cs with
    | some l, some ls => some (l :: ls)
    | _, _ => none

/-- The report of what happened. The report of a failed verification makes the method known. -/
def Mocks.report (s : Mocks A V) : Happening A → R (Report A × Mocks A V)
  | .unmocked => .done (.unmocked, s)
  | .unexpected m f a resets =>
    match s.nameOf m f with
    | some n => if s.resets m = resets then .done (.unexpected n a, s) else .ub
    | none => .ub
  | .failed m f count total shown =>
    if s.ended m then .ub
    else
      let d := s.methodOf m f
      let s := s.put m f d
      match s.lines shown with
      | some ls => .done (.failed d.name count total ls, s)
      | none => .ub
  | .noMore total shown =>
    match s.lines shown with
    | some ls => .done (.noMore total ls, s)
    | none => .ub

/-- An unexpected call ends with what a handler throws or with the library's exception and the report. -/
def unexpected (handle : Happening A → Mocks A V → R (Out A X × Mocks A V)) (h : Happening A) (s : Mocks A V) : R (Ans A V X × Mocks A V) :=
  match handle h s with
  | .done (.returned, s) =>
    match s.report h with
    | .done (r, s) => .done (.thrown (.unexpected r), s)
    | .ub => .ub
    | .oof => .oof
  | .done (.thrown x, s) => .done (.thrown x, s)
  | .done (.aborted, s) => .done (.aborted, s)
  | .ub => .ub
  | .oof => .oof

/-- The first (newest) stubbing that accepts the arguments gives the next of its values, which is used up, or else the one it gives for ever, if any. `none`: no stubbing accepts them. -/
def serve (a : A) (stubs : List (Stub A V)) : Option (Option V × List (Stub A V)) :=
  match stubs.findIdx? fun s => s.accepts a with
  | none => none
  | some i => stubs[i]?.map fun s =>
    match s.script with
    | [] => (s.always, stubs)
    | v :: vs => (some v, stubs.set i { s with script := vs })

/-- A call: the newest stubbing that accepts the arguments answers, and the call is recorded. -/
def callMethod (handle : Happening A → Mocks A V → R (Out A X × Mocks A V)) (m f : Nat) (a : A) (s : Mocks A V) : R (Ans A V X × Mocks A V) :=
  if s.ended m then .ub
  else
    match s.methods m f with
    | none => unexpected handle .unmocked s
    | some d =>
      match serve a d.stubs with
      | none => unexpected handle (.unexpected m f a (s.resets m)) s
      | some (v, stubs) =>
        let s := { s.put m f { d with stubs := stubs } with recs := s.recs ++ [⟨m, f, a, false⟩] }
        match v with
        | some v => .done (.value v, s)
        | none => unexpected handle (.unexpected m f a (s.resets m)) s

/-- A recorded call as an event shows it. -/
def Mocks.show (s : Mocks A V) (r : Rec A) : Shown A := ⟨r.mock, r.method, r.args, s.deletions r.mock⟩

def verifyMethod (handle : Happening A → Mocks A V → R (Out A X × Mocks A V)) (m f n : Nat) (matcher : A → Bool) (ok : Nat → Bool) (s : Mocks A V) : R (Out A X × Mocks A V) :=
  if s.ended m then .ub
  else
    let s := s.put m f { s.methodOf m f with name := .given n }
    let hit := fun r : Rec A => r.mock == m && r.method == f && matcher r.args
    let count := (s.recs.filter hit).length
    if ok count then .done (.returned, { s with recs := s.recs.map fun r => if hit r then { r with verified := true } else r })
    else
      let all := s.recs.filter fun r => r.mock == m
      handle (.failed m f count all.length ((all.take 50).map s.show)) s

def verifyRest (handle : Happening A → Mocks A V → R (Out A X × Mocks A V)) (m : Nat) (s : Mocks A V) : R (Out A X × Mocks A V) :=
  if s.ended m then .ub
  else
    let rest := s.recs.filter fun r => r.mock == m && !r.verified
    if rest.isEmpty then .done (.returned, s)
    else handle (.noMore rest.length ((rest.take 50).map s.show)) s

def bump (f : Nat → Nat) (m : Nat) : Nat → Nat := fun m' => if m' = m then f m' + 1 else f m'

def Mocks.clear (s : Mocks A V) (m : Nat) : Mocks A V :=
  { s with recs := s.recs.filter fun r => r.mock != m, deletions := bump s.deletions m }

def Mocks.reset (s : Mocks A V) (m : Nat) : Mocks A V :=
  { s.clear m with methods := fun m' f' => if m' = m then none else s.methods m' f', resets := bump s.resets m }

def Mocks.destroy (s : Mocks A V) (m : Nat) : Mocks A V :=
  { s.reset m with ended := fun m' => if m' = m then true else s.ended m' }

/-- Code runs; `h` is what happened, if it is a handler. -/
def run (handle : Happening A → Mocks A V → R (Out A X × Mocks A V)) (h : Option (Happening A)) : Code A V X → Mocks A V → R (Out A X × Mocks A V)
  | .done, s => .done (.returned, s)
  | .throw x, s => .done (.thrown x, s)
  | .format k, s =>
    match h with
    | none => run handle h (k .nothing) s
    | some e =>
      match s.report e with
      | .done (r, s) => run handle h (k r) s
      | .ub => .ub
      | .oof => .oof
  | .print r k, s => run handle h k { s with printed := s.printed ++ [r] }
  | .call m f a k, s =>
    match callMethod handle m f a s with
    | .done (.value v, s) => run handle h (k (.inl v)) s
    | .done (.thrown x, s) => run handle h (k (.inr x)) s
    | .done (.aborted, s) => .done (.aborted, s)
    | .ub => .ub
    | .oof => .oof
  | .stub m f n st k, s =>
    if s.ended m then .ub
    else run handle h k (s.put m f ⟨.given n, st :: (s.methodOf m f).stubs⟩)
  | .verify m f n matcher ok k, s =>
    match verifyMethod handle m f n matcher ok s with
    | .done (.returned, s) => run handle h (k none) s
    | .done (.thrown x, s) => run handle h (k (some x)) s
    | .done (.aborted, s) => .done (.aborted, s)
    | .ub => .ub
    | .oof => .oof
  | .verifyNoOther m k, s =>
    match verifyRest handle m s with
    | .done (.returned, s) => run handle h (k none) s
    | .done (.thrown x, s) => run handle h (k (some x)) s
    | .done (.aborted, s) => .done (.aborted, s)
    | .ub => .ub
    | .oof => .oof
  | .clear m k, s => if s.ended m then .ub else run handle h k (s.clear m)
  | .reset m k, s => if s.ended m then .ub else run handle h k (s.reset m)
  | .destroy m k, s => if s.ended m then .ub else run handle h k (s.destroy m)

/-- One after the other, until one does not return. -/
def inTurn (tell : Nat → Mocks A V → R (Out A X × Mocks A V)) : List Nat → Mocks A V → R (Out A X × Mocks A V)
  | [], s => .done (.returned, s)
  | l :: ls, s =>
    match tell l s with
    | .done (.returned, s) => inTurn tell ls s
    | r => r

/-- All listeners in turn, then (unless the program stops there) the adapter. -/
def deliver (c : Config A V X) : Nat → Happening A → Mocks A V → R (Out A X × Mocks A V)
  | 0, _, _ => .oof
  | depth + 1, h, s =>
    let tell := fun l => run (deliver c depth) (some h) (c.react l h.kind s.events)
    match inTurn tell c.listeners { s with events := s.events + 1 } with
    | .done (.returned, s) =>
      if c.asserting && (h.kind = .unmocked || h.kind = .unmatched) then .done (.aborted, s) else tell c.adapter s
    | r => r

def test (c : Config A V X) (depth : Nat) (code : Code A V X) (s : Mocks A V) : R (Out A X × Mocks A V) :=
  run (deliver c depth) none code s

/-- What the test can see in the end. -/
def outcome : R (Out A X × Mocks A V) → R (Out A X × List (Report A))
  | .done (o, s) => .done (o, s.printed)
  | .ub => .ub
  | .oof => .oof

/-- Code that deletes nothing: it does not clear, reset or end mocks, whatever it gets. -/
inductive Gentle : Code A V X → Prop where
  | done : Gentle .done
  | throw (e) : Gentle (.throw e)
  | format {k} (h : ∀ r, Gentle (k r)) : Gentle (.format k)
  | print {r k} (h : Gentle k) : Gentle (.print r k)
  | call {m f a k} (h : ∀ r, Gentle (k r)) : Gentle (.call m f a k)
  | stub {m f n s k} (h : Gentle k) : Gentle (.stub m f n s k)
  | verify {m f n ma ok k} (h : ∀ r, Gentle (k r)) : Gentle (.verify m f n ma ok k)
  | verifyNoOther {m k} (h : ∀ r, Gentle (k r)) : Gentle (.verifyNoOther m k)

end FakeIt.Inside.Spec
