import Verif.Model.Throwing
/-!
# Exceptions anywhere in a call: specification

A call is a list of things that may throw, one after the other: the plan.  The first one that throws ends the call, and what has to be undone depends only on how far the call had come.
-/
namespace FakeIt.Spec.Throwing
open FakeIt.Throwing (Op Why Kind Act St Call Res Exc)

variable {X : Type}

/-- How far a list of things comes, the first of which is the `n`-th of all: those that were begun, and the exception that ended it. -/
def cut (th : Nat → Option X) : Nat → List Op → List Op × Option X
  | _, [] => ([], none)
  | n, o :: os =>
    match th n with
    | some x => ([o], some x)
    | none => (o :: (cut th (n + 1) os).1, (cut th (n + 1) os).2)

/-- The newest of `n` stubbings that accepts the call, if the next one has number `h`. -/
def chosen (accepts : Nat → Bool) : Nat → Nat → Option Nat
  | 0, _ => none
  | n + 1, h => if accepts h then some h else chosen accepts n (h + 1)

/-- Those who are asked to find it. -/
def asked (accepts : Nat → Bool) : Nat → Nat → List Op
  | 0, _ => []
  | n + 1, h => .ask h :: if accepts h then [] else asked accepts n (h + 1)

/-- What follows when the stubbings have been asked: the call is put into the list of calls, or it is reported. -/
def then_ : Option Nat → List Op
  | none => [.told, .print]
  | some _ => [.memory .place]

/-- What the test sees nothing of when it fails: everything up to the moment at which the call is in the list of calls; all of the call if nobody accepts it. -/
def early (c : Call) (s : St) : List Op :=
  [.memory .record] ++ c.args.map .arg ++ [.memory .count] ++ asked c.accepts s.stubs.length 0 ++ then_ (chosen c.accepts s.stubs.length 0)

/-- Then the clean-up of the action is prepared. -/
def prepare : List Op := [.memory .clause, .memory .clauseCopy]

/-- Then the action does something. -/
def does : Kind → List Op
  | .plain => []
  | .ret => [.result]
  | .fn => [.body]
  | .spy params => [.memory .swapper, .memory .swapperCopy] ++ params.map .param ++ [.original]

/-- The actions left after the first one was used once more. -/
def advance : List Act → List Act
  | [] => []
  | a :: rest =>
    match a.times with
    | none => a :: rest
    | some t => if t = 1 then rest else { a with times := some (t - 1) } :: rest

/-- The action was used for the last time. -/
def usedUp (a : Act) : Bool := a.times == some 1

/-- The world after a call that left no trace but its number (and that names of objects were used). -/
def Untouched (s : St) (d : List Op) (s' : St) : Prop :=
  ∃ next, s.next ≤ next ∧ s' = { s with ordinal := s.ordinal + 1, log := s.log ++ d, next := next }

/-- The world after a call that was recorded: the copies of its arguments and what was returned exist, nothing else that did not exist before. -/
def Recorded (c : Call) (s : St) (d : List Op) (res : Option Nat) (stubs : List (List Act)) (faked : Bool) (s' : St) : Prop :=
  ∃ next, s.next + c.args.length ≤ next ∧ (∀ id ∈ res, s.next + c.args.length ≤ id ∧ id < next) ∧
    s' = { live := s.live ++ List.range' s.next c.args.length ++ res.toList, next := next, blocks := s.blocks + 1,
           hist := s.hist ++ [List.range' s.next c.args.length], stubs := stubs, faked := faked, ordinal := s.ordinal + 1, log := s.log ++ d }

/-- How a call may end, and what is then left of it. -/
inductive Ends (th : Nat → Option X) (c : Call) (s : St) : Res X (Option Nat) → St → Prop where
  /-- An exception comes before the call is in the list of calls: it is as if there had been no call. -/
  | early {d x s'} : cut th s.log.length (early c s) = (d, some x) → Untouched s d s' → Ends th c s (.exc (.user x)) s'
  /-- No stubbing accepts it: reported, not recorded. -/
  | nobody {d s'} : chosen c.accepts s.stubs.length 0 = none → cut th s.log.length (Throwing.early c s) = (d, none) → Untouched s d s' →
      Ends th c s (.exc .unexpected) s'
  /-- The memory for the clean-up is missing: recorded, no action is used. -/
  | unprepared {h d d' x s'} : chosen c.accepts s.stubs.length 0 = some h → cut th s.log.length (Throwing.early c s) = (d, none) →
      cut th (s.log.length + d.length) prepare = (d', some x) → Recorded c s (d ++ d') none s.stubs s.faked s' → Ends th c s (.exc (.user x)) s'
  /-- No action is left: recorded and reported; an exception of those who are told or of the printing replaces the library's. -/
  | exhausted {h d d' e s'} : chosen c.accepts s.stubs.length 0 = some h → cut th s.log.length (Throwing.early c s) = (d, none) → s.stubs[h]? = some [] →
      cut th (s.log.length + d.length) prepare = (prepare, none) → cut th (s.log.length + d.length + 2) [.told, .print] = (d', e) →
      Recorded c s (d ++ prepare ++ d') none s.stubs s.faked s' → Ends th c s (.exc (e.elim .unexpected .user)) s'
  /-- An action is used: recorded, and used whether it throws or not. -/
  | answered {h d a rest d' e r s'} : chosen c.accepts s.stubs.length 0 = some h → cut th s.log.length (Throwing.early c s) = (d, none) →
      s.stubs[h]? = some (a :: rest) → cut th (s.log.length + d.length) prepare = (prepare, none) →
      cut th (s.log.length + d.length + 2) (does a.kind) = (d', e) → (r = none ↔ e ≠ none ∨ a.kind = .plain) →
      (usedUp a = true → th (s.log.length + d.length + 2 + d'.length) = none) →
      Recorded c s (d ++ prepare ++ d' ++ if usedUp a then [.memory .used] else []) r (s.stubs.modify h advance)
        (s.faked && !(e.isSome && (d' == [.memory .swapper] || d' == [.memory .swapper, .memory .swapperCopy]))) s' →
      Ends th c s (e.elim (.ok r) fun x => .exc (.user x)) s'
  /-- The memory to keep the used action is missing: the program is terminated. -/
  | terminated {h d a rest d' e x s'} : chosen c.accepts s.stubs.length 0 = some h → cut th s.log.length (Throwing.early c s) = (d, none) →
      s.stubs[h]? = some (a :: rest) → cut th (s.log.length + d.length) prepare = (prepare, none) →
      cut th (s.log.length + d.length + 2) (does a.kind) = (d', e) → usedUp a = true → th (s.log.length + d.length + 2 + d'.length) = some x →
      s'.log = s.log ++ (d ++ prepare ++ d' ++ [.memory .used]) → Ends th c s .dead s'

/-- The object that a call returned, if any. -/
def returned : Res X (Option Nat) → List Nat
  | .ok r => r.toList
  | _ => []

/-- The names of objects are not used twice. -/
def Wf (s : St) : Prop := s.live.Nodup ∧ ∀ id ∈ s.live, id < s.next

/-- From `s` to `s'` no allocation failed: only code of the user threw, if anything did. -/
def Enough (th : Nat → Option X) (s s' : St) : Prop :=
  ∀ n w, s.log.length ≤ n → s'.log[n]? = some (.memory w) → th n = none

end FakeIt.Spec.Throwing
