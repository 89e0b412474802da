import Verif.Spec.Races
/-!
# What mocks answer, without memory locations

A mock is, for each method named so far, a list of stubbings and a list of recorded calls.
-/
namespace FakeIt.Races.Spec

variable {V : Type}

/-- A stubbing: what it accepts and the actions left. -/
structure Stubbing (V : Type) where
  accepts : V → Bool
  acts : List (Action V)

/-- A recorded call: its arguments, and whether it has been verified. -/
structure Rec (V : Type) where
  args : V
  verified : Bool
  deriving DecidableEq, Repr

/-- A method: its stubbings, oldest first, and its recorded calls. -/
structure Method (V : Type) where
  stubbings : List (Stubbing V)
  calls : List (Rec V)

/-- All mocks; `none` for a method not named since the last `Reset`. -/
abbrev Mocks (V : Type) : Type := Nat → Nat → Option (Method V)

/-- With another method `f` of mock `m`. -/
def Mocks.upd (s : Mocks V) (m f : Nat) (M : Method V) : Mocks V := fun m' k => if m' = m ∧ k = f then some M else s m' k

/-- The newest stubbing that accepts the arguments. -/
def newest (a : V) : List (Stubbing V) → Option Nat
  | [] => none
  | s :: ss =>
    match newest a ss with
    | some h => some (h + 1)
    | none => if s.accepts a then some 0 else none

/-- The action to use and what is left then. -/
def use : List (Action V) → Option (Kind V × List (Action V))
  | [] => none
  | x :: rest =>
    match x.times with
    | none => some (x.kind, x :: rest)
    | some t => some (x.kind, if t = 1 then rest else ⟨some (t - 1), x.kind⟩ :: rest)

/-- The arguments after the action. -/
def effect (a : V) : Kind V → V
  | .sets f => f a
  | _ => a

/-- A call. -/
def callOf (orig : Nat → Nat → Entry) (s : Mocks V) (m f : Nat) (a : V) : Result × Mocks V :=
  match s m f with
  | none => (if orig m f = .original then .original else .unexpected, s)
  | some M =>
    match newest a M.stubbings with
    | none => (.unexpected, s)
    | some h =>
      match (M.stubbings[h]?).bind fun t => use t.acts with
      | none => (.unexpected, s.upd m f ⟨M.stubbings, M.calls ++ [⟨a, false⟩]⟩)
      | some (kd, left) => (.served h, s.upd m f ⟨M.stubbings.modify h (fun t => ⟨t.accepts, left⟩), M.calls ++ [⟨effect a kd, false⟩]⟩)

/-- The method, named or new. -/
def ofName (s : Mocks V) (m f : Nat) : Method V := (s m f).getD ⟨[], []⟩

/-- What an operation answers and the mocks afterwards.  `size`: how many methods the class of each mock has. -/
def answer (orig : Nat → Nat → Entry) (size : Nat → Nat) (s : Mocks V) : Op V → Result × Mocks V
  | .call m f a => callOf orig s m f a
  | .stub m f _ p q => (.done, s.upd m f ⟨(ofName s m f).stubbings ++ [⟨p, q⟩], (ofName s m f).calls⟩)
  | .verify m f _ p e =>
    if e ((ofName s m f).calls.countP fun c => p c.args) then
      (.held, s.upd m f ⟨(ofName s m f).stubbings, (ofName s m f).calls.map fun c => ⟨c.args, c.verified || p c.args⟩⟩)
    else (.failed, s.upd m f (ofName s m f))
  | .noOther m => (if (List.range (size m)).all (fun k => (ofName s m k).calls.all Rec.verified) then .held else .failed, s)
  | .reset m => (.done, fun m' k => if m' = m then none else s m' k)
  | .clear m => (.done, fun m' k => if m' = m then (s m' k).map fun M => ⟨M.stubbings, []⟩ else s m' k)

/-- Operations one after the other. -/
def answers (orig : Nat → Nat → Entry) (size : Nat → Nat) : Mocks V → List (Op V) → List Result × Mocks V
  | s, [] => ([], s)
  | s, o :: os =>
    ((answer orig size s o).1 :: (answers orig size (answer orig size s o).2 os).1, (answers orig size (answer orig size s o).2 os).2)

/-- The mocks in memory. -/
def view (μ : Mem V) : Mocks V := fun m k =>
  if μ (.body m k) then
    some ⟨(μ (.stubs m k)).zipIdx.map fun x => ⟨x.1, μ (.seq m k x.2)⟩, (List.range (μ (.recs m k))).map fun j => ⟨μ (.args m k j), μ (.flag m k j)⟩⟩
  else none

/-- The operation leaves method `k` of mock `m` as it is. -/
def Leaves (m k : Nat) : Op V → Prop
  | .call m' f _ => m' ≠ m ∨ f ≠ k
  | .stub m' f _ _ _ => m' ≠ m ∨ f ≠ k
  | .noOther _ => True
  | .verify m' _ _ _ _ => m' ≠ m
  | .reset m' => m' ≠ m
  | .clear m' => m' ≠ m

end FakeIt.Races.Spec
