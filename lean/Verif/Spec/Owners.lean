import Verif.Model.Owners
/-!
# Specification for C91: owners of mocked objects

No counts and no order: owners are in variables, in stubbings and in records; operations take some of them away; a group without owners has ended.  What happens to an object depends only on how
many groups that own it end.
-/
namespace FakeIt.Owners.Spec

/-- The objects that groups of owners own, the variables, the mocks. -/
structure World where
  objs : List Nat
  vars : List (Option Nat)
  mocks : List Mck
  deriving DecidableEq, Repr

/-- The groups of all owners there are. -/
def World.shares (w : World) : List Nat := w.vars.filterMap id ++ w.mocks.flatMap fun k => sharesOf k.methods

/-- How many groups of owners of object `j` have an owner before and none after. -/
def endedBy (before after : World) (j : Nat) : Nat :=
  (List.range before.objs.length).countP fun g => decide (before.objs[g]? = some j) && decide (g ∈ before.shares) && !decide (g ∈ after.shares)

/-- The destructor of the object of a mock is called `n` times: if it is mocked each call is recorded and answered; else nothing happens if the mock made the object, and another object is destroyed,
which is possible once. `none`: undefined, or the program is terminated, or (during a reset) not to be relied on. -/
def react (n : Nat) (k : Mck) : Option Mck :=
  if n = 0 then some k
  else if k.object = false then none
  else
    match k.phase, k.dtor with
    | .live, some ⟨none, c⟩ => some { k with dtor := some ⟨none, c + n⟩ }
    | .live, some ⟨some l, c⟩ => if n ≤ l then some { k with dtor := some ⟨some (l - n), c + n⟩ } else none
    | .resetting, some _ => none
    | _, _ => if k.fake then some k else if n = 1 then some { k with object := false } else none

/-- All mocks, each with its number of calls. -/
def reactAll (n : Nat → Nat) : List Mck → Option (List Mck)
  | [] => some []
  | k :: ks => (react (n 0) k).bind fun k => (reactAll (fun i => n (i + 1)) ks).map (k :: ·)

/-- What happens when owners have been taken away. -/
def lose (before after : World) : Option World := (reactAll (endedBy before after) after.mocks).map fun ks => { after with mocks := ks }

/-- The groups of the arguments, and the variables afterwards: moved ones are null. -/
def give : List (Nat × Bool) → List (Option Nat) → Option (List (Option Nat) × List Nat)
  | [], vars => some (vars, [])
  | (v, moved) :: as, vars =>
    match vars[v]? with
    | none => none
    | some none => give as vars
    | some (some g) => (give as (if moved then vars.set v none else vars)).map fun p => (p.1, g :: p.2)

/-- A mock that is in use. -/
def World.mock (w : World) (m : Nat) : Option Mck :=
  match w.mocks[m]? with
  | some k => if k.phase = .live then some k else none
  | none => none

/-- The mock with other bodies. -/
def World.setMock (w : World) (m : Nat) (k : Mck) : World := { w with mocks := w.mocks.set m k }

/-- What is known about a method; nothing yet, if it has not been mentioned. -/
def body (k : Mck) (f : Nat) : Option Body :=
  match k.methods[f]? with
  | some (some b) => some b
  | some none => if k.object then some ⟨false, [], []⟩ else none
  | none => none

/-- The same for the destructor. -/
def dtorBody (k : Mck) : Option Dtor :=
  match k.dtor with
  | some d => some d
  | none => if k.object then some ⟨some 0, 0⟩ else none

/-- Records of some methods are forgotten. -/
def forget (bs : List (Option Body)) : List (Option Body) := bs.map (Option.map Body.cleared)

/-- What an operation means; `none`: not defined (or the program is terminated). -/
def World.step (w : World) : Op → Option (World × Ans)
  | .mock fake size dtorAt => some ({ w with mocks := w.mocks ++ [⟨fake, List.replicate size none, dtorAt, none, .live, true⟩] }, .nothing)
  | .own m =>
    match w.mocks[m]? with
    | some k => if k.object then some ({ w with objs := w.objs ++ [m], vars := w.vars ++ [some w.objs.length] }, .nothing) else none
    | none => none
  | .copy v =>
    match w.vars[v]? with
    | some o => some ({ w with vars := w.vars ++ [o] }, .nothing)
    | none => none
  | .drop v => if v < w.vars.length then (lose w { w with vars := w.vars.set v none }).map (·, .nothing) else none
  | .stub m f v =>
    (give (v.toList.map (·, false)) w.vars).bind fun p => (w.mock m).bind fun k => (body k f).map fun b =>
      (w.setMock m { k with methods := k.methods.set f (some ⟨true, b.kept ++ p.2, b.records⟩) }, .nothing)
  | .stubDtor m n => (w.mock m).bind fun k => (dtorBody k).map fun d => (w.setMock m { k with dtor := some ⟨n, d.calls⟩ }, .nothing)
  | .call m f args =>
    (give args w.vars).bind fun p =>
      match w.mocks[m]? with
      | none => none
      | some k =>
        let w' := { w with vars := p.1 }
        if k.object = false then none
        else
          match k.phase with
          | .ended => (lose w w').map (·, .native)
          | .resetting => none
          | .live =>
            match k.methods[f]? with
            | none => none
            | some none => (lose w w').map (·, if k.fake then .unexpected else .native)
            | some (some b) =>
              if b.stubbed then some (w'.setMock m { k with methods := k.methods.set f (some ⟨true, b.kept, b.records ++ [p.2]⟩) }, .answered)
              else (lose w w').map (·, .unexpected)
  | .count m f => (w.mock m).bind fun k => (body k f).map fun b => (w.setMock m { k with methods := k.methods.set f (some b) }, .count b.records.length)
  | .countDtor m => (w.mock m).bind fun k => (dtorBody k).map fun d => (w.setMock m { k with dtor := some d }, .count d.calls)
  | .clear m =>
    (w.mock m).bind fun k => (lose w (w.setMock m { k with methods := forget (k.methods.take k.dtorAt) ++ k.methods.drop k.dtorAt })).bind fun w =>
      (w.mock m).bind fun k => (lose w (w.setMock m { k with methods := k.methods.take k.dtorAt ++ forget (k.methods.drop k.dtorAt), dtor := k.dtor.map fun d => ⟨d.left, 0⟩ })).map (·, .nothing)
  | .reset m =>
    (w.mock m).bind fun k => (lose w (w.setMock m { k with phase := .resetting, methods := k.methods.map fun _ => none })).bind fun w =>
      w.mocks[m]?.map fun k => (w.setMock m { k with phase := .live, dtor := none }, .nothing)
  | .destroy m =>
    (w.mock m).bind fun k =>
      if k.object then
        (lose w (w.setMock m { k with phase := .ended, dtor := none, methods := k.methods.map fun _ => none })).bind fun w =>
          w.mocks[m]?.map fun k => (w.setMock m { k with object := k.object && !k.fake }, .nothing)
      else none

/-- A test. -/
def World.run : List Op → World → Option (World × List Ans)
  | [], w => some (w, [])
  | op :: ops, w => (w.step op).bind fun p => (World.run ops p.1).map fun q => (q.1, p.2 :: q.2)

/-- The beginning of a test. -/
def World.start : World := ⟨[], [], []⟩

end FakeIt.Owners.Spec
