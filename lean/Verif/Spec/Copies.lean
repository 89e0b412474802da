import Verif.Model.Copies
/-!
# Specification for C76: all copies are one mock
-/
namespace FakeIt.Copies.Spec

/-- One mock known under several names. `methods`: for each method that was mentioned the stubbed values, newest first, and the number of answered calls; `knows`: for each copy, the methods that
were mentioned through it, or before it was made through the one it was copied from; `used`: the ids used so far; `over`: the mock has ended. -/
structure World where
  size : Nat
  spied : Bool
  methods : Nat → Option (List Nat × Nat)
  knows : List (Nat → Bool)
  used : List Nat
  over : Bool

def World.start (size : Nat) (spied : Bool) : World := ⟨size, spied, fun _ => none, [fun _ => false], [], false⟩

/-- `f` changed at one place. -/
def upd {α : Type} (f : Nat → α) (i : Nat) (a : α) : Nat → α := fun j => if j = i then a else f j

/-- A method is mentioned through a copy. `none`: a copy is asked for a method it does not know, a method of another class, or an id used for another method. -/
def World.mention (w : World) (m slot id : Nat) : Option World :=
  match w.knows[m]? with
  | none => none
  | some k =>
    if slot < w.size then
      if k slot then some w
      else if m = 0 ∧ id ∉ w.used then
        some { w with methods := upd w.methods slot (some ([], 0)), knows := w.knows.set 0 (upd k slot true), used := id :: w.used }
      else none
    else none

/-- What an operation through any of the names means; `none`: the operation is not among the harmless ones (the end of a copied mock or its reset, a method new to a copy). -/
def World.step (w : World) : Op → Option (World × Ans)
  | .copy m =>
    match w.knows[m]? with
    | some k => some ({ w with knows := w.knows ++ [k] }, .nothing)
    | none => none
  | .stub m slot id v =>
    match w.mention m slot id with
    | some w =>
      match w.methods slot with
      | some (vs, n) => some ({ w with methods := upd w.methods slot (some (v :: vs, n)) }, .nothing)
      | none => none
    | none => none
  | .count m slot id =>
    match w.mention m slot id with
    | some w =>
      match w.methods slot with
      | some (_, n) => some (w, .count n)
      | none => none
    | none => none
  | .call slot =>
    if slot < w.size then
      if w.over then (if w.spied then some (w, .native) else none)
      else
        match w.methods slot with
        | none => some (w, if w.spied then .native else .unexpected)
        | some ([], _) => some (w, .unexpected)
        | some (v :: vs, n) => some ({ w with methods := upd w.methods slot (some (v :: vs, n + 1)) }, .value v)
    else none
  | .reset m =>
    if m = 0 ∧ w.knows.length = 1 then some ({ w with methods := fun _ => none, knows := [fun _ => false], used := [] }, .nothing) else none
  | .destroy m =>
    if m = 0 ∧ w.knows.length = 1 then some ({ w with knows := [], over := true }, .nothing) else none

def World.run : World → List Op → Option (World × List Ans)
  | w, [] => some (w, [])
  | w, op :: ops =>
    match w.step op with
    | none => none
    | some (w, a) =>
      match World.run w ops with
      | none => none
      | some (w, as) => some (w, a :: as)

end FakeIt.Copies.Spec
