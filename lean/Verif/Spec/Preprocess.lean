import Verif.Model.SingleHeader
/-!
# Specification: what a compiler makes of a file with includes, conditional directives and `#pragma once`
-/
namespace FakeIt.Spec
open SingleHeader

/-- The conditions around a line, innermost first: do they hold? -/
def Active (s : List Bool) : Prop := ∀ b ∈ s, b = true

instance (s : List Bool) : Decidable (Active s) := inferInstanceAs (Decidable (∀ b ∈ s, b = true))

/-- The conditions after a line, `none` for an `#else` or `#endif` without condition. -/
def stackStep (env : String → Bool) : List Bool → Line → Option (List Bool)
  | s, .ifdef c => some (env c :: s)
  | b :: s, .els => some ((!b) :: s)
  | [], .els => none
  | _ :: s, .endif => some s
  | [], .endif => none
  | s, _ => some s

/-- The conditions after a number of lines. -/
def stackAfter (env : String → Bool) : List Bool → List Line → Option (List Bool)
  | s, [] => some s
  | s, l :: ls => (stackStep env s l).bind fun s' => stackAfter env s' ls

/-- The directory of a file. -/
def dirOf (p : Path) : Path := p.dropLast

/-- Where a compiler looks for a quoted include: in the directory of the including file, then along the include path. -/
def resolve (fs : Files) (dirs : List Path) (cur : Path) (h : Spelling) : Option Path :=
  ((dirOf cur :: dirs).map fun d => d ++ h.filter (· ≠ "")).find? fun p => (fs p).isSome

/-- What the preprocessor has at hand after some lines: the conditions around the place, the files that are not to be read again, the program text. -/
structure PpState where
  stack : List Bool
  onces : List Path
  out : List String
  deriving DecidableEq, Repr

/-- The lines of a file, `cur`, one after the other. Where the conditions around a line do not hold, nothing but the conditional directives is looked at. A file
has to close the conditions it opens. Including a file that does not exist is an error, as is the depth of includes exceeding `n`. -/
def preLines (fs : Files) (env : String → Bool) (dirs : List Path) (sub : List Path → Path → Option (List Path × List String)) (cur : Path) :
    PpState → List Line → Option PpState
  | st, [] => some st
  | st, l :: ls =>
    match stackStep env st.stack l with
    | none => none
    | some s' =>
      if Active st.stack then
        match l with
        | .incl h =>
          match resolve fs dirs cur h with
          | none => none
          | some p =>
            if p ∈ st.onces then preLines fs env dirs sub cur st ls
            else
              match sub st.onces p with
              | none => none
              | some (v, o) => preLines fs env dirs sub cur { st with onces := v, out := st.out ++ o } ls
        | .once => preLines fs env dirs sub cur { st with onces := cur :: st.onces } ls
        | .text t => preLines fs env dirs sub cur { st with out := st.out ++ [t] } ls
        | _ => preLines fs env dirs sub cur { st with stack := s' } ls
      else preLines fs env dirs sub cur { st with stack := s' } ls

/-- A whole file, `p`, with the files that are not to be read again; the result is those after it, and its program text. -/
def preFile (fs : Files) (env : String → Bool) (dirs : List Path) : Nat → List Path → Path → Option (List Path × List String)
  | 0, _, _ => none
  | n + 1, v, p =>
    match fs p with
    | none => none
    | some ls =>
      match preLines fs env dirs (preFile fs env dirs n) p { stack := [], onces := v, out := [] } ls with
      | some st => if st.stack = [] then some (st.onces, st.out) else none
      | none => none

/-- The program text a compiler sees that is given the file `p`: includes nested up to `n` deep, conditions `env`, include path `dirs`. -/
def program (fs : Files) (env : String → Bool) (dirs : List Path) (n : Nat) (p : Path) : Option (List String) :=
  (preFile fs env dirs n [] p).map Prod.snd

/-- Nothing but comments before its `#pragma once`. -/
def Guarded (ls : List Line) : Prop := ∃ pre rest, ls = pre ++ .once :: rest ∧ ∀ l ∈ pre, ∃ t, l = Line.comment t

/-- A part of the files, `part`, that can be put together into one by writing each of them where it is first included. `off` tells which of the files are not
wanted under the conditions `env`. -/
structure Tidy (fs : Files) (cfg : String) (dirs : List Path) (env : String → Bool) (root : Path) (part off : Path → Prop) : Prop where
  /-- the file to begin with is in the part and wanted -/
  root_part : part root ∧ ¬ off root
  /-- include lines of the part name existing files of the part, the same for the compiler as for the generator -/
  found : ∀ f ls h, part f → fs f = some ls → .incl h ∈ ls → ∃ g, part g ∧ (fs g).isSome ∧ locate fs cfg h = some g ∧ resolve fs dirs f h = some g
  /-- one spelling per file -/
  spelled : ∀ f f' ls ls' h h', part f → part f' → fs f = some ls → fs f' = some ls' → .incl h ∈ ls → .incl h' ∈ ls' →
    locate fs cfg h = locate fs cfg h' → h = h'
  /-- nothing includes the file to begin with -/
  root_free : ∀ f ls h, part f → fs f = some ls → .incl h ∈ ls → locate fs cfg h ≠ some root
  /-- files close the conditions they open -/
  closed : ∀ f ls, part f → fs f = some ls → stackAfter env [] ls = some []
  /-- a file without `#pragma once` in front is included by one line only -/
  single : ∀ f f' pre post pre' post' h g gs, part f → part f' → fs f = some (pre ++ .incl h :: post) → fs f' = some (pre' ++ .incl h :: post') →
    locate fs cfg h = some g → fs g = some gs → ¬ Guarded gs → f = f' ∧ pre = pre'
  /-- a file is included either from wanted places only or from unwanted places only -/
  wanted : ∀ f pre post h g s, part f → fs f = some (pre ++ .incl h :: post) → locate fs cfg h = some g → stackAfter env [] pre = some s →
    (off g ↔ off f ∨ ¬ Active s)

end FakeIt.Spec
