import Verif.Model.Printing
/-!
# How an argument is printed: specification

For built-in types a table. For the others the rule of the language, stated with quantifiers: `s << t` calls the function that is better than all others.
-/
namespace FakeIt.Printing.Spec

/-- There is a C string at the address: it is not null and there is a zero before the memory ends. -/
def TextAt (mem : Nat → List Nat) (p : Nat) : Prop := p ≠ 0 ∧ 0 ∈ mem p

/-- The characters before the first zero. -/
def textOf (mem : Nat → List Nat) (p : Nat) : List Nat := (mem p).takeWhile (· ≠ 0)

/-- `s << t` calls `c`, after the conversion `q`. -/
def Calls (l : Library) (t : Ty) (c : Cand) (q : Seq) : Prop :=
  (c, q) ∈ t.viable l ∧ q ≠ .ambiguous ∧ ∀ c' q', (c', q') ∈ t.viable l → c' ≠ c → q.better q' = true

/-- The operator of the standard library for each built-in type. -/
def operatorFor (l : Library) : Builtin → Option Cand
  | .bool => some .bool
  | .char => some .char
  | .schar => some .schar
  | .uchar => some .uchar
  | .wide => some (if l.deletesWide then .wide else .int)
  | .int => some .int
  | .float => some .float
  | .nullptr => if l.printsNullptr then some .nullptr else none
  | .memberPtr => some .bool
  | .ptr .fn _ => some .bool
  | .ptr .manip _ => some .manip
  | .ptr _ true => some (if l.printsVolatile then .vaddress else .bool)
  | .ptr .char false => some .text
  | .ptr .schar false => some .stext
  | .ptr .uchar false => some .utext
  | .ptr .wide false => some (if l.deletesWide then .wtext else .address)
  | .ptr .data false => some .address

/-- A C string without quotes; undefined if there is none. -/
def bare (mem : Nat → List Nat) (p : Nat) [Decidable (TextAt mem p)] : R Shown := if TextAt mem p then .done (.rawText (textOf mem p)) else .ub

instance (mem : Nat → List Nat) (p : Nat) : Decidable (TextAt mem p) := inferInstanceAs (Decidable (_ ∧ _))

/-- What a value of a built-in type is printed as; `none`: mocking the method does not compile. -/
def shown (l : Library) (mem : Nat → List Nat) (b : Builtin) (v : Nat) : Option (R Shown) :=
  match b with
  | .bool => some (.done (.word (decide (v ≠ 0))))
  | .char => some (.done (.quoted v))
  | .schar => some (.done (.raw v))
  | .uchar => some (.done (.raw v))
  | .int => some (.done (.number v))
  | .float => some (.done (.number v))
  | .wide => if l.deletesWide then none else some (.done (.number v))
  | .nullptr => some (.done (if l.printsNullptr then .nullptr else .question))
  | .memberPtr => some (.done (.flag (decide (v ≠ 0))))
  | .ptr .fn _ => some (.done (.flag (decide (v ≠ 0))))
  | .ptr .manip _ => some (.done .nothing)
  | .ptr _ true => some (.done (if l.printsVolatile then .address v else .flag (decide (v ≠ 0))))
  | .ptr .char false => some (if v = 0 then .done .null else if TextAt mem v then .done (.quotedText (textOf mem v)) else .ub)
  | .ptr .schar false => some (bare mem v)
  | .ptr .uchar false => some (bare mem v)
  | .ptr .wide false => if l.deletesWide then none else some (.done (.address v))
  | .ptr .data false => some (.done (.address v))

/-- Printing a value reads memory from address `p` on: the value is a pointer to characters of any kind that is not wide, or a class with a conversion to one. -/
inductive Reads (l : Library) : Ty → Nat → Nat → Prop where
  | char {p} (h : p ≠ 0) : Reads l (.builtin (.ptr .char false)) p p
  | schar {p} : Reads l (.builtin (.ptr .schar false)) p p
  | uchar {p} : Reads l (.builtin (.ptr .uchar false)) p p
  | cls {ops convs c f r k v} (h : Calls l (.cls ops convs) c (.user f r)) (hc : c = .text ∨ c = .stext ∨ c = .utext) (hk : convs[f]? = some k) : Reads l (.cls ops convs) v (k.give v)

end FakeIt.Printing.Spec
