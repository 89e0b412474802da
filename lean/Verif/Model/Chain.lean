import Verif.Model.World
/-!
# Stubbing chains (include/fakeit/StubbingProgress.hpp 44-165, 229-309; include/fakeit/WhenFunctor.hpp 68-71)

How `When(...).Return(1, 2_Times(3)).Throw(e).AlwaysReturn(4);` becomes a list of actions.
-/
namespace FakeIt

variable {V E : Type}

/-- An argument of `Return`, `Throw` or `Do`: a value, or a value with a quantity (`2_Times(3)`; include/fakeit/Quantifier.hpp 23-48). The value of a quantity is
an `int`, see `Model/Quantifier.lean` for how literals become one. -/
inductive Item (X : Type) where
  | one (x : X)
  | times (n : Int) (x : X)

/-- One call on a stubbing progress. Lists of arguments are not empty; `retTimes` is `Return(n_Times)` for `void` methods (include/fakeit/StubbingProgress.hpp 44-165, 229-309). -/
inductive Link (V E : Type) where
  | ret (first : Item V) (more : List (Item V))
  | retDefault
  | retTimes (n : Int)
  | thr (first : Item E) (more : List (Item E))
  | do_ (first : Item (Fn V E)) (more : List (Item (Fn V E)))
  | alwaysRet (v : V)
  | alwaysRetDefault
  | alwaysThr (e : E)
  | alwaysDo (f : Fn V E)

/-- The function object made for `DefaultValue<R>::value()` (include/fakeit/StubbingProgress.hpp 98-105, 235-240, 248-256): none for references to types that have
no default value, where calling it is undefined. -/
def dfltFn (P : Prog V E) (c : ClassDecl V) (off : Nat) : Option (Fn V E) :=
  match c.dflt off with
  | .value v => some (.ret v)
  | .throws => some (.thr P.dfltExc)
  | .nullRef => none

/-- `Return(const R&)` / `Return(const Quantifier<R>&)`, `Throw(const E&)` / `Throw(const Quantifier<E>&)`, `Do(f)` / `Do(const Quantifier<F>&)`
(include/fakeit/StubbingProgress.hpp 50-60, 71-76, 107-118, 145-154, 258-269, 294-298): a `Repeat` of the function object `mk` makes from the value. -/
def appendItem {X : Type} (mk : X → Fn V E) (acts : List (Act V E)) : Item X → List (Act V E)
  | .one x => acts ++ [.rep 1 (mk x)]
  | .times n x => acts ++ [.rep n (mk x)]

/-- The variadic overloads (include/fakeit/StubbingProgress.hpp 78-83, 120-125, 156-161, 271-276, 300-305): the first one, then the others. -/
def appendItems {X : Type} (mk : X → Fn V E) : List (Act V E) → Item X → List (Item X) → List (Act V E)
  | acts, f, [] => appendItem mk acts f
  | acts, f, s :: t => appendItems mk (appendItem mk acts f) s t

/-- One call of the chain appends its actions (include/fakeit/WhenFunctor.hpp 68-71; `AlwaysReturn`, `AlwaysThrow`, `AlwaysDo`: include/fakeit/StubbingProgress.hpp
85-95, 103-105, 127-130, 163-165, 241-243, 279-282, 305-307). -/
def Link.append (P : Prog V E) (c : ClassDecl V) (off : Nat) (acts : List (Act V E)) : Link V E → Option (List (Act V E))
  | .ret f more => some (appendItems .ret acts f more)
  | .retDefault => (dfltFn P c off).map fun d => acts ++ [.rep 1 d]
  | .retTimes n => (dfltFn P c off).map fun d => acts ++ [.rep n d]
  | .thr f more => some (appendItems .thr acts f more)
  | .do_ f more => some (appendItems id acts f more)
  | .alwaysRet v => some (acts ++ [.forever (.ret v)])
  | .alwaysRetDefault => (dfltFn P c off).map fun d => acts ++ [.forever d]
  | .alwaysThr e => some (acts ++ [.forever (.thr e)])
  | .alwaysDo f => some (acts ++ [.forever f])

/-- A chain of calls (include/fakeit/WhenFunctor.hpp 68-71, include/fakeit/StubbingProgress.hpp 44-165, 229-309). -/
def chainActs (P : Prog V E) (c : ClassDecl V) (off : Nat) : List (Act V E) → List (Link V E) → Option (List (Act V E))
  | acts, [] => some acts
  | acts, l :: ls => (l.append P c off acts).bind fun acts => chainActs P c off acts ls

end FakeIt
