import Verif.Model.Kept
/-!
# Specification for C75: variables hold values
-/
namespace FakeIt.Kept

namespace Spec

/-- What a variable of the test means: a method expression, a sequence of them, a stubbing or a verification that takes effect when the variable ends. -/
inductive Val where
  | ctx (i : Nat)
  | seq (l : List Nat)
  | stub (i : Nat)
  | check (ls : List (List Nat)) (q : Int)

/-- The method expressions of a sequence; `none`: not a sequence. -/
def Val.leaves : Val → Option (List Nat)
  | .ctx i => some [i]
  | .seq l => some l
  | _ => none

/-- A variable; `owner`: it was declared as a variable of its own, not as another name for something. -/
structure Named where
  name : Nat
  val : Val
  owner : Bool

structure VState where
  env : List Named
  made : Nat
  log : List Ev

/-- The value of an expression, and whether it is a new one; `none`: does not compile. -/
def veval : Expr → VState → Option (Val × Bool × VState)
  | .var x, s => do
    let b ← s.env.find? (·.name == x)
    some (b.val, false, s)
  | .method k, s => some (.ctx s.made, false, { s with made := s.made + 1, log := s.log ++ [.made s.made k] })
  | .args e, s => do
    let (v, _, s) ← veval e s
    match v with
    | .ctx i => some (.ctx i, false, { s with log := s.log ++ [.criteria i] })
    | _ => none
  | .plus e f, s => do
    let (v, _, s) ← veval e s
    let (u, _, s) ← veval f s
    let l ← v.leaves
    let l' ← u.leaves
    some (.seq (l ++ l'), true, s)
  | .times more e, s => do
    let (v, _, s) ← veval e s
    let l ← v.leaves
    some (.seq (List.replicate (more + 1) l).flatten, true, s)

/-- The sequences given to `Verify`. -/
def vevalAll : List Expr → VState → Option (List (List Nat) × VState)
  | [], s => some ([], s)
  | e :: es, s => do
    let (v, _, s) ← veval e s
    let l ← v.leaves
    let (ls, s) ← vevalAll es s
    some (l :: ls, s)

/-- What happens at the end of a variable. -/
def ending (b : Named) : List Ev :=
  match b.owner, b.val with
  | true, .stub i => [.commit i]
  | true, .check ls q => [.check ls q]
  | _, _ => []

/-- One statement. -/
def vstep : Stmt → VState → Option VState
  | .val x e, s => do
    let (v, _, s) ← veval e s
    match v with
    | .ctx _ | .seq _ => some { s with env := ⟨x, v, true⟩ :: s.env }
    | _ => none
  | .ref x e, s => do
    let (v, fresh, s) ← veval e s
    some { s with env := ⟨x, v, fresh⟩ :: s.env }
  | .when_ e acts, s => do
    let (v, _, s) ← veval e s
    match v with
    | .ctx i => some { s with log := s.log ++ acts.map (.append i) ++ [.commit i] }
    | _ => none
  | .verify es q, s => do
    let (ls, s) ← vevalAll es s
    some { s with log := s.log ++ [.check ls q] }
  | .keepWhen p e, s => do
    let (v, _, s) ← veval e s
    match v with
    | .ctx i => some { s with env := ⟨p, .stub i, true⟩ :: s.env }
    | _ => none
  | .keepVerify p es q, s => do
    let (ls, s) ← vevalAll es s
    some { s with env := ⟨p, .check ls q, true⟩ :: s.env }
  | .act p a, s => do
    let b ← s.env.find? (·.name == p)
    match b.val with
    | .stub i => some { s with log := s.log ++ [.append i a] }
    | _ => none
  | .call k, s => some { s with log := s.log ++ [.call k] }
  | .block body, s => do
    let t ← vrun body s
    let inner := t.env.take (t.env.length - s.env.length)
    some { t with env := t.env.drop (t.env.length - s.env.length), log := t.log ++ (inner.map ending).flatten }
where
  vrun : List Stmt → VState → Option VState
  | [], s => some s
  | c :: cs, s => do
    let s ← vstep c s
    vrun cs s

/-- What a test does if variables hold values; `none`: it does not compile (or copies a statement object). -/
def meaning (body : List Stmt) : Option (List Ev) := (vstep (.block body) ⟨[], 0, []⟩).map (·.log)

/-- The expression is a variable, possibly with new arguments: nothing that ends with the statement. -/
def stays : Expr → Bool
  | .var _ => true
  | .args e => stays e
  | _ => false

/-- A sequence whose operands are variables (and anything that is not a sequence made on the spot). -/
def solid : Expr → Bool
  | .plus a b => stays a && stays b
  | .times _ a => stays a
  | _ => true

/-- An expression a reference may be bound to. -/
def bindable : Expr → Bool
  | .plus a b => stays a && stays b
  | .times _ a => stays a
  | e => stays e

mutual
/-- Everything kept is made from variables. -/
def careful : Stmt → Bool
  | .val _ e => solid e
  | .ref _ e => bindable e
  | .keepWhen _ e => stays e
  | .keepVerify _ es _ => es.all stays
  | .block body => carefulAll body
  | _ => true
def carefulAll : List Stmt → Bool
  | [] => true
  | c :: cs => careful c && carefulAll cs
end

/-- The variables a statement leaves behind. -/
def declares : Stmt → List Nat
  | .val x _ => [x]
  | .ref x _ => [x]
  | .keepWhen p _ => [p]
  | .keepVerify p _ _ => [p]
  | _ => []

/-- Code that keeps something made on the spot: -/
inductive Careless : List Stmt → Prop where
  /-- `auto p = When(Method(mock, f));` -/
  | keepWhen (pre post : List Stmt) (p : Nat) (e : Expr) : stays e = false → Careless (pre ++ .keepWhen p e :: post)
  /-- `auto p = Verify(Method(mock, f)).Exactly(q);` -/
  | keepVerify (pre post : List Stmt) (p : Nat) (e : Expr) (es : List Expr) (q : Int) : stays e = false → Careless (pre ++ .keepVerify p (e :: es) q :: post)
  /-- `auto x = Method(mock, f) + Method(mock, g); ... Verify(x, ...);` -/
  | val (pre mid post : List Stmt) (x : Nat) (e : Expr) (es : List Expr) (q : Int) : solid e = false → x ∉ (mid.map declares).flatten →
    Careless (pre ++ .val x e :: mid ++ .verify (.var x :: es) q :: post)
  /-- `auto &&x = Method(mock, f); ... Verify(x, ...);` -/
  | ref (pre mid post : List Stmt) (x : Nat) (e : Expr) (es : List Expr) (q : Int) : bindable e = false → x ∉ (mid.map declares).flatten →
    Careless (pre ++ .ref x e :: mid ++ .verify (.var x :: es) q :: post)
  /-- `auto &&x = Method(mock, f); ... When(x)...;` -/
  | refWhen (pre mid post : List Stmt) (x : Nat) (e : Expr) (acts : List Nat) : bindable e = false → x ∉ (mid.map declares).flatten →
    Careless (pre ++ .ref x e :: mid ++ .when_ (.var x) acts :: post)
  /-- in an inner block -/
  | block (pre post body : List Stmt) : Careless body → Careless (pre ++ .block body :: post)

end Spec

end FakeIt.Kept
