import Verif.Model.Races
/-!
# Data races between threads that use mocks

Threads are programs of single accesses; they share the memory and run in any interleaving.  There is a race if two threads can be about to access the same
location, one of them writing, with nothing to order them: the threads have started together and use no synchronisation of their own.
(A program without such races behaves in C++ as these interleavings say; one with a race has undefined behaviour.)
-/
namespace FakeIt.Races.Spec

variable {V α : Type}

/-- One access to memory. -/
structure Access where
  loc : Loc
  write : Bool
  deriving DecidableEq, Repr

/-- Two accesses that must not happen at the same time. -/
def Conflict (a b : Access) : Prop := a.loc = b.loc ∧ (a.write = true ∨ b.write = true)

/-- The access a thread is about to make. -/
def pending : Prog V α → Option Access
  | .rd l _ => some ⟨l, false⟩
  | .wr l _ _ => some ⟨l, true⟩
  | _ => none

/-- One step of a thread. -/
inductive Step1 : Prog V α → Mem V → Prog V α → Mem V → Prop where
  | rd (l : Loc) (k : Val V l → Prog V α) (μ : Mem V) : Step1 (.rd l k) μ (k (μ l)) μ
  | wr (l : Loc) (v : Val V l) (k : Prog V α) (μ : Mem V) : Step1 (.wr l v k) μ k (μ.set l v)
  | inc (k : Nat → Prog V α) (n : Nat) (μ : Mem V) : Step1 (.inc k) μ (k n) μ

/-- The memory and the threads. -/
structure Config (V α : Type) where
  mem : Mem V
  ts : List (Prog V α)

/-- Some thread makes a step. -/
inductive Step : Config V α → Config V α → Prop where
  | mk (c : Config V α) (i : Nat) (p p' : Prog V α) (μ' : Mem V) (hi : c.ts[i]? = some p) (hs : Step1 p c.mem p' μ') :
      Step c ⟨μ', c.ts.set i p'⟩

/-- Any number of steps. -/
inductive Steps : Config V α → Config V α → Prop where
  | refl (c : Config V α) : Steps c c
  | tail (c c' c'' : Config V α) (h : Steps c c') (hs : Step c' c'') : Steps c c''

/-- Threads `i` and `j` are about to make accesses that must not happen at the same time. -/
def RacyAt (c : Config V α) (i j : Nat) : Prop :=
  ∃ p q a b, c.ts[i]? = some p ∧ c.ts[j]? = some q ∧ pending p = some a ∧ pending q = some b ∧ Conflict a b

/-- No interleaving of the threads leads to a race. -/
def RaceFree (c : Config V α) : Prop := ∀ c', Steps c c' → ∀ i j, i ≠ j → ¬ RacyAt c' i j

/-- Some interleaving leads to a race between threads `i` and `j`. -/
def CanRace (c : Config V α) (i j : Nat) : Prop := ∃ c', Steps c c' ∧ RacyAt c' i j

/-- What a thread does when it runs alone, with the accesses it makes. -/
inductive Alone : Prog V α → Mem V → List Access → Prog V α → Mem V → Prop where
  | nil (p : Prog V α) (μ : Mem V) : Alone p μ [] p μ
  | rd (l : Loc) (k : Val V l → Prog V α) (μ μ' : Mem V) (tr : List Access) (p' : Prog V α) (h : Alone (k (μ l)) μ tr p' μ') :
      Alone (.rd l k) μ (⟨l, false⟩ :: tr) p' μ'
  | wr (l : Loc) (v : Val V l) (k : Prog V α) (μ μ' : Mem V) (tr : List Access) (p' : Prog V α) (h : Alone k (μ.set l v) tr p' μ') :
      Alone (.wr l v k) μ (⟨l, true⟩ :: tr) p' μ'
  | inc (k : Nat → Prog V α) (n : Nat) (μ μ' : Mem V) (tr : List Access) (p' : Prog V α) (h : Alone (k n) μ tr p' μ') :
      Alone (.inc k) μ tr p' μ'

/-- The accesses a thread can make when it runs alone. -/
def Makes (p : Prog V α) (μ : Mem V) (a : Access) : Prop := ∃ tr p' μ', Alone p μ tr p' μ' ∧ a ∈ tr

/-! ## Mocks -/

/-- A method has been named in a stubbing or verification before (since the last `Reset`). -/
def Known (μ : Mem V) (m off : Nat) : Prop := μ (.body m off) = true

/-- What holds of the memory between operations, whatever was done before.  `orig`: the original tables. -/
structure Settled (orig : Nat → Nat → Entry) (μ : Mem V) : Prop where
  inside : ∀ m k, Known μ m k → k < μ (.vecs m)
  known : ∀ m k, Known μ m k → μ (.entry m k) = .proxy ∧ μ (.ident m k) = some k
  unknown : ∀ m k, ¬ Known μ m k → μ (.entry m k) = orig m k
  own : ∀ m k j, μ (.ident m k) = some j → j = k
  orig : ∀ m k, orig m k ≠ .proxy

/-- Memory in which no method of any mock has been named yet. -/
def fresh (orig : Nat → Nat → Entry) (size : Nat → Nat) (a : V) : Mem V
  | .vecs m => size m
  | .entry m k => orig m k
  | .body _ _ => false
  | .ident _ _ => none
  | .name _ _ => 0
  | .stubs _ _ => []
  | .recs _ _ => 0
  | .seq _ _ _ => []
  | .args _ _ _ => a
  | .flag _ _ _ => false
  | .ctx => ()

/-- The mock an operation is made on. -/
def mockOf : Op V → Nat
  | .call m _ _ => m
  | .stub m _ _ _ _ => m
  | .verify m _ _ _ _ => m
  | .noOther m => m
  | .reset m => m
  | .clear m => m

/-- The method an operation names, if it names one. -/
def methodOf : Op V → Option Nat
  | .call _ f _ => some f
  | .stub _ f _ _ _ => some f
  | .verify _ f _ _ _ => some f
  | _ => none

/-- The operation names a method the class has. -/
def Fits (μ : Mem V) (o : Op V) : Prop := ∀ f, methodOf o = some f → f < μ (.vecs (mockOf o))

/-- A call may go on while another thread stubs, of methods `f` and `g` of the same mock: they are different, and `g` has been named before or comes later in
the class. -/
def CallStub (known : Nat → Nat → Prop) (m f g : Nat) : Prop := f ≠ g ∧ (known m g ∨ f < g)

/-- Two operations on the same mock that different threads may make at the same time. -/
def SameMock (known : Nat → Nat → Prop) : Op V → Op V → Prop
  | .call _ f _, .call _ g _ => f ≠ g
  | .call m f _, .stub _ g _ _ _ => CallStub known m f g
  | .stub m g _ _ _, .call _ f _ => CallStub known m f g
  | .stub _ f _ _ _, .stub _ g _ _ _ => f ≠ g
  | .noOther _, .noOther _ => True
  | _, _ => False

/-- Two operations that different threads may make at the same time. -/
def Compatible (known : Nat → Nat → Prop) (o o' : Op V) : Prop :=
  mockOf o ≠ mockOf o' ∨ SameMock known o o'

/-- Any two threads only make operations that may be made at the same time. -/
def Separate (known : Nat → Nat → Prop) (tss : List (List (Op V))) : Prop :=
  ∀ (i j : Nat) (os os' : List (Op V)), i ≠ j → tss[i]? = some os → tss[j]? = some os' → ∀ o, o ∈ os → ∀ o', o' ∈ os' → Compatible known o o'

/-- The memory and threads that make these operations. -/
def start (orig : Nat → Nat → Entry) (μ : Mem V) (tss : List (List (Op V))) : Config V (List Result) := ⟨μ, tss.map (thread orig)⟩

/-- A stubbing of the method accepts the arguments. -/
def Accepted (μ : Mem V) (m f : Nat) (a : V) : Prop := ∃ p, p ∈ μ (.stubs m f) ∧ p a = true

/-- A call of the method with these arguments is recorded and answered by a stubbing. -/
def Recorded (μ : Mem V) (m f : Nat) (a : V) : Prop := Known μ m f ∧ Accepted μ m f a

/-- Two operations that race if different threads make them at the same time. -/
inductive Clashes (μ : Mem V) : Op V → Op V → Prop where
  | sameMethod {m f : Nat} {a b : V} (h : Recorded μ m f a) (h' : Recorded μ m f b) : Clashes μ (.call m f a) (.call m f b)
  | callVerify {m f : Nat} {a : V} (h : Recorded μ m f a) (g txt : Nat) (p : V → Bool) (e : Nat → Bool) :
      Clashes μ (.call m f a) (.verify m g txt p e)
  | callNoOther {m f : Nat} {a : V} (h : Recorded μ m f a) : Clashes μ (.call m f a) (.noOther m)
  | callClear {m f : Nat} {a : V} (h : Recorded μ m f a) : Clashes μ (.call m f a) (.clear m)
  | callStub {m f : Nat} (h : Known μ m f) (a : V) (txt : Nat) (p : V → Bool) (q : List (Action V)) :
      Clashes μ (.call m f a) (.stub m f txt p q)
  | callFirst {m f g : Nat} (h : Known μ m f) (h' : ¬ Known μ m g) (hlt : g < f) (a : V) (txt : Nat) (p : V → Bool) (q : List (Action V)) :
      Clashes μ (.call m f a) (.stub m g txt p q)
  | stubStub (m f txt txt' : Nat) (p p' : V → Bool) (q q' : List (Action V)) : Clashes μ (.stub m f txt p q) (.stub m f txt' p' q')
  | stubVerify (m f txt txt' : Nat) (p p' : V → Bool) (q : List (Action V)) (e : Nat → Bool) :
      Clashes μ (.stub m f txt p q) (.verify m f txt' p' e)
  | verifyVerify (m f txt txt' : Nat) (p p' : V → Bool) (e e' : Nat → Bool) : Clashes μ (.verify m f txt p e) (.verify m f txt' p' e')
  | reset (o : Op V) : Clashes μ (.reset (mockOf o)) o
  | clearVerify {m k : Nat} (h : Known μ m k) (f txt : Nat) (p : V → Bool) (e : Nat → Bool) : Clashes μ (.clear m) (.verify m f txt p e)
  | clearNoOther {m k : Nat} (h : Known μ m k) : Clashes μ (.clear m) (.noOther m)
  | clearClear {m k : Nat} (h : Known μ m k) : Clashes μ (.clear m) (.clear m)

/-- The recorded calls of the method that a verification finds. -/
def found (μ : Mem V) (m f : Nat) (p : V → Bool) : List Nat := (List.range (μ (.recs m f))).filter fun k => p (μ (.args m f k))

/-- The verification holds if made now. -/
def Holds (μ : Mem V) (m f : Nat) (p : V → Bool) (expect : Nat → Bool) : Prop := expect (found μ m f p).length = true

end FakeIt.Races.Spec
