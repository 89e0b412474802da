import Verif.Model.Handlers
/-!
# What handlers of events that use the library may expect

Written without the counter of changes, the bound on the nesting and the interpreter of the model.
-/
namespace FakeIt.Spec.Handlers
open FakeIt.Handlers

/-- What has been asked of the library: who listens, and the adapter and the formatter set by the user, if any. -/
structure Settings where
  listeners : List Nat
  adapter : Option Nat
  formatter : Option Nat
  deriving DecidableEq

/-- Each operation changes one of the settings. -/
def Settings.set (s : Settings) : Op → Settings
  | .add l => ⟨s.listeners ++ [l], s.adapter, s.formatter⟩
  | .clear => ⟨[], s.adapter, s.formatter⟩
  | .setAdapter a => ⟨s.listeners, some a, s.formatter⟩
  | .resetAdapter => ⟨s.listeners, none, s.formatter⟩
  | .setFormatter f => ⟨s.listeners, s.adapter, some f⟩
  | .resetFormatter => ⟨s.listeners, s.adapter, none⟩

/-- The operations that change who listens. -/
def registers : Op → Bool
  | .add _ => true
  | .clear => true
  | _ => false

/-- Nobody changes who listens. -/
def Unregistered {Ev : Type} (log : List (Note Ev)) : Prop := ∀ o, .did o ∈ log → registers o = false

variable {Ev X : Type}

section
variable (react : Nat → Ev → Code Ev X) (a₀ f₀ : Nat)

mutual
/-- A handler's program, run inside of `d` events, has the effect `log` and ends with an exception or not. `a₀` and `f₀` are the library's own adapter and formatter. -/
inductive Runs : Nat → Code Ev X → Settings → List (Note Ev) → Option X → Settings → Prop where
  | done {d s} : Runs d .done s [] none s
  | throw {d x s} : Runs d (.throw x) s [] (some x) s
  | op {d o k s log x s'} : Runs d k (s.set o) log x s' → Runs d (.op o k) s (.did o :: log) x s'
  | format {d k s log x s'} : Runs d (k (s.formatter.getD f₀)) s log x s' → Runs d (.format k) s log x s'
  /-- an event is delivered before the handler goes on -/
  | fire {d e k s log x s₁ log' y s₂} : Delivers d e s log x s₁ → Runs d (k x) s₁ log' y s₂ → Runs d (.fire e k) s (log ++ log') y s₂

/-- An event is delivered, inside of `d` other events. -/
inductive Delivers : Nat → Ev → Settings → List (Note Ev) → Option X → Settings → Prop where
  /-- everybody who listens is told, then the adapter set by then -/
  | all {d e s log s₁ log' x s₂} : Tells d e s.listeners s log s₁ → Runs (d + 1) (react (s₁.adapter.getD a₀) e) s₁ log' x s₂ →
      Delivers d e s (log ++ .told d (.adapter (s₁.adapter.getD a₀)) e :: log') x s₂
  /-- a listener throws: nobody after it is told -/
  | cut {d e s pre l post log s₁ log' x s₂} : s.listeners = pre ++ l :: post → Tells d e pre s log s₁ → Runs (d + 1) (react l e) s₁ log' (some x) s₂ →
      Delivers d e s (log ++ .told d (.listener l) e :: log') (some x) s₂

/-- Some listeners are told, one after the other; each returns, and does not change who listens. -/
inductive Tells : Nat → Ev → List Nat → Settings → List (Note Ev) → Settings → Prop where
  | nil {d e s} : Tells d e [] s [] s
  | cons {d e l ls s log s₁ log' s₂} : Runs (d + 1) (react l e) s log none s₁ → Unregistered log → Tells d e ls s₁ log' s₂ →
      Tells d e (l :: ls) s (.told d (.listener l) e :: log ++ log') s₂
end
end

/-- A handler's program never changes who listens, whatever happens. -/
inductive Quiet : Code Ev X → Prop where
  | done : Quiet .done
  | throw {x} : Quiet (.throw x)
  | op {o k} : registers o = false → Quiet k → Quiet (.op o k)
  | format {k} : (∀ f, Quiet (k f)) → Quiet (.format k)
  | fire {e k} : (∀ x, Quiet (k x)) → Quiet (.fire e k)

/-- A handler's program only causes events of rank below `n`. -/
inductive Below (rank : Ev → Nat) (n : Nat) : Code Ev X → Prop where
  | done : Below rank n .done
  | throw {x} : Below rank n (.throw x)
  | op {o k} : Below rank n k → Below rank n (.op o k)
  | format {k} : (∀ f, Below rank n (k f)) → Below rank n (.format k)
  | fire {e k} : rank e < n → (∀ x, Below rank n (k x)) → Below rank n (.fire e k)

/-- The log of telling `ws` of `e`, inside of `d` events: whatever somebody is told meanwhile is of events further inside. -/
inductive Nested (d : Nat) (e : Ev) : List Told → List (Note Ev) → Prop where
  | nil : Nested d e [] []
  | cons {w ws inner log} : (∀ d' w' e', .told d' w' e' ∈ inner → d < d') → Nested d e ws log → Nested d e (w :: ws) (.told d w e :: inner ++ log)

/-- The adapter set last, according to the log. -/
def lastAdapter (start : Option Nat) : List (Note Ev) → Option Nat
  | [] => start
  | .did (.setAdapter a) :: log => lastAdapter (some a) log
  | .did .resetAdapter :: log => lastAdapter none log
  | _ :: log => lastAdapter start log

/-- The formatter set last, according to the log. -/
def lastFormatter (start : Option Nat) : List (Note Ev) → Option Nat
  | [] => start
  | .did (.setFormatter f) :: log => lastFormatter (some f) log
  | .did .resetFormatter :: log => lastFormatter none log
  | _ :: log => lastFormatter start log

end FakeIt.Spec.Handlers
