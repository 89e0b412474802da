import Verif.Model.Creators
/-!
# C62: argument matchers compare with the values of the moment
-/
namespace FakeIt
variable {A : Type}

namespace Spec

/-- Statements of a test: `using_` is a statement such as `When(Method(mock, f).Using(Eq(x), Gt(3))).Return(1);`, with the comparisons and what they are given. -/
inductive TestStmt (A : Type) where
  | declare (v : A)
  | assign (c : Nat) (v : A)
  | leave (c : Nat)
  | using_ (l : List (Cmp × Given A))
  | ask (m : Nat) (actual : A)

/-- What is done for one statement, `n` creators having been made before: all creators are made, then `Using` visits them in order, then the temporaries die. -/
def TestStmt.code (n : Nat) : TestStmt A → List (CreatorOp A)
  | .declare v => [.declare v]
  | .assign c v => [.assign c v]
  | .leave c => [.leave c]
  | .using_ l => l.map (fun x => .make x.1 x.2) ++ ((List.range' n l.length).map .collect ++ [.semicolon])
  | .ask m a => [.ask m a]

/-- How many creators a statement makes. -/
def TestStmt.makes : TestStmt A → Nat
  | .using_ l => l.length
  | _ => 0

/-- What is done for a test. -/
def code : Nat → List (TestStmt A) → List (CreatorOp A)
  | _, [] => []
  | n, t :: ts => t.code n ++ code (n + t.makes) ts

/-- What the names say. -/
def holds (ops : Ops A) : Cmp → A → A → Bool
  | .eq, expected, actual => ops.eq actual expected
  | .ne, expected, actual => ops.ne actual expected
  | .lt, expected, actual => ops.lt actual expected
  | .le, expected, actual => ops.le actual expected
  | .gt, expected, actual => ops.gt actual expected
  | .ge, expected, actual => ops.ge actual expected

/-- A test as its author sees it: variables (`none`: gone), comparisons with values, verdicts. -/
structure Reading (A : Type) where
  vars : List (Option A) := []
  matchers : List (Cmp × A) := []
  said : List Bool := []

/-- The value of a `Given`; none if the variable is gone. -/
def givenValue (vars : List (Option A)) : Given A → Option A
  | .var c => vars[c]?.join
  | .moved c => vars[c]?.join
  | .temp v => some v

/-- The values of all. -/
def givenValues (vars : List (Option A)) : List (Cmp × Given A) → Option (List (Cmp × A))
  | [] => some []
  | (c, g) :: l => do
    let v ← givenValue vars g
    let vs ← givenValues vars l
    some ((c, v) :: vs)

/-- `std::move` lets the value of a variable go away. -/
def movedFrom (after : A → A) (vars : List (Option A)) : Given A → List (Option A)
  | .moved c => vars.modify c (Option.map after)
  | _ => vars

/-- A statement as its author sees it: `Using` compares with the values at the time of the statement. -/
def Reading.step (ops : Ops A) (after : A → A) (s : Reading A) : TestStmt A → Option (Reading A)
  | .declare v => some { s with vars := s.vars ++ [some v] }
  | .assign c v => (s.vars[c]?.join).map fun _ => { s with vars := s.vars.set c (some v) }
  | .leave c => some { s with vars := s.vars.set c none }
  | .using_ l => (givenValues s.vars l).map fun vs =>
      { s with vars := l.foldl (fun vars x => movedFrom after vars x.2) s.vars, matchers := s.matchers ++ vs }
  | .ask m a => s.matchers[m]?.map fun k => { s with said := s.said ++ [holds ops k.1 k.2 a] }

/-- A test as its author sees it. -/
def Reading.run (ops : Ops A) (after : A → A) : Reading A → List (TestStmt A) → Option (Reading A)
  | s, [] => some s
  | s, t :: ts => (s.step ops after t).bind fun s => Reading.run ops after s ts

/-- One of the two gives up the variable the other one uses. -/
def clash : Given A → Given A → Prop
  | .moved c, .var d => c = d
  | .moved c, .moved d => c = d
  | .var c, .moved d => c = d
  | _, _ => False

/-- No variable is given up by `std::move` in a statement that uses it elsewhere. -/
def TestStmt.NoClash : TestStmt A → Prop
  | .using_ l => l.Pairwise fun x y => ¬ clash x.2 y.2
  | _ => True

end Spec
open Spec

/-- Creators from `n` on, and temporaries from `t` on, are those of `l`. -/
private def Ready (cs : List Creator) (ts : List (Option A)) : Nat → Nat → List (Cmp × Given A) → Prop
  | _, _, [] => True
  | n, t, (cmp, .var c) :: l => cs[n]? = some ⟨cmp, .var c, false⟩ ∧ Ready cs ts (n + 1) t l
  | n, t, (cmp, .moved c) :: l => cs[n]? = some ⟨cmp, .var c, true⟩ ∧ Ready cs ts (n + 1) t l
  | n, t, (cmp, .temp v) :: l => cs[n]? = some ⟨cmp, .temp t, true⟩ ∧ ts[t]? = some (some v) ∧ Ready cs ts (n + 1) (t + 1) l

private theorem ready_set {cs : List Creator} {ts : List (Option A)} {x : Option A} {t0 : Nat} :
    ∀ {l : List (Cmp × Given A)} {n t : Nat}, t0 < t → Ready cs ts n t l → Ready cs (ts.set t0 x) n t l
  | [], _, _, _, _ => trivial
  | (_, .var _) :: _, _, _, h, r => ⟨r.1, ready_set h r.2⟩
  | (_, .moved _) :: _, _, _, h, r => ⟨r.1, ready_set h r.2⟩
  | (_, .temp _) :: _, _, _, h, r =>
    ⟨r.1, by rw [List.getElem?_set_ne (Nat.ne_of_lt h)]; exact r.2.1, ready_set (Nat.lt_succ_of_lt h) r.2.2⟩

private theorem run_append (ops : Ops A) (after : A → A) (xs ys : List (CreatorOp A)) (s : CreatorState A) :
    s.run ops after (xs ++ ys) = (s.run ops after xs).bind fun s => s.run ops after ys := by
  induction xs generalizing s with
  | nil => rfl
  | cons x xs ih =>
    simp only [List.cons_append, CreatorState.run]
    show R.bind _ _ = R.bind (R.bind _ _) _
    cases s.step ops after x with
    | done a => exact ih a
    | ub => rfl
    | oof => rfl

private theorem run_makes (ops : Ops A) (after : A → A) : ∀ (l : List (Cmp × Given A)) (s : CreatorState A), ∃ cs ts,
    s.run ops after (l.map fun x => .make x.1 x.2) = .done { s with creators := s.creators ++ cs, temps := s.temps ++ ts } ∧ cs.length = l.length ∧
      Ready (s.creators ++ cs) (s.temps ++ ts) s.creators.length s.temps.length l
  | [], s => ⟨[], [], by simp [CreatorState.run], rfl, trivial⟩
  | (cmp, g) :: l, s => by
    obtain ⟨cs, ts, hr, hl, hready⟩ := run_makes ops after l (s.make cmp g)
    cases g with
    | var c =>
      refine ⟨⟨cmp, .var c, false⟩ :: cs, ts, ?_, by simp [hl], ?_, ?_⟩
      · simp only [List.map_cons, CreatorState.run, CreatorState.step, R.bind_done, hr]; simp [CreatorState.make]
      · simp
      · simpa [CreatorState.make] using hready
    | moved c =>
      refine ⟨⟨cmp, .var c, true⟩ :: cs, ts, ?_, by simp [hl], ?_, ?_⟩
      · simp only [List.map_cons, CreatorState.run, CreatorState.step, R.bind_done, hr]; simp [CreatorState.make]
      · simp
      · simpa [CreatorState.make] using hready
    | temp v =>
      refine ⟨⟨cmp, .temp s.temps.length, true⟩ :: cs, some v :: ts, ?_, by simp [hl], ?_, ?_, ?_⟩
      · simp only [List.map_cons, CreatorState.run, CreatorState.step, R.bind_done, hr]; simp [CreatorState.make]
      · simp
      · simp
      · simpa [CreatorState.make] using hready

private theorem givenValue_moved {after : A → A} {vars : List (Option A)} {x y : Given A} (h : ¬ clash x y) :
    givenValue (movedFrom after vars x) y = givenValue vars y := by
  cases x with
  | moved c =>
    cases y with
    | temp v => rfl
    | var d => simp only [givenValue, movedFrom]; rw [List.getElem?_modify_ne]; exact fun he => h he
    | moved d => simp only [givenValue, movedFrom]; rw [List.getElem?_modify_ne]; exact fun he => h he
  | _ => rfl

private theorem valuesOf_moved {after : A → A} {vars : List (Option A)} {x : Given A} : ∀ {l : List (Cmp × Given A)},
    (∀ y ∈ l, ¬ clash x y.2) → givenValues (movedFrom after vars x) l = givenValues vars l
  | [], _ => rfl
  | (c, g) :: l, h => by
    simp only [givenValues, givenValue_moved (h _ List.mem_cons_self), valuesOf_moved fun y hy => h y (List.mem_cons_of_mem _ hy)]

private theorem set_modify {vars : List (Option A)} {c : Nat} {v : A} {f : A → A} (h : vars[c]?.join = some v) :
    vars.set c (some (f v)) = vars.modify c (Option.map f) := by
  refine List.ext_getElem? fun i => ?_
  rw [List.getElem?_modify, List.getElem?_set]
  by_cases hi : c = i
  · subst hi
    cases hc : vars[c]? with
    | none => simp [hc] at h
    | some x =>
      rw [hc] at h
      simp only [Option.join_some] at h
      subst h
      simp [(List.getElem?_eq_some_iff.1 hc).1]
  · cases vars[i]? <;> simp [hi]

private theorem run_collects (ops : Ops A) (after : A → A) : ∀ (l : List (Cmp × Given A)) (s : CreatorState A) (n t : Nat) (vs : List (Cmp × A)),
    Ready s.creators s.temps n t l → (l.Pairwise fun x y => ¬ clash x.2 y.2) → givenValues s.vars l = some vs → ∃ ts,
    s.run ops after ((List.range' n l.length).map .collect) = .done { s with
      temps := ts
      vars := l.foldl (fun vars x => movedFrom after vars x.2) s.vars
      matchers := s.matchers ++ vs.map fun x => ⟨x.1, x.2⟩ }
  | [], s, n, t, vs, _, _, hv => by
    cases hv; exact ⟨s.temps, by simp [CreatorState.run]⟩
  | (cmp, g) :: l, s, n, t, vs, hready, hp, hv => by
    have hp' := List.pairwise_cons.1 hp
    simp only [givenValues, Option.bind_eq_bind, Option.bind_eq_some_iff] at hv
    obtain ⟨v, hv1, ws, hws, he⟩ := hv
    cases he
    have hws' : givenValues (movedFrom after s.vars g) l = some ws := by rw [valuesOf_moved fun y hy => hp'.1 y hy]; exact hws
    cases g with
    | var c =>
      obtain ⟨ts, hr⟩ := run_collects ops after l { s with matchers := s.matchers ++ [⟨cmp, v⟩] } (n + 1) t ws hready.2 hp'.2 hws
      refine ⟨ts, ?_⟩
      have h1 : s.collect after n = .done { s with matchers := s.matchers ++ [⟨cmp, v⟩] } := by
        simp only [givenValue] at hv1
        simp [CreatorState.collect, hready.1, CreatorState.read, hv1, R.ofOption]
      simp only [List.length_cons, List.range'_succ, List.map_cons, CreatorState.run, CreatorState.step, h1, R.bind_done, hr]
      simp [movedFrom]
    | moved c =>
      obtain ⟨ts, hr⟩ := run_collects ops after l { s with vars := movedFrom after s.vars (.moved c), matchers := s.matchers ++ [⟨cmp, v⟩] } (n + 1) t ws
        hready.2 hp'.2 hws'
      refine ⟨ts, ?_⟩
      have h1 : s.collect after n = .done { s with vars := movedFrom after s.vars (.moved c), matchers := s.matchers ++ [⟨cmp, v⟩] } := by
        simp only [givenValue] at hv1
        simp [CreatorState.collect, hready.1, CreatorState.read, hv1, R.ofOption, CreatorState.write, movedFrom, set_modify hv1]
      simp only [List.length_cons, List.range'_succ, List.map_cons, CreatorState.run, CreatorState.step, h1, R.bind_done, hr]
      simp
    | temp u =>
      obtain ⟨ts, hr⟩ := run_collects ops after l { s with temps := s.temps.set t (some (after u)), matchers := s.matchers ++ [⟨cmp, u⟩] } (n + 1) (t + 1) ws
        (ready_set (Nat.lt_succ_self _) hready.2.2) hp'.2 hws
      refine ⟨ts, ?_⟩
      have h1 : s.collect after n = .done { s with temps := s.temps.set t (some (after u)), matchers := s.matchers ++ [⟨cmp, u⟩] } := by
        simp [CreatorState.collect, hready.1, CreatorState.read, hready.2.1, R.ofOption, CreatorState.write]
      simp only [givenValue, Option.some.injEq] at hv1
      subst hv1
      simp only [List.length_cons, List.range'_succ, List.map_cons, CreatorState.run, CreatorState.step, h1, R.bind_done, hr]
      simp [movedFrom]

/-- The state is what the author sees. -/
private structure Agrees (s : CreatorState A) (i : Reading A) : Prop where
  vars : s.vars = i.vars
  matchers : s.matchers = i.matchers.map fun x => ⟨x.1, x.2⟩
  said : s.said = i.said

private theorem stmt_agrees {ops : Ops A} {after : A → A} {s : CreatorState A} {i i' : Reading A} (h : Agrees s i) {t : TestStmt A} (ht : t.NoClash)
    (hi : i.step ops after t = some i') :
    ∃ s', s.run ops after (t.code s.creators.length) = .done s' ∧ Agrees s' i' ∧ s'.creators.length = s.creators.length + t.makes := by
  cases t with
  | declare v => cases hi; exact ⟨_, rfl, ⟨by simp [h.vars], h.matchers, h.said⟩, rfl⟩
  | leave c => cases hi; exact ⟨_, rfl, ⟨by simp [h.vars], h.matchers, h.said⟩, rfl⟩
  | assign c v =>
    simp only [Reading.step, Option.map_eq_some_iff] at hi
    obtain ⟨x, hx, rfl⟩ := hi
    refine ⟨s.write v (.var c), ?_, ⟨by simp [CreatorState.write, h.vars], h.matchers, h.said⟩, rfl⟩
    simp [TestStmt.code, CreatorState.run, CreatorState.step, CreatorState.read, h.vars, hx, R.ofOption]
  | ask m a =>
    simp only [Reading.step, Option.map_eq_some_iff] at hi
    obtain ⟨k, hk, rfl⟩ := hi
    refine ⟨{ s with said := s.said ++ [holds ops k.1 k.2 a] }, ?_, ⟨h.vars, h.matchers, by simp [h.said]⟩, rfl⟩
    have : k.1.matches ops k.2 a = holds ops k.1 k.2 a := by cases k.1 <;> rfl
    simp [TestStmt.code, CreatorState.run, CreatorState.step, h.matchers, hk, R.ofOption, this]
  | using_ l =>
    simp only [Reading.step, Option.map_eq_some_iff] at hi
    obtain ⟨vs, hvs, rfl⟩ := hi
    obtain ⟨cs, ts, h1, hl, hready⟩ := run_makes ops after l s
    obtain ⟨ts', h2⟩ := run_collects ops after l { s with creators := s.creators ++ cs, temps := s.temps ++ ts } _ _ vs hready ht (by rw [h.vars]; exact hvs)
    refine ⟨{ s with
      creators := s.creators ++ cs
      temps := ts'.map fun _ => none
      vars := l.foldl (fun vars x => movedFrom after vars x.2) s.vars
      matchers := s.matchers ++ vs.map fun x => ⟨x.1, x.2⟩ }, ?_, ⟨?_, ?_, ?_⟩, ?_⟩
    · simp only [TestStmt.code, run_append, h1]
      show (CreatorState.run _ _ _ _).bind _ = _
      rw [h2]
      rfl
    · simp only [h.vars]
    · simp [h.matchers]
    · exact h.said
    · simp [hl, TestStmt.makes]

private theorem run_agrees {ops : Ops A} {after : A → A} : ∀ {ts : List (TestStmt A)} {s : CreatorState A} {i i' : Reading A}, Agrees s i →
    (∀ t ∈ ts, t.NoClash) → i.run ops after ts = some i' → ∃ s', s.run ops after (code s.creators.length ts) = .done s' ∧ Agrees s' i'
  | [], s, i, i', h, _, hi => by cases hi; exact ⟨s, rfl, h⟩
  | t :: ts, s, i, i', h, ht, hi => by
    simp only [Reading.run, Option.bind_eq_some_iff] at hi
    obtain ⟨i1, hi1, hi2⟩ := hi
    obtain ⟨s1, h1, ha1, hl⟩ := stmt_agrees h (ht t List.mem_cons_self) hi1
    obtain ⟨s2, h2, ha2⟩ := run_agrees ha1 (fun t h => ht t (List.mem_cons_of_mem _ h)) hi2
    refine ⟨s2, ?_, ha2⟩
    rw [code, run_append, h1, ← hl]
    exact h2

/-- C62: what a matcher says about an argument depends on the value its operand had in the statement with the `Using`, whatever is assigned to variables, moved
away or goes out of scope later. Proved for tests in which creators (`Eq(x)` etc.) are used in the statement that makes them and no variable is given up by
`std::move` in a statement that uses it elsewhere; without this it is false (the next three theorems). -/
theorem C62_matchers_compare_with_the_values_of_the_statement_partial (ops : Ops A) (after : A → A) {ts : List (TestStmt A)}
    (ht : ∀ t ∈ ts, t.NoClash) {i : Reading A} (hi : Reading.run ops after {} ts = some i) :
    ∃ s, CreatorState.run ops after {} (code 0 ts) = .done s ∧ s.said = i.said := by
  obtain ⟨s, h, ha⟩ := run_agrees (s := {}) (i := {}) ⟨rfl, rfl, rfl⟩ ht hi
  exact ⟨s, h, ha.said⟩

namespace Demo

/-- Comparison of numbers. -/
def numOps : Ops Nat where
  eq a b := a == b
  ne a b := a != b
  lt a b := decide (a < b)
  le a b := decide (a ≤ b)
  gt a b := decide (a > b)
  ge a b := decide (a ≥ b)

/-- `int x = 4, y = 6; ... Using(Gt(x), Eq(std::move(y)), Le(3)); x = 9;`, `y` goes out of scope, then arguments 5, 6, 7, 3 arrive. -/
def capture : List (TestStmt Nat) :=
  [.declare 4, .declare 6, .using_ [(.gt, .var 0), (.eq, .moved 1), (.le, .temp 3)], .assign 0 9, .leave 1, .ask 0 5, .ask 1 6, .ask 1 7, .ask 2 3]

end Demo

/-- Case. -/
example : ∃ s, CreatorState.run Demo.numOps (fun _ => 0) {} (code 0 Demo.capture) = .done s ∧ s.said = [true, true, false, true] := by
  refine C62_matchers_compare_with_the_values_of_the_statement_partial Demo.numOps (fun _ => 0) (ts := Demo.capture) ?_
    (i := { vars := [some 9, none], matchers := [(.gt, 4), (.eq, 6), (.le, 3)], said := [true, true, false, true] }) (by rfl)
  intro t h
  simp only [Demo.capture, List.mem_cons, List.not_mem_nil, or_false] at h
  rcases h with rfl | rfl | rfl | rfl | rfl | rfl | rfl | rfl | rfl <;> simp [TestStmt.NoClash, clash]

private theorem step_matchers {ops : Ops A} {after : A → A} {s s' : CreatorState A} {o : CreatorOp A} (h : s.step ops after o = .done s') :
    ∃ ms, s'.matchers = s.matchers ++ ms := by
  cases o with
  | make cmp g => cases g <;> (cases h; exact ⟨[], by simp [CreatorState.make]⟩)
  | collect i =>
    simp only [CreatorState.step, CreatorState.collect, R.bind_eq_done] at h
    obtain ⟨k, -, v, -, h⟩ := h
    cases h
    refine ⟨_, congrArg (· ++ _) ?_⟩
    split
    · cases k.place <;> rfl
    · rfl
  | assign c v =>
    simp only [CreatorState.step, R.bind_eq_done] at h
    obtain ⟨_, -, h⟩ := h
    cases h; exact ⟨[], by simp [CreatorState.write]⟩
  | ask m a =>
    simp only [CreatorState.step, R.bind_eq_done] at h
    obtain ⟨_, -, h⟩ := h
    cases h; exact ⟨[], by simp⟩
  | _ => cases h; exact ⟨[], by simp⟩

private theorem run_matchers {ops : Ops A} {after : A → A} : ∀ {os : List (CreatorOp A)} {s s' : CreatorState A}, s.run ops after os = .done s' →
    ∃ ms, s'.matchers = s.matchers ++ ms
  | [], s, s', h => by cases h; exact ⟨[], by simp⟩
  | o :: os, s, s', h => by
    simp only [CreatorState.run, R.bind_eq_done] at h
    obtain ⟨s1, h1, h2⟩ := h
    obtain ⟨a, ha⟩ := step_matchers h1
    obtain ⟨b, hb⟩ := run_matchers h2
    exact ⟨a ++ b, by rw [hb, ha, List.append_assoc]⟩

/-- C62: a matcher that has been made says the same about the same argument for ever, whatever the test does (without restrictions). -/
theorem C62_matchers_never_change_their_mind (ops : Ops A) (after : A → A) {s s1 s' : CreatorState A} {m : Nat} {a : A} {os : List (CreatorOp A)}
    (h1 : s.step ops after (.ask m a) = .done s1) (hrun : s.run ops after os = .done s') :
    ∃ s2 v, s'.step ops after (.ask m a) = .done s2 ∧ s1.said = s.said ++ [v] ∧ s2.said = s'.said ++ [v] := by
  obtain ⟨ms, hms⟩ := run_matchers hrun
  simp only [CreatorState.step, R.bind_eq_done, R.ofOption_eq_done] at h1
  obtain ⟨k, hk, h1⟩ := h1
  cases h1
  have : s'.matchers[m]? = some k := by rw [hms, List.getElem?_append_left (List.getElem?_eq_some_iff.1 hk).1]; exact hk
  exact ⟨{ s' with said := s'.said ++ [k.cmp.matches ops k.expected a] }, _, by simp only [CreatorState.step, this, R.ofOption, R.bind_done], rfl, rfl⟩

/-- Case: `Eq(x)` with `x = 4`, then `x = 9`. -/
example : ∃ s2 v, CreatorState.step Demo.numOps id { vars := [some 9], matchers := [⟨.eq, 4⟩] } (.ask 0 4) = .done s2 ∧ [true] = [] ++ [v] ∧
    s2.said = [] ++ [v] :=
  C62_matchers_never_change_their_mind Demo.numOps id (s := { vars := [some 4], matchers := [⟨.eq, 4⟩] })
    (s1 := { vars := [some 4], matchers := [⟨.eq, 4⟩], said := [true] }) (os := [.assign 0 9]) (by rfl) (by rfl)

/-- C62: a creator made from a temporary must not outlive the statement, for every comparison, type and value: `auto m = Eq(5); ... Using(m);` is undefined. -/
theorem C62_kept_creators_of_temporaries_dangle (ops : Ops A) (after : A → A) (cmp : Cmp) (v : A) :
    CreatorState.run ops after {} [.make cmp (.temp v), .semicolon, .collect 0] = .ub := by
  rfl

/-- C62: a creator made from a variable and used in a later statement compares with the later value: `auto m = Eq(x); x = 2; ... Using(m);` does not accept the
first value of `x`. -/
theorem C62_kept_creators_follow_the_variable :
    ((CreatorState.run Demo.numOps id {} [.declare 1, .make .eq (.var 0), .semicolon, .assign 0 2, .collect 0, .ask 0 1, .ask 0 2]).bind fun s => R.done s.said) =
      .done [false, true] := by
  rfl

/-- C62: a creator made from `std::move(x)` has only one matcher to give: the second one compares with what is left in `x`. Likewise for
`Using(Eq(std::move(x)), Eq(x))`. -/
theorem C62_moved_values_serve_once :
    ((CreatorState.run Demo.numOps (fun _ => 0) {} [.declare 1, .make .eq (.moved 0), .collect 0, .collect 0, .ask 0 1, .ask 1 1]).bind fun s => R.done s.said) =
      .done [true, false] ∧
    ((CreatorState.run Demo.numOps (fun _ => 0) {} [.declare 1, .make .eq (.moved 0), .make .eq (.var 0), .collect 0, .collect 1, .ask 0 1, .ask 1 1]).bind
      fun s => R.done s.said) = .done [true, false] := by
  exact ⟨rfl, rfl⟩

end FakeIt
