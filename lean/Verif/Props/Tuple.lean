import Verif.Model.Tuple
/-!
# C49: callbacks and visitors receive each argument once, at its position, in order
-/
namespace FakeIt
variable {A B S O : Type}

private theorem drop_of_get {t : List A} {i : Nat} {a : A} (h : t[i]? = some a) : t.drop i = a :: t.drop (i + 1) := by
  have hi : i < t.length := by
    rcases Nat.lt_or_ge i t.length with h1 | h1
    · exact h1
    · rw [List.getElem?_eq_none h1] at h; exact absurd h (by simp)
  rw [List.drop_eq_getElem_cons hi]
  rw [List.getElem?_eq_getElem hi] at h
  simp at h; rw [h]

private theorem applyFunc_take (f : List A → R O) (t : List A) (n : Nat) (args : List A) (hn : n ≤ t.length) :
    applyFunc f t n args = f (t.take n ++ args) := by
  induction n generalizing args with
  | zero => simp [applyFunc]
  | succ n ih =>
    have h : t[n]? = some t[n] := List.getElem?_eq_getElem (by omega)
    simp only [applyFunc, tupleGet, h, R.ofOption_some, R.bind_done]
    rw [ih _ (by omega), List.take_add_one, h]
    rw [Option.toList_some, List.append_assoc]; rfl

/-- **C49** (functions). A stub action, delegate or user-defined matcher is called once, with exactly the elements of the argument tuple in
declaration order, whatever the arity and whatever the function does (its result, or its undefined behaviour, is the result). -/
theorem C49_function_receives_the_arguments (f : List A → R O) (t : List A) : invokeTuple f t = f t := by
  rw [invokeTuple, applyFunc_take f t t.length [] (Nat.le_refl _)]; simp

/-- The calls a visitor should receive on `t`, first position `i`. -/
def Spec.visits : (i : Nat) → List A → List (Nat × A)
  | _, [] => []
  | i, a :: t => (i, a) :: Spec.visits (i + 1) t

/-- Receiving calls one after the other. -/
def Spec.receive (visit : S → Nat → A → R S) : List (Nat × A) → S → R S
  | [], s => .done s
  | c :: cs, s => do
    let s ← visit s c.1 c.2
    Spec.receive visit cs s

theorem Spec.visits_get (t : List A) (i j : Nat) : (Spec.visits i t)[j]? = t[j]?.map fun a => (i + j, a) := by
  induction t generalizing i j with
  | nil => simp [Spec.visits]
  | cons a t ih =>
    cases j with
    | zero => simp [Spec.visits]
    | succ j => simp only [Spec.visits, List.getElem?_cons_succ, ih]; congr 1; funext x; congr 1; omega

private theorem forEachFrom_eq (visit : S → Nat → A → R S) (t : List A) (left i : Nat) (s : S) (h : i + left = t.length) :
    forEachFrom visit t left i s = Spec.receive visit (Spec.visits i (t.drop i)) s := by
  induction left generalizing i s with
  | zero =>
    have : t.drop i = [] := List.drop_eq_nil_of_le (by omega)
    rw [this]; rfl
  | succ n ih =>
    have hg : t[i]? = some t[i] := List.getElem?_eq_getElem (by omega)
    rw [drop_of_get hg]
    simp only [forEachFrom, tupleGet, hg, R.ofOption_some, R.bind_done, Spec.visits, Spec.receive]
    congr 1; funext s'
    exact ih (i + 1) s' (by omega)

/-- **C49** (visitors). An argument visitor with any state of its own is called exactly on the positions `0, 1, …` with the argument at that
position (`Spec.visits_get`), in order, and stops only by its own undefined behaviour. -/
theorem C49_visitor_sees_each_argument_once (visit : S → Nat → A → R S) (t : List A) (s : S) :
    forEach visit t s = Spec.receive visit (Spec.visits 0 t) s ∧
    (∀ i : Nat, (Spec.visits 0 t)[i]? = t[i]?.map fun a => (i, a)) := by
  refine ⟨?_, fun i => ?_⟩
  · rw [forEach, forEachFrom_eq visit t t.length 0 s (by omega)]; simp
  · rw [Spec.visits_get]; simp

private theorem forEach2From_eq (visit : S → Nat → A → B → R S) (t : List A) (t2 : List B) (left i : Nat) (s : S) (h : i + left = t.length)
    (h2 : t2.length = t.length) :
    forEach2From visit t t2 left i s =
      Spec.receive (fun s i ab => visit s i ab.1 ab.2) (Spec.visits i ((t.zip t2).drop i)) s := by
  induction left generalizing i s with
  | zero =>
    have : (t.zip t2).drop i = [] := List.drop_eq_nil_of_le (by simp; omega)
    rw [this]; rfl
  | succ n ih =>
    have hg : t[i]? = some t[i] := List.getElem?_eq_getElem (by omega)
    have hg2 : t2[i]? = some t2[i] := List.getElem?_eq_getElem (by omega)
    have hz : (t.zip t2)[i]? = some (t[i], t2[i]) := by simp [List.getElem?_zip_eq_some, hg, hg2]
    rw [drop_of_get hz]
    simp only [forEach2From, tupleGet, hg, hg2, R.ofOption_some, R.bind_done, Spec.visits, Spec.receive]
    congr 1; funext s'
    exact ih (i + 1) s' (by omega)

/-- **C49** (visitors of two tuples). Over two tuples of the same length a visitor is called exactly on corresponding elements, in order. -/
theorem C49_pair_visitor_sees_corresponding_arguments (visit : S → Nat → A → B → R S) (t : List A) (t2 : List B) (s : S)
    (h : t2.length = t.length) :
    forEach2 visit t t2 s = Spec.receive (fun s i ab => visit s i ab.1 ab.2) (Spec.visits 0 (t.zip t2)) s := by
  rw [forEach2, forEach2From_eq visit t t2 t.length 0 s (by omega) h]; simp

/-- A function of three arguments that is sensitive to their order. -/
example : invokeTuple (fun as : List Nat => .done (as.foldl (fun n d => 10 * n + d) 0)) [7, 8, 9] = .done 789 := by
  rw [C49_function_receives_the_arguments]; rfl

/-- The visits of a three element tuple, logged by the visitor. -/
example : forEach (fun (log : List (Nat × Nat)) i a => .done (log ++ [(i, a)])) [7, 8, 9] [] = .done [(0, 7), (1, 8), (2, 9)] := by
  rw [(C49_visitor_sees_each_argument_once _ _ _).1]; rfl

/-- Two tuples. -/
example : forEach2 (fun (log : List (Nat × Nat × Bool)) i a b => .done (log ++ [(i, a, b)])) [7, 8] [true, false] [] =
    .done [(0, 7, true), (1, 8, false)] := by
  rw [C49_pair_visitor_sees_corresponding_arguments (A := Nat) (B := Bool) (h := rfl)]; rfl

end FakeIt
