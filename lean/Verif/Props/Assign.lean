import Verif.Model.Assign
import Verif.Model.Machine
/-!
# C41, C42: output parameters
-/
namespace FakeIt
variable {V E : Type}

/-! ## Specification -/

/-- The value a `ReturnAndSet` argument stands for when the call happens: itself, or what the caller's variable holds then. -/
def Spec.current (mem : Mem V) : SetVal V → Option V
  | .lit v => some v
  | .var a => mem a

/-- `c` is the object the `i`-th parameter refers to. -/
def Spec.RefersTo (params : List (Option Addr)) (i : Nat) (c : Addr) : Prop := params[i]? = some (some c)

/-- The last entry given for parameter `i` (counting from 1). -/
def Spec.lastFor (i : Nat) : List (Nat × SetVal V) → Option (SetVal V)
  | [] => none
  | e :: es => match Spec.lastFor i es with
    | some sv => some sv
    | none => if e.1 = i then some e.2 else none

open Spec

/-! ## ReturnAndSet(r, v1, …, vk) -/

private def assignAll : List (SetVal V) → List (Option Addr) → Mem V → R (Mem V)
  | [], _, mem => .done mem
  | _ :: _, [], _ => .ub
  | sv :: svs, p :: ps, mem => do
    let mem ← assignAll svs ps mem
    let v ← sv.read mem
    assignThrough mem p v

private theorem paramWalker_eq (pre vals : List (SetVal V)) (params : List (Option Addr)) (mem : Mem V) :
    paramWalker (pre ++ vals) vals.length params mem = assignAll vals params mem := by
  induction vals generalizing pre params with
  | nil => rfl
  | cons sv svs ih =>
    cases params with
    | nil => rfl
    | cons p ps =>
      simp only [List.length_cons, paramWalker, assignAll]
      have h1 := ih (pre ++ [sv]) ps
      rw [List.append_assoc, List.singleton_append] at h1
      rw [h1]
      congr 1; funext mem'
      have h2 : (pre ++ sv :: svs)[(pre ++ sv :: svs).length - (svs.length + 1)]? = some sv := by
        have : (pre ++ sv :: svs).length - (svs.length + 1) = pre.length := by simp
        rw [this]; simp
      simp only [tupleGet, h2, R.ofOption_some, R.bind_done]

private theorem read_done {mem : Mem V} {sv : SetVal V} {v : V} : sv.read mem = .done v ↔ current mem sv = some v := by
  cases sv <;> simp [SetVal.read, current, R.ofOption_eq_done]

private theorem store_live {mem : Mem V} {a : Addr} (h : mem a ≠ none) (v : V) :
    mem.store a v = .done fun b => if b = a then some v else mem b := by
  unfold Mem.store
  cases hm : mem a with
  | none => exact absurd hm h
  | some x => rfl

/-- Conditions under which `ReturnAndSet` is well behaved on the parameters: each value has a parameter, which refers to a live object; a value
given as a variable refers to a variable that is alive and is not itself one of the output parameters. -/
structure Spec.Ready (vals : List (SetVal V)) (params : List (Option Addr)) (mem : Mem V) : Prop where
  live : ∀ i : Nat, i < vals.length → ∃ c, RefersTo params i c ∧ mem c ≠ none
  known : ∀ (i : Nat) sv, vals[i]? = some sv → current mem sv ≠ none
  apart : ∀ (i : Nat) a, vals[i]? = some (.var a) → ∀ j, j < vals.length → ¬ RefersTo params j a

/-- What `ReturnAndSet` should do to memory: the `i`-th parameter receives the `i`-th value (when the same object is passed for several of them, the
first one decides), nothing else changes. -/
structure Spec.SetsParams (vals : List (SetVal V)) (params : List (Option Addr)) (mem mem' : Mem V) : Prop where
  set : ∀ (i : Nat) sv c, vals[i]? = some sv → RefersTo params i c → (∀ j, j < i → ¬ RefersTo params j c) → mem' c = current mem sv
  keep : ∀ c, (∀ i, i < vals.length → ¬ RefersTo params i c) → mem' c = mem c

private theorem assignAll_sets (vals : List (SetVal V)) (params : List (Option Addr)) (mem : Mem V) (h : Ready vals params mem) :
    ∃ mem', assignAll vals params mem = .done mem' ∧ SetsParams vals params mem mem' ∧ ∀ c, mem c ≠ none → mem' c ≠ none := by
  induction vals generalizing params with
  | nil => exact ⟨mem, rfl, ⟨by simp, by simp⟩, fun _ h => h⟩
  | cons sv svs ih =>
    obtain ⟨c0, hc0, hl0⟩ := h.live 0 (by simp)
    cases params with
    | nil => simp [RefersTo] at hc0
    | cons p ps =>
      simp only [RefersTo, List.getElem?_cons_zero, Option.some.injEq] at hc0
      subst hc0
      have hr : Ready svs ps mem :=
        { live := fun i hi => by obtain ⟨c, hc, hl⟩ := h.live (i + 1) (by simpa using hi); exact ⟨c, by simpa [RefersTo] using hc, hl⟩
          known := fun i sv' hs => h.known (i + 1) sv' (by simpa using hs)
          apart := fun i a hs j hj hat => h.apart (i + 1) a (by simpa using hs) (j + 1) (by simpa using hj) (by simpa [RefersTo] using hat) }
      obtain ⟨mem1, h1, hs1, hk1⟩ := ih ps hr
      obtain ⟨v, hv⟩ := Option.ne_none_iff_exists'.1 (h.known 0 sv rfl)
      have hv1 : current mem1 sv = some v := by
        cases sv with
        | lit x => exact hv
        | var a =>
          simp only [current] at hv ⊢
          rw [hs1.keep a, hv]
          intro i hi hat
          exact h.apart 0 a rfl (i + 1) (by simpa using hi) (by simpa [RefersTo] using hat)
      refine ⟨fun b => if b = c0 then some v else mem1 b, ?_, ⟨?_, ?_⟩, ?_⟩
      · simp only [assignAll, h1, R.bind_done, read_done.2 hv1, assignThrough, R.ofOption_some]
        exact store_live (hk1 _ hl0) v
      · intro i sv' c hsv hat hfirst
        cases i with
        | zero =>
          simp only [RefersTo, List.getElem?_cons_zero, Option.some.injEq] at hat hsv
          subst hsv; rw [← hat]; simp [hv]
        | succ i =>
          have hne : c ≠ c0 := by
            intro e; exact hfirst 0 (by omega) (by simp [RefersTo, e])
          simp only [if_neg hne]
          exact hs1.set i sv' c (by simpa using hsv) (by simpa [RefersTo] using hat) fun j hj hat' =>
            hfirst (j + 1) (by omega) (by simpa [RefersTo] using hat')
      · intro c hc
        have hne : c ≠ c0 := by
          intro e; exact hc 0 (by simp) (by simp [RefersTo, e])
        simp only [if_neg hne]
        exact hs1.keep c fun i hi hat => hc (i + 1) (by simpa using hi) (by simpa [RefersTo] using hat)
      · intro c hc
        by_cases e : c = c0
        · simp [e]
        · simp only [if_neg e]; exact hk1 c hc

/-- **C41**. `ReturnAndSet(r, v1, …, vk)` on a method with at least `k` parameters returns `r` and sets the parameters. -/
theorem C41_returnAndSet_assigns_by_position (r : V) (vals : List (SetVal V)) (params : List (Option Addr)) (mem : Mem V)
    (h : Ready vals params mem) : ∃ mem', assigner r vals params mem = .done (r, mem') ∧ SetsParams vals params mem mem' := by
  obtain ⟨mem', h1, h2, _⟩ := assignAll_sets vals params mem h
  refine ⟨mem', ?_, h2⟩
  have := paramWalker_eq [.lit r] vals params mem
  rw [List.singleton_append] at this
  simp only [assigner, this, h1, R.bind_done, tupleGet, List.getElem?_cons_zero, R.ofOption_some, SetVal.read]

/-- **C41** for methods returning `void`. -/
theorem C41_void_returnAndSet_assigns_by_position (vals : List (SetVal V)) (params : List (Option Addr)) (mem : Mem V)
    (h : Ready vals params mem) : ∃ mem', assignerVoid vals params mem = .done mem' ∧ SetsParams vals params mem mem' := by
  obtain ⟨mem', h1, h2, _⟩ := assignAll_sets vals params mem h
  refine ⟨mem', ?_, h2⟩
  have := paramWalker_eq [] vals params mem
  rw [List.nil_append] at this
  simp only [assignerVoid, this, h1]

/-- A value given as a variable (not as a literal) is not copied by the stubbing statement: if the variable is gone when the method is called, the
call has undefined behaviour, whatever the parameters and the other values are. So the natural reading of C41 (the values are those of the
statement) fails. -/
theorem C41_dead_variable_is_undefined (r : V) (vals : List (SetVal V)) (params : List (Option Addr)) (mem : Mem V) (i : Nat) (a : Addr)
    (hv : vals[i]? = some (.var a)) (hdead : mem a = none) : ∀ out, assigner r vals params mem ≠ .done out := by
  have key : ∀ (vals : List (SetVal V)) (params : List (Option Addr)) (i : Nat) (mem' : Mem V), vals[i]? = some (.var a) →
      assignAll vals params mem = .done mem' → False := by
    have dead : ∀ (vals : List (SetVal V)) (params : List (Option Addr)) (mem' : Mem V), assignAll vals params mem = .done mem' → mem' a = none := by
      intro vals
      induction vals with
      | nil => intro params mem' h; simp only [assignAll, R.done.injEq] at h; rw [← h]; exact hdead
      | cons sv svs ih =>
        intro params mem' h
        cases params with
        | nil => simp [assignAll] at h
        | cons p ps =>
          simp only [assignAll, R.bind_eq_done, assignThrough, R.ofOption_eq_done] at h
          obtain ⟨m1, h1, v, _, c, hc, hs⟩ := h
          have hd := ih ps m1 h1
          unfold Mem.store at hs
          cases hm : m1 c with
          | none => rw [hm] at hs; simp at hs
          | some x =>
            rw [hm] at hs; simp only [R.done.injEq] at hs; rw [← hs]
            have hne : a ≠ c := by intro e; rw [e, hm] at hd; simp at hd
            simp only [if_neg hne]; exact hd
    intro vals
    induction vals with
    | nil => intro params i mem' h; simp at h
    | cons sv svs ih =>
      intro params i mem' hi h
      cases params with
      | nil => simp [assignAll] at h
      | cons p ps =>
        simp only [assignAll, R.bind_eq_done] at h
        obtain ⟨m1, h1, v, hr, _⟩ := h
        cases i with
        | zero =>
          simp only [List.getElem?_cons_zero, Option.some.injEq] at hi
          subst hi
          rw [read_done, current, dead svs ps m1 h1] at hr
          simp at hr
        | succ i => exact ih ps i m1 (by simpa using hi) h1
  intro out h
  simp only [assigner, R.bind_eq_done] at h
  obtain ⟨m1, h1, _⟩ := h
  have := paramWalker_eq [.lit r] vals params mem
  rw [List.singleton_append] at this
  rw [this] at h1
  exact key vals params i m1 hv h1

/-! ## ReturnAndSet(r, _i <= v, …) -/

private theorem lastFor_append (i : Nat) (es : List (Nat × SetVal V)) (e : Nat × SetVal V) :
    lastFor i (es ++ [e]) = if e.1 = i then some e.2 else lastFor i es := by
  induction es with
  | nil => simp [lastFor]
  | cons x es ih =>
    simp only [List.cons_append, lastFor, ih]
    by_cases h : e.1 = i <;> simp [h]

private theorem argLocator_eq (idx : Nat) (vals : List (Nat × SetVal V)) (p : Option Addr) (c : Nat) (mem : Mem V) (hc : c ≤ vals.length) :
    argLocator idx vals p c mem = match lastFor idx (vals.take c) with
      | none => .done mem
      | some sv => sv.read mem >>= fun v => assignThrough mem p v := by
  induction c with
  | zero => simp [argLocator, lastFor]
  | succ c ih =>
    have hg : vals[c]? = some vals[c] := List.getElem?_eq_getElem (by omega)
    have ht : vals.take (c + 1) = vals.take c ++ [vals[c]] := by rw [List.take_add_one, hg]; rfl
    rw [ht, lastFor_append]
    simp only [argLocator, tupleGet, hg, R.ofOption_some, R.bind_done]
    by_cases h : vals[c].1 = idx
    · simp only [h, if_true]
    · simp only [h, if_false]
      by_cases h0 : c > 0
      · rw [if_pos h0]; exact ih (by omega)
      · have : c = 0 := by omega
        subst this
        simp [lastFor]

/-- Conditions under which `ReturnAndSet(r, _i <= v, …)` is well behaved: every parameter with an entry refers to a live object; the values used are
alive and are not output parameters. -/
structure Spec.ReadyIndexed (vals : List (Nat × SetVal V)) (first : Nat) (params : List (Option Addr)) (mem : Mem V) : Prop where
  live : ∀ i, i < params.length → lastFor (first + i) vals ≠ none → ∃ c, RefersTo params i c ∧ mem c ≠ none
  known : ∀ i sv, i < params.length → lastFor (first + i) vals = some sv → current mem sv ≠ none
  apart : ∀ i a, i < params.length → lastFor (first + i) vals = some (.var a) → ∀ j, ¬ RefersTo params j a

/-- What indexed placeholders should do: a parameter with an entry receives the last one given for it (when the same object is passed several times,
the last parameter with an entry decides); everything else is untouched. -/
structure Spec.SetsIndexed (vals : List (Nat × SetVal V)) (first : Nat) (params : List (Option Addr)) (mem mem' : Mem V) : Prop where
  set : ∀ i sv c, lastFor (first + i) vals = some sv → RefersTo params i c →
    (∀ j, i < j → RefersTo params j c → lastFor (first + j) vals = none) → mem' c = current mem sv
  keep : ∀ c, (∀ i, RefersTo params i c → lastFor (first + i) vals = none) → mem' c = mem c

private theorem assignIndexed_sets (vals : List (Nat × SetVal V)) (first : Nat) (params : List (Option Addr)) (mem : Mem V)
    (h : ReadyIndexed vals first params mem) :
    ∃ mem', assignIndexed vals first params mem = .done mem' ∧ SetsIndexed vals first params mem mem' := by
  induction params generalizing first mem with
  | nil => exact ⟨mem, rfl, ⟨by simp [RefersTo], by simp⟩⟩
  | cons p ps ih =>
    have hloc := argLocator_eq first vals p vals.length mem (Nat.le_refl _)
    rw [List.take_length] at hloc
    cases hl : lastFor first vals with
    | none =>
      rw [hl] at hloc
      obtain ⟨mem', h1, h2⟩ := ih (first + 1) mem
        { live := fun i hi hn => by
            obtain ⟨c, hc, hcl⟩ := h.live (i + 1) (by simpa using hi) (by rwa [Nat.add_assoc, Nat.add_comm 1 i] at hn)
            exact ⟨c, by simpa [RefersTo] using hc, hcl⟩
          known := fun i sv hi hs => h.known (i + 1) sv (by simpa using hi) (by rwa [Nat.add_assoc, Nat.add_comm 1 i] at hs)
          apart := fun i a hi hs j hat =>
            h.apart (i + 1) a (by simpa using hi) (by rwa [Nat.add_assoc, Nat.add_comm 1 i] at hs) (j + 1) (by simpa [RefersTo] using hat) }
      refine ⟨mem', by simp only [assignIndexed, hloc, R.bind_done, h1], ⟨?_, ?_⟩⟩
      · intro i sv c hs hat hlast
        cases i with
        | zero => rw [Nat.add_zero, hl] at hs; simp at hs
        | succ i =>
          refine h2.set i sv c (by rw [Nat.add_assoc, Nat.add_comm 1 i]; exact hs) (by simpa [RefersTo] using hat) fun j hj hat' => ?_
          rw [Nat.add_assoc, Nat.add_comm 1 j]
          exact hlast (j + 1) (by omega) (by simpa [RefersTo] using hat')
      · intro c hc
        exact h2.keep c fun i hat => by
          rw [Nat.add_assoc, Nat.add_comm 1 i]; exact hc (i + 1) (by simpa [RefersTo] using hat)
    | some sv0 =>
      rw [hl] at hloc
      obtain ⟨c0, hc0, hlive⟩ := h.live 0 (by simp) (by rw [Nat.add_zero, hl]; simp)
      simp only [RefersTo, List.getElem?_cons_zero, Option.some.injEq] at hc0
      subst hc0
      obtain ⟨v, hv⟩ := Option.ne_none_iff_exists'.1 (h.known 0 sv0 (by simp) (by rw [Nat.add_zero, hl]))
      simp only [read_done.2 hv, R.bind_done, assignThrough, R.ofOption_some, store_live hlive v] at hloc
      have hcur : ∀ (i : Nat) sv, i < ps.length → lastFor (first + (i + 1)) vals = some sv →
          current (fun b => if b = c0 then some v else mem b) sv = current mem sv := by
        intro i sv hi hs
        cases sv with
        | lit x => rfl
        | var a =>
          have hne : a ≠ c0 := by
            intro e; exact h.apart (i + 1) a (by simpa using hi) hs 0 (by simp [RefersTo, e])
          simp only [current, if_neg hne]
      obtain ⟨mem', h1, h2⟩ := ih (first + 1) (fun b => if b = c0 then some v else mem b)
        { live := fun i hi hn => by
            obtain ⟨c, hc, hcl⟩ := h.live (i + 1) (by simpa using hi) (by rwa [Nat.add_assoc, Nat.add_comm 1 i] at hn)
            refine ⟨c, by simpa [RefersTo] using hc, ?_⟩
            by_cases e : c = c0
            · simp [e]
            · simpa [e] using hcl
          known := fun i sv hi hs => by
            rw [Nat.add_assoc, Nat.add_comm 1 i] at hs
            rw [hcur i sv hi hs]
            exact h.known (i + 1) sv (by simpa using hi) hs
          apart := fun i a hi hs j hat =>
            h.apart (i + 1) a (by simpa using hi) (by rwa [Nat.add_assoc, Nat.add_comm 1 i] at hs) (j + 1) (by simpa [RefersTo] using hat) }
      refine ⟨mem', by simp only [assignIndexed, hloc, R.bind_done, h1], ⟨?_, ?_⟩⟩
      · intro i sv c hs hat hlast
        cases i with
        | zero =>
          rw [Nat.add_zero, hl] at hs
          simp only [Option.some.injEq] at hs
          simp only [RefersTo, List.getElem?_cons_zero, Option.some.injEq] at hat
          subst hs hat
          rw [h2.keep c0 fun i hat => by
            rw [Nat.add_assoc, Nat.add_comm 1 i]; exact hlast (i + 1) (by omega) (by simpa [RefersTo] using hat)]
          simp [hv]
        | succ i =>
          have hat' : RefersTo ps i c := by simpa [RefersTo] using hat
          have hi : i < ps.length := by
            rcases Nat.lt_or_ge i ps.length with h1 | h1
            · exact h1
            · rw [RefersTo, List.getElem?_eq_none h1] at hat'; simp at hat'
          rw [h2.set i sv c (by rw [Nat.add_assoc, Nat.add_comm 1 i]; exact hs) hat' fun j hj hat2 => by
            rw [Nat.add_assoc, Nat.add_comm 1 j]
            exact hlast (j + 1) (by omega) (by simpa [RefersTo] using hat2)]
          exact hcur i sv hi hs
      · intro c hc
        have hne : c ≠ c0 := by
          intro e
          have := hc 0 (by simp [RefersTo, e])
          rw [Nat.add_zero, hl] at this; simp at this
        rw [h2.keep c fun i hat => by
          rw [Nat.add_assoc, Nat.add_comm 1 i]; exact hc (i + 1) (by simpa [RefersTo] using hat)]
        simp only [if_neg hne]

/-- **C42**. `ReturnAndSet(r, _i <= v, …)` returns `r`; parameter `i` (counting from 1) receives the last value given for it; parameters without a
placeholder are untouched. -/
theorem C42_placeholders_assign_by_index (r : V) (vals : List (Nat × SetVal V)) (params : List (Option Addr)) (mem : Mem V)
    (h : ReadyIndexed vals 1 params mem) :
    ∃ mem', assignerIndexed r vals params mem = .done (r, mem') ∧ SetsIndexed vals 1 params mem mem' := by
  obtain ⟨mem', h1, h2⟩ := assignIndexed_sets vals 1 params mem h
  exact ⟨mem', by simp only [assignerIndexed, h1, R.bind_done], h2⟩

/-! ## On the model of whole mocks -/

/-- The body the machine runs for `ReturnAndSet(r, v1, …, vk)` with literals: assignments from the last parameter to the first, then the answer
(include/fakeit/StubbingProgress.hpp 186-190, 417-425); `i` is the position of the first value. -/
def returnAndSetBody (r : V) (i : Nat) : List V → Body V E → Body V E
  | [], k => k
  | v :: vs, k => returnAndSetBody r (i + 1) vs (.setArg i v k)

private theorem runBody_set (P : Prog V E) (call : CallFn V E) (fr : Option Frame) (cells : List Addr) (r : V) (vs : List V) (i : Nat) (k : Body V E)
    (w : World V E) (hlen : i + vs.length ≤ cells.length) :
    ∃ heap', runBody P call fr (cells.map Arg.ref) (returnAndSetBody r i vs k) w =
        runBody P call fr (cells.map Arg.ref) k { w with heap := heap' } ∧
      (∀ (j : Nat) v c, vs[j]? = some v → cells[i + j]? = some c → (∀ j', j' < j → cells[i + j']? ≠ some c) → heap' c = v) ∧
      (∀ c, (∀ j, j < vs.length → cells[i + j]? ≠ some c) → heap' c = w.heap c) := by
  induction vs generalizing i k with
  | nil => exact ⟨w.heap, rfl, by simp, fun _ _ => rfl⟩
  | cons v vs ih =>
    simp only [List.length_cons] at hlen
    obtain ⟨heap1, h1, h2, h3⟩ := ih (i + 1) (.setArg i v k) (by omega)
    have hg : cells[i]? = some cells[i] := List.getElem?_eq_getElem (by omega)
    refine ⟨fun a => if a = cells[i] then v else heap1 a, ?_, ?_, ?_⟩
    · rw [returnAndSetBody, h1, runBody]
      congr 1
      simp only [setArg, List.getElem?_map, hg, Option.map_some]; rfl
    · intro j v' c hj hc hfirst
      cases j with
      | zero =>
        simp only [List.getElem?_cons_zero, Option.some.injEq] at hj
        rw [Nat.add_zero, hg] at hc
        simp only [Option.some.injEq] at hc
        simp [hc, hj]
      | succ j =>
        have hne : c ≠ cells[i] := by
          intro e; exact hfirst 0 (by omega) (by rw [Nat.add_zero, hg, e])
        simp only [if_neg hne]
        refine h2 j v' c (by simpa using hj) (by rw [Nat.add_assoc, Nat.add_comm 1 j]; exact hc) fun j' hj' => ?_
        rw [Nat.add_assoc, Nat.add_comm 1 j']
        exact hfirst (j' + 1) (by omega)
    · intro c hc
      have hne : c ≠ cells[i] := by
        intro e; exact hc 0 (by simp) (by rw [Nat.add_zero, hg, e])
      simp only [if_neg hne]
      refine h3 c fun j hj => ?_
      rw [Nat.add_assoc, Nat.add_comm 1 j]
      exact hc (j + 1) (by simpa using hj)

/-- **C41** on the model of whole mocks: running the callable of `ReturnAndSet(r, v1, …, vk)` on a call whose arguments are references to `cells`
answers `r`, stores the values as C41 says, and touches nothing else in the world. -/
theorem C41_returnAndSet_on_the_machine (P : Prog V E) (call : CallFn V E) (fr : Option Frame) (cells : List Addr) (r : V) (vs : List V)
    (w : World V E) (hlen : vs.length ≤ cells.length) :
    ∃ heap', runBody P call fr (cells.map Arg.ref) (returnAndSetBody r 0 vs (.done (.ret r))) w = .done (.ret r, { w with heap := heap' }) ∧
      (∀ (j : Nat) v c, vs[j]? = some v → cells[j]? = some c → (∀ j', j' < j → cells[j']? ≠ some c) → heap' c = v) ∧
      (∀ c, (∀ j, j < vs.length → cells[j]? ≠ some c) → heap' c = w.heap c) := by
  obtain ⟨heap', h1, h2, h3⟩ := runBody_set P call fr cells r vs 0 (.done (.ret r)) w (by omega)
  exact ⟨heap', h1, by simpa using h2, by simpa using h3⟩

/-! ## Concrete cases -/
namespace Demo

/-- Cells 10, 20, 30 alive, 40 dead. -/
def mem4 : Mem Nat := fun a => if a = 10 then some 1 else if a = 20 then some 2 else if a = 30 then some 3 else none

/-- `ReturnAndSet(7, 8, x)` with `x` living at 30, on `f(&10, &20, &10)`. -/
theorem ready4 : Ready [.lit 8, .var 30] [some 10, some 20, some 10] mem4 where
  live := by
    intro i hi
    match i, hi with
    | 0, _ => exact ⟨10, rfl, by decide⟩
    | 1, _ => exact ⟨20, rfl, by decide⟩
  known := by
    intro i sv h
    match i with
    | 0 => simp at h; subst h; simp [current]
    | 1 => simp at h; subst h; decide
    | i + 2 => simp at h
  apart := by
    intro i a h j hj
    match i with
    | 0 => simp at h
    | 1 =>
      simp at h; subst h
      match j, hj with
      | 0, _ => simp [RefersTo]
      | 1, _ => simp [RefersTo]
    | i + 2 => simp at h

example : ∃ mem', assigner 7 [.lit 8, .var 30] [some 10, some 20, some 10] mem4 = .done (7, mem') ∧ mem' 10 = some 8 ∧ mem' 20 = some 3 ∧
    mem' 30 = some 3 := by
  obtain ⟨mem', h, hs⟩ := C41_returnAndSet_assigns_by_position 7 _ _ _ ready4
  refine ⟨mem', h, hs.set 0 _ 10 rfl rfl (by simp), hs.set 1 _ 20 rfl rfl ?_, hs.keep 30 ?_⟩
  · intro j hj; obtain rfl : j = 0 := by omega
    simp [RefersTo]
  · intro i hi
    match i, hi with
    | 0, _ => simp [RefersTo]
    | 1, _ => simp [RefersTo]

/-- The same object passed twice: the first parameter decides. -/
example : (match assigner 7 [.lit 8, .lit 9] [some 10, some 10] mem4 with | .done (_, m) => m 10 | _ => none) = some 8 := by decide +kernel

/-- A dead variable, and a null pointer. -/
example : ∀ out, assigner 7 [.lit 8, .var 40] [some 10, some 20] mem4 ≠ .done out :=
  C41_dead_variable_is_undefined 7 _ _ _ 1 40 rfl (by decide)
example : (match assigner 7 [.lit 8] [none] mem4 with | .ub => true | _ => false) = true := by decide +kernel

/-- `ReturnAndSet(7, _2 <= 5, _1 <= 6, _2 <= 8)` on `f(&10, &20, &30)`. -/
theorem ready5 : ReadyIndexed [(2, .lit 5), (1, .lit 6), (2, .lit 8)] 1 [some 10, some 20, some 30] mem4 where
  live := by
    intro i hi _
    match i, hi with
    | 0, _ => exact ⟨10, rfl, by decide⟩
    | 1, _ => exact ⟨20, rfl, by decide⟩
    | 2, _ => exact ⟨30, rfl, by decide⟩
  known := by
    intro i sv hi h
    match i, hi with
    | 0, _ => simp [lastFor] at h; subst h; simp [current]
    | 1, _ => simp [lastFor] at h; subst h; simp [current]
    | 2, _ => simp [lastFor] at h
  apart := by
    intro i a hi h
    match i, hi with
    | 0, _ => simp [lastFor] at h
    | 1, _ => simp [lastFor] at h
    | 2, _ => simp [lastFor] at h

example : ∃ mem', assignerIndexed 7 [(2, .lit 5), (1, .lit 6), (2, .lit 8)] [some 10, some 20, some 30] mem4 = .done (7, mem') ∧
    mem' 10 = some 6 ∧ mem' 20 = some 8 ∧ mem' 30 = some 3 := by
  obtain ⟨mem', h, hs⟩ := C42_placeholders_assign_by_index 7 _ _ _ ready5
  refine ⟨mem', h, hs.set 0 (.lit 6) 10 rfl rfl ?_, hs.set 1 (.lit 8) 20 rfl rfl ?_, hs.keep 30 ?_⟩
  · intro j hj hat
    match j with
    | 1 => simp [RefersTo] at hat
    | 2 => simp [RefersTo] at hat
    | j + 3 => simp [RefersTo] at hat
  · intro j hj hat
    match j with
    | 2 => simp [RefersTo] at hat
    | j + 3 => simp [RefersTo] at hat
  · intro i hat
    match i with
    | 0 => simp [RefersTo] at hat
    | 1 => simp [RefersTo] at hat
    | 2 => rfl
    | i + 3 => simp [RefersTo] at hat

end Demo
end FakeIt
