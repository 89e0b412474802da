import Verif.Spec.Script
/-!
# The action vector as a list of remaining actions
-/
namespace FakeIt
variable {V E : Type}
open Spec

/-- `s` holds exactly the actions `acts`, then the sentinel. -/
def ActionSeq.Rep (s : ActionSeq V E) (acts : List (Act V E)) : Prop :=
  s.recorded.Nodup ∧ s.recorded.map (fun i => s.objs[i]?) = (acts ++ [Act.noMore]).map some

theorem rep_init : (ActionSeq.init : ActionSeq V E).Rep [] := by simp [ActionSeq.Rep, ActionSeq.init]

theorem ActionSeq.Rep.lt {s : ActionSeq V E} {acts : List (Act V E)} (h : s.Rep acts) : ∀ i ∈ s.recorded, i < s.objs.length := by
  intro i hi
  have : s.objs[i]? ∈ s.recorded.map (fun i => s.objs[i]?) := List.mem_map_of_mem hi
  rw [h.2] at this
  obtain ⟨a, -, ha⟩ := List.mem_map.1 this
  exact (List.getElem?_eq_some_iff.1 ha.symm).1

theorem rep_append {s : ActionSeq V E} {acts : List (Act V E)} (h : s.Rep acts) (a : Act V E) : (s.append a).Rep (acts ++ [a]) := by
  have hlt := h.lt
  obtain ⟨hn, hm⟩ := h
  have hne : s.recorded ≠ [] := by
    intro he; rw [he] at hm; simp at hm
  obtain ⟨pre, last, hrec⟩ : ∃ pre last, s.recorded = pre ++ [last] :=
    ⟨_, _, (List.dropLast_concat_getLast hne).symm⟩
  have hnew : (s.append a).recorded = pre ++ [s.objs.length] ++ [last] := by
    simp [ActionSeq.append, hrec]
  have hobj : ∀ i, i < s.objs.length → (s.append a).objs[i]? = s.objs[i]? := by
    intro i hi; simp [ActionSeq.append, List.getElem?_append_left hi]
  rw [hrec] at hn hm hlt
  simp only [List.map_append, List.map_cons, List.map_nil] at hm
  have hm' := List.append_inj_left' hm rfl
  have hm'' := List.append_inj_right' hm rfl
  refine ⟨?_, ?_⟩
  · rw [hnew]
    rw [List.nodup_append] at hn ⊢
    refine ⟨?_, by simp, ?_⟩
    · rw [List.nodup_append]
      refine ⟨hn.1, by simp, ?_⟩
      intro x hx y hy
      have := hlt x (by simp [hx])
      simp at hy; omega
    · intro x hx y hy
      simp only [List.mem_append, List.mem_singleton] at hx hy
      subst hy
      rcases hx with hx | hx
      · exact hn.2.2 x hx y (by simp)
      · have := hlt y (by simp)
        omega
  · rw [hnew]
    simp only [List.map_append, List.map_cons, List.map_nil]
    rw [hobj last (hlt last (by simp)), hm'']
    congr 1
    congr 1
    · rw [← hm']
      apply List.map_congr_left
      intro x hx
      exact hobj x (hlt x (by simp [hx]))
    · simp [ActionSeq.append]

theorem rep_foldl (l : List (Act V E)) : ∀ {s : ActionSeq V E} {acts : List (Act V E)}, s.Rep acts →
    (l.foldl ActionSeq.append s).Rep (acts ++ l) := by
  induction l with
  | nil => intro s acts h; simpa using h
  | cons a l ih =>
    intro s acts h
    have := ih (rep_append h a)
    simpa using this

/-- A new sequence holds the appended actions. -/
theorem rep_ofActs (acts : List (Act V E)) : (ActionSeq.ofActs acts).Rep acts := by
  have := rep_foldl acts (rep_init (V := V) (E := E))
  simpa [ActionSeq.ofActs] using this

/-- The first action, or the sentinel. -/
def headAct : List (Act V E) → Act V E
  | [] => .noMore
  | a :: _ => a

/-- The actions left after one performance that was not interfered with. -/
def nextActs : List (Act V E) → List (Act V E)
  | [] => []
  | .rep t f :: rest => if t - 1 = 0 then rest else .rep (t - 1) f :: rest
  | a :: rest => a :: rest

theorem rep_front {s : ActionSeq V E} {acts : List (Act V E)} (h : s.Rep acts) :
    ∃ i rest, s.recorded = i :: rest ∧ s.objs[i]? = some (headAct acts) ∧ s.front = .done (i, headAct acts) := by
  obtain ⟨hn, hm⟩ := h
  cases hr : s.recorded with
  | nil => rw [hr] at hm; simp at hm
  | cons i rest =>
    rw [hr] at hm
    have hi : s.objs[i]? = some (headAct acts) := by
      cases acts with
      | nil => simp at hm; simp [headAct, hm.1]
      | cons a l => simp at hm; simp [headAct, hm.1]
    exact ⟨i, rest, rfl, hi, by simp [ActionSeq.front, hr, hi]⟩

theorem headAct_isDone_tick (acts : List (Act V E)) :
    (headAct acts).tick.isDone = true → ∃ t f rest, acts = .rep t f :: rest ∧ t - 1 = 0 := by
  cases acts with
  | nil => simp [headAct, Act.tick, Act.isDone]
  | cons a l =>
    cases a <;> simp [headAct, Act.tick, Act.isDone]

/-- The script after `times--` and the `finally` clause, if nothing else touched the sequence in between. -/
theorem rep_advance {s : ActionSeq V E} {acts : List (Act V E)} (h : s.Rep acts) {i : Nat} {a : Act V E} (hf : s.front = .done (i, a)) :
    ∃ s', (s.tick i).finallyClause i = .done s' ∧ s'.Rep (nextActs acts) := by
  obtain ⟨i', rest, hr, hi, hf'⟩ := rep_front h
  rw [hf] at hf'
  simp only [R.done.injEq, Prod.mk.injEq] at hf'
  obtain ⟨rfl, rfl⟩ := hf'
  have hobj : (s.tick i).objs[i]? = some (headAct acts).tick := by
    simp [ActionSeq.tick, List.getElem?_modify, hi]
  have hobj' : ∀ j, j ≠ i → (s.tick i).objs[j]? = s.objs[j]? := by
    intro j hj
    simp only [ActionSeq.tick, List.getElem?_modify]
    simp [Ne.symm hj]
  obtain ⟨hn, hm⟩ := h
  rw [hr] at hn hm
  have hni : i ∉ rest := (List.nodup_cons.1 hn).1
  have hrest : rest.map (fun j => (s.tick i).objs[j]?) = rest.map (fun j => s.objs[j]?) := by
    apply List.map_congr_left
    intro j hj
    exact hobj' j (by rintro rfl; exact hni hj)
  have hrec : (s.tick i).recorded = i :: rest := hr
  unfold ActionSeq.finallyClause
  rw [hobj]
  simp only
  cases hd : (headAct acts).tick.isDone with
  | true =>
    obtain ⟨t, f, r, rfl, ht⟩ := headAct_isDone_tick acts hd
    simp only [if_true, hrec]
    refine ⟨_, rfl, (List.nodup_cons.1 hn).2, ?_⟩
    simp only [nextActs, if_pos ht]
    rw [hrest]
    simp only [List.map_cons, List.cons_append, List.cons.injEq] at hm
    exact hm.2
  | false =>
    simp only [Bool.false_eq_true, if_false]
    refine ⟨_, rfl, by rw [hrec]; exact hn, ?_⟩
    rw [hrec, List.map_cons, hobj, hrest]
    cases acts with
    | nil =>
      simp only [headAct, Act.tick, nextActs, List.nil_append, List.map_cons, List.map_nil] at hm ⊢
      simp only [List.cons.injEq] at hm
      rw [hm.2]
    | cons a l =>
      simp only [List.map_cons, List.cons_append, List.cons.injEq] at hm
      rw [hm.2]
      cases a with
      | rep t f =>
        have ht : ¬ (t - 1 = 0) := by
          simpa [headAct, Act.tick, Act.isDone] using hd
        simp [headAct, Act.tick, nextActs, ht]
      | _ => simp [headAct, Act.tick, nextActs]

/-- What the head of the script stands for. -/
def Act.perf : Act V E → Option (Perf V E)
  | .rep _ f => some (.fn f)
  | .forever f => some (.fn f)
  | .dflt => some .dflt
  | .deleg mv => some (.deleg mv)
  | .noMore => none

theorem performed_zero {acts : List (Act V E)} (h : WritableActs acts) : performed acts 0 = (headAct acts).perf := by
  cases acts with
  | nil => rfl
  | cons a l =>
    have ha := h a (by simp)
    cases a with
    | rep n f =>
      simp only at ha
      simp only [performed, headAct, Act.perf]
      rw [if_pos (by simp only [Int.cast_ofNat_Int]; omega)]
    | noMore => exact ha.elim
    | _ => rfl

theorem performed_succ {acts : List (Act V E)} (h : WritableActs acts) (i : Nat) :
    performed acts (i + 1) = performed (nextActs acts) i := by
  cases acts with
  | nil => rfl
  | cons a l =>
    have ha := h a (by simp)
    cases a with
    | rep n f =>
      simp only at ha
      simp only [nextActs]
      by_cases hn : n - 1 = 0
      · have : n = 1 := by omega
        subst this
        simp [performed]
        omega
      · rw [if_neg hn]
        simp only [performed]
        by_cases hlt : ((i : Int) + 1) < n
        · rw [if_pos (by omega), if_pos (by omega)]
        · rw [if_neg (by omega), if_neg (by omega)]
          congr 1
          omega
    | noMore => exact ha.elim
    | _ => rfl

theorem writable_next {acts : List (Act V E)} (h : WritableActs acts) : WritableActs (nextActs acts) := by
  cases acts with
  | nil => exact h
  | cons a l =>
    have hl : WritableActs l := fun b hb => h b (by simp [hb])
    have ha := h a (by simp)
    cases a with
    | rep n f =>
      simp only [nextActs]
      split
      · exact hl
      · intro b hb
        simp only [List.mem_cons] at hb
        rcases hb with rfl | hb
        · simp only at ha ⊢; omega
        · exact hl b hb
    | noMore => exact ha.elim
    | _ => exact h

/-- The script after `i` performances. -/
def afterActs (acts : List (Act V E)) : Nat → List (Act V E)
  | 0 => acts
  | i + 1 => afterActs (nextActs acts) i

theorem afterActs_succ (acts : List (Act V E)) (i : Nat) : afterActs acts (i + 1) = nextActs (afterActs acts i) := by
  induction i generalizing acts with
  | zero => rfl
  | succ i ih => rw [afterActs, ih]; rfl

theorem writable_after {acts : List (Act V E)} (h : WritableActs acts) (i : Nat) : WritableActs (afterActs acts i) := by
  induction i generalizing acts with
  | zero => exact h
  | succ i ih => exact ih (writable_next h)

theorem performed_after {acts : List (Act V E)} (h : WritableActs acts) (i j : Nat) :
    performed (afterActs acts i) j = performed acts (i + j) := by
  induction i generalizing acts with
  | zero => simp [afterActs]
  | succ i ih =>
    rw [afterActs, ih (writable_next h), ← performed_succ h]
    congr 1
    omega

end FakeIt

namespace FakeIt
variable {V E : Type}
open Spec

theorem writable_of_uses {pre : List (Act V E)} {k : Nat} (h : uses pre = some k) : WritableActs pre := by
  induction pre generalizing k with
  | nil => intro a ha; cases ha
  | cons a pre ih =>
    cases a with
    | rep n f =>
      simp only [uses] at h
      split at h
      · rename_i hn
        simp only [Option.map_eq_some_iff] at h
        obtain ⟨k', hk', -⟩ := h
        intro b hb
        simp only [List.mem_cons] at hb
        rcases hb with rfl | hb
        · exact hn
        · exact ih hk' b hb
      · cases h
    | forever f => simp [uses] at h
    | dflt => simp [uses] at h
    | deleg mv => simp [uses] at h
    | noMore => simp [uses] at h

/-- A prefix of counted actions is used up after as many calls as it has multiplicities. -/
theorem performed_append {pre rest : List (Act V E)} {k : Nat} (h : uses pre = some k) (i : Nat) :
    performed (pre ++ rest) (k + i) = performed rest i ∧ (i < k → ∃ p, performed (pre ++ rest) i = some p ∧ performed pre i = some p) := by
  induction pre generalizing k i with
  | nil => simp only [uses, Option.some.injEq] at h; subst h; simp
  | cons a pre ih =>
    cases a with
    | rep n f =>
      simp only [uses] at h
      split at h
      · rename_i hn
        simp only [Option.map_eq_some_iff] at h
        obtain ⟨k', hk', rfl⟩ := h
        simp only [List.cons_append, performed]
        constructor
        · rw [if_neg (by omega), show n.toNat + k' + i - n.toNat = k' + i by omega]
          exact (ih hk' i).1
        · intro hi
          by_cases hin : (i : Int) < n
          · exact ⟨_, by rw [if_pos hin], by rw [if_pos hin]⟩
          · rw [if_neg hin, if_neg hin]
            exact (ih hk' (i - n.toNat)).2 (by omega)
      · cases h
    | forever f => simp [uses] at h
    | dflt => simp [uses] at h
    | deleg mv => simp [uses] at h
    | noMore => simp [uses] at h

/-- A multiplicity below 1 is never used up. -/
theorem afterActs_nonpos (n : Int) (hn : n ≤ 0) (f : Fn V E) (rest : List (Act V E)) (i : Nat) :
    afterActs (.rep n f :: rest) i = .rep (n - i) f :: rest := by
  induction i with
  | zero => simp [afterActs]
  | succ i ih =>
    rw [afterActs_succ, ih, nextActs, if_neg (by omega)]
    congr 2; omega

/-- The action performed next, in terms of the specification. -/
theorem performed_eq {acts : List (Act V E)} (h : WritableActs acts) (n : Nat) : (headAct (afterActs acts n)).perf = performed acts n := by
  rw [← performed_zero (writable_after h n), performed_after h]; rfl

theorem performed_always {a : Act V E} {p : Perf V E} (h : Always a p) (rest : List (Act V E)) (i : Nat) : performed (a :: rest) i = some p := by
  cases a <;> simp_all [Always, performed]

theorem afterActs_add (acts : List (Act V E)) (i j : Nat) : afterActs acts (i + j) = afterActs (afterActs acts i) j := by
  induction j with
  | zero => rfl
  | succ j ih => rw [← Nat.add_assoc, afterActs_succ, afterActs_succ, ih]

theorem afterActs_rep (n : Nat) (f : Fn V E) (rest : List (Act V E)) (i : Nat) (hi : i ≤ n) :
    afterActs (.rep (n + 1 : Nat) f :: rest) i = .rep ((n + 1 - i : Nat) : Int) f :: rest := by
  induction i with
  | zero => simp [afterActs]
  | succ i ih =>
    rw [afterActs_succ, ih (by omega), nextActs, if_neg (by omega)]
    congr 2; omega

theorem afterActs_rep_all (n : Nat) (f : Fn V E) (rest : List (Act V E)) : afterActs (.rep (n + 1 : Nat) f :: rest) (n + 1) = rest := by
  rw [afterActs_succ, afterActs_rep n f rest n (by omega), nextActs, if_pos (by omega)]

/-- A prefix of counted actions is used up after as many calls as it has multiplicities. -/
theorem afterActs_append {pre : List (Act V E)} {k : Nat} (h : uses pre = some k) (rest : List (Act V E)) (i : Nat) :
    afterActs (pre ++ rest) (k + i) = afterActs rest i := by
  induction pre generalizing k with
  | nil => simp only [uses, Option.some.injEq] at h; subst h; simp
  | cons a pre ih =>
    cases a with
    | rep n f =>
      simp only [uses] at h
      split at h
      · rename_i hn
        simp only [Option.map_eq_some_iff] at h
        obtain ⟨k', hk', rfl⟩ := h
        obtain ⟨n', rfl⟩ : ∃ n' : Nat, n = ((n' + 1 : Nat) : Int) := ⟨n.toNat - 1, by omega⟩
        rw [Int.toNat_natCast, Nat.add_assoc, afterActs_add, List.cons_append, afterActs_rep_all, ih hk']
      · cases h
    | forever f => simp [uses] at h
    | dflt => simp [uses] at h
    | deleg mv => simp [uses] at h
    | noMore => simp [uses] at h

theorem afterActs_always {a : Act V E} {p : Perf V E} (h : Always a p) (rest : List (Act V E)) (i : Nat) : afterActs (a :: rest) i = a :: rest := by
  induction i with
  | zero => rfl
  | succ i ih => rw [afterActs_succ, ih]; cases a <;> simp_all [Always, nextActs]

end FakeIt
