import Verif.Model.Ownership
/-!
# C48: can a method expression be reused?
-/
namespace FakeIt

/-! ## Specification -/

/-- How far the expression has been used. -/
inductive Spec.Phase where
  /-- not used for stubbing yet -/
  | fresh
  /-- used for one stubbing, which still exists -/
  | installed
  /-- used for one stubbing, and the mock was reset or destroyed since -/
  | gone
  deriving DecidableEq

/-- Uses that are fine: stub once; set the matcher only before; ask it (or append actions) until the mock is reset; copies and anything that does not
involve the expression at any time. `none`: not a fine use. The number is how many expression objects exist. -/
def Spec.fine : Phase × Nat → ExprOp → Option (Phase × Nat)
  | (p, n + 1), .copy => some (p, n + 2)
  | (p, n + 1), .drop => some (p, n)
  | (.fresh, n + 1), .using_ => some (.fresh, n + 1)
  | (.fresh, n + 1), .append => some (.fresh, n + 1)
  | (.installed, n + 1), .append => some (.installed, n + 1)
  | (.fresh, n + 1), .matches_ => some (.fresh, n + 1)
  | (.installed, n + 1), .matches_ => some (.installed, n + 1)
  | (.fresh, n + 1), .commit => some (.installed, n + 1)
  | x, .other => some x
  | x, .call _ => some x
  | (.installed, n), .reset => some (.gone, n)
  | x, .reset => some x
  | _, _ => none

/-- A sequence of fine uses. -/
def Spec.fineAll : Phase × Nat → List ExprOp → Option (Phase × Nat)
  | x, [] => some x
  | x, o :: os => (fine x o).bind fun y => fineAll y os

open Spec

/-! ## Ownership invariant -/

/-- Everything owned by somebody. -/
private def owned (p : Phase) (n : Nat) (s : OwnState) : List Addr :=
  (if p = .fresh ∧ n ≠ 0 then [s.sequence, s.matcher] else []) ++ s.handlers.flatMap fun h => [h.1, h.2]

private structure OInv (x : Phase × Nat) (s : OwnState) : Prop where
  refs : s.refs = x.2
  committed : s.committed = true ↔ x.1 ≠ .fresh
  nodup : s.live.Nodup
  owns : s.live.Perm (owned x.1 x.2 s)
  below : ∀ a ∈ s.live, a < s.fresh
  inst : x.1 = .installed → (s.matcher, s.sequence) ∈ s.handlers

private theorem delete_mem {live : List Addr} {a : Addr} (h : a ∈ live) : deleteObj live a = .done (live.erase a) := if_pos h

private theorem delete_all {live as rest : List Addr} (h : live.Perm (as ++ rest)) : ∃ live', deleteAll live as = .done live' ∧ live'.Perm rest := by
  induction as generalizing live with
  | nil => exact ⟨live, rfl, by simpa using h⟩
  | cons a as ih =>
    have hm : a ∈ live := h.mem_iff.2 (by simp)
    have h2 : (live.erase a).Perm (as ++ rest) := by
      have := h.erase a
      simpa using this
    obtain ⟨live', h3, h4⟩ := ih h2
    exact ⟨live', by simp only [deleteAll, deleteObj, if_pos hm, R.bind_done, h3], h4⟩

private theorem scan_live {live : List Addr} {acc : Addr → Bool} {hs : List (Addr × Addr)} (h : ∀ p ∈ hs, p.1 ∈ live ∧ p.2 ∈ live) :
    scanLive live acc hs = .done () := by
  induction hs with
  | nil => rfl
  | cons x xs ih =>
    obtain ⟨m, q⟩ := x
    have := h (m, q) (by simp)
    rw [scanLive, if_pos this.1, if_pos this.2]
    split
    · rfl
    · exact ih fun p hp => h p (by simp [hp])

private theorem handler_live {x : Phase × Nat} {s : OwnState} (h : OInv x s) : ∀ p ∈ s.handlers, p.1 ∈ s.live ∧ p.2 ∈ s.live := by
  intro p hp
  have : ∀ a ∈ [p.1, p.2], a ∈ s.live := fun a ha =>
    h.owns.mem_iff.2 (List.mem_append_right _ (List.mem_flatMap.2 ⟨p, hp, ha⟩))
  exact ⟨this _ (by simp), this _ (by simp)⟩

private theorem expr_live {n : Nat} {p : Phase} {s : OwnState} (h : OInv (p, n + 1) s) (hp : p = .fresh ∨ p = .installed) :
    s.sequence ∈ s.live ∧ s.matcher ∈ s.live := by
  rcases hp with rfl | rfl
  · have : ∀ a ∈ [s.sequence, s.matcher], a ∈ s.live := fun a ha =>
      h.owns.mem_iff.2 (by simp only [owned]; rw [if_pos (by simp)]; exact List.mem_append_left _ ha)
    exact ⟨this _ (by simp), this _ (by simp)⟩
  · have := handler_live h _ (h.inst rfl)
    exact ⟨this.2, this.1⟩

private theorem step_fine {x y : Phase × Nat} {s : OwnState} {o : ExprOp} (h : OInv x s) (hf : fine x o = some y) :
    ∃ s', s.step o = .done s' ∧ OInv y s' := by
  obtain ⟨p, n⟩ := x
  have hr := h.refs
  dsimp only at hr
  cases o with
  | copy =>
    cases n with
    | zero => cases p <;> cases hf
    | succ n =>
      have hy : y = (p, n + 2) := by cases p <;> (simp only [fine, Option.some.injEq] at hf; exact hf.symm)
      subst hy
      refine ⟨{ s with refs := s.refs + 1 }, by simp [OwnState.step, hr], ⟨by simp [hr], h.committed, h.nodup, ?_, h.below, h.inst⟩⟩
      simpa [owned] using h.owns
  | drop =>
    cases n with
    | zero => cases p <;> cases hf
    | succ n =>
      have hy : y = (p, n) := by cases p <;> (simp only [fine, Option.some.injEq] at hf; exact hf.symm)
      subst hy
      by_cases hlast : s.refs = 1 ∧ s.committed = false
      · have hn : n = 0 := by have := hlast.1; omega
        have hp : p = .fresh := Decidable.byContradiction fun hne => by
          have := h.committed.2 hne; rw [hlast.2] at this; cases this
        subst hn; subst hp
        have ho : s.live.Perm ([s.sequence, s.matcher] ++ s.handlers.flatMap fun h => [h.1, h.2]) := by
          have := h.owns; simpa [owned] using this
        obtain ⟨live', h1, h2⟩ := delete_all ho
        have hsub : ∀ a ∈ live', a ∈ s.live := fun a ha => ho.mem_iff.2 (List.mem_append_right _ (h2.mem_iff.1 ha))
        refine ⟨{ s with refs := 0, live := live' }, ?_, ⟨rfl, h.committed, ?_, ?_, fun a ha => h.below a (hsub a ha), fun e => by cases e⟩⟩
        · simp only [OwnState.step]
          rw [if_neg (by omega), if_pos hlast, h1, R.bind_done]
        · exact h2.symm.nodup (List.nodup_append.1 (ho.nodup h.nodup)).2.1
        · simpa [owned] using h2
      · refine ⟨{ s with refs := s.refs - 1 }, ?_, ⟨by simp [hr], h.committed, h.nodup, ?_, h.below, h.inst⟩⟩
        · simp only [OwnState.step]; rw [if_neg (by omega), if_neg hlast]
        · have := h.owns
          by_cases hp : p = .fresh
          · have hc : s.committed = false := by
              cases hcc : s.committed with
              | false => rfl
              | true => exact absurd hp (h.committed.1 hcc)
            have hn : n ≠ 0 := fun e => hlast ⟨by omega, hc⟩
            simpa [owned, hp, hn] using this
          · simpa [owned, hp] using this
  | using_ =>
    cases n with
    | zero => cases p <;> cases hf
    | succ n =>
      cases p with
      | installed => cases hf
      | gone => cases hf
      | fresh =>
        simp only [fine, Option.some.injEq] at hf
        subst hf
        have ho : s.live.Perm (s.sequence :: s.matcher :: s.handlers.flatMap fun h => [h.1, h.2]) := by
          have := h.owns; simpa [owned] using this
        have hm := (expr_live h (.inl rfl)).2
        have hlt := h.below _ hm
        have hne : s.matcher ≠ s.fresh := Nat.ne_of_lt hlt
        have hfr : s.fresh ∉ s.live := fun e => Nat.lt_irrefl _ (h.below _ e)
        have hnd := ho.nodup h.nodup
        have hper : (s.live.erase s.matcher).Perm (s.sequence :: s.handlers.flatMap fun h => [h.1, h.2]) := by
          have h1 := ho.erase s.matcher
          have h2 : s.sequence ≠ s.matcher := fun e => by rw [e] at hnd; simp at hnd
          rw [List.erase_cons_tail (by simpa using h2)] at h1
          simpa using h1
        have he : (s.fresh :: s.live).erase s.matcher = s.fresh :: s.live.erase s.matcher := List.erase_cons_tail (by simpa using Ne.symm hne)
        refine ⟨{ s with live := s.fresh :: s.live.erase s.matcher, matcher := s.fresh, fresh := s.fresh + 1 }, ?_, ⟨hr, h.committed, ?_, ?_, ?_, fun e => by cases e⟩⟩
        · simp only [OwnState.step, OwnState.alloc]
          rw [if_neg (by omega), delete_mem (List.mem_cons_of_mem _ hm), R.bind_done, he]
        · exact List.nodup_cons.2 ⟨fun hc => hfr (List.mem_of_mem_erase hc), h.nodup.erase _⟩
        · simp only [owned]
          rw [if_pos (by simp)]
          exact (hper.cons s.fresh).trans (List.Perm.swap _ _ _)
        · intro a ha
          rcases List.mem_cons.1 ha with rfl | ha
          · exact Nat.lt_succ_self _
          · exact Nat.lt_succ_of_lt (h.below a (List.mem_of_mem_erase ha))
  | append =>
    cases n with
    | zero => cases p <;> cases hf
    | succ n =>
      cases p with
      | gone => cases hf
      | fresh =>
        simp only [fine, Option.some.injEq] at hf; subst hf
        exact ⟨s, by simp only [OwnState.step]; rw [if_neg (by omega), if_pos (expr_live h (.inl rfl)).1], h⟩
      | installed =>
        simp only [fine, Option.some.injEq] at hf; subst hf
        exact ⟨s, by simp only [OwnState.step]; rw [if_neg (by omega), if_pos (expr_live h (.inr rfl)).1], h⟩
  | matches_ =>
    cases n with
    | zero => cases p <;> cases hf
    | succ n =>
      cases p with
      | gone => cases hf
      | fresh =>
        simp only [fine, Option.some.injEq] at hf; subst hf
        exact ⟨s, by simp only [OwnState.step]; rw [if_neg (by omega), if_pos (expr_live h (.inl rfl)).2], h⟩
      | installed =>
        simp only [fine, Option.some.injEq] at hf; subst hf
        exact ⟨s, by simp only [OwnState.step]; rw [if_neg (by omega), if_pos (expr_live h (.inr rfl)).2], h⟩
  | commit =>
    cases n with
    | zero => cases p <;> cases hf
    | succ n =>
      cases p with
      | gone => cases hf
      | installed => cases hf
      | fresh =>
        simp only [fine, Option.some.injEq] at hf; subst hf
        refine ⟨{ s with handlers := s.handlers ++ [(s.matcher, s.sequence)], committed := true }, ?_, ⟨hr, by simp, h.nodup, ?_, h.below, by simp⟩⟩
        · simp only [OwnState.step]; rw [if_neg (by omega)]
        · have := h.owns
          simp only [owned] at this ⊢
          rw [if_pos (by simp)] at this
          rw [if_neg (by simp), List.nil_append, List.flatMap_append]
          refine this.trans (List.perm_append_comm.trans (List.Perm.append_left _ ?_))
          simp only [List.flatMap_cons, List.flatMap_nil, List.append_nil]
          exact List.Perm.swap _ _ _
  | other =>
    have hy : y = (p, n) := by cases p <;> cases n <;> (simp only [fine, Option.some.injEq] at hf; exact hf.symm)
    subst hy
    have hb : ∀ a, a ∈ s.live → a < s.fresh := h.below
    refine ⟨_, rfl, ⟨hr, h.committed, ?_, ?_, ?_, fun e => List.mem_append_left _ (h.inst e)⟩⟩
    · simp only [List.nodup_cons, List.mem_cons, not_or]
      exact ⟨⟨fun e => Nat.lt_irrefl _ (Nat.lt_of_lt_of_eq (Nat.lt_succ_self s.fresh) e), fun e => Nat.lt_irrefl _ (Nat.lt_trans (Nat.lt_succ_self s.fresh) (hb _ e))⟩,
        fun e => Nat.lt_irrefl _ (hb _ e), h.nodup⟩
    · have := h.owns
      simp only [owned, List.flatMap_append, List.flatMap_cons, List.flatMap_nil, List.append_nil] at this ⊢
      rw [← List.append_assoc]
      refine List.Perm.trans ?_ List.perm_append_comm
      exact (List.Perm.swap _ _ _).trans ((this.cons _).cons _)
    · intro a ha
      simp only [List.mem_cons] at ha
      have hgoal : a < s.fresh + 1 + 1 := by
        rcases ha with rfl | rfl | ha
        · exact Nat.lt_succ_self _
        · exact Nat.lt_succ_of_lt (Nat.lt_succ_self _)
        · exact Nat.lt_succ_of_lt (Nat.lt_succ_of_lt (hb a ha))
      exact hgoal
  | call acc =>
    have hy : y = (p, n) := by cases p <;> cases n <;> (simp only [fine, Option.some.injEq] at hf; exact hf.symm)
    subst hy
    refine ⟨s, ?_, h⟩
    simp only [OwnState.step]
    rw [scan_live (fun q hq => handler_live h q (by simpa using hq)), R.bind_done]
  | reset =>
    have ho : s.live.Perm ((s.handlers.flatMap fun h => [h.1, h.2]) ++ (if p = .fresh ∧ n ≠ 0 then [s.sequence, s.matcher] else [])) :=
      h.owns.trans List.perm_append_comm
    obtain ⟨live', h1, h2⟩ := delete_all ho
    have hsub : ∀ a ∈ live', a ∈ s.live := fun a ha => ho.mem_iff.2 (List.mem_append_right _ (h2.mem_iff.1 ha))
    have hnd : live'.Nodup := h2.symm.nodup (List.nodup_append.1 (ho.nodup h.nodup)).2.1
    refine ⟨{ s with handlers := [], live := live' }, by simp only [OwnState.step, h1, R.bind_done], ?_⟩
    cases p with
    | fresh =>
      have hy : y = (.fresh, n) := by cases n <;> (simp only [fine, Option.some.injEq] at hf; exact hf.symm)
      subst hy
      exact ⟨hr, h.committed, hnd, by simpa [owned] using h2, fun a ha => h.below a (hsub a ha), fun e => by cases e⟩
    | installed =>
      have hy : y = (.gone, n) := by cases n <;> (simp only [fine, Option.some.injEq] at hf; exact hf.symm)
      subst hy
      exact ⟨hr, by simpa using h.committed, hnd, by simpa [owned] using h2, fun a ha => h.below a (hsub a ha), fun e => by cases e⟩
    | gone =>
      have hy : y = (.gone, n) := by cases n <;> (simp only [fine, Option.some.injEq] at hf; exact hf.symm)
      subst hy
      exact ⟨hr, h.committed, hnd, by simpa [owned] using h2, fun a ha => h.below a (hsub a ha), fun e => by cases e⟩

private theorem init_inv : OInv (.fresh, 1) OwnState.init :=
  ⟨rfl, by simp [OwnState.init], by decide, by decide, by decide, fun e => by cases e⟩

private theorem run_fine {x y : Phase × Nat} {s : OwnState} {ops : List ExprOp} (h : OInv x s) (hf : fineAll x ops = some y) :
    ∃ s', OwnState.run ops s = .done s' ∧ OInv y s' := by
  induction ops generalizing x s with
  | nil => simp only [fineAll, Option.some.injEq] at hf; subst hf; exact ⟨s, rfl, h⟩
  | cons o os ih =>
    simp only [fineAll, Option.bind_eq_some_iff] at hf
    obtain ⟨z, h1, h2⟩ := hf
    obtain ⟨s1, h3, h4⟩ := step_fine h h1
    obtain ⟨s2, h5, h6⟩ := ih h4 h2
    exact ⟨s2, by simp only [OwnState.run, h3, R.bind_done, h5], h6⟩

/-- **C48** (partial: the expression is used for one stubbing only, its matcher is not set after that, and it is not used after the mock was reset).
Every sequence of such uses is free of memory errors, and when no expression object and no stubbing is left, every object has been freed. -/
theorem C48_fine_uses_are_safe_partial {ops : List ExprOp} {y : Phase × Nat} (hf : fineAll (.fresh, 1) ops = some y) :
    ∃ s, OwnState.run ops OwnState.init = .done s ∧ (y.2 = 0 → s.handlers = [] → s.live = []) := by
  obtain ⟨s, h1, h2⟩ := run_fine init_inv hf
  refine ⟨s, h1, fun h0 hh => ?_⟩
  have := h2.owns
  rw [owned, h0, hh, if_neg (by simp)] at this
  exact List.Perm.eq_nil (by simpa using this)

private theorem run_append {a b : List ExprOp} {s s' : OwnState} (h : OwnState.run a s = .done s') : OwnState.run (a ++ b) s = OwnState.run b s' := by
  induction a generalizing s with
  | nil => simp only [OwnState.run, R.done.injEq] at h; subst h; rfl
  | cons o os ih =>
    simp only [OwnState.run, R.bind_eq_done] at h
    obtain ⟨s1, h1, h2⟩ := h
    simp only [List.cons_append, OwnState.run, h1, R.bind_done]
    exact ih h2

private theorem deleteAll_dup {live : List Addr} {as : List Addr} (hl : live.Nodup) (ha : ¬ as.Nodup) : deleteAll live as = .ub := by
  induction as generalizing live with
  | nil => exact absurd List.nodup_nil ha
  | cons a as ih =>
    simp only [deleteAll, deleteObj]
    by_cases hm : a ∈ live
    · rw [if_pos hm, R.bind_done]
      by_cases hin : a ∈ as
      · have : ∀ (bs live : List Addr), a ∉ live → a ∈ bs → deleteAll live bs = .ub := by
          intro bs
          induction bs with
          | nil => intro live _ h; cases h
          | cons b bs ihb =>
            intro live hnot hmem
            simp only [deleteAll, deleteObj]
            by_cases hb : b ∈ live
            · rw [if_pos hb, R.bind_done]
              rcases List.mem_cons.1 hmem with rfl | hmem
              · exact absurd hb hnot
              · exact ihb _ (fun e => hnot (List.mem_of_mem_erase e)) hmem
            · rw [if_neg hb]; rfl
        exact this as _ (fun e => by
          rw [hl.mem_erase_iff] at e; exact e.1 rfl) hin
      · exact ih (hl.erase _) fun hn => ha (List.nodup_cons.2 ⟨hin, hn⟩)
    · rw [if_neg hm]; rfl

/-- **C48** is false: an expression that stubs twice makes resetting (or destroying) the mock undefined behaviour: both stubbings own the same matcher
and action sequence. -/
theorem C48_stubbing_twice_is_undefined {ops : List ExprOp} {n : Nat} (hf : fineAll (.fresh, 1) ops = some (.fresh, n + 1)) :
    OwnState.run (ops ++ [.commit, .commit, .reset]) OwnState.init = .ub := by
  obtain ⟨s, h1, h2⟩ := run_fine init_inv hf
  rw [run_append h1]
  have hr : s.refs = n + 1 := h2.refs
  simp only [OwnState.run, OwnState.step, if_neg (show ¬ s.refs = 0 by omega), R.bind_done]
  rw [deleteAll_dup h2.nodup]
  · rfl
  · simp [List.flatMap_append, List.nodup_append]

/-- **C48** is false: setting the matcher of an expression again after it was used for stubbing deletes the stubbing's matcher, the next call of the method
is undefined behaviour. -/
theorem C48_setting_the_matcher_after_stubbing_is_undefined {ops : List ExprOp} {n : Nat} (hf : fineAll (.fresh, 1) ops = some (.fresh, n + 1))
    (accepts : Addr → Bool) : OwnState.run (ops ++ [.commit, .using_, .call accepts]) OwnState.init = .ub := by
  obtain ⟨s, h1, h2⟩ := run_fine init_inv hf
  rw [run_append h1]
  have hr : s.refs = n + 1 := h2.refs
  have hm := (expr_live h2 (.inl rfl)).2
  have hlt : s.matcher < s.fresh := h2.below _ hm
  have hne : s.fresh ≠ s.matcher := fun e => by rw [e] at hlt; exact Nat.lt_irrefl _ hlt
  have he : (s.fresh :: s.live).erase s.matcher = s.fresh :: s.live.erase s.matcher := List.erase_cons_tail (by simpa using hne)
  have hno : s.matcher ∉ s.fresh :: s.live.erase s.matcher := by
    rw [List.mem_cons, not_or]
    exact ⟨Ne.symm hne, fun e => by rw [h2.nodup.mem_erase_iff] at e; exact e.1 rfl⟩
  simp only [OwnState.run, OwnState.step, OwnState.alloc, if_neg (show ¬ s.refs = 0 by omega), R.bind_done]
  rw [delete_mem (List.mem_cons_of_mem _ hm), he]
  simp only [R.bind_done, List.reverse_append, List.reverse_cons, List.reverse_nil, List.nil_append, List.cons_append, scanLive, if_neg hno]
  rfl

/-- **C48** is false: an expression that was used for stubbing cannot be used for verification after the mock was reset. -/
theorem C48_verifying_after_reset_is_undefined {ops : List ExprOp} {n : Nat} (hf : fineAll (.fresh, 1) ops = some (.fresh, n + 1)) :
    OwnState.run (ops ++ [.commit, .reset, .matches_]) OwnState.init = .ub := by
  obtain ⟨s, h1, h2⟩ := run_fine init_inv hf
  have hf3 : fineAll (.fresh, n + 1) [.commit, .reset] = some (.gone, n + 1) := rfl
  have hstep : ∃ s3, OwnState.run [.commit, .reset] s = .done s3 ∧ s3.matcher = s.matcher ∧ s3.refs = n + 1 ∧ s3.live = [] := by
    obtain ⟨s3, h3, h4⟩ := run_fine h2 hf3
    refine ⟨s3, h3, ?_, h4.refs, ?_⟩
    · have hr : s.refs = n + 1 := h2.refs
      simp only [OwnState.run, OwnState.step, if_neg (show ¬ s.refs = 0 by omega), R.bind_done, R.bind_eq_done] at h3
      obtain ⟨s4, ⟨l, -, hl⟩, h5⟩ := h3
      cases hl; cases h5; rfl
    · have := h4.owns
      have hh : s3.handlers = [] := by
        have hr : s.refs = n + 1 := h2.refs
        simp only [OwnState.run, OwnState.step, if_neg (show ¬ s.refs = 0 by omega), R.bind_done, R.bind_eq_done] at h3
        obtain ⟨s4, ⟨l, -, hl⟩, h5⟩ := h3
        cases hl; cases h5; rfl
      rw [owned, hh, if_neg (by simp)] at this
      exact List.Perm.eq_nil (by simpa using this)
  obtain ⟨s3, h3, -, hr3, hl3⟩ := hstep
  rw [run_append h1, show [ExprOp.commit, .reset, .matches_] = [.commit, .reset] ++ [.matches_] from rfl, run_append h3]
  simp [OwnState.run, OwnState.step, hr3, hl3]

namespace Demo

/-- A saved expression: matcher set twice, copied, used in a statement, asked in a verification, called, copies dropped, mock destroyed. -/
def exprUses : List ExprOp :=
  [.using_, .other, .using_, .copy, .append, .append, .commit, .drop, .matches_, .call (fun _ => true), .other, .call (fun a => a == 0), .drop, .reset]

example : fineAll (.fresh, 1) exprUses = some (.gone, 0) := rfl
example : fineAll (.fresh, 1) [.using_, .other, .copy, .call (fun _ => false)] = some (.fresh, 2) := rfl

end Demo
end FakeIt
