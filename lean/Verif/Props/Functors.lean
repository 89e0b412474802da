import Verif.Lemmas.FunctorsRun
/-!
# C86: function objects given to the library are copied by the statement and keep their own state

Proved in full for the modelled programs.  Not modelled: function objects whose code uses mocks.
-/
namespace FakeIt.Functors
open Spec

variable {S V E A : Type} (beh : Nat → S → A → S × Out V E) (truth : V → Bool)

/-! ## A function object that counts its uses, and one that throws at the third -/

namespace Demo

/-- Code 0 returns how often it was used before, plus the argument; code 1 returns whether this use is an odd one (first, third …); code 2 throws at its third use. -/
def code : Nat → Nat → Nat → Nat × Out Nat Unit
  | 0, n, a => (n + 1, .ret (n + a))
  | 1, n, _ => (n + 1, .ret ((n + 1) % 2))
  | _, n, a => (n + 1, if n = 2 then .exc () else .ret a)

/-- `operator bool`. -/
def yes (n : Nat) : Bool := n != 0

/-- Two variables; a stubbing with both ways to give an action, one with a predicate, a statement that fails; uses of the test's own between the calls; verifications. -/
def prog : List (Op Nat Nat) :=
  [.make ⟨0, 10⟩, .run 0 5, .make ⟨1, 0⟩, .stub none [(.always, 0)] false, .run 0 5, .call 0, .stub (some 1) [(.once, 0), (.times 2, 0)] false, .stub none [(.once, 0)] true,
    .call 0, .call 0, .call 0, .run 0 5, .drop 0, .call 0, .call 0, .count 1, .count 1, .run 1 0, .count 1, .clear, .count 1]

/-- Then the mock ends and the other variable. -/
def ending : List (Op Nat Nat) := [.finish, .drop 1]

end Demo

/-! ## The theorems -/

theorem inv_start : Inv ({} : St S A) ({} : ASt S A) {} :=
  ⟨⟨rfl, rfl, rfl, rfl⟩, ⟨fun _ _ => rfl, fun x hx => absurd hx (Nat.not_lt_zero x), fun x hx => (by cases hx), List.nodup_nil⟩, ⟨List.nodup_nil, fun x => by simp [owned]⟩, ⟨rfl, rfl⟩⟩

theorem run_total (os : List (Op S A)) :
    (∃ rs b, aRun beh truth {} os = some (rs, b) ∧ ∃ s, run beh truth {} os = .done (rs, s) ∧ Inv s b (os.foldl Tally.step {})) ∨
    (aRun beh truth {} os = none ∧ run beh truth {} os = .ub) := by
  cases h : aRun beh truth {} os with
  | none => exact .inr ⟨rfl, run_ub beh truth os inv_start h⟩
  | some p => exact .inl ⟨p.1, p.2, rfl, run_at beh truth os inv_start h⟩

/-- Every program sees exactly what it would see if function objects were values, taken by each statement as they are then and from there on changed only by their own uses. -/
theorem C86_functions_are_values (os : List (Op S A)) (rs : List (Ans V E)) :
    (∃ s, run beh truth {} os = .done (rs, s)) ↔ ∃ b, aRun beh truth {} os = some (rs, b) := by
  rcases run_total beh truth os with ⟨rs', b, h1, s, h2, -⟩ | ⟨h1, h2⟩
  · rw [h1, h2]
    constructor
    · rintro ⟨s', h⟩; cases h; exact ⟨b, rfl⟩
    · rintro ⟨b', h⟩; cases h; exact ⟨s, rfl⟩
  · rw [h1, h2]
    exact ⟨fun ⟨_, h⟩ => (by cases h), fun ⟨_, h⟩ => (by cases h)⟩

/-- And a program is undefined exactly if the test uses a variable or the mock after its life: the library itself never uses a function object that does not exist. -/
theorem C86_undefined_iff (os : List (Op S A)) : run beh truth {} os = .ub ↔ aRun beh truth {} os = none := by
  rcases run_total beh truth os with ⟨rs', b, h1, s, h2, -⟩ | ⟨h1, h2⟩
  · rw [h1, h2]; exact ⟨fun h => (by cases h), fun h => (by cases h)⟩
  · exact ⟨fun _ => h1, fun _ => h2⟩

example : (aRun Demo.code Demo.yes {} Demo.prog).map Prod.fst = some
    [.nothing, .out (.ret 15), .nothing, .nothing, .out (.ret 16), .out (.ret 11), .nothing, .nothing,
     .out (.ret 12), .out (.ret 12), .out (.ret 12), .out (.ret 17), .nothing, .out (.ret 13), .out (.ret 13), .count 3, .count 3, .out (.ret 1), .count 3, .nothing, .count 0] := by
  decide +kernel

-- A function that throws is used up all the same; a predicate that throws ends the call, which is not recorded.
example : (aRun Demo.code Demo.yes {} [.make ⟨2, 1⟩, .stub none [(.times 2, 0), (.once, 0)] false, .call 7, .call 7, .call 7, .call 7, .stub (some 0) [(.always, 0)] false, .call 7, .call 7, .count 0]).map Prod.fst =
    some [.nothing, .nothing, .out (.ret 7), .out (.exc ()), .out (.ret 7), .unexpected, .nothing, .out (.ret 7), .out (.exc ()), .out (.exc ())] := by
  decide +kernel

/-- What exists: the test's own function objects and those given to the stubbings since the last `Reset`, each once, used up or not; no copy besides them is left by any statement, call or verification.
Everything else that ever existed was destroyed, and exactly once. -/
theorem C86_lifetimes {os : List (Op S A)} {rs : List (Ans V E)} {s : St S A} (h : run beh truth {} os = .done (rs, s)) :
    (existing s).length = Tally.total (os.foldl Tally.step {}) ∧
    ∀ id, id < s.next → (id ∈ existing s ∧ id ∉ s.died) ∨ (id ∉ existing s ∧ s.died.count id = 1) := by
  rcases run_total beh truth os with ⟨rs', b, h1, s', h2, hi⟩ | ⟨h1, h2⟩
  · rw [h] at h2; cases h2
    have hmem : ∀ id, id ∈ existing s ↔ (s.objs id).isSome := by
      intro id
      simp only [existing, List.mem_filter, List.mem_range]
      refine ⟨fun h => h.2, fun h => ⟨?_, h⟩⟩
      cases ho : s.objs id with
      | none => rw [ho] at h; cases h
      | some f => exact hi.fine.lt ho
    refine ⟨?_, fun id hid => ?_⟩
    · have hp : List.Perm (existing s) (owned s) := by
        apply (List.perm_ext_iff_of_nodup (List.Pairwise.filter _ List.nodup_range) hi.own.nodup).2
        intro x; exact (hmem x).trans (hi.own.some x)
      rw [hp.length_eq, Tally.total, hi.counts.vars, hi.counts.given, owned, List.length_append]
      congr 1
      generalize s.vars = vs
      induction vs with
      | nil => rfl
      | cons v vs ih => cases v <;> simp [ih]
    · rw [hmem]
      cases ho : s.objs id with
      | none =>
        right
        refine ⟨by simp, ?_⟩
        have := (hi.fine.dead id hid).1 ho
        exact Nat.le_antisymm (List.nodup_iff_count.1 hi.fine.once id) (List.count_pos_iff.2 this)
      | some f =>
        left
        refine ⟨rfl, fun hd => ?_⟩
        rw [(hi.fine.dead id hid).2 hd] at ho; cases ho
  · rw [h] at h2; cases h2

/-- So nothing is left when the mock is gone and the test's function objects are. -/
theorem C86_nothing_left {os : List (Op S A)} {rs : List (Ans V E)} {s : St S A} (h : run beh truth {} (os ++ [.finish]) = .done (rs, s)) (hv : ∀ v ∈ s.vars, v = none) :
    existing s = [] ∧ s.died.length = s.next := by
  have hl := C86_lifetimes beh truth h
  rcases run_total beh truth (os ++ [.finish]) with ⟨rs', b, h1, s', h2, hi⟩ | ⟨h1, h2⟩
  · rw [h] at h2; cases h2
    have he : existing s = [] := by
      apply List.length_eq_zero_iff.1
      rw [hl.1, Tally.total, hi.counts.vars]
      rw [List.foldl_append]
      simp only [List.foldl_cons, List.foldl_nil, Tally.step, Nat.add_zero]
      rw [List.count_eq_zero]
      intro hm
      obtain ⟨v, hv1, hv2⟩ := List.mem_map.1 hm
      rw [hv v hv1] at hv2; cases hv2
    refine ⟨he, ?_⟩
    have hp : List.Perm s.died (List.range s.next) := by
      apply (List.perm_ext_iff_of_nodup hi.fine.once List.nodup_range).2
      intro x
      rw [List.mem_range]
      refine ⟨hi.fine.died x, fun hx => ?_⟩
      rcases hl.2 x hx with ⟨h', -⟩ | ⟨-, h'⟩
      · rw [he] at h'; cases h'
      · exact List.count_pos_iff.1 (by omega)
    rw [hp.length_eq, List.length_range]
  · rw [h] at h2; cases h2

/-- What is left of a run (for the examples). -/
def Demo.leftAfter (os : List (Op Nat Nat)) : Option (List Nat × Nat × Nat) :=
  match run Demo.code Demo.yes {} os with
  | .done (_, s) => some (existing s, s.died.length, s.next)
  | _ => none

example : Demo.leftAfter Demo.prog = some ([1, 4, 6, 9, 11], 18, 23) ∧ Tally.total (Demo.prog.foldl Tally.step {}) = 5 := by decide +kernel
example : Demo.leftAfter (Demo.prog ++ [.drop 1] ++ [.finish]) = some ([], 23, 23) := by decide +kernel

/-! ### The test's own function objects -/

theorem own_step {b b' : ASt S A} {o : Op S A} {r : Ans V E} (h : aStep beh truth b o = some (r, b')) (ho : own o = false) : b'.vars = b.vars := by
  cases o <;> simp only [own, Bool.true_eq_false] at ho
  case stub p l u =>
    simp only [aStep] at h
    split at h
    · simp only [Option.bind_eq_bind, Option.bind_eq_some_iff, Option.some.injEq, Prod.mk.injEq] at h
      obtain ⟨_, _, _, _, _, rfl⟩ := h
      split <;> rfl
    · cases h
  case call a =>
    simp only [aStep] at h
    split at h
    · simp only [Option.some.injEq, Prod.mk.injEq] at h; obtain ⟨-, rfl⟩ := h; rfl
    · cases h
  case assign x =>
    simp only [aStep] at h
    split at h
    · simp only [Option.map_eq_some_iff, Prod.mk.injEq] at h; obtain ⟨_, _, -, rfl⟩ := h; rfl
    · cases h
  case count x =>
    simp only [aStep] at h
    split at h
    · simp only [Option.map_eq_some_iff, Prod.mk.injEq] at h; obtain ⟨_, _, -, rfl⟩ := h; rfl
    · cases h
  all_goals
    simp only [aStep] at h
    split at h
    · simp only [Option.some.injEq, Prod.mk.injEq] at h; obtain ⟨-, rfl⟩ := h; rfl
    · cases h

theorem own_answers : ∀ (os : List (Op S A)) {b c b' : ASt S A} {rs : List (Ans V E)}, b.vars = c.vars → aRun beh truth b os = some (rs, b') →
    ∃ c', aRun beh truth c (os.filter own) = some ((((os.zip rs).filter fun p => own p.1).map Prod.snd), c')
  | [], b, c, b', rs, _, h => by
    simp only [aRun, Option.some.injEq, Prod.mk.injEq] at h
    obtain ⟨rfl, rfl⟩ := h
    exact ⟨c, rfl⟩
  | o :: os, b, c, b', rs, hv, h => by
    simp only [aRun, Option.bind_eq_bind, Option.bind_eq_some_iff] at h
    obtain ⟨⟨r, b1⟩, h1, ⟨rs1, b2⟩, h2, h3⟩ := h
    simp only [Option.some.injEq, Prod.mk.injEq] at h3
    obtain ⟨rfl, rfl⟩ := h3
    cases ho : own o with
    | false =>
      obtain ⟨c', hc⟩ := own_answers os ((own_step beh truth h1 ho).trans hv) h2
      exact ⟨c', by simp only [List.filter_cons, ho, List.zip_cons_cons, Bool.false_eq_true, if_false]; exact hc⟩
    | true =>
      have hval : ∀ x, value b x = value c x := fun x => by simp only [value, hv]
      obtain ⟨c1, hc1, hv1⟩ : ∃ c1, aStep beh truth c o = some (r, c1) ∧ b1.vars = c1.vars := by
        cases o <;> simp only [own, Bool.false_eq_true] at ho
        case make f =>
          simp only [aStep, Option.some.injEq, Prod.mk.injEq] at h1
          obtain ⟨rfl, rfl⟩ := h1
          exact ⟨_, rfl, by simp only [hv]⟩
        case run x a =>
          simp only [aStep, hval, Option.map_eq_some_iff, Prod.mk.injEq] at h1
          obtain ⟨f, hf, rfl, rfl⟩ := h1
          exact ⟨_, by simp only [aStep, hf, Option.map_some]; rfl, by simp only [hv]⟩
        case drop x =>
          simp only [aStep, hval, Option.map_eq_some_iff, Prod.mk.injEq] at h1
          obtain ⟨f, hf, rfl, rfl⟩ := h1
          exact ⟨_, by simp only [aStep, hf, Option.map_some]; rfl, by simp only [hv]⟩
      obtain ⟨c', hc⟩ := own_answers os hv1 h2
      refine ⟨c', ?_⟩
      simp only [List.filter_cons, ho, List.zip_cons_cons, if_true, aRun, hc1, Option.bind_eq_bind, Option.bind_some, hc, List.map_cons]

/-- The test's own function objects are not touched: used directly they do what they would do if the test used no mock at all. -/
theorem C86_own_objects_untouched {os : List (Op S A)} {rs : List (Ans V E)} {s : St S A} (h : run beh truth {} os = .done (rs, s)) :
    ∃ s', run beh truth {} (os.filter own) = .done (((os.zip rs).filter fun p => own p.1).map Prod.snd, s') := by
  obtain ⟨b, hb⟩ := (C86_functions_are_values beh truth os rs).1 ⟨s, h⟩
  obtain ⟨c, hc⟩ := own_answers beh truth os (c := {}) rfl hb
  exact (C86_functions_are_values beh truth _ _).2 ⟨c, hc⟩

example : (aRun Demo.code Demo.yes {} (Demo.prog.filter own)).map Prod.fst =
    some [.nothing, .out (.ret 15), .nothing, .out (.ret 16), .out (.ret 17), .nothing, .out (.ret 1)] := by decide +kernel

/-! ### A function given with `AlwaysDo` -/

/-- Operations that add no stubbing and forget none. -/
def quiet : Op S A → Bool
  | .make _ => true
  | .run _ _ => true
  | .drop _ => true
  | .call _ => true
  | .count _ => true
  | .clear => true
  | .stub _ _ u => u
  | _ => false

/-- The argument, if the operation is a call. -/
def called : Op S A → Option A
  | .call a => some a
  | _ => none

theorem aRun_append : ∀ (os os' : List (Op S A)) (b : ASt S A), aRun beh truth b (os ++ os') =
    (aRun beh truth b os).bind fun p => (aRun beh truth p.2 os').map fun q => (p.1 ++ q.1, q.2)
  | [], os', b => by
    cases h : aRun beh truth b os' <;> simp [aRun, h]
  | o :: os, os', b => by
    simp only [List.cons_append, aRun, Option.bind_eq_bind]
    cases h : aStep beh truth b o with
    | none => rfl
    | some p =>
      simp only [Option.bind_some, aRun_append os os' p.2]
      cases h1 : aRun beh truth p.2 os with
      | none => rfl
      | some q =>
        simp only [Option.bind_some]
        cases h2 : aRun beh truth q.2 os' <;> simp

theorem run_append : ∀ (os os' : List (Op S A)) (s : St S A), run beh truth s (os ++ os') =
    (run beh truth s os >>= fun p => run beh truth p.2 os' >>= fun q => .done (p.1 ++ q.1, q.2))
  | [], os', s => by
    simp only [List.nil_append, run, R.bind_done]
    cases run beh truth s os' <;> rfl
  | o :: os, os', s => by
    simp only [List.cons_append, run]
    cases step beh truth s o with
    | ub => rfl
    | oof => rfl
    | done p =>
      simp only [R.bind_done, run_append os os' p.2]
      cases run beh truth p.2 os with
      | ub => rfl
      | oof => rfl
      | done q =>
        simp only [R.bind_done]
        cases run beh truth q.2 os' <;> rfl

theorem quiet_uses : ∀ (os : List (Op S A)) {b b' : ASt S A} {f : Fn S} {ts : List (Script S)} {rs : List (Ans V E)}, b.scripts = ⟨none, [(f, none)]⟩ :: ts →
    (∀ o ∈ os, quiet o = true) → aRun beh truth b os = some (rs, b') →
    ((os.zip rs).filter fun p => (called p.1).isSome).map Prod.snd = (uses beh f (os.filterMap called)).map .out
  | [], b, b', f, ts, rs, _, _, h => by rfl
  | o :: os, b, b', f, ts, rs, hb, hq, h => by
    simp only [aRun, Option.bind_eq_bind, Option.bind_eq_some_iff] at h
    obtain ⟨⟨r, b1⟩, h1, ⟨rs1, b2⟩, h2, h3⟩ := h
    simp only [Option.some.injEq, Prod.mk.injEq] at h3
    obtain ⟨rfl, rfl⟩ := h3
    have hq1 : ∀ o ∈ os, quiet o = true := fun o ho => hq o (List.mem_cons_of_mem _ ho)
    have hqo := hq o List.mem_cons_self
    by_cases hc : ∃ a, o = .call a
    · obtain ⟨a, rfl⟩ := hc
      simp only [aStep] at h1
      split at h1
      · simp only [hb, answer, served, Option.some.injEq, Prod.mk.injEq] at h1
        obtain ⟨rfl, rfl⟩ := h1
        have := quiet_uses os (f := after beh f a) (ts := ts) rfl hq1 h2
        have hc : called (.call a : Op S A) = some a := rfl
        simp only [List.zip_cons_cons, List.filter_cons, hc, Option.isSome_some, if_true, List.map_cons, List.filterMap_cons, uses, this]
      · cases h1
    · have hn : called o = none := by cases o <;> first | rfl | exact absurd ⟨_, rfl⟩ hc
      have hs : b1.scripts = b.scripts := by
        cases o with
        | make f => simp only [aStep, Option.some.injEq, Prod.mk.injEq] at h1; obtain ⟨-, rfl⟩ := h1; rfl
        | run x a => simp only [aStep, Option.map_eq_some_iff, Prod.mk.injEq] at h1; obtain ⟨_, _, -, rfl⟩ := h1; rfl
        | drop x => simp only [aStep, Option.map_eq_some_iff, Prod.mk.injEq] at h1; obtain ⟨_, _, -, rfl⟩ := h1; rfl
        | stub p l u =>
          have hu : u = true := hqo
          subst hu
          simp only [aStep] at h1
          split at h1
          · simp only [Option.bind_eq_bind, Option.bind_eq_some_iff, Option.some.injEq, Prod.mk.injEq, if_true] at h1
            obtain ⟨_, _, _, _, _, rfl⟩ := h1; rfl
          · cases h1
        | count x =>
          simp only [aStep] at h1
          split at h1
          · simp only [Option.map_eq_some_iff, Prod.mk.injEq] at h1; obtain ⟨_, _, -, rfl⟩ := h1; rfl
          · cases h1
        | clear =>
          simp only [aStep] at h1
          split at h1
          · simp only [Option.some.injEq, Prod.mk.injEq] at h1; obtain ⟨-, rfl⟩ := h1; rfl
          · cases h1
        | call a => exact absurd ⟨_, rfl⟩ hc
        | assign x => cases hqo
        | reset => cases hqo
        | finish => cases hqo
      have := quiet_uses os (hs.trans hb) hq1 h2
      simp only [List.zip_cons_cons, List.filter_cons, hn, Option.isSome_none, Bool.false_eq_true, if_false, List.filterMap_cons, this]

/-- `AlwaysDo(f)`, `Method(mock, m) = f` and `n_Times` that are never used up: the calls see a function object that begins with the state `f` had at the statement and is used by the calls alone, whatever the test does with `f` meanwhile, also after `f` is gone. -/
theorem C86_calls_see_the_copy {pre rest : List (Op S A)} {st : Op S A} {x id : Nat} {f : Fn S} {rs0 rs : List (Ans V E)} {s0 s : St S A}
    (h0 : run beh truth {} pre = .done (rs0, s0)) (hx : s0.vars[x]? = some (some id)) (hf : s0.objs id = some f)
    (hst : st = .stub none [(.always, x)] false ∨ st = .assign x ∨ ∃ n, n ≤ 0 ∧ st = .stub none [(.times n, x)] false) (hq : ∀ o ∈ rest, quiet o = true)
    (h : run beh truth {} (pre ++ st :: rest) = .done (rs, s)) :
    ((rest.zip (rs.drop (pre.length + 1))).filter fun p => (called p.1).isSome).map Prod.snd = (uses beh f (rest.filterMap called)).map .out := by
  obtain ⟨b, hb⟩ := (C86_functions_are_values beh truth _ rs).1 ⟨s, h⟩
  rw [aRun_append] at hb
  rcases run_total beh truth pre with ⟨rs', b0, h1, s', h2, hi⟩ | ⟨h1, h2⟩
  · rw [h0] at h2; cases h2
    have hv : value b0 x = some f := by
      rcases var_at hi.rel x with ⟨id', g, h3, -, h4, h5⟩ | ⟨h3, -⟩
      · rw [hx] at h3; cases h3; rw [hf] at h4; cases h4; exact h5
      · simp [var, hx] at h3
    have hlen : rs0.length = pre.length := by
      clear hb h hi hv hf hx h0
      generalize ({} : ASt S A) = b1 at h1
      induction pre generalizing b1 rs0 with
      | nil => simp only [aRun, Option.some.injEq, Prod.mk.injEq] at h1; obtain ⟨rfl, -⟩ := h1; rfl
      | cons o os ih =>
        simp only [aRun, Option.bind_eq_bind, Option.bind_eq_some_iff] at h1
        obtain ⟨⟨r, b2⟩, h1, ⟨rs1, b3⟩, h2, h3⟩ := h1
        simp only [Option.some.injEq, Prod.mk.injEq] at h3
        obtain ⟨rfl, rfl⟩ := h3
        simp [ih b2 h2]
    rw [h1, Option.bind_some] at hb
    simp only [Option.map_eq_some_iff, Prod.mk.injEq] at hb
    obtain ⟨⟨rs2, b2⟩, h2, rfl, rfl⟩ := hb
    simp only [aRun, Option.bind_eq_bind, Option.bind_eq_some_iff] at h2
    obtain ⟨⟨r, b3⟩, h3, ⟨rs3, b4⟩, h4, h5⟩ := h2
    simp only [Option.some.injEq, Prod.mk.injEq] at h5
    obtain ⟨rfl, rfl⟩ := h5
    have hdrop : (rs0 ++ r :: rs3).drop (pre.length + 1) = rs3 := by
      rw [← hlen, List.drop_append]; simp
    rw [hdrop]
    have hs : ∃ ts, b3.scripts = ⟨none, [(f, none)]⟩ :: ts := by
      by_cases hal : b0.alive = true
      · rcases hst with rfl | rfl | ⟨n, hn, rfl⟩
        · rw [aStep, if_pos hal] at h3
          simp [predValue, values, hv, more] at h3
          exact ⟨b0.scripts, by rw [← h3.2]⟩
        · rw [aStep, if_pos hal] at h3
          simp [hv] at h3
          exact ⟨b0.scripts, by rw [← h3.2]⟩
        · rw [aStep, if_pos hal] at h3
          have : ¬ 0 < n := by omega
          simp [predValue, values, hv, more, this] at h3
          exact ⟨b0.scripts, by rw [← h3.2]⟩
      · rcases hst with rfl | rfl | ⟨n, hn, rfl⟩ <;> rw [aStep, if_neg hal] at h3 <;> cases h3
    obtain ⟨ts, hs⟩ := hs
    exact quiet_uses beh truth rest hs hq h4
  · rw [h0] at h2; cases h2

example : uses Demo.code ⟨0, 11⟩ [0, 5, 0] = ([.ret 11, .ret 17, .ret 13] : List (Out Nat Unit)) ∧
    (aRun Demo.code Demo.yes {} ([.make ⟨0, 10⟩, .run 0 5] ++ .assign 0 :: [.call 0, .run 0 5, .call 5, .drop 0, .call 0])).map Prod.fst =
      some [.nothing, .out (.ret 15), .nothing, .out (.ret 11), .out (.ret 16), .out (.ret 17), .nothing, .out (.ret 13)] := by decide +kernel

/-- A verification asks a copy of the predicate: the same verification again has the same result, though the predicate has a state. -/
theorem C86_verify_twice {os : List (Op S A)} {x : Nat} {rs : List (Ans V E)} {s : St S A} (h : run beh truth {} (os ++ [.count x, .count x]) = .done (rs, s)) :
    ∃ rs0 r, rs = rs0 ++ [r, r] := by
  obtain ⟨b, hb⟩ := (C86_functions_are_values beh truth _ rs).1 ⟨s, h⟩
  rw [aRun_append] at hb
  simp only [Option.bind_eq_some_iff, Option.map_eq_some_iff, Prod.mk.injEq] at hb
  obtain ⟨⟨rs0, b0⟩, h0, ⟨rs1, b1⟩, h1, rfl, rfl⟩ := hb
  simp only [aRun, aStep] at h1
  by_cases hal : b0.alive = true
  · cases hv : value b0 x with
    | none => simp [hal, hv] at h1
    | some p =>
      simp [hal, hv] at h1
      exact ⟨rs0, _, by rw [← h1.1]⟩
  · simp [hal] at h1

example : ∃ rs s, run Demo.code Demo.yes {} (Demo.prog ++ [.count 1, .count 1]) = .done (rs, s) := by
  have : (aRun Demo.code Demo.yes {} (Demo.prog ++ [.count 1, .count 1])).isSome := by decide +kernel
  obtain ⟨⟨rs, b⟩, hb⟩ := Option.isSome_iff_exists.1 this
  obtain ⟨s, hs⟩ := (C86_functions_are_values _ _ _ rs).2 ⟨b, hb⟩
  exact ⟨rs, s, hs⟩

end FakeIt.Functors
