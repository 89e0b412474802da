import Verif.Spec.Printing
/-!
# How an argument is printed: lemmas
-/
namespace FakeIt.Printing
open Spec

theorem cstring_eq (l : List Nat) : cstring l = if 0 ∈ l then some (l.takeWhile (· ≠ 0)) else none := by
  induction l with
  | nil => rfl
  | cons b bs ih =>
    simp only [cstring, ih]
    by_cases hb : b = 0
    · simp [hb]
    · by_cases h0 : 0 ∈ bs
      · simp [hb, h0]
      · have : ¬ (0 = b) := fun h => hb h.symm
        simp [hb, h0, this]

theorem better_ne {q : Seq} : q.better q = false := by
  cases q <;> simp [Seq.better]

theorem better_asymm {q q' : Seq} (h : q.better q' = true) : q'.better q = false := by
  cases q <;> cases q' <;> simp_all [Seq.better] <;> omega

/-- The list of candidates has no duplicates, so a candidate has one conversion. -/
theorem viable_own {l : Library} {t : Ty} {i : Nat} {q : Seq} : (Cand.own i, q) ∈ t.viable l ↔ q = .std 0 ∧ ∃ o, t.ops[i]? = some o ∧ o.takesConst = true := by
  simp only [Ty.viable, List.mem_append, List.mem_filterMap, List.mem_range]
  constructor
  · rintro (⟨j, hj, h⟩ | ⟨c, hc, h⟩)
    · rw [List.getElem?_eq_getElem hj] at h
      by_cases ho : (t.ops[j]).takesConst = true
      · simp only [Option.map_some, Option.getD_some, ho, if_true, Option.some.injEq, Prod.mk.injEq, Cand.own.injEq] at h
        obtain ⟨rfl, rfl⟩ := h
        exact ⟨rfl, _, List.getElem?_eq_getElem hj, ho⟩
      · simp [ho] at h
    · exfalso
      simp only [Option.map_eq_some_iff, Prod.mk.injEq] at h
      obtain ⟨s, _, rfl, _⟩ := h
      revert hc
      simp only [Library.cands]
      cases l.printsNullptr <;> cases l.deletesWide <;> cases l.printsVolatile <;> simp
  · rintro ⟨rfl, o, ho, hc⟩
    refine .inl ⟨i, ?_, by simp [ho, hc]⟩
    rcases Nat.lt_or_ge i t.ops.length with h | h
    · exact h
    · rw [List.getElem?_eq_none h] at ho; cases ho

theorem viable_std {l : Library} {t : Ty} {c : Cand} {q : Seq} (hc : ∀ i, c ≠ .own i) : (c, q) ∈ t.viable l ↔ c ∈ l.cands ∧ t.seq c = some q := by
  simp only [Ty.viable, List.mem_append, List.mem_filterMap, List.mem_range]
  constructor
  · rintro (⟨j, hj, h⟩ | ⟨d, hd, h⟩)
    · exfalso
      split at h
      · cases h; exact hc _ rfl
      · cases h
    · simp only [Option.map_eq_some_iff, Prod.mk.injEq] at h
      obtain ⟨s, hs, rfl, rfl⟩ := h
      exact ⟨hd, hs⟩
  · rintro ⟨h, hs⟩
    exact .inr ⟨c, h, by simp [hs]⟩

theorem viable_unique {l : Library} {t : Ty} {c : Cand} {q q' : Seq} (h : (c, q) ∈ t.viable l) (h' : (c, q') ∈ t.viable l) : q = q' := by
  by_cases hc : ∃ i, c = .own i
  · obtain ⟨i, rfl⟩ := hc
    exact (viable_own.1 h).1.trans (viable_own.1 h').1.symm
  · have hc' : ∀ i, c ≠ .own i := fun i e => hc ⟨i, e⟩
    have h1 := ((viable_std hc').1 h).2
    have h2 := ((viable_std hc').1 h').2
    rw [h1] at h2
    exact Option.some.inj h2

theorem resolve_iff {l : Library} {t : Ty} {c : Cand} {q : Seq} : resolve l t = some (c, q) ↔ Calls l t c q := by
  constructor
  · intro h
    have hp := List.find?_some h
    have hm := List.mem_of_find?_eq_some h
    simp only [Bool.and_eq_true, decide_eq_true_eq, List.all_eq_true, Bool.or_eq_true] at hp
    refine ⟨hm, hp.1, fun c' q' hm' hne => ?_⟩
    rcases hp.2 (c', q') hm' with h | h
    · exact absurd h hne
    · exact h
  · rintro ⟨hm, hq, hb⟩
    cases hr : resolve l t with
    | none =>
      exfalso
      have := List.find?_eq_none.1 hr (c, q) hm
      refine this ?_
      simp only [Bool.and_eq_true, decide_eq_true_eq, List.all_eq_true, Bool.or_eq_true]
      refine ⟨hq, fun y hy => ?_⟩
      by_cases he : y.1 = c
      · exact .inl he
      · exact .inr (hb y.1 y.2 hy he)
    | some x =>
      obtain ⟨c', q'⟩ := x
      have hp := List.find?_some hr
      have hm' := List.mem_of_find?_eq_some hr
      simp only [Bool.and_eq_true, decide_eq_true_eq, List.all_eq_true, Bool.or_eq_true] at hp
      by_cases he : c' = c
      · subst he
        rw [viable_unique hm' hm]
      · exfalso
        have h1 := hb c' q' hm' he
        rcases hp.2 (c, q) hm with h | h
        · exact he h.symm
        · rw [better_asymm h1] at h; cases h

theorem calls_unique {l : Library} {t : Ty} {c c' : Cand} {q q' : Seq} (h : Calls l t c q) (h' : Calls l t c' q') : c = c' ∧ q = q' := by
  have h1 := resolve_iff.2 h
  rw [resolve_iff.2 h'] at h1
  simp only [Option.some.injEq, Prod.mk.injEq] at h1
  exact ⟨h1.1.symm, h1.2.symm⟩

theorem calls_own {l : Library} {t : Ty} {i : Nat} {q : Seq} (h : Calls l t (.own i) q) : ∃ o, t.ops[i]? = some o ∧ o.takesConst = true := (viable_own.1 h.1).2

theorem resolve_builtin (l : Library) (b : Builtin) : (resolve l (.builtin b)).map Prod.fst = operatorFor l b := by
  obtain ⟨n, w, x⟩ := l
  cases n <;> cases w <;> cases x <;> (cases b with
    | ptr o vol => cases o <;> cases vol <;> rfl
    | _ => rfl)

theorem viaConv_user {c : Cand} {convs : List Conv} {i f r : Nat} (h : viaConv c i convs = some (.user f r)) : ∃ j k, f = i + j ∧ convs[j]? = some k ∧ k.to.rank c = some r := by
  induction convs generalizing i with
  | nil => cases h
  | cons v vs ih =>
    have lift : viaConv c (i + 1) vs = some (.user f r) → ∃ j k, f = i + j ∧ (v :: vs)[j]? = some k ∧ k.to.rank c = some r := by
      intro h
      obtain ⟨j, k, h1, h2, h3⟩ := ih h
      exact ⟨j + 1, k, by omega, by simpa using h2, h3⟩
    simp only [viaConv] at h
    cases hv : v.to.rank c with
    | none => simp only [hv] at h; exact lift h
    | some r0 =>
      cases hs : viaConv c (i + 1) vs with
      | none =>
        simp only [hv, hs, Option.some.injEq, Seq.user.injEq] at h
        obtain ⟨rfl, rfl⟩ := h
        exact ⟨0, v, rfl, rfl, hv⟩
      | some s =>
        cases s with
        | std r1 => simp only [hv, hs] at h; cases h
        | ambiguous => simp only [hv, hs] at h; cases h
        | user j r1 =>
          simp only [hv, hs] at h
          split at h
          · simp only [Option.some.injEq, Seq.user.injEq] at h
            obtain ⟨rfl, rfl⟩ := h
            exact ⟨0, v, rfl, rfl, hv⟩
          · split at h
            · exact lift (hs.trans h)
            · cases h

theorem viaConv_not_std {c : Cand} {convs : List Conv} {i r : Nat} : viaConv c i convs ≠ some (.std r) := by
  induction convs generalizing i r with
  | nil => simp [viaConv]
  | cons v vs ih =>
    intro h
    simp only [viaConv] at h
    cases hv : v.to.rank c with
    | none => simp only [hv] at h; exact ih h
    | some r0 =>
      cases hs : viaConv c (i + 1) vs with
      | none => simp only [hv, hs] at h; cases h
      | some s =>
        cases s with
        | std r1 => exact ih hs
        | ambiguous => simp only [hv, hs] at h; cases h
        | user j r1 =>
          simp only [hv, hs] at h
          split at h
          · cases h
          · split at h <;> cases h

theorem choose_other {l : Library} {t : Ty} (ht : ∀ b, t ≠ .builtin b) : choose l t = if tested l t then .stream else .question := by
  cases t with
  | builtin b => exact absurd rfl (ht b)
  | enum s ops => simp [choose, isOstreamable, Ty.isArithmetic, Ty.isPointer]
  | cls ops convs => simp [choose, isOstreamable, Ty.isArithmetic, Ty.isPointer]

/-- The formatter of a type that is not built in, given the function that `<<` means. -/
def formatWith (mem : Nat → List Nat) (t : Ty) (v : Nat) : Option (Cand × Seq) → Option (R Shown)
  | some (c, q) => if !t.deleted c && t.returnsStream c then (if t.bodyCompiles c then some (write mem c (t.converted q v)) else none) else some (.done .question)
  | none => some (.done .question)

/-- What the conversion functions give is of no importance for the choice of the operator. -/
theorem resolve_two (l : Library) (b b' : Builtin) (g h : Nat → Nat) : resolve l (.cls [] [⟨b, g⟩, ⟨b', h⟩]) = resolve l (.cls [] [⟨b, id⟩, ⟨b', id⟩]) := rfl

/-- No operator is the best for a number and a pointer. -/
theorem resolve_number_and_pointer (l : Library) (b : Builtin) (o : Obj) (vol : Bool) (hb : b.arithmetic = true) (ho : o ≠ .fn) (hv : vol = true → l.printsVolatile = true ∨ o = .manip) :
    resolve l (.cls [] [⟨b, id⟩, ⟨.ptr o vol, id⟩]) = none ∧ resolve l (.cls [] [⟨.ptr o vol, id⟩, ⟨b, id⟩]) = none := by
  have table : ∀ b ∈ [Builtin.bool, .char, .schar, .uchar, .wide, .int, .float], ∀ o ∈ [Obj.char, .schar, .uchar, .wide, .data, .manip], ∀ vol ∈ [false, true], ∀ n ∈ [false, true], ∀ w ∈ [false, true], ∀ x ∈ [false, true],
      (vol = true → x = true ∨ o = .manip) → resolve ⟨n, w, x⟩ (.cls [] [⟨b, id⟩, ⟨.ptr o vol, id⟩]) = none ∧ resolve ⟨n, w, x⟩ (.cls [] [⟨.ptr o vol, id⟩, ⟨b, id⟩]) = none := by decide +kernel
  obtain ⟨n, w, x⟩ := l
  refine table b ?_ o ?_ vol (by cases vol <;> simp) n (by cases n <;> simp) w (by cases w <;> simp) x (by cases x <;> simp) hv
  · cases b <;> simp [Builtin.arithmetic] at hb ⊢
  · cases o <;> simp at ho ⊢

theorem format_other {l : Library} {mem : Nat → List Nat} {t : Ty} {v : Nat} (ht : ∀ b, t ≠ .builtin b) : format l mem t v = formatWith mem t v (resolve l t) := by
  have h := choose_other (l := l) ht
  unfold tested at h
  unfold format
  rw [h]
  generalize resolve l t = r
  cases r with
  | none => rfl
  | some x =>
    obtain ⟨c, q⟩ := x
    simp only [formatWith]
    by_cases h1 : t.deleted c = true
    · simp [h1]
    · by_cases h2 : t.returnsStream c = true
      · simp [h1, h2]
      · simp [h2]

theorem write_text {mem : Nat → List Nat} {c : Cand} {v : Nat} (hc : c = .text ∨ c = .stext ∨ c = .utext) : write mem c v = bare mem v := by
  have key : (if v = 0 then R.ub else (R.ofOption (cstring (mem v))).bind fun s => R.done (Shown.rawText s)) = bare mem v := by
    by_cases hp : v = 0
    · simp [bare, TextAt, hp]
    · by_cases h0 : 0 ∈ mem v
      · simp only [hp, if_false, cstring_eq, h0, if_true, R.ofOption_some, bare, TextAt, ne_eq, not_false_eq_true, and_self, textOf]; rfl
      · simp only [hp, if_false, cstring_eq, h0, R.ofOption_none, bare, TextAt, and_false]; rfl
  rcases hc with rfl | rfl | rfl <;> exact key

theorem write_other {mem : Nat → List Nat} {c : Cand} {v : Nat} (hc : ¬ (c = .text ∨ c = .stext ∨ c = .utext ∨ c = .wtext)) : write mem c v ≠ .ub := by
  simp only [not_or] at hc
  obtain ⟨h1, h2, h3, h4⟩ := hc
  cases c <;> first | exact absurd rfl h1 | exact absurd rfl h2 | exact absurd rfl h3 | exact absurd rfl h4 | (simp [write])

end FakeIt.Printing
