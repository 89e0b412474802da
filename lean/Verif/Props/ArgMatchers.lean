import Verif.Spec.Order
import Verif.Spec.Select
import Verif.Lemmas.Select
import Verif.Props.Tuple
/-!
# C38, C39: argument matchers
-/
namespace FakeIt
open Spec
variable {A : Type}

/-! ## C38 -/

private theorem collect_eq (ops : Ops A) (us : List (UsingArg A)) (acc : List (A → R Bool)) :
    collectMatchers ops us acc = acc ++ us.map (·.matcher ops) := by
  induction us generalizing acc with
  | nil => simp [collectMatchers]
  | cons u us ih => simp [collectMatchers, ih]

private theorem matcher_true (ops : Ops A) (u : UsingArg A) (a : A) : u.matcher ops a = .done true ↔ UsingAccepts ops u a := by
  cases u <;> simp [UsingArg.matcher, UsingAccepts, Cmp.matches]

private theorem receive_false (ms : List (A → R Bool)) (as : List A) (i : Nat) (log : List Nat) (h : i + as.length ≤ ms.length) :
    receive (matchingLambda ms) (visits i as) { matching := false, asked := log } = .done { matching := false, asked := log } := by
  induction as generalizing i with
  | nil => rfl
  | cons a as ih =>
    simp only [List.length_cons] at h
    have hg : ms[i]? = some ms[i] := List.getElem?_eq_getElem (by omega)
    simp only [visits, receive, matchingLambda, hg, R.ofOption_some, R.bind_done, Bool.false_eq_true, if_false]
    exact ih (i + 1) (by omega)

private theorem receive_true (ms : List (A → R Bool)) (as : List A) (i : Nat) (log : List Nat) (h : i + as.length ≤ ms.length)
    (hok : ∀ (j : Nat) m a, ms[i + j]? = some m → as[j]? = some a → ∃ b, m a = .done b) :
    ∃ (n : Nat) (b : Bool), receive (matchingLambda ms) (visits i as) { matching := true, asked := log } =
        .done { matching := b, asked := log ++ (List.range n).map (i + ·) } ∧
      n ≤ as.length ∧
      (b = true → n = as.length ∧ ∀ (j : Nat) m a, ms[i + j]? = some m → as[j]? = some a → m a = .done true) ∧
      (b = false → ∃ k, n = k + 1 ∧ (∀ (j : Nat) m a, j < k → ms[i + j]? = some m → as[j]? = some a → m a = .done true) ∧
        ∀ m a, ms[i + k]? = some m → as[k]? = some a → m a = .done false) := by
  induction as generalizing i log with
  | nil => exact ⟨0, true, by simp [visits, receive], Nat.le_refl _, fun _ => ⟨rfl, by simp⟩, by simp⟩
  | cons a as ih =>
    simp only [List.length_cons] at h
    have hg : ms[i]? = some ms[i] := List.getElem?_eq_getElem (by omega)
    obtain ⟨b0, hb0⟩ := hok 0 ms[i] a (by simp) rfl
    simp only [visits, receive, matchingLambda, hg, R.ofOption_some, R.bind_done, if_true, hb0]
    cases b0 with
    | false =>
      refine ⟨1, false, ?_, by simp, by simp, fun _ => ⟨0, rfl, by omega, ?_⟩⟩
      · rw [receive_false ms as (i + 1) _ (by omega)]; simp [List.range_succ]
      · intro m x hm hx
        rw [Nat.add_zero, hg] at hm; simp at hm hx; rw [← hm, ← hx]; exact hb0
    | true =>
      obtain ⟨n, b, hr, hn, ht, hf⟩ := ih (i + 1) (log ++ [i]) (by omega) (by
        intro j m x hm hx
        exact hok (j + 1) m x (by rwa [← Nat.add_assoc, Nat.add_right_comm]) (by simpa using hx))
      have key : ∀ (j : Nat) m x, ms[i + j]? = some m → (a :: as)[j]? = some x → j = 0 → m x = .done true := by
        intro j m x hm hx hj
        subst hj
        rw [Nat.add_zero, hg] at hm; simp at hm hx; rw [← hm, ← hx]; exact hb0
      refine ⟨n + 1, b, ?_, by simp; omega, ?_, ?_⟩
      · rw [hr, List.range_succ_eq_map]
        simp [Function.comp_def, Nat.add_comm, Nat.add_left_comm]
      · intro hb
        obtain ⟨h1, h2⟩ := ht hb
        refine ⟨by simp [h1], fun j m x hm hx => ?_⟩
        cases j with
        | zero => exact key 0 m x hm hx rfl
        | succ j => exact h2 j m x (by rwa [Nat.add_assoc, Nat.add_comm 1 j]) (by simpa using hx)
      · intro hb
        obtain ⟨k, hk, h2, h3⟩ := hf hb
        refine ⟨k + 1, by omega, fun j m x hj hm hx => ?_, fun m x hm hx => ?_⟩
        · cases j with
          | zero => exact key 0 m x hm hx rfl
          | succ j => exact h2 j m x (by omega) (by rwa [Nat.add_assoc, Nat.add_comm 1 j]) (by simpa using hx)
        · exact h3 m x (by rwa [Nat.add_assoc, Nat.add_comm 1 k]) (by simpa using hx)

/-- **C38**. `Using(u1, …, un)` on a call with `n` arguments none of whose matchers has undefined behaviour on its argument: it accepts iff every
position accepts (a plain value accepts equal arguments, `_` everything), and the matchers consulted are those of positions `0, 1, …` up to and
including the first that rejects (all of them if none does). -/
theorem C38_using_accepts_iff_every_position_does (ops : Ops A) (us : List (UsingArg A)) (args : List A) (hlen : us.length = args.length)
    (hok : ∀ (i : Nat) m a, us[i]? = some (.creator m) → args[i]? = some a → ∃ b, m a = .done b) :
    ∃ (n : Nat) (s : MatchingState), usingMatches ops us args = .done s ∧ s.asked = List.range n ∧ n ≤ args.length ∧
      (s.matching = true ↔ ∀ (i : Nat) u a, us[i]? = some u → args[i]? = some a → UsingAccepts ops u a) ∧
      (s.matching = true → n = args.length) ∧
      (s.matching = false → ∃ k, n = k + 1 ∧ (∀ (i : Nat) u a, i < k → us[i]? = some u → args[i]? = some a → UsingAccepts ops u a) ∧
        ∀ u a, us[k]? = some u → args[k]? = some a → ¬ UsingAccepts ops u a) := by
  have hms : ∀ (i : Nat) m, (us.map (·.matcher ops))[i]? = some m ↔ ∃ u, us[i]? = some u ∧ u.matcher ops = m := by
    intro i m; simp [List.getElem?_map]
  obtain ⟨n, b, hr, hn, ht, hf⟩ := receive_true (us.map (·.matcher ops)) args 0 [] (by simp; omega) (by
    intro j m a hm ha
    rw [Nat.zero_add] at hm
    obtain ⟨u, hu, rfl⟩ := (hms j m).1 hm
    cases u with
    | underscore => exact ⟨_, rfl⟩
    | creator m => exact hok j m a hu ha
    | value v => exact ⟨_, rfl⟩)
  refine ⟨n, { matching := b, asked := List.range n }, ?_, rfl, hn, ?_, ?_, ?_⟩
  · rw [usingMatches, (C49_visitor_sees_each_argument_once _ _ _).1, collect_eq]
    simpa using hr
  · cases b with
    | true =>
      refine ⟨fun _ i u a hu ha => ?_, fun _ => rfl⟩
      exact (matcher_true ops u a).1 ((ht rfl).2 i _ a (by rw [Nat.zero_add]; exact (hms i _).2 ⟨u, hu, rfl⟩) ha)
    | false =>
      refine ⟨by simp, fun h => ?_⟩
      obtain ⟨k, hk, _, h3⟩ := hf rfl
      have ha : args[k]? = some args[k] := List.getElem?_eq_getElem (by omega)
      have hu : us[k]? = some us[k] := List.getElem?_eq_getElem (by omega)
      have h4 := h3 _ _ (by rw [Nat.zero_add]; exact (hms k _).2 ⟨_, hu, rfl⟩) ha
      rw [(matcher_true ops _ _).2 (h k _ _ hu ha)] at h4
      exact absurd h4 (by simp)
  · intro hb; exact (ht hb).1
  · intro hb
    obtain ⟨k, hk, h2, h3⟩ := hf hb
    refine ⟨k, hk, fun i u a hi hu ha => ?_, fun u a hu ha hacc => ?_⟩
    · exact (matcher_true ops u a).1 (h2 i _ a hi (by rw [Nat.zero_add]; exact (hms i _).2 ⟨u, hu, rfl⟩) ha)
    · have h4 := h3 _ _ (by rw [Nat.zero_add]; exact (hms k _).2 ⟨u, hu, rfl⟩) ha
      rw [(matcher_true ops _ _).2 hacc] at h4
      exact absurd h4 (by simp)

/-- **C38** in the terms used by the model of whole mocks (`matchArgs`, `Spec.Accepts`): when each matcher's verdict on each value is the
predicate of its position, `Using` accepts exactly the argument lists the matcher of the stubbing accepts. -/
theorem C38_using_is_the_matcher_of_the_stubbing (ops : Ops A) (us : List (UsingArg A)) (preds : List (A → Bool)) (args : List A)
    (hlen : us.length = args.length) (hp : us.map (·.matcher ops) = preds.map fun p a => .done (p a)) :
    ∃ s, usingMatches ops us args = .done s ∧ (s.matching = true ↔ Accepts (.args preds) args) ∧ s.matching = matchArgs true preds args := by
  have hpl : preds.length = us.length := by simpa using (congrArg List.length hp).symm
  have hpi : ∀ (i : Nat) u, us[i]? = some u → ∃ p, preds[i]? = some p ∧ ∀ a, u.matcher ops a = .done (p a) := by
    intro i u hu
    have h1 : (us.map (·.matcher ops))[i]? = some (u.matcher ops) := by simp [hu]
    rw [hp, List.getElem?_map] at h1
    cases hq : preds[i]? with
    | none => rw [hq] at h1; simp at h1
    | some p =>
      rw [hq] at h1; simp at h1
      exact ⟨p, rfl, fun a => by rw [← h1]⟩
  obtain ⟨n, s, hs, _, _, hm, _, _⟩ := C38_using_accepts_iff_every_position_does ops us args hlen (by
    intro i m a hu ha
    obtain ⟨p, _, h⟩ := hpi i _ hu
    exact ⟨p a, h a⟩)
  have hiff : s.matching = true ↔ Accepts (.args preds) args := by
    rw [hm]
    constructor
    · intro h
      refine ⟨by omega, fun i p a hp ha => ?_⟩
      have hi : i < us.length := by
        rcases Nat.lt_or_ge i us.length with h1 | h1
        · exact h1
        · rw [List.getElem?_eq_none (by omega)] at hp; exact absurd hp (by simp)
      have hu : us[i]? = some us[i] := List.getElem?_eq_getElem hi
      obtain ⟨p', hp', h2⟩ := hpi i _ hu
      rw [hp] at hp'; obtain rfl := Option.some.inj hp'
      have h3 := (matcher_true ops _ _).2 (h i _ _ hu ha)
      rw [h2] at h3; simpa using h3
    · rintro ⟨_, h⟩ i u a hu ha
      obtain ⟨p, hp, h2⟩ := hpi i u hu
      rw [← matcher_true, h2, h i p a hp ha]
  refine ⟨s, hs, hiff, ?_⟩
  have := hiff.trans (matchArgs_true preds args).symm
  cases h1 : s.matching <;> cases h2 : matchArgs true preds args <;> simp [h1, h2] at this <;> rfl

/-! ## C39 -/

/-- **C39** (comparison matchers). For arguments of a totally ordered type every comparison matcher accepts what its name says; exactly one of
`Lt(x)`, `Eq(x)`, `Gt(x)` accepts; `Le` is `Lt` or `Eq`, `Ge` is `Gt` or `Eq`, `Ne` is the complement of `Eq`. -/
theorem C39_comparison_matchers_are_coherent (ops : Ops A) (lt : A → A → Prop) (ho : TotalOrder ops lt) (x a : A) :
    (∀ c : Cmp, c.matches ops x a = true ↔ Means lt c x a) ∧
    ExactlyOne (Cmp.lt.matches ops x a = true) (Cmp.eq.matches ops x a = true) (Cmp.gt.matches ops x a = true) ∧
    (Cmp.le.matches ops x a = (Cmp.lt.matches ops x a || Cmp.eq.matches ops x a)) ∧
    (Cmp.ge.matches ops x a = (Cmp.gt.matches ops x a || Cmp.eq.matches ops x a)) ∧
    (Cmp.ne.matches ops x a = !Cmp.eq.matches ops x a) := by
  have hm : ∀ c : Cmp, c.matches ops x a = true ↔ Means lt c x a := by
    intro c
    cases c <;> simp only [Cmp.matches, Means, ho.eq, ho.ne, ho.ltOp, ho.leOp, ho.gtOp, ho.geOp]
  refine ⟨hm, ?_, ?_, ?_, ?_⟩
  · simp only [hm, Means, ExactlyOne]
    rcases ho.total a x with h | h | h
    · exact Or.inl ⟨h, fun e => ho.irrefl a (e ▸ h), fun h2 => ho.irrefl a (ho.trans _ _ _ h h2)⟩
    · subst h; exact Or.inr (Or.inl ⟨ho.irrefl a, rfl, ho.irrefl a⟩)
    · exact Or.inr (Or.inr ⟨fun h2 => ho.irrefl a (ho.trans _ _ _ h2 h), fun e => ho.irrefl a (e ▸ h), h⟩)
  · rw [Bool.eq_iff_iff, Bool.or_eq_true, hm, hm, hm]; rfl
  · rw [Bool.eq_iff_iff, Bool.or_eq_true, hm, hm, hm]; rfl
  · rw [Bool.eq_iff_iff, hm]
    have := hm .eq
    cases h : Cmp.eq.matches ops x a <;> simp [h, Means] at this ⊢ <;> exact this

/-! ### Strings -/

theorem LexLt.irrefl (l : List UInt8) : ¬ LexLt l l := by
  induction l with
  | nil => intro h; cases h
  | cons a l ih =>
    intro h
    cases h with
    | head h => exact Nat.lt_irrefl _ h
    | tail h => exact ih h

theorem LexLt.trans {a b c : List UInt8} (h : LexLt a b) (h2 : LexLt b c) : LexLt a c := by
  induction h generalizing c with
  | nil => cases h2 <;> exact .nil
  | head h =>
    cases h2 with
    | head h3 => exact .head (Nat.lt_trans h h3)
    | tail _ => exact .head h
  | tail h ih =>
    cases h2 with
    | head h3 => exact .head h3
    | tail h3 => exact .tail (ih h3)

theorem LexLt.total (a b : List UInt8) : LexLt a b ∨ a = b ∨ LexLt b a := by
  induction a generalizing b with
  | nil => cases b with
    | nil => exact Or.inr (Or.inl rfl)
    | cons b bs => exact Or.inl .nil
  | cons x a ih => cases b with
    | nil => exact Or.inr (Or.inr .nil)
    | cons y b =>
      rcases Nat.lt_trichotomy x.toNat y.toNat with h | h | h
      · exact Or.inl (.head h)
      · obtain rfl := UInt8.toNat_inj.1 h
        rcases ih b with h | h | h
        · exact Or.inl (.tail h)
        · exact Or.inr (Or.inl (h ▸ rfl))
        · exact Or.inr (Or.inr (.tail h))
      · exact Or.inr (Or.inr (.head h))

private theorem strcmp_text (m n : List UInt8) (hm : 0 ∈ m) (hn : 0 ∈ n) :
    ∃ d, strcmp m n = .done d ∧ (d < 0 ↔ LexLt (text m) (text n)) ∧ (d = 0 ↔ text m = text n) := by
  induction m generalizing n with
  | nil => simp at hm
  | cons a m ih => cases n with
    | nil => simp at hn
    | cons b n =>
      by_cases hab : a = b
      · subst hab
        by_cases ha : a = 0
        · subst ha
          refine ⟨0, by simp [strcmp], by simp [text]; exact LexLt.irrefl [], by simp [text]⟩
        · obtain ⟨d, h1, h2, h3⟩ := ih n (by simpa [Ne.symm ha] using hm) (by simpa [Ne.symm ha] using hn)
          refine ⟨d, by simp [strcmp, ha, h1], ?_, by simp [text, ha, h3]⟩
          rw [h2]
          simp only [text, ha, if_false]
          exact ⟨.tail, fun h => by cases h with | head h => exact absurd h (Nat.lt_irrefl _) | tail h => exact h⟩
      · have hne : a.toNat ≠ b.toNat := fun h => hab (UInt8.toNat_inj.1 h)
        refine ⟨(a.toNat : Int) - b.toNat, by simp [strcmp, hab], ?_, ?_⟩
        · by_cases ha : a = 0
          · subst ha
            have hb : b ≠ 0 := fun h => hab h.symm
            have hb2 : b.toNat ≠ 0 := fun h => hb (UInt8.toNat_inj.1 h)
            simp only [text, if_true, hb, if_false]
            constructor
            · intro _; exact .nil
            · intro _; simp; omega
          · by_cases hb : b = 0
            · subst hb
              simp only [text, if_true, ha, if_false]
              constructor
              · intro h; simp at h; omega
              · intro h; cases h
            · simp only [text, ha, hb, if_false]
              constructor
              · intro h; exact .head (by omega)
              · intro h
                cases h with
                | head h => omega
                | tail h => exact absurd rfl hab
        · constructor
          · intro h; exact absurd (by omega) hne
          · intro h
            by_cases ha : a = 0
            · subst ha
              have hb : b ≠ 0 := fun h => hab h.symm
              simp [text, hb] at h
            · by_cases hb : b = 0
              · simp [text, ha, hb] at h
              · simp [text, ha, hb] at h; exact absurd h.1 hab

/-- **C39** (string matchers). For an argument pointing to a NUL-terminated string the `Str` matchers finish and accept what their names say for
the byte-wise lexicographic order of the two strings (a total order), each cut at its first NUL. -/
theorem C39_string_matchers_compare_lexicographically (expected mem : List UInt8) (hmem : 0 ∈ mem) :
    (∀ c : Cmp, ∃ b, c.matchesStr expected (some mem) = .done b ∧ (b = true ↔ Means LexLt c (text (cStr expected)) (text mem))) ∧
    ExactlyOne (Cmp.lt.matchesStr expected (some mem) = .done true) (Cmp.eq.matchesStr expected (some mem) = .done true)
      (Cmp.gt.matchesStr expected (some mem) = .done true) := by
  obtain ⟨d, hd, hlt, heq⟩ := strcmp_text mem (cStr expected) hmem (by simp [cStr])
  have hgt : 0 < d ↔ LexLt (text (cStr expected)) (text mem) := by
    constructor
    · intro h
      rcases LexLt.total (text mem) (text (cStr expected)) with h1 | h1 | h1
      · have := hlt.2 h1; omega
      · have := heq.2 h1; omega
      · exact h1
    · intro h
      have h1 : ¬ d < 0 := fun h1 => LexLt.irrefl _ (LexLt.trans (hlt.1 h1) h)
      have h2 : d ≠ 0 := fun h2 => LexLt.irrefl _ (heq.1 h2 ▸ h)
      omega
  have hm : ∀ c : Cmp, ∃ b, c.matchesStr expected (some mem) = .done b ∧ (b = true ↔ Means LexLt c (text (cStr expected)) (text mem)) := by
    intro c
    cases c <;> simp only [Cmp.matchesStr, R.ofOption_some, R.bind_done, hd, Means] <;> refine ⟨_, rfl, ?_⟩
    · simpa using heq
    · simp [heq]
    · simpa using hlt
    · simp only [decide_eq_true_eq]; rw [← hlt, ← heq]; omega
    · simpa using hgt
    · simp only [decide_eq_true_eq]; rw [← hgt, ← heq]; omega
  refine ⟨hm, ?_⟩
  have hb : ∀ c : Cmp, c.matchesStr expected (some mem) = .done true ↔ Means LexLt c (text (cStr expected)) (text mem) := by
    intro c
    obtain ⟨b, h1, h2⟩ := hm c
    rw [h1, ← h2]; simp
  simp only [hb, Means, ExactlyOne, ← hlt, ← heq, ← hgt]
  omega

/-- A string that contains no NUL is compared whole. -/
theorem text_cStr (s : List UInt8) (h : 0 ∉ s) : text (cStr s) = s := by
  induction s with
  | nil => rfl
  | cons a s ih =>
    simp only [List.mem_cons, not_or] at h
    have := ih h.2
    simp only [cStr, List.cons_append, text, if_neg (Ne.symm h.1)] at this ⊢
    rw [this]

/-! ### ApproxEq -/

/-- A value of the signed integer type of `w` bits. -/
def Spec.IntOf (w : Nat) (v : Int) : Prop := -(2 ^ (w - 1)) ≤ v ∧ v < 2 ^ (w - 1)

/-- **C39** (`ApproxEq`, as far as it holds). On signed integers, when the difference of argument and expected value can be represented and
negated, `ApproxEq(x, m)` accepts iff `|arg - x| <= m`; otherwise it has undefined behaviour. What is missing: the claim for all values (false,
`C39_approxEq_overflows`), and floating point arguments (Props/Float.lean). -/
theorem C39_approxEq_accepts_within_margin_partial (w : Nat) (x m a : Int) :
    (a - x ≤ 2 ^ (w - 1) - 1 ∧ x - a ≤ 2 ^ (w - 1) - 1 → approxEqMatches w x m a = .done (decide (a - x ≤ m ∧ x - a ≤ m))) ∧
    (¬ (a - x ≤ 2 ^ (w - 1) - 1 ∧ x - a ≤ 2 ^ (w - 1) - 1) → approxEqMatches w x m a = .ub) := by
  generalize hp : (2 : Int) ^ (w - 1) = p
  simp only [approxEqMatches, sMin, sMax, hp]
  constructor
  · rintro ⟨h1, h2⟩
    rw [if_neg (by omega), if_neg (by omega)]
    congr 1
    rw [decide_eq_decide]
    split <;> omega
  · intro h
    by_cases h1 : a - x < -p ∨ p - 1 < a - x
    · rw [if_pos h1]
    · rw [if_neg h1, if_pos (by omega)]

/-- The full claim of C39 for `ApproxEq` on integers is false for every width: there are an argument and an expected value of the type on which
it has undefined behaviour (signed overflow) instead of rejecting, whatever the margin. -/
theorem C39_approxEq_overflows (w : Nat) (hw : 2 ≤ w) :
    ∃ a x, Spec.IntOf w a ∧ Spec.IntOf w x ∧ ∀ m, approxEqMatches w x m a = .ub := by
  have hp : (2 : Int) ≤ 2 ^ (w - 1) := by
    obtain ⟨k, rfl⟩ : ∃ k, w = k + 2 := ⟨w - 2, by omega⟩
    rw [Nat.add_sub_assoc (by decide), Int.pow_succ]
    have : (0 : Int) < 2 ^ k := Int.pow_pos (by decide)
    omega
  refine ⟨-(2 ^ (w - 1)), 1, ⟨Int.le_refl _, by omega⟩, ⟨by omega, by omega⟩, fun m => ?_⟩
  exact (C39_approxEq_accepts_within_margin_partial w 1 m _).2 (by omega)

/-! ## Concrete cases -/
namespace Demo

/-- Integer comparison operators. -/
def intOps : Ops Int :=
  { eq := fun a b => a == b, ne := fun a b => a != b, lt := fun a b => decide (a < b), le := fun a b => decide (a ≤ b),
    gt := fun a b => decide (a > b), ge := fun a b => decide (a ≥ b) }

theorem intOps_total : TotalOrder intOps (fun a b => a < b) where
  irrefl := Int.lt_irrefl
  trans := fun _ _ _ => Int.lt_trans
  total := by intro a b; omega
  eq := by simp [intOps]
  ne := by simp [intOps]
  ltOp := by simp [intOps]
  leOp := by intro a b; simp [intOps]; omega
  gtOp := by simp [intOps]
  geOp := by intro a b; simp [intOps]; omega

example : ExactlyOne (Cmp.lt.matches intOps 5 7 = true) (Cmp.eq.matches intOps 5 7 = true) (Cmp.gt.matches intOps 5 7 = true) :=
  (C39_comparison_matchers_are_coherent intOps _ intOps_total 5 7).2.1

/-- `Using(_, 7, Gt(3), 9)` on `(1, 8, 4, 9)`: rejected at position 1, the matchers of positions 2 and 3 are not asked. -/
example : usingMatches intOps [.underscore, .value 7, .creator fun a => .done (Cmp.gt.matches intOps 3 a), .value 9] [1, 8, 4, 9] =
    .done { matching := false, asked := [0, 1] } := rfl

example : ∃ (n : Nat) (s : MatchingState),
    usingMatches intOps [.underscore, .value 7, .creator fun a => .done (Cmp.gt.matches intOps 3 a)] [1, 7, 4] = .done s ∧
      s.asked = List.range n ∧ s.matching = true :=
  ⟨3, { matching := true, asked := [0, 1, 2] }, rfl, rfl, rfl⟩

example : ∃ s, usingMatches intOps [.underscore, .value 7] [1, 7] = .done s ∧
    (s.matching = true ↔ Accepts (.args [fun _ : Int => true, fun a => a == 7]) [1, 7]) ∧
    s.matching = matchArgs true [fun _ : Int => true, fun a => a == 7] [1, 7] :=
  C38_using_is_the_matcher_of_the_stubbing intOps _ [fun _ : Int => true, fun a => a == 7] [1, 7] rfl rfl

/-- "ab" followed by garbage after the NUL, against "ac". -/
example : Cmp.lt.matchesStr [97, 99] (some [97, 98, 0, 55]) = .done true := by decide +kernel
example : (0 : UInt8) ∈ [97, 98, 0, 55] := by decide
/-- A byte above 127 is greater than an ASCII one. -/
example : Cmp.gt.matchesStr [97] (some [200, 0]) = .done true := by decide +kernel
/-- An argument that is not NUL-terminated. -/
example : Cmp.eq.matchesStr [97, 98] (some [97, 98]) = .ub := by decide +kernel

example : approxEqMatches 32 100 5 96 = .done true := by decide +kernel
example : approxEqMatches 32 100 5 94 = .done false := by decide +kernel
example : approxEqMatches 32 1 5 (-2147483648) = .ub := by decide +kernel

end Demo
end FakeIt
