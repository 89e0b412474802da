import Verif.Lemmas.Verify
import Verif.Props.Matching
import Verif.Props.Demo
/-!
# C13, C18-C23: verification
-/
namespace FakeIt
variable {V E : Type} {P : Prog V E} {nm : MockId → Nat → Nat}
open Spec

namespace Demo
open FakeIt

/-- The calls A = `mock0.f0(1)`, B = `mock1.f1(7)`, A = `mock0.f0(2)`. -/
def vops : List (Op Nat Nat) := ops0 ++ [.call 0 0 [.val 1], .call 1 1 [.val 7], .call 0 0 [.val 2]]

def v : World Nat Nat := after vops

theorem reach_v : Reach prog Demo.nm v := by
  refine Reach.run (fuel := 5) (w' := v) vops ?_ (.start heap0) rfl
  intro op h
  simp only [vops, ops0, List.mem_append, List.mem_cons, List.not_mem_nil, or_false] at h
  rcases h with (rfl | rfl | rfl | rfl) | rfl | rfl | rfl <;> simp [Op.Within, Api.Named, Api.slots, SlotRef.Named, tgt, Demo.nm, intMax]

theorem unwrapped_v : Unwrapped v := by constructor <;> decide

/-- `Method(mock m, f)` with the given matcher, in a verification. -/
def leaf (m off : Nat) (kind : MatcherKind Nat) : Leaf Nat := { m := m, slot := .meth off off, kind := kind, addr := none }

/-- A, B. -/
def A : Seq (Leaf Nat) := .leaf (leaf 0 0 .any)
def B : Seq (Leaf Nat) := .leaf (leaf 1 1 .any)

theorem named_v (scope : Scope Nat) (q : Quant) (mode : VMode) (h : scope = .involved ∨ scope = .unverified) (pat : List (Seq (Leaf Nat)))
    (hp : ∀ s ∈ pat, ∀ l ∈ s.expected, l = leaf 0 0 .any ∨ l = leaf 1 1 .any) : (Api.verify (E := Nat) scope pat q mode).Named Demo.nm := by
  intro x hx
  have he : verifyLeaves scope pat = pat.flatMap Seq.expected := by rcases h with rfl | rfl <;> rfl
  simp only [Api.slots, he, List.mem_map, List.mem_flatMap] at hx
  obtain ⟨l, ⟨s, hs, hl⟩, rfl⟩ := hx
  rcases hp s hs l hl with rfl | rfl <;> simp [leaf, SlotRef.Named, Demo.nm, intMax]

theorem namedAB (scope : Scope Nat) (q : Quant) (mode : VMode) (h : scope = .involved ∨ scope = .unverified) :
    (Api.verify (E := Nat) scope [A, B] q mode).Named Demo.nm := by
  refine named_v scope q mode h [A, B] ?_
  intro s hs l hl
  simp only [List.mem_cons, List.not_mem_nil, or_false] at hs
  rcases hs with rfl | rfl <;> simp [A, B, Seq.expected] at hl <;> simp [hl]

theorem writableAB : WritablePattern [A, B] := ⟨by simp, by
  intro s hs
  simp only [List.mem_cons, List.not_mem_nil, or_false] at hs
  rcases hs with rfl | rfl
  · exact .method _
  · exact .method _⟩

theorem writableB : WritablePattern [B] := ⟨by simp, by
  intro s hs
  simp only [List.mem_singleton] at hs
  subst hs; exact .method _⟩

end Demo

/-! ## C13 -/

/-- C13. The sequence a verification works on contains every invocation of its sources exactly once, in call order. -/
theorem C13_every_invocation_once_in_call_order_partial (hP : P.Named nm) {w : World V E} (hw : Reach P nm w) (hu : Unwrapped w) (s : Source V)
    (ha : ∀ m ∈ s.mocks, ∃ k, w.mock? m = some k) :
    InCallOrder (sortByOrder (s.collect P w [])) ∧ (sortByOrder (s.collect P w [])).Nodup ∧
      ∀ i, i ∈ sortByOrder (s.collect P w []) ↔ InSource P w s i := by
  obtain ⟨h1, h2⟩ := actual_spec (P := P) (hw.wf hP).recs hu.1 s ha
  refine ⟨h1, h1.imp ?_, h2⟩
  intro i j h he
  rw [he] at h
  exact absurd h (Nat.lt_irrefl _)

/-- C13. It does not depend on the order in which the hash sets are iterated: every collection of the sources (`Collects`: any order at any
stage) gives the same sequence. -/
theorem C13_iteration_order_irrelevant_partial (hP : P.Named nm) {w : World V E} (hw : Reach P nm w) (hu : Unwrapped w) (s : Source V)
    (ha : ∀ m ∈ s.mocks, ∃ k, w.mock? m = some k) {out : List (Invocation V)} (h : Collects P w s [] out) :
    sortByOrder out = sortByOrder (s.collect P w []) := by
  have hr := (hw.wf hP).recs
  have hm := collects_mem hr h (by intro i hi; cases hi)
  obtain ⟨h1, h2⟩ := actual_spec (P := P) hr hu.1 s ha
  obtain ⟨h3, h4⟩ := sort_recorded hr hu.1 (l := out) (fun i hi => inSource_recorded (((hm i).1 hi).elim (fun h => by cases h) id))
  refine eq_of_sorted Invocation.uid h3 h1 fun i => ?_
  rw [h4, h2, hm]; simp

/-- C13. It does not depend on the order or the multiplicity in which the sources are named. -/
theorem C13_source_order_irrelevant_partial (hP : P.Named nm) {w : World V E} (hw : Reach P nm w) (hu : Unwrapped w) {srcs srcs' : List (Source V)}
    (hs : ∀ s, s ∈ srcs ↔ s ∈ srcs') (ha : ∀ s ∈ srcs, ∀ m ∈ s.mocks, ∃ k, w.mock? m = some k) :
    sortByOrder ((aggregate srcs).collect P w []) = sortByOrder ((aggregate srcs').collect P w []) := by
  have hr := (hw.wf hP).recs
  have al : ∀ l : List (Source V), (∀ s ∈ l, s ∈ srcs) → AliveS w (aggregate l) := by
    intro l hl m hm
    obtain ⟨s, hs, hm⟩ := mocks_aggregate.1 hm
    exact ha s (hl s hs) m hm
  obtain ⟨h1, h2⟩ := actual_spec (P := P) hr hu.1 (aggregate srcs) (al _ fun _ h => h)
  obtain ⟨h3, h4⟩ := actual_spec (P := P) hr hu.1 (aggregate srcs') (al _ fun s h => (hs s).2 h)
  refine eq_of_sorted Invocation.uid h1 h3 fun i => ?_
  rw [h2, h4, inSource_aggregate, inSource_aggregate]
  simp only [hs]

/-- A case meeting the hypotheses of C13: three calls of two mocks, sources named in the order mock 1, mock 0, mock 1. -/
example : (∀ m ∈ (aggregate [Source.mock 1, .mock 0, .mock 1] : Source Nat).mocks, ∃ k, Demo.v.mock? m = some k) ∧
    (sortByOrder ((aggregate [Source.mock 1, .mock 0, .mock 1]).collect Demo.prog Demo.v [])).map (·.uid) = [1, 2, 3] ∧
    ((aggregate [Source.mock 1, .mock 0, .mock 1]).collect Demo.prog Demo.v []).map (·.uid) = [2, 1, 3] := by
  refine ⟨?_, by decide, by decide⟩
  intro m hm
  have : m = 1 ∨ m = 0 ∨ m = 1 := by simpa [aggregate, Source.mocks] using hm
  rcases this with rfl | rfl | rfl <;> exact ⟨_, rfl⟩

/-! ## C18 -/

/-- C18. `s * n` throws exactly for n <= 0. -/
theorem C18_star_rejects {L : Type} (s : Seq L) (n : Int) : s.opStar n = none ↔ n ≤ 0 := by
  simp only [Seq.opStar]
  split <;> simp [*]

/-- C18. A verification statement whose quantifier is illegal throws, reports nothing, and changes no history, hence no mark. -/
theorem C18_illegal_count_has_no_effect (hP : P.Named nm) {w : World V E} (hw : Reach P nm w) {scope : Scope V} {pat : List (Seq (Leaf V))} {q : Quant}
    {mode : VMode} (hn : (Api.verify (E := E) scope pat q mode).Named nm) (hq : ¬ LegalQuant q)
    (hl : ∀ l ∈ verifyLeaves scope pat, Mentionable P w l.m l.slot) (ha : ∀ m ∈ (scope.source pat).mocks, ∃ k, w.mock? m = some k) :
    ∃ w', apiStep P w (.verify scope pat q mode) = .done (w', .threw) ∧ w'.log = w.log ∧ ∀ m off, history w' m off = history w m off := by
  have wf := hw.wf hP
  obtain ⟨w1, h1⟩ := touchAll_ok wf ((verifyLeaves scope pat).map fun l : Leaf V => (l.m, l.slot)) hn (by
    intro x hx
    obtain ⟨l, hl', rfl⟩ := List.mem_map.1 hx
    exact hl l hl')
  refine ⟨w1, ?_, touchAll_log _ h1, (touchAll_same _ h1).hist⟩
  have hal : allAlive w1 (scope.source pat).mocks = true := by
    refine List.all_eq_true.2 fun m hm => ?_
    rw [(touchAll_same _ h1).alive]
    obtain ⟨k, hk⟩ := ha m hm
    simp [hk]
  simp only [apiStep, verifyStmt, h1, R.bind_done, hal, quant_none hq]
  rfl

/-- A case meeting the hypotheses of C18. -/
example : ¬ LegalQuant (.exactly (-1)) ∧ (∀ l ∈ verifyLeaves .involved [Demo.A, Demo.B], Mentionable Demo.prog Demo.v l.m l.slot) ∧
    (∀ m ∈ (Scope.source [Demo.A, Demo.B] .involved).mocks, ∃ k, Demo.v.mock? m = some k) := by
  refine ⟨by simp [LegalQuant], ?_, ?_⟩
  · intro l hl
    simp only [verifyLeaves, Demo.A, Demo.B, List.nil_append, List.flatMap_cons, List.flatMap_nil, Seq.expected, List.append_nil, List.mem_append, List.mem_singleton] at hl
    rcases hl with rfl | rfl
    · exact ⟨_, rfl, by decide⟩
    · exact ⟨_, rfl, by decide⟩
  · intro m hm
    have : m = 0 ∨ m = 1 := by simpa [Scope.source, Demo.A, Demo.B, Seq.involved, aggregate, Source.mocks, Demo.leaf] using hm
    rcases this with rfl | rfl <;> exact ⟨_, rfl⟩

/-! ## C19, C20 -/

/-- C19. A verification statement with a legal quantifier whose expressions can be evaluated runs to a verdict. -/
theorem C19_verification_reaches_a_verdict_partial (hP : P.Named nm) {w : World V E} (hw : Reach P nm w) {scope : Scope V} {pat : List (Seq (Leaf V))} {q : Quant}
    {mode : VMode} (hn : (Api.verify (E := E) scope pat q mode).Named nm) (hpat : WritablePattern pat) (hq : LegalQuant q) (hm : mode ≠ .stmt true)
    (hl : ∀ l ∈ verifyLeaves scope pat, Mentionable P w l.m l.slot) (ha : ∀ m ∈ (scope.source pat).mocks, ∃ k, w.mock? m = some k)
    (hi : w.invTotal < wrap32) (hmt : w.methTotal + (verifyLeaves scope pat).length < wrap32) :
    ∃ w' b, apiStep P w (.verify scope pat q mode) = .done (w', .verdict b) ∧ Unwrapped w' := by
  have wf := hw.wf hP
  obtain ⟨w1, h1⟩ := touchAll_ok wf ((verifyLeaves scope pat).map fun l : Leaf V => (l.m, l.slot)) hn (by
    intro x hx
    obtain ⟨l, hl', rfl⟩ := List.mem_map.1 hx
    exact hl l hl')
  have hwf : Wf P nm w1 := (touchAll_stable apiStable2 _ hn wf.inv2 h1).wf wf
  have hal : allAlive w1 (scope.source pat).mocks = true := by
    refine List.all_eq_true.2 fun m hm => ?_
    rw [(touchAll_same _ h1).alive]
    obtain ⟨k, hk⟩ := ha m hm
    simp [hk]
  have hu : Unwrapped w1 := by
    have := touchAll_methTotal _ h1
    rw [List.length_map] at this
    exact ⟨by omega, by omega⟩
  obtain ⟨e, he, hv⟩ := quant_some hq
  obtain ⟨actual, c, matched, g1, -⟩ := analyse_spec (P := P) hwf.recs hu hpat (aliveS_of hal)
  simp only [apiStep, verifyStmt, h1, R.bind_done, hal, he]
  cases mode with
  | stmt u =>
    cases u with
    | true => exact absurd rfl hm
    | false =>
      simp only [verifyExpectation, hv, g1, R.bind_done]
      cases e.judge c actual with
      | none => exact ⟨_, _, rfl, hu⟩
      | some evt => exact ⟨_, _, rfl, hu⟩
  | asBool =>
    simp only [verifyExpectation, hv, g1, R.bind_done]
    cases e.judge c actual with
    | none => exact ⟨_, _, rfl, hu⟩
    | some evt => exact ⟨_, _, rfl, hu⟩

/-- C19. The verdict of a verification statement: it passes iff the number of matches (the maximum number of disjoint in-order occurrences of the
pattern among the invocations in scope, in call order) is what the quantifier promises. `AtLeast(0)` is C20. -/
theorem C19_verdict_by_match_count_partial (hP : P.Named nm) {w w' : World V E} (hw : Reach P nm w) {scope : Scope V} {pat : List (Seq (Leaf V))} {q : Quant}
    {mode : VMode} {b : Bool} (hn : (Api.verify (E := E) scope pat q mode).Named nm) (hpat : WritablePattern pat) (h0 : q ≠ .atLeast 0)
    (h : apiStep P w (.verify scope pat q mode) = .done (w', .verdict b)) (hu : Unwrapped w') :
    ∃ n, MatchCount P w scope pat n ∧ (∀ n', MatchCount P w scope pat n' → n' = n) ∧ (b = true ↔ Passes q n) := by
  obtain ⟨w1, e, actual, c, matched, hsc, hlog, hwf, he, hf, hr⟩ := verify_parts (hw.wf hP) hn hpat h hu
  refine ⟨c, hf.count, fun n' h' => h'.unique hf.count, ?_⟩
  rcases judge_spec he h0 c actual with ⟨hj, hp⟩ | ⟨hj, hp⟩
  · rcases hr with ⟨-, rfl, -⟩ | ⟨evt, hj', -, -⟩
    · simp [hp]
    · rw [hj] at hj'; cases hj'
  · rcases hr with ⟨hj', -, -⟩ | ⟨evt, hj', rfl, -⟩
    · rw [hj] at hj'; cases hj'
    · simp [hp]

/-- C16. `Verify(Method(...))` of a single method expression (over the involved mocks) counts the recorded invocations of that method which the
expression recognises: the verdict depends on their number only. -/
theorem C16_single_method_verdict_partial (hP : P.Named nm) {w w' : World V E} (hw : Reach P nm w) {l : Leaf V} {q : Quant} {mode : VMode} {b : Bool}
    (hn : (Api.verify (E := E) .involved [.leaf l] q mode).Named nm) (h0 : q ≠ .atLeast 0)
    (h : apiStep P w (.verify .involved [.leaf l] q mode) = .done (w', .verdict b)) (hu : Unwrapped w') :
    ∃ hits : List (Invocation V), InCallOrder hits ∧
      (∀ i, i ∈ hits ↔ ∃ k off, w.mock? l.m = some k ∧ l.slot.off (P.cls k.cls) = some off ∧ i ∈ history w l.m off ∧ Recognises l w.heap i) ∧
      (b = true ↔ Passes q hits.length) := by
  classical
  have hpat : WritablePattern [Seq.leaf l] := ⟨by simp, by intro s hs; rw [List.mem_singleton.1 hs]; exact .method l⟩
  obtain ⟨n, ⟨actual, ha, hm⟩, -, hb⟩ := C19_verdict_by_match_count_partial hP hw hn hpat h0 h hu
  refine ⟨actual.filter fun i => decide (Denotes P w l i), ha.order.filter _, fun i => ?_, ?_⟩
  · rw [List.mem_filter, ha.mem, decide_eq_true_iff]
    refine ⟨fun hi => hi.2, fun hi => ⟨?_, hi⟩⟩
    obtain ⟨k, off, -, -, hi, -⟩ := hi
    exact ⟨.leaf l, by simp, l, by simp [Seq.expected], off, hi⟩
  · obtain ⟨c, mtd, h1, h2⟩ := C15_count_is_maximum (fun l i => decide (Denotes P w l i)) actual [.leaf l] hpat
    rw [C16_single_method_count] at h1
    simp only [R.done.injEq, Prod.mk.injEq] at h1
    simp only [decide_eq_true_eq] at h2
    have : n = (actual.filter fun i => decide (Denotes P w l i)).length := by
      rw [← List.countP_eq_length_filter, h1.1]
      obtain ⟨⟨s1, i1, o1⟩, m1⟩ := hm
      obtain ⟨⟨s2, i2, o2⟩, m2⟩ := h2
      exact Nat.le_antisymm (m2 _ _ _ o1) (m1 _ _ _ o2)
    rw [← this]
    exact hb

/-- A case meeting the hypotheses: two calls of the method, a call of another one in between. -/
example : ∃ w', apiStep Demo.prog Demo.v (.verify .involved [.leaf (Demo.leaf 0 0 .any)] .twice (.stmt false)) = .done (w', .verdict true) ∧ Unwrapped w' ∧
    (Api.verify (E := Nat) .involved [.leaf (Demo.leaf 0 0 .any)] .twice (.stmt false)).Named Demo.nm :=
  ⟨Demo.next Demo.v (.api (.verify .involved [Demo.A] .twice (.stmt false))), rfl, by constructor <;> decide,
    Demo.named_v .involved _ _ (.inl rfl) _ (by intro s hs l hl; rw [List.mem_singleton.1 hs] at hl; simp [Seq.expected] at hl; exact .inl hl)⟩

/-- C20 for n >= 1. The full claim includes n = 0, which is false: see `C20_atLeast_zero_is_never`. -/
theorem C20_atLeast_partial (hP : P.Named nm) {w w' : World V E} (hw : Reach P nm w) {scope : Scope V} {pat : List (Seq (Leaf V))} {n : Int}
    {mode : VMode} {b : Bool} (hn : (Api.verify (E := E) scope pat (.atLeast n) mode).Named nm) (hpat : WritablePattern pat) (h0 : 1 ≤ n)
    (h : apiStep P w (.verify scope pat (.atLeast n) mode) = .done (w', .verdict b)) (hu : Unwrapped w') :
    ∃ c : Nat, MatchCount P w scope pat c ∧ (b = true ↔ n ≤ (c : Int)) := by
  obtain ⟨c, h1, -, h2⟩ := C19_verdict_by_match_count_partial hP hw hn hpat (by intro he; cases he; exact absurd h0 (by decide)) h hu
  exact ⟨c, h1, h2⟩

/-- C20, what `AtLeast(0)` really does: it passes iff there is no match at all, and otherwise (as a statement) reports "exactly 0" with the true
count and the actual sequence, marking nothing. -/
theorem C20_atLeast_zero_is_never (hP : P.Named nm) {w w' : World V E} (hw : Reach P nm w) {scope : Scope V} {pat : List (Seq (Leaf V))}
    {mode : VMode} {b : Bool} (hn : (Api.verify (E := E) scope pat (.atLeast 0) mode).Named nm) (hpat : WritablePattern pat)
    (h : apiStep P w (.verify scope pat (.atLeast 0) mode) = .done (w', .verdict b)) (hu : Unwrapped w') :
    ∃ c : Nat, MatchCount P w scope pat c ∧ (b = true ↔ c = 0) ∧ (b = false → mode = .stmt false → ∃ actual, IsActual P w scope pat actual ∧
      w'.log = w.log ++ [.sequence .exact 0 c actual] ∧ ∀ m off, history w' m off = history w m off) := by
  obtain ⟨w1, e, actual, c, matched, hsc, hlog, hwf, he, hf, hr⟩ := verify_parts (hw.wf hP) hn hpat h hu
  refine ⟨c, hf.count, ?_⟩
  rcases judge_atLeast0 he c actual with ⟨hj, hp⟩ | ⟨hj, hp⟩
  · rcases hr with ⟨-, rfl, -⟩ | ⟨evt, hj', -, -⟩
    · simp [hp]
    · rw [hj] at hj'; cases hj'
  · rcases hr with ⟨hj', -, -⟩ | ⟨evt, hj', rfl, hw'⟩
    · rw [hj] at hj'; cases hj'
    · rw [hj] at hj'; cases hj'
      refine ⟨by simp [hp], fun _ hm => ⟨actual, hf.isActual, ?_⟩⟩
      subst hm
      rw [hw']
      exact ⟨by simp [reported, World.fire, hlog], fun m off => hsc.hist m off⟩

/-- C20 is false as stated: `AtLeast(0)` promises nothing, yet it fails after one call that matches. -/
theorem C20_atLeast_zero_can_fail : ∃ (w w' : World Nat Nat) (pat : List (Seq (Leaf Nat))), Reach Demo.prog Demo.nm w ∧ WritablePattern pat ∧
    apiStep Demo.prog w (.verify .involved pat (.atLeast 0) (.stmt false)) = .done (w', .verdict false) :=
  ⟨Demo.v, Demo.next Demo.v (.api (.verify .involved [Demo.B] (.atLeast 0) (.stmt false))), [Demo.B], Demo.reach_v, Demo.writableB, rfl⟩

/-- A case meeting the hypotheses of C19-C21: `Verify(A, B).Twice()` fails (with 1 match), `Verify(A, B)` passes. -/
example : (Api.verify (E := Nat) .involved [Demo.A, Demo.B] .twice (.stmt false)).Named Demo.nm ∧ WritablePattern [Demo.A, Demo.B] ∧
    (∃ w', apiStep Demo.prog Demo.v (.verify .involved [Demo.A, Demo.B] .twice (.stmt false)) = .done (w', .verdict false) ∧ Unwrapped w') ∧
    (∃ w', apiStep Demo.prog Demo.v (.verify .involved [Demo.A, Demo.B] .dflt (.stmt false)) = .done (w', .verdict true) ∧ Unwrapped w') := by
  refine ⟨Demo.namedAB .involved _ _ (.inl rfl), Demo.writableAB,
    ⟨Demo.next Demo.v (.api (.verify .involved [Demo.A, Demo.B] .twice (.stmt false))), rfl, by constructor <;> decide⟩,
    ⟨Demo.next Demo.v (.api (.verify .involved [Demo.A, Demo.B] .dflt (.stmt false))), rfl, by constructor <;> decide⟩⟩

/-- A case meeting the hypotheses of C20: `Verify(A).AtLeast(2)` passes. -/
example : (∃ w', apiStep Demo.prog Demo.v (.verify .involved [Demo.A] (.atLeast 2) (.stmt false)) = .done (w', .verdict true) ∧ Unwrapped w') :=
  ⟨Demo.next Demo.v (.api (.verify .involved [Demo.A] (.atLeast 2) (.stmt false))), rfl, by constructor <;> decide⟩

/-! ## C21 -/

/-- C21. A failing verification statement fires exactly one event, with the kind of verification, the expected count, the true match count and
the whole actual sequence in call order; no invocation changes. -/
theorem C21_failure_report (hP : P.Named nm) {w w' : World V E} (hw : Reach P nm w) {scope : Scope V} {pat : List (Seq (Leaf V))} {q : Quant}
    (hn : (Api.verify (E := E) scope pat q (.stmt false)).Named nm) (hpat : WritablePattern pat) (h0 : q ≠ .atLeast 0)
    (h : apiStep P w (.verify scope pat q (.stmt false)) = .done (w', .verdict false)) (hu : Unwrapped w') :
    ∃ n actual, MatchCount P w scope pat n ∧ IsActual P w scope pat actual ∧
      w'.log = w.log ++ [.sequence (Expects q).1 (Expects q).2 n actual] ∧ ∀ m off, history w' m off = history w m off := by
  obtain ⟨w1, e, actual, c, matched, hsc, hlog, hwf, he, hf, hr⟩ := verify_parts (hw.wf hP) hn hpat h hu
  refine ⟨c, actual, hf.count, hf.isActual, ?_⟩
  rcases hr with ⟨-, hb, -⟩ | ⟨evt, hj', -, rfl⟩
  · cases hb
  · rcases judge_spec he h0 c actual with ⟨hj, hp⟩ | ⟨hj, hp⟩
    · rw [hj] at hj'; cases hj'
    · rw [hj] at hj'; cases hj'
      refine ⟨?_, fun m off => ?_⟩
      · simp [reported, World.fire, hlog]
      · exact hsc.hist m off

/-- C13. The sequence shown by a failing verification statement, whatever its quantifier: every invocation in its scope exactly once, in call order. -/
theorem C13_failures_show_the_history_in_call_order_partial (hP : P.Named nm) {w w' : World V E} (hw : Reach P nm w) {scope : Scope V} {pat : List (Seq (Leaf V))} {q : Quant}
    (hn : (Api.verify (E := E) scope pat q (.stmt false)).Named nm) (hpat : WritablePattern pat)
    (h : apiStep P w (.verify scope pat q (.stmt false)) = .done (w', .verdict false)) (hu : Unwrapped w') :
    ∃ ty expected n actual, w'.log = w.log ++ [.sequence ty expected n actual] ∧ InCallOrder actual ∧ actual.Nodup ∧ ∀ i, i ∈ actual ↔ InScope P w pat scope i := by
  obtain ⟨w1, e, actual, c, matched, hsc, hlog, hwf, he, hf, hr⟩ := verify_parts (hw.wf hP) hn hpat h hu
  have hnd : actual.Nodup := hf.isActual.order.imp fun {i j} h he => by rw [he] at h; exact absurd h (Nat.lt_irrefl _)
  rcases hr with ⟨-, hb, -⟩ | ⟨evt, hj, -, rfl⟩
  · cases hb
  · have : ∃ ty expected, evt = .sequence ty expected c actual := by
      simp only [Expectation.judge] at hj
      split at hj
      · cases hj; exact ⟨_, _, rfl⟩
      · split at hj
        · cases hj; exact ⟨_, _, rfl⟩
        · cases hj
    obtain ⟨ty, expected, rfl⟩ := this
    exact ⟨ty, expected, c, actual, by simp [reported, World.fire, hlog], hf.isActual.order, hnd, hf.isActual.mem⟩

/-- C21. A failing conversion to `bool` fires nothing and marks nothing; a passing verification fires nothing. -/
theorem C21_no_other_report (hP : P.Named nm) {w w' : World V E} (hw : Reach P nm w) {scope : Scope V} {pat : List (Seq (Leaf V))} {q : Quant}
    {mode : VMode} {b : Bool} (hn : (Api.verify (E := E) scope pat q mode).Named nm) (hpat : WritablePattern pat)
    (h : apiStep P w (.verify scope pat q mode) = .done (w', .verdict b)) (hu : Unwrapped w') (hb : mode = .asBool ∨ b = true) :
    w'.log = w.log ∧ (b = false → ∀ m off, history w' m off = history w m off) := by
  obtain ⟨w1, e, actual, c, matched, hsc, hlog, hwf, he, hf, hr⟩ := verify_parts (hw.wf hP) hn hpat h hu
  rcases hr with ⟨-, rfl, rfl⟩ | ⟨evt, hj', rfl, rfl⟩
  · exact ⟨hlog, by intro h; cases h⟩
  · rcases hb with rfl | hb
    · exact ⟨hlog, fun _ => hsc.hist⟩
    · cases hb

/-! ## C22 -/

/-- Exactly the invocations in `S` become verified; nothing else about any invocation changes. -/
def Spec.Marks (w w' : World V E) (S : Invocation V → Prop) : Prop :=
  ∀ m off, (history w' m off).length = (history w m off).length ∧ ∀ (j : Nat) i, (history w m off)[j]? = some i →
    (S i ∧ (history w' m off)[j]? = some { i with verified := true }) ∨ (¬ S i ∧ (history w' m off)[j]? = some i)

/-- The invocations at the given positions. -/
def Spec.At (actual : List (Invocation V)) (idx : List Nat) (i : Invocation V) : Prop := ∃ k ∈ idx, actual[k]? = some i

theorem mem_of_atIdx {actual m : List (Invocation V)} {idx : List Nat} (h : MatchAnalysis.AtIdx actual idx m) (i : Invocation V) :
    i ∈ m ↔ At actual idx i := by
  constructor
  · intro hi
    have : some i ∈ m.map some := List.mem_map_of_mem hi
    rw [show m.map some = idx.map (fun i => actual[i]?) from h] at this
    obtain ⟨k, hk, he⟩ := List.mem_map.1 this
    exact ⟨k, hk, he⟩
  · rintro ⟨k, hk, he⟩
    have : some i ∈ idx.map (fun i => actual[i]?) := List.mem_map.2 ⟨k, hk, he⟩
    rw [← show m.map some = idx.map (fun i => actual[i]?) from h] at this
    obtain ⟨x, hx, he⟩ := List.mem_map.1 this
    cases he; exact hx

theorem marks_of {w w1 : World V E} (hsc : SameCalls w w1) (hr : Recs w1) {matched : List (Invocation V)} (hm : ∀ i ∈ matched, Recorded w1 i) :
    Marks w (w1.mark (matched.map (·.uid))) (fun i => i ∈ matched) := by
  intro m off
  rw [history_mark, hsc.hist]
  refine ⟨by simp, fun j i hi => ?_⟩
  rw [List.getElem?_map, hi, Option.map_some]
  have hri : Recorded w1 i := ⟨m, off, by rw [hsc.hist]; exact List.mem_of_getElem? hi⟩
  by_cases hc : i ∈ matched
  · left
    refine ⟨hc, ?_⟩
    have : (matched.map (·.uid)).contains i.uid = true := by
      rw [List.contains_iff_mem]; exact List.mem_map_of_mem hc
    rw [markIf, if_pos this]
  · right
    refine ⟨hc, ?_⟩
    have : ¬ (matched.map (·.uid)).contains i.uid = true := by
      rw [List.contains_iff_mem]
      intro hmem
      obtain ⟨x, hx, he⟩ := List.mem_map.1 hmem
      rw [hr.uniq (hm x hx) hri he] at hx
      exact hc hx
    rw [markIf, if_neg this]

/-- C22, what a passing verification marks: the invocations of the counted matches and those of a last, incomplete match (the first sequences of the
pattern, found after the counted matches, while the next one was not found any more). The claim says "exactly those of the counted
matches"; that is false when the pattern has several sequences, see `C22_incomplete_match_is_marked`, and true when it has one, see
`C22_single_sequence_marks_exactly`. -/
theorem C22_passing_marks_partial (hP : P.Named nm) {w w' : World V E} (hw : Reach P nm w) {scope : Scope V} {pat : List (Seq (Leaf V))} {q : Quant}
    {mode : VMode} (hn : (Api.verify (E := E) scope pat q mode).Named nm) (hpat : WritablePattern pat)
    (h : apiStep P w (.verify scope pat q mode) = .done (w', .verdict true)) (hu : Unwrapped w') :
    ∃ actual n stop stop' idx idx' pre rest, IsActual P w scope pat actual ∧ MatchCount P w scope pat n ∧
      Occurs (Denotes P w) actual (blocks pat) n 0 stop idx ∧
      pat = pre ++ rest ∧ rest ≠ [] ∧ PatAt (Denotes P w) actual (blocks pre) stop stop' idx' ∧
      Marks w w' (fun i => At actual idx i ∨ At actual idx' i) := by
  obtain ⟨w1, e, actual, c, matched, hsc, hlog, hwf, he, hf, hr⟩ := verify_parts (hw.wf hP) hn hpat h hu
  rcases hr with ⟨-, -, rfl⟩ | ⟨evt, -, hb, -⟩
  · obtain ⟨m, m', idx, idx', stop, rfl, ho, hi, hi', pre, rest, stop', hp1, hp2, hp3⟩ := hf.parts
    refine ⟨actual, c, stop, stop', idx, idx', pre, rest, hf.isActual, hf.count, ho, hp1, hp2, hp3, ?_⟩
    have hrec : ∀ i ∈ m ++ m', Recorded w1 i := by
      intro i hi0
      have hact : i ∈ actual := by
        rcases List.mem_append.1 hi0 with h | h
        · obtain ⟨k, -, hk⟩ := (mem_of_atIdx hi i).1 h; exact List.mem_of_getElem? hk
        · obtain ⟨k, -, hk⟩ := (mem_of_atIdx hi' i).1 h; exact List.mem_of_getElem? hk
      obtain ⟨m0, off0, h0⟩ := inSource_recorded ((inSource_scope hpat scope).2 ((hf.isActual.mem i).1 hact))
      exact ⟨m0, off0, by rw [hsc.hist]; exact h0⟩
    have := marks_of hsc hwf.recs hrec
    have heq : (fun i => i ∈ m ++ m') = (fun i => At actual idx i ∨ At actual idx' i) := by
      funext i
      rw [List.mem_append, mem_of_atIdx hi, mem_of_atIdx hi']
    rwa [heq] at this
  · cases hb

/-- C22 for `Verify(s)` with one sequence expression (of any size): exactly the invocations of the counted matches become verified. -/
theorem C22_single_sequence_marks_exactly (hP : P.Named nm) {w w' : World V E} (hw : Reach P nm w) {scope : Scope V} {s : Seq (Leaf V)} {q : Quant}
    {mode : VMode} (hn : (Api.verify (E := E) scope [s] q mode).Named nm) (hpat : WritablePattern [s])
    (h : apiStep P w (.verify scope [s] q mode) = .done (w', .verdict true)) (hu : Unwrapped w') :
    ∃ actual n stop idx, IsActual P w scope [s] actual ∧ MatchCount P w scope [s] n ∧
      Occurs (Denotes P w) actual (blocks [s]) n 0 stop idx ∧ Marks w w' (At actual idx) := by
  obtain ⟨actual, n, stop, stop', idx, idx', pre, rest, h1, h2, h3, h4, h5, h6, h7⟩ := C22_passing_marks_partial hP hw hn hpat h hu
  refine ⟨actual, n, stop, idx, h1, h2, h3, ?_⟩
  have hpre : pre = [] := by
    cases pre with
    | nil => rfl
    | cons x pre =>
      cases pre <;> cases rest <;> simp at h4 h5
  subst hpre
  cases h6 with
  | nil =>
    have : (fun i => At actual idx i ∨ At actual [] i) = At actual idx := by
      funext i; simp [At]
    rwa [this] at h7

/-- The witness: after the calls A B A, `Verify(A, B)` passes and has marked the second A too. -/
def Demo.vAB : World Nat Nat := Demo.next Demo.v (.api (.verify .involved [Demo.A, Demo.B] .dflt (.stmt false)))

/-- C22 is false as stated: after the calls A B A, the statement `Verify(A, B)` counts one match (the first A and B) and also marks the last A,
so that `VerifyNoOtherInvocations` passes although nothing verified that call. -/
theorem C22_incomplete_match_is_marked :
    ∃ (w w' w'' : World Nat Nat) (pat : List (Seq (Leaf Nat))), Reach Demo.prog Demo.nm w ∧ WritablePattern pat ∧
      apiStep Demo.prog w (.verify .involved pat .dflt (.stmt false)) = .done (w', .verdict true) ∧
      MatchCount Demo.prog w .involved pat 1 ∧ (history w 0 0).map (·.verified) = [false, false] ∧ (history w' 0 0).map (·.verified) = [true, true] ∧
      (history w 1 1).length = 1 ∧ apiStep Demo.prog w' (.verifyNoOther [.mock 0, .mock 1] (.stmt false)) = .done (w'', .verdict true) := by
  have hpat := Demo.writableAB
  have hstep : apiStep Demo.prog Demo.v (.verify .involved [Demo.A, Demo.B] .dflt (.stmt false)) = .done (Demo.vAB, .verdict true) := rfl
  refine ⟨Demo.v, Demo.vAB, Demo.vAB, [Demo.A, Demo.B], Demo.reach_v, hpat, hstep, ?_, rfl, rfl, rfl, rfl⟩
  obtain ⟨actual', c', matched', g1, g2⟩ := analyse_spec (P := Demo.prog) (Demo.reach_v.wf Demo.prog_named).recs Demo.unwrapped_v hpat (scope := .involved) (by
    intro m hm
    have : m = 0 ∨ m = 1 := by simpa [Scope.source, Demo.A, Demo.B, Seq.involved, aggregate, Source.mocks, Demo.leaf] using hm
    rcases this with rfl | rfl <;> exact ⟨_, rfl⟩)
  have hc : c' = 1 := by
    have : analyse Demo.prog Demo.v .involved [Demo.A, Demo.B] = .done ((history Demo.v 0 0).take 1 ++ history Demo.v 1 1 ++ (history Demo.v 0 0).drop 1, 1,
      (history Demo.v 0 0).take 1 ++ history Demo.v 1 1 ++ (history Demo.v 0 0).drop 1) := rfl
    rw [this] at g1
    simp only [R.done.injEq, Prod.mk.injEq] at g1
    exact g1.2.1.symm
  subst hc
  exact g2.count

/-- A case meeting the hypotheses of C22 for one sequence: `Verify(A)`; both calls A are marked, B is not. -/
example : ∃ w', apiStep Demo.prog Demo.v (.verify .involved [Demo.A] .dflt (.stmt false)) = .done (w', .verdict true) ∧ Unwrapped w' ∧
    (history w' 0 0).map (·.verified) = [true, true] ∧ (history w' 1 1).map (·.verified) = [false] :=
  ⟨Demo.next Demo.v (.api (.verify .involved [Demo.A] .dflt (.stmt false))), rfl, by constructor <;> decide, rfl, rfl⟩

/-! ## C23 -/

/-- The parts of a `VerifyNoOtherInvocations` statement that ran. -/
theorem noOther_parts {w w' : World V E} (hw : Wf P nm w) {srcs : List (Source V)} {mode : VMode} {b : Bool}
    (hn : (Api.verifyNoOther (E := E) srcs mode).Named nm) (h : noOtherStmt P w srcs mode = .done (w', .verdict b)) (hu : Unwrapped w') :
    ∃ w1, SameCalls w w1 ∧ w1.log = w.log ∧ Wf P nm w1 ∧
      ((b = true ∧ w' = w1 ∧ ∀ s ∈ srcs, ∀ i, InSource P w s i → i.verified = true) ∨
        (∃ all unv, b = false ∧ w' = reported mode w1 (.noMoreInvocations all unv) ∧ InCallOrder all ∧ InCallOrder unv ∧
          (∀ i, i ∈ all ↔ ∃ s ∈ srcs, InSource P w s i) ∧ (∀ i, i ∈ unv ↔ ∃ s ∈ srcs, InSource P w s i ∧ i.verified = false) ∧ unv ≠ [])) := by
  simp only [noOtherStmt, R.bind_eq_done] at h
  obtain ⟨⟨w1, ok⟩, h1, h2⟩ := h
  have hwf : Wf P nm w1 := (touchAll_stable apiStable2 _ hn hw.inv2 h1).wf hw
  have hsc := touchAll_same _ h1
  have hlog := touchAll_log _ h1
  refine ⟨w1, hsc, hlog, hwf, ?_⟩
  cases ok with
  | false => simp at h2
  | true =>
    dsimp only at h2
    split at h2
    · simp at h2
    · rename_i hal
      have hal : AliveS w1 (aggregate srcs) := aliveS_of (by simpa using hal)
      have hm := (collect_spec (P := P) hwf.recs (aggregate srcs) hal [] (by intro i hi; cases hi)).1
      have hm : ∀ i, i ∈ (aggregate srcs).collect P w1 [] ↔ ∃ s ∈ srcs, InSource P w s i := by
        intro i
        rw [hm, hsc.inSource, inSource_aggregate]; simp
      have hrec : AllRec w1 ((aggregate srcs).collect P w1 []) := by
        intro i hi
        obtain ⟨s, -, hi⟩ := (hm i).1 hi
        exact inSource_recorded (P := P) ((hsc.inSource s i).2 hi)
      have key : Unwrapped w1 → (noOther P w1 srcs = none ∧ ∀ s ∈ srcs, ∀ i, InSource P w s i → i.verified = true) ∨
          ∃ all unv, noOther P w1 srcs = some (.noMoreInvocations all unv) ∧ InCallOrder all ∧ InCallOrder unv ∧
          (∀ i, i ∈ all ↔ ∃ s ∈ srcs, InSource P w s i) ∧ (∀ i, i ∈ unv ↔ ∃ s ∈ srcs, InSource P w s i ∧ i.verified = false) ∧ unv ≠ [] := by
        intro hu1
        simp only [noOther]
        by_cases hl : ((Source.collect P w1 (aggregate srcs) []).filter fun i => !i.verified).length > 0
        · right
          rw [if_pos hl]
          obtain ⟨a1, a2⟩ := sort_recorded hwf.recs hu1.1 hrec
          obtain ⟨u1, u2⟩ := sort_recorded hwf.recs hu1.1
            (l := (Source.collect P w1 (aggregate srcs) []).filter fun i => !i.verified) (fun i hi => hrec i (List.mem_filter.1 hi).1)
          refine ⟨_, _, rfl, a1, u1, fun i => by rw [a2, hm], fun i => ?_, ?_⟩
          · rw [u2, List.mem_filter, hm]
            constructor
            · rintro ⟨⟨s, hs, hi⟩, hv⟩; exact ⟨s, hs, hi, by simpa using hv⟩
            · rintro ⟨s, hs, hi, hv⟩; exact ⟨⟨s, hs, hi⟩, by simp [hv]⟩
          · intro he
            obtain ⟨x, hx⟩ := List.exists_mem_of_length_pos hl
            have := (u2 x).2 hx
            rw [he] at this; cases this
        · left
          rw [if_neg hl]
          refine ⟨rfl, fun s hs i hi => ?_⟩
          cases hv : i.verified with
          | true => rfl
          | false =>
            have : i ∈ (Source.collect P w1 (aggregate srcs) []).filter fun i => !i.verified := List.mem_filter.2 ⟨(hm i).2 ⟨s, hs, hi⟩, by simp [hv]⟩
            exact absurd (List.length_pos_of_mem this) hl
      split at h2
      · simp at h2
      · split at h2
        · rename_i evt he
          simp at h2
          obtain ⟨rfl, rfl⟩ := h2
          rcases key hu with ⟨hk, -⟩ | ⟨all, unv, hk, hr⟩
          · rw [he] at hk; cases hk
          · rw [he] at hk; cases hk
            exact .inr ⟨all, unv, rfl, rfl, hr⟩
        · rename_i he
          simp at h2
          obtain ⟨rfl, rfl⟩ := h2
          rcases key hu with ⟨hk, hr⟩ | ⟨all, unv, hk, hr⟩
          · exact .inl ⟨rfl, rfl, hr⟩
          · rw [he] at hk; cases hk
      · split at h2
        · rename_i evt he
          simp at h2
          obtain ⟨rfl, rfl⟩ := h2
          rcases key hu with ⟨hk, -⟩ | ⟨all, unv, hk, hr⟩
          · rw [he] at hk; cases hk
          · rw [he] at hk; cases hk
            exact .inr ⟨all, unv, rfl, rfl, hr⟩
        · rename_i he
          simp at h2
          obtain ⟨rfl, rfl⟩ := h2
          rcases key hu with ⟨hk, hr⟩ | ⟨all, unv, hk, hr⟩
          · exact .inl ⟨rfl, rfl, hr⟩
          · rw [he] at hk; cases hk

/-- C23. `VerifyNoOtherInvocations(sources)` passes iff every recorded invocation of the sources is verified. Otherwise, as a statement, it fires one
event listing exactly the unverified ones (and all of them), in call order. It never changes any invocation. -/
theorem C23_verifyNoOther_exact (hP : P.Named nm) {w w' : World V E} (hw : Reach P nm w) {srcs : List (Source V)} {mode : VMode} {b : Bool}
    (hn : (Api.verifyNoOther (E := E) srcs mode).Named nm)
    (h : apiStep P w (.verifyNoOther srcs mode) = .done (w', .verdict b)) (hu : Unwrapped w') :
    (b = true ↔ ∀ s ∈ srcs, ∀ i, InSource P w s i → i.verified = true) ∧
    (∀ m off, history w' m off = history w m off) ∧
    (b = true ∨ mode = .asBool → w'.log = w.log) ∧
    (b = false → mode = .stmt false → ∃ all unv, w'.log = w.log ++ [.noMoreInvocations all unv] ∧ InCallOrder all ∧ InCallOrder unv ∧
      (∀ i, i ∈ all ↔ ∃ s ∈ srcs, InSource P w s i) ∧ (∀ i, i ∈ unv ↔ ∃ s ∈ srcs, InSource P w s i ∧ i.verified = false)) := by
  obtain ⟨w1, hsc, hlog, hwf, hr⟩ := noOther_parts (hw.wf hP) hn h hu
  rcases hr with ⟨rfl, rfl, hall⟩ | ⟨all, unv, rfl, rfl, o1, o2, m1, m2, hne⟩
  · exact ⟨by simpa using hall, hsc.hist, fun _ => hlog, by intro h; cases h⟩
  · refine ⟨?_, ?_, ?_, ?_⟩
    · simp only [Bool.false_eq_true, false_iff]
      intro hall
      obtain ⟨x, hx⟩ := List.exists_mem_of_ne_nil _ hne
      obtain ⟨s, hs, hi, hv⟩ := (m2 x).1 hx
      rw [hall s hs x hi] at hv; cases hv
    · intro m off
      cases mode <;> exact hsc.hist m off
    · rintro (h | rfl)
      · cases h
      · exact hlog
    · rintro - rfl
      refine ⟨all, unv, ?_, o1, o2, m1, m2⟩
      simp [reported, World.fire, hlog]

/-- A case meeting the hypotheses of C23: nothing is verified yet, so the statement fails. -/
example : (Api.verifyNoOther (V := Nat) (E := Nat) [Source.mock 0] (.stmt false)).Named Demo.nm ∧
    ∃ w', apiStep Demo.prog Demo.v (.verifyNoOther [.mock 0] (.stmt false)) = .done (w', .verdict false) ∧ Unwrapped w' :=
  ⟨by simp [Api.Named, Api.slots, aggregate, Source.leaves],
    Demo.next Demo.v (.api (.verifyNoOther [.mock 0] (.stmt false))), rfl, by constructor <;> decide⟩

end FakeIt
