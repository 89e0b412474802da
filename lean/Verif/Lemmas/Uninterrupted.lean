import Verif.Spec.Uninterrupted
import Verif.Lemmas.CheckingWhole
import Verif.Lemmas.Independent
import Verif.Lemmas.OneThreadSteps
/-!
# Verifications that nothing interrupts: lemmas
-/
namespace FakeIt.Checking
open FakeIt.Checking.Spec
open FakeIt.Spec (AState accepts findAll findPattern findBlock takeBlock)

variable {V E X : Type} {kinds : Nat → MatcherKind V} {ctr : Nat → Nat → Nat}

/-! ## The search does not depend on how expressions are written -/

section
variable {L L' I : Type} {f : L → L'} {mt : L' → I → Bool}

theorem takeBlock_map : ∀ (e : List L) (cs : List I), takeBlock mt (e.map f) cs = takeBlock (fun l => mt (f l)) e cs
  | [], _ => rfl
  | _ :: _, [] => rfl
  | l :: e, c :: cs => by simp only [List.map_cons, takeBlock, takeBlock_map e cs]

theorem findBlock_map (e : List L) : ∀ (cs : List I), findBlock mt (e.map f) cs = findBlock (fun l => mt (f l)) e cs
  | [] => takeBlock_map e []
  | c :: cs => by simp only [findBlock, takeBlock_map, findBlock_map e cs]

theorem findPattern_map : ∀ (pat : List (List L)) (cs : List I), findPattern mt (pat.map (List.map f)) cs = findPattern (fun l => mt (f l)) pat cs
  | [], _ => rfl
  | e :: pat, cs => by
    simp only [List.map_cons, findPattern, findBlock_map]
    cases findBlock (fun l => mt (f l)) e cs with
    | none => rfl
    | some r => simp only [findPattern_map pat]

theorem findAll_map (pat : List (List L)) : ∀ (fuel : Nat) (cs : List I), findAll mt (pat.map (List.map f)) fuel cs = findAll (fun l => mt (f l)) pat fuel cs
  | 0, _ => rfl
  | fuel + 1, cs => by
    simp only [findAll, findPattern_map]
    split <;> simp_all [findAll_map pat fuel]

end

theorem expected_seqOf : ∀ (s : Seq Leaf), (seqOf kinds ctr s).expected = s.expected.map (leafOf kinds ctr)
  | .leaf _ => rfl
  | .cat s t => by simp [seqOf, Seq.expected, expected_seqOf s, expected_seqOf t]
  | .rep s n => by simp [seqOf, Seq.expected, expected_seqOf s, List.map_flatten]

theorem patternOf_seqOf (pat : List (Seq Leaf)) : FakeIt.Spec.patternOf (pat.map (seqOf kinds ctr)) = (pat.map Seq.expected).map (List.map (leafOf kinds ctr)) := by
  simp [FakeIt.Spec.patternOf, expected_seqOf]

theorem mem_mocksIn {pat : List (Seq Leaf)} {m : Nat} : m ∈ FakeIt.Spec.mocksIn (pat.map (seqOf kinds ctr)) ↔ ∃ l ∈ leaves pat, l.mock = m := by
  simp only [FakeIt.Spec.mocksIn, patternOf_seqOf, leaves, List.mem_map, List.mem_flatten, List.mem_flatMap]
  constructor
  · rintro ⟨l, ⟨x, ⟨y, ⟨s, hs, rfl⟩, rfl⟩, hl⟩, rfl⟩
    obtain ⟨l', hl', rfl⟩ := List.mem_map.1 hl
    exact ⟨l', ⟨s, hs, hl'⟩, rfl⟩
  · rintro ⟨l, ⟨s, hs, hl⟩, rfl⟩
    exact ⟨leafOf kinds ctr l, ⟨_, ⟨_, ⟨s, hs, rfl⟩, rfl⟩, List.mem_map_of_mem hl⟩, rfl⟩

/-! ## The same calls -/

/-- The question whether a matcher accepts arguments. -/
abbrev asks (kinds : Nat → MatcherKind V) (p : Nat) (vs : List V) : Bool := accepts (kinds p) vs

variable {P : Prog V E}

/-- What is needed of the recorded calls. -/
structure Fits (s : AState V E) (recs : List (Rec (List V))) : Prop where
  same : SameRecords s recs
  mocks : ∀ r ∈ s.calls, ∀ m off, r.meth = some (m, off) → ∃ k, s.mocks[m]? = some k
  nodup : (s.calls.map FakeIt.Spec.Rec.number).Nodup

theorem Fits.length {s : AState V E} {recs : List (Rec (List V))} (h : Fits s recs) : recs.length = s.calls.length := by
  have := congrArg List.length h.same
  simpa using this

theorem Fits.at_ {s : AState V E} {recs : List (Rec (List V))} (h : Fits s recs) {a : Nat} {r : FakeIt.Spec.Rec V} (hr : s.calls[a]? = some r) :
    ∃ c, recs[a]? = some c ∧ r.meth = some (c.mock, c.meth) ∧ c.arg = FakeIt.Spec.valuesOf s.heap r.args ∧ c.verified = r.verified := by
  have := congrArg (·[a]?) h.same
  simp only [List.getElem?_map, hr, Option.map_some] at this
  cases hc : recs[a]? with
  | none => rw [hc] at this; cases this
  | some c =>
    rw [hc] at this
    simp only [Option.map_some, Option.some.injEq, Prod.mk.injEq] at this
    exact ⟨c, rfl, this.1.symm, this.2.1, this.2.2⟩

theorem denotes_iff {s : AState V E} {recs : List (Rec (List V))} (h : Fits s recs) {a : Nat} {r : FakeIt.Spec.Rec V} (hr : s.calls[a]? = some r) (l : Leaf) :
    FakeIt.Spec.denotes P s (leafOf kinds ctr l) r = true ↔ Denotes (asks kinds) recs l a := by
  obtain ⟨c, hc, h1, h2, -⟩ := h.at_ hr
  obtain ⟨k, hk⟩ := h.mocks r (List.mem_of_getElem? hr) _ _ h1
  constructor
  · intro hd
    refine ⟨c, hc, ?_⟩
    simp only [FakeIt.Spec.denotes, leafOf] at hd
    cases hm : s.mocks[l.mock]? with
    | none => simp [hm] at hd
    | some k' =>
      simp only [hm, FakeIt.Spec.methodOf, h1, Option.isSome_none, Bool.false_and, Bool.false_or, Bool.and_eq_true, beq_iff_eq, Option.some.injEq, Prod.mk.injEq] at hd
      exact ⟨hd.1.1, hd.1.2, by rw [h2]; exact hd.2⟩
  · rintro ⟨c', hc', e1, e2, e3⟩
    rw [hc] at hc'
    cases hc'
    simp only [FakeIt.Spec.denotes, leafOf, ← e1, hk, FakeIt.Spec.methodOf, h1, ← e2]
    simp only [Option.isSome_none, Bool.false_and, Bool.false_or, beq_self_eq_true, Bool.true_and]
    rw [← h2]
    exact e3

theorem ofMock_iff {s : AState V E} {recs : List (Rec (List V))} (h : Fits s recs) {a : Nat} {r : FakeIt.Spec.Rec V} (hr : s.calls[a]? = some r) (m : Nat) :
    FakeIt.Spec.ofMock m r = true ↔ ∃ c, recs[a]? = some c ∧ c.mock = m := by
  obtain ⟨c, hc, h1, -, -⟩ := h.at_ hr
  simp only [FakeIt.Spec.ofMock, h1, beq_iff_eq, hc, Option.some.injEq]
  exact ⟨fun e => ⟨c, rfl, e⟩, fun ⟨_, e, e'⟩ => e ▸ e'⟩

theorem unverified_iff {s : AState V E} {recs : List (Rec (List V))} (h : Fits s recs) {a : Nat} {r : FakeIt.Spec.Rec V} (hr : s.calls[a]? = some r) :
    (!r.verified) = true ↔ ∃ c, recs[a]? = some c ∧ c.verified = false := by
  obtain ⟨c, hc, -, -, h1⟩ := h.at_ hr
  simp only [hc, Option.some.injEq, Bool.not_eq_true']
  exact ⟨fun e => ⟨c, rfl, h1.trans e⟩, fun ⟨_, e, e'⟩ => by rw [← h1, e]; exact e'⟩

theorem inSource_iff {s : AState V E} {recs : List (Rec (List V))} (h : Fits s recs) {a : Nat} {r : FakeIt.Spec.Rec V} (hr : s.calls[a]? = some r) :
    ∀ (src : Src), FakeIt.Spec.inSource P s (sourceOf kinds ctr src) r = true ↔ InSrc (asks kinds) recs src a
  | .nothing => by simp [sourceOf, FakeIt.Spec.inSource, InSrc]
  | .mock m => ofMock_iff h hr m
  | .method l => denotes_iff h hr l
  | .unverified src => by
    simp only [sourceOf, FakeIt.Spec.inSource, Bool.and_eq_true, InSrc, inSource_iff h hr src, unverified_iff h hr]
  | .group src => inSource_iff h hr src
  | .also s t => by
    simp only [sourceOf, FakeIt.Spec.inSource, Bool.or_eq_true, InSrc, inSource_iff h hr s, inSource_iff h hr t]

theorem inScope_at {s : AState V E} {recs : List (Rec (List V))} (h : Fits s recs) {a : Nat} {r : FakeIt.Spec.Rec V} (hr : s.calls[a]? = some r) {pat : List (Seq Leaf)} (scope : Scope) :
    FakeIt.Spec.inScope P s (pat.map (seqOf kinds ctr)) (scopeOf kinds ctr scope) r = true ↔ InScope (asks kinds) recs pat scope a := by
  have hany : ((FakeIt.Spec.mocksIn (pat.map (seqOf kinds ctr))).any fun m => FakeIt.Spec.ofMock m r) = true ↔ ∃ c, recs[a]? = some c ∧ ∃ l ∈ leaves pat, l.mock = c.mock := by
    simp only [List.any_eq_true, mem_mocksIn, ofMock_iff h hr]
    constructor
    · rintro ⟨m, ⟨l, hl, e⟩, c, hc, e'⟩
      exact ⟨c, hc, l, hl, e.trans e'.symm⟩
    · rintro ⟨c, hc, l, hl, e⟩
      exact ⟨c.mock, ⟨l, hl, e⟩, c, hc, rfl⟩
  cases scope with
  | involved => exact hany
  | unverified =>
    simp only [scopeOf, FakeIt.Spec.inScope, Bool.and_eq_true, hany, unverified_iff h hr, InScope]
    constructor
    · rintro ⟨⟨c, hc, hl⟩, c', hc', hv⟩
      rw [hc] at hc'
      cases hc'
      exact ⟨c, hc, hv, hl⟩
    · rintro ⟨c, hc, hv, hl⟩
      exact ⟨⟨c, hc, hl⟩, c, hc, hv⟩
  | «using» src => exact inSource_iff h hr src

/-! ## Positions -/

theorem filter_positions {α : Type} (f : α → Bool) : ∀ (l pre : List α),
    All2 (fun x a => (pre ++ l)[a]? = some x) (l.filter f) ((List.range' pre.length l.length).filter fun a => ((pre ++ l)[a]?).any f)
  | [], _ => .nil
  | x :: l, pre => by
    have ih := filter_positions f l (pre ++ [x])
    simp only [List.append_assoc, List.singleton_append, List.length_append, List.length_cons, List.length_nil, Nat.zero_add] at ih
    have hx : (pre ++ x :: l)[pre.length]? = some x := by simp
    rw [List.length_cons, List.range'_succ, List.filter_cons, List.filter_cons, hx]
    simp only [Option.any_some]
    split
    · exact .cons hx ih
    · exact ih

theorem positions {α : Type} {f : α → Bool} {l : List α} {p : Nat → Prop} {actual : List Nat} (ho : InOrder p actual) (hlt : ∀ a, p a → a < l.length)
    (hp : ∀ (a : Nat) x, l[a]? = some x → (f x = true ↔ p a)) : All2 (fun x a => l[a]? = some x) (l.filter f) actual := by
  have h := filter_positions f l []
  simp only [List.nil_append, List.length_nil] at h
  have e : (List.range' 0 l.length).filter (fun a => (l[a]?).any f) = actual := by
    refine eq_of_sorted (fun a : Nat => a) ?_ ho.order fun a => ?_
    · exact List.Pairwise.filter _ (List.pairwise_lt_range' (s := 0) (n := l.length))
    · rw [List.mem_filter, ho.mem, List.mem_range'_1]
      constructor
      · rintro ⟨-, ha⟩
        rw [Option.any_eq_true] at ha
        obtain ⟨x, hx, hf⟩ := ha
        exact (hp a x hx).1 hf
      · intro ha
        have hl := hlt a ha
        refine ⟨⟨by omega, by omega⟩, ?_⟩
        rw [Option.any_eq_true]
        exact ⟨l[a], List.getElem?_eq_getElem hl, (hp a _ (List.getElem?_eq_getElem hl)).2 ha⟩
  rw [e] at h
  exact h

theorem InScope.lt {recs : List (Rec V)} {P : Nat → V → Bool} {pat : List (Seq Leaf)} {scope : Scope} {a : Nat} (h : InScope P recs pat scope a) : a < recs.length := by
  cases scope with
  | involved => obtain ⟨r, h, -⟩ := h; exact (List.getElem?_eq_some_iff.1 h).1
  | unverified => obtain ⟨r, h, -⟩ := h; exact (List.getElem?_eq_some_iff.1 h).1
  | «using» src => exact InSrc.lt (src := src) h

/-! ## Quantifiers -/

theorem expects_none {q : Quant} : FakeIt.Spec.expects q = none ↔ Refused q := by
  cases q <;> simp [FakeIt.Spec.expects, Refused]
  split <;> simp_all

theorem fulfils_iff {q : Quant} {ex : VerificationType × Int} (h : FakeIt.Spec.expects q = some ex) (n : Nat) : FakeIt.Spec.fulfils ex n = true ↔ Accepts (wanted q) n := by
  cases q <;> simp only [FakeIt.Spec.expects] at h
  case exactly k =>
    split at h
    · cases h
    · cases h
      have : 0 ≤ k := by omega
      simp [FakeIt.Spec.fulfils, wanted, Accepts, this]
  case atLeast k =>
    split at h
    · cases h
    · split at h
      · cases h
        subst_vars
        simp [FakeIt.Spec.fulfils, wanted, Accepts]
      · cases h
        have : ¬ (0 ≤ -k) := by omega
        simp only [FakeIt.Spec.fulfils, wanted, Accepts, if_neg this, decide_eq_true_eq, Int.neg_neg]
  all_goals
    cases h
    simp [FakeIt.Spec.fulfils, wanted, Accepts]

end FakeIt.Checking
