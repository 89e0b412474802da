import Verif.Lemmas.RefineServe
import Verif.Lemmas.RefineOps
/-!
# Verification statements of the library and of the abstract mock
-/
namespace FakeIt
variable {V E : Type} {P : Prog V E} {nm : MockId → Nat → Nat}
open Spec

/-! ## Invocations and recorded calls -/

/-- A recorded invocation and the recorded call that stands for it. -/
structure CR (s : AState V E) (w : World V E) (i : Invocation V) (r : Rec V) : Prop where
  rel : RecRel s.named i r
  rec_ : Recorded w i
  mem : r ∈ s.calls

theorem calls_uniq {s : AState V E} {w : World V E} (h : Rel P s w) {r r' : Rec V} (hr : r ∈ s.calls) (hr' : r' ∈ s.calls) (he : r.number = r'.number) : r = r' := by
  have := h.sorted
  generalize s.calls = l at hr hr' this
  induction l with
  | nil => cases hr
  | cons x l ih =>
    obtain ⟨h1, h2⟩ := List.pairwise_cons.1 this
    rcases List.mem_cons.1 hr with e | hm <;> rcases List.mem_cons.1 hr' with e' | hm'
    · rw [e, e']
    · have := h1 _ hm'; rw [← e] at this; omega
    · have := h1 _ hm; rw [← e'] at this; omega
    · exact ih hm hm' h2

theorem mem_callsOf {calls : List (Rec V)} {m off : Nat} {r : Rec V} : r ∈ callsOf calls m off ↔ r ∈ calls ∧ r.meth = some (m, off) := by
  simp [callsOf]

theorem Rel.call_of {s : AState V E} {w : World V E} (h : Rel P s w) {i : Invocation V} {m off : Nat} (hi : i ∈ history w m off) :
    ∃ r, CR s w i r ∧ r.meth = some (m, off) := by
  obtain ⟨r, hr, R⟩ := (h.hist m off).left hi
  obtain ⟨h1, h2⟩ := mem_callsOf.1 hr
  exact ⟨r, ⟨R, ⟨m, off, hi⟩, h1⟩, h2⟩

theorem Rel.inv_of {s : AState V E} {w : World V E} (h : Rel P s w) {r : Rec V} (hr : r ∈ s.calls) : ∃ i, CR s w i r := by
  obtain ⟨m, off, hm⟩ := h.known r hr
  obtain ⟨i, hi, R⟩ := (h.hist m off).right (mem_callsOf.2 ⟨hr, hm⟩)
  exact ⟨i, R, ⟨m, off, hi⟩, hr⟩

theorem CR.hist {s : AState V E} {w : World V E} (h : Rel P s w) (hw : Recs w) {i : Invocation V} {r : Rec V} (c : CR s w i r) (m off : Nat) :
    i ∈ history w m off ↔ r.meth = some (m, off) := by
  constructor
  · intro hi
    obtain ⟨r', c', hm⟩ := h.call_of hi
    rw [calls_uniq h c.mem c'.mem (by rw [c.rel.number, c'.rel.number])]
    exact hm
  · intro hm
    obtain ⟨i', hi', R⟩ := (h.hist m off).right (mem_callsOf.2 ⟨c.mem, hm⟩)
    rw [hw.uniq c.rec_ ⟨m, off, hi'⟩ (by rw [← c.rel.number, ← R.number])]
    exact hi'

theorem CR.ofMock {s : AState V E} {w : World V E} (h : Rel P s w) (hw : Recs w) {i : Invocation V} {r : Rec V} (c : CR s w i r) (m : Nat) :
    ofMock m r = true ↔ ∃ off, i ∈ history w m off := by
  simp only [c.hist h hw, Spec.ofMock]
  cases hm : r.meth with
  | none => simp
  | some p =>
    obtain ⟨m', off⟩ := p
    simp only [beq_iff_eq, Option.some.injEq, Prod.mk.injEq]
    constructor
    · intro e; exact ⟨off, e, rfl⟩
    · rintro ⟨_, e, _⟩; exact e

theorem history_mock? {w : World V E} (hw : Wf P nm w) {m off : Nat} {i : Invocation V} (hi : i ∈ history w m off) : ∃ k, w.mock? m = some k := by
  obtain ⟨b, hb, -⟩ := mem_history.1 hi
  unfold World.body? at hb
  cases hk : w.mocks[m]? with
  | none => simp [hk] at hb
  | some k =>
    have t := hw.steady.1.1 m k hk
    refine ⟨k, World.mock?_eq_some.2 ⟨hk, ?_⟩⟩
    cases ha : k.alive with
    | true => rfl
    | false =>
      have := t.dead ha
      simp [hk, Mock.body?, this] at hb

theorem CR.recognises {s : AState V E} {w : World V E} (h : Rel P s w) {i : Invocation V} {r : Rec V} (c : CR s w i r) (l : Leaf V) :
    ((l.addr.isSome && r.served == l.addr) || accepts l.kind (valuesOf s.heap r.args)) = true ↔ Recognises l w.heap i := by
  rw [Bool.or_eq_true, Bool.and_eq_true, acceptsB_iff, c.rel.served, c.rel.args, ← h.heap, beq_iff_eq, Recognises, Option.isSome_iff_ne_none]

theorem CR.denotes {s : AState V E} {w : World V E} (h : Rel P s w) (hw : Wf P nm w) {i : Invocation V} {r : Rec V} (c : CR s w i r) (l : Leaf V) :
    denotes P s l r = true ↔ InSource P w (.ctx l) i := by
  unfold Spec.denotes InSource
  cases ha : s.mocks[l.m]? with
  | none =>
    simp only [Bool.false_eq_true, false_iff]
    rintro ⟨k, off, hk, -⟩
    rw [World.mock?, h.mocks.none ha] at hk
    cases hk
  | some a =>
    obtain ⟨k, hk, MR⟩ := h.mocks.get ha
    dsimp only
    rw [methodOf_eq, ← MR.cls]
    have hkk : ∀ k', w.mock? l.m = some k' → k' = k := fun k' hk' => by
      have := (World.mock?_eq_some.1 hk').1
      rw [hk] at this; exact (Option.some.inj this).symm
    cases ho : l.slot.off (P.cls k.cls) with
    | none =>
      simp only [Bool.false_eq_true, false_iff]
      rintro ⟨k', off, hk', ho', -⟩
      rw [hkk k' hk', ho] at ho'; cases ho'
    | some off =>
      dsimp only
      rw [Bool.and_eq_true, c.recognises h, beq_iff_eq, ← c.hist h hw.recs]
      constructor
      · rintro ⟨h1, h2⟩
        obtain ⟨k', hk'⟩ := history_mock? hw h1
        exact ⟨k', off, hk', by rw [hkk k' hk', ho], h1, h2⟩
      · rintro ⟨k', off', hk', ho', h1, h2⟩
        rw [hkk k' hk', ho] at ho'; cases ho'
        exact ⟨h1, h2⟩

theorem CR.inSource {s : AState V E} {w : World V E} (h : Rel P s w) (hw : Wf P nm w) {i : Invocation V} {r : Rec V} (c : CR s w i r) (src : Source V) :
    inSource P s src r = true ↔ InSource P w src i := by
  induction src with
  | empty => simp [Spec.inSource, InSource]
  | mock m => exact c.ofMock h hw.recs m
  | ctx l => exact c.denotes h hw l
  | unverified src ih => simp only [Spec.inSource, InSource, Bool.and_eq_true, ih, c.rel.verified, Bool.not_eq_true']
  | union a b iha ihb => simp only [Spec.inSource, InSource, Bool.or_eq_true, iha, ihb]

theorem CR.inScope {s : AState V E} {w : World V E} (h : Rel P s w) (hw : Wf P nm w) {i : Invocation V} {r : Rec V} (c : CR s w i r)
    (pat : List (Seq (Leaf V))) (scope : Scope V) : inScope P s pat scope r = true ↔ InScope P w pat scope i := by
  have hinv : ((mocksIn pat).any fun m => Spec.ofMock m r) = true ↔ Involved w pat i := by
    simp only [List.any_eq_true, c.ofMock h hw.recs, mocksIn, patternOf, Involved, List.mem_map, List.mem_flatten]
    constructor
    · rintro ⟨m, ⟨l, ⟨e, ⟨sq, hsq, rfl⟩, hl⟩, rfl⟩, off, hi⟩
      exact ⟨sq, hsq, l, hl, off, hi⟩
    · rintro ⟨sq, hsq, l, hl, off, hi⟩
      exact ⟨l.m, ⟨l, ⟨sq.expected, ⟨sq, hsq, rfl⟩, hl⟩, rfl⟩, off, hi⟩
  cases scope with
  | involved => exact hinv
  | using_ src => exact c.inSource h hw src
  | unverified => simp only [Spec.inScope, InScope, Bool.and_eq_true, hinv, c.rel.verified, Bool.not_eq_true']

/-- Sorted lists of invocations and of recorded calls selected by corresponding criteria. -/
theorem Rel.select {s : AState V E} {w : World V E} (h : Rel P s w) {l : List (Invocation V)} (ho : InCallOrder l) (hrec : ∀ i ∈ l, Recorded w i)
    {Q : Invocation V → Prop} (hl : ∀ i, Recorded w i → (i ∈ l ↔ Q i)) {q : Rec V → Bool} (hq : ∀ i r, CR s w i r → (q r = true ↔ Q i)) :
    All2 (CR s w) l (s.calls.filter q) := by
  refine All2.of_sorted (f := Invocation.uid) (g := Rec.number) (fun a b c => c.rel.number.symm) ho (h.sorted.filter _) ?_ ?_
  · intro i hi
    obtain ⟨m, off, hh⟩ := hrec i hi
    obtain ⟨r, c, -⟩ := h.call_of hh
    exact ⟨r, List.mem_filter.2 ⟨c.mem, (hq i r c).2 ((hl i c.rec_).1 hi)⟩, c⟩
  · intro r hr
    obtain ⟨h1, h2⟩ := List.mem_filter.1 hr
    obtain ⟨i, c⟩ := h.inv_of h1
    exact ⟨i, (hl i c.rec_).2 ((hq i r c).1 h2), c⟩

/-! ## Names and live mocks -/

theorem leavesOf_eq (s : Source V) : leavesOf s = s.leaves := by
  induction s with
  | empty => rfl
  | mock m => rfl
  | ctx l => rfl
  | unverified s ih => simp only [leavesOf, Source.leaves, ih]
  | union s t ihs iht => simp only [leavesOf, Source.leaves, ihs, iht]

theorem mocksOf_eq (s : Source V) : mocksOf s = s.mocks := by
  induction s with
  | empty => rfl
  | mock m => rfl
  | ctx l => rfl
  | unverified s ih => simp only [mocksOf, Source.mocks, ih]
  | union s t ihs iht => simp only [mocksOf, Source.mocks, ihs, iht]

theorem allOf_eq (srcs : List (Source V)) : allOf srcs = aggregate srcs := rfl

theorem mentionedBy_eq (scope : Scope V) (pat : List (Seq (Leaf V))) : mentionedBy scope pat = verifyLeaves scope pat := by
  unfold mentionedBy verifyLeaves patternOf
  cases scope <;> simp [leavesOf_eq, List.flatMap]

theorem live_mock? {s : AState V E} {w : World V E} (h : Rel P s w) {ms : List MockId} (hl : live s ms = true) {m : MockId} (hm : m ∈ ms) :
    ∃ k, w.mock? m = some k := by
  have := List.all_eq_true.1 hl m hm
  cases ha : s.mocks[m]? with
  | none => simp [ha] at this
  | some a =>
    obtain ⟨k, hk, MR⟩ := h.mocks.get ha
    simp only [ha] at this
    exact ⟨k, World.mock?_eq_some.2 ⟨hk, by rw [MR.alive, this]⟩⟩

theorem allAlive_of {w : World V E} {ms : List MockId} (h : ∀ m ∈ ms, ∃ k, w.mock? m = some k) : allAlive w ms = true := by
  refine List.all_eq_true.2 fun m hm => ?_
  obtain ⟨k, hk⟩ := h m hm
  rw [hk]; rfl

theorem live_scope {s : AState V E} {w : World V E} (h : Rel P s w) {pat : List (Seq (Leaf V))} (hp : WritablePattern pat) {scope : Scope V}
    (hl : live s (looksAt pat scope) = true) : allAlive w (scope.source pat).mocks = true := by
  refine allAlive_of fun m hm => live_mock? h hl ?_
  have hinv : ∀ m, m ∈ (aggregate ((pat.flatMap (Seq.involved Leaf.m)).map (Source.mock (V := V)))).mocks → m ∈ mocksIn pat := by
    intro m hm
    obtain ⟨src, hsrc, hm⟩ := mocks_aggregate.1 hm
    obtain ⟨m', hm', rfl⟩ := List.mem_map.1 hsrc
    simp only [Source.mocks, List.mem_singleton] at hm
    subst hm
    obtain ⟨sq, hsq, hm'⟩ := List.mem_flatMap.1 hm'
    obtain ⟨l, hl, e⟩ := (mem_involved (hp.2 sq hsq)).1 hm'
    exact List.mem_map.2 ⟨l, List.mem_flatten.2 ⟨sq.expected, List.mem_map.2 ⟨sq, hsq, rfl⟩, hl⟩, e⟩
  cases scope with
  | involved => exact hinv m hm
  | using_ src => simp only [looksAt]; rw [mocksOf_eq]; exact hm
  | unverified => exact hinv m hm

/-! ## Marking -/

theorem markBody_rel {b : Option (MBody V E)} {l : Option (List (Stub V E))} (h : BRel b l) (f : MBody V E → MBody V E)
    (hf : ∀ b, (f b).handlers = b.handlers) : BRel (b.map f) l := by
  cases b with
  | none => exact h
  | some b =>
    cases l with
    | none => exact h
    | some l => simp only [Option.map_some, BRel, hf]; exact h

theorem mark_refines {s : AState V E} {w : World V E} (h : Rel P s w) (numbers : List Nat) :
    Rel P { s with calls := s.calls.map (marked numbers) } (w.mark numbers) := by
  have hmeth : ∀ r : Rec V, (marked numbers r).meth = r.meth := fun r => by unfold marked; split <;> rfl
  have hnum : ∀ r : Rec V, (marked numbers r).number = r.number := fun r => by unfold marked; split <;> rfl
  refine ⟨⟨by rw [← h.mocks.len]; simp [World.mark], ?_⟩, fun m off => ?_, ?_, ?_, ?_, h.heap, h.made, h.named, h.alloc, ?_, h.log⟩
  · intro m k' a hk' ha
    rw [World.mocks_mark] at hk'
    obtain ⟨k, hk, rfl⟩ := Option.map_eq_some_iff.1 hk'
    have MR := h.mocks.mock m k a hk ha
    refine ⟨MR.cls, MR.owner, MR.alive, MR.data, fun off => ?_, fun hr off hoff => ?_, MR.reset, MR.del⟩
    · have : (k.mark numbers).body? off = (k.body? off).map fun b => { b with invs := b.invs.map (markIf numbers) } := by
        simp only [Mock.mark, Mock.body?, List.getElem?_map]
        cases k.mocks[off]? with
        | none => rfl
        | some x => cases x <;> rfl
      rw [this]
      exact markBody_rel (MR.body off) _ fun _ => rfl
    · refine MR.fresh hr off ?_
      simp only [Mock.mark, List.getElem?_map] at hoff
      cases hx : k.mocks[off]? with
      | none => rw [hx] at hoff; cases hoff
      | some x =>
        rw [hx] at hoff
        cases x with
        | none => rfl
        | some b => cases hoff
  · rw [history_mark]
    have : callsOf (s.calls.map (marked numbers)) m off = (callsOf s.calls m off).map (marked numbers) := by
      unfold callsOf
      rw [List.filter_map]
      congr 1
      refine List.filter_congr fun r _ => ?_
      simp [hmeth]
    dsimp only
    rw [this]
    refine All2.map (fun i r R => ?_) (h.hist m off)
    unfold markIf marked
    have hn : numbers.contains r.number = numbers.contains i.uid := by rw [R.number]
    cases hc : numbers.contains i.uid with
    | true => rw [if_pos rfl, if_pos (hn.trans hc)]; exact ⟨R.number, R.args, R.served, rfl, R.meth⟩
    | false => rw [if_neg (by simp), if_neg (by rw [hn, hc]; simp)]; exact R
  · intro r hr
    obtain ⟨r', hr', rfl⟩ := List.mem_map.1 hr
    rw [hmeth]; exact h.known r' hr'
  · refine List.pairwise_map.2 (h.sorted.imp fun hlt => ?_)
    rw [hnum, hnum]; exact hlt
  · intro r hr
    obtain ⟨r', hr', rfl⟩ := List.mem_map.1 hr
    rw [hnum]; exact h.bound r' hr'
  · intro m off b hb
    rw [World.body?_mark] at hb
    obtain ⟨b', hb', rfl⟩ := Option.map_eq_some_iff.1 hb
    exact h.meths m off b' hb'

theorem fire_refines {s : AState V E} {w : World V E} (h : Rel P s w) {e : Event V} {r : Report V} (he : EvRel s.named e r) :
    Rel P { s with log := s.log ++ [r] } (w.fire e) :=
  ⟨h.mocks, h.hist, h.known, h.sorted, h.bound, h.heap, h.made, h.named, h.alloc, h.meths, h.log.append (.cons he .nil)⟩

/-! ## Quantifiers -/

theorem expects_none {q : Quant} (h : expects q = none) : Expectation.init.quant q = none := by
  refine quant_none fun hl => ?_
  cases q with
  | exactly n =>
    simp only [LegalQuant] at hl
    simp only [expects] at h
    rw [if_neg (by omega)] at h; cases h
  | atLeast n =>
    simp only [LegalQuant] at hl
    simp only [expects] at h
    rw [if_neg (by omega)] at h
    split at h <;> cases h
  | _ => cases h

theorem expects_some {q : Quant} {ex : VerificationType × Int} (h : expects q = some ex) : ∃ e, Expectation.init.quant q = some e ∧ e.isVerified = false ∧
    ∀ (c : Nat) (seq : List (Invocation V)), e.judge c seq = if fulfils ex c then none else some (.sequence ex.1 ex.2 c seq) := by
  have hx : ∀ n : Int, 0 ≤ n → ∀ (c : Nat) (seq : List (Invocation V)),
      Expectation.judge ⟨n, false, false⟩ c seq = if fulfils (.exact, n) c then none else some (.sequence .exact n c seq) := by
    intro n hn c seq
    have hf : fulfils (.exact, n) c = decide ((c : Int) = n) := rfl
    rw [hf]
    simp only [Expectation.judge]
    by_cases hc : (c : Int) = n
    · rw [if_neg (by simp; omega), if_neg (by simp; omega), if_pos (by simpa using hc)]
    · rw [if_neg (by simp; omega), if_pos (by simp; omega), if_neg (by simpa using hc)]
  have hl : ∀ n : Int, 0 < n → ∀ (c : Nat) (seq : List (Invocation V)),
      Expectation.judge ⟨-n, false, false⟩ c seq = if fulfils (.atLeast, n) c then none else some (.sequence .atLeast n c seq) := by
    intro n hn c seq
    have hf : fulfils (.atLeast, n) c = decide (n ≤ (c : Int)) := rfl
    rw [hf]
    simp only [Expectation.judge]
    by_cases hc : n ≤ (c : Int)
    · rw [if_neg (by simp; omega), if_neg (by simp; omega), if_pos (by simpa using hc)]
    · rw [if_pos (by simp; omega), if_neg (by simpa using hc)]; simp
  cases q with
  | dflt => cases h; exact ⟨_, rfl, rfl, hl 1 (by omega)⟩
  | atLeastOnce => cases h; exact ⟨_, rfl, rfl, hl 1 (by omega)⟩
  | any => cases h; exact ⟨_, rfl, rfl, fun c seq => by simp [Expectation.judge, fulfils]⟩
  | never => cases h; exact ⟨_, rfl, rfl, hx 0 (by omega)⟩
  | once => cases h; exact ⟨_, rfl, rfl, hx 1 (by omega)⟩
  | twice => cases h; exact ⟨_, rfl, rfl, hx 2 (by omega)⟩
  | exactly n =>
    simp only [expects] at h
    split at h
    · cases h
    · rename_i hn
      cases h
      exact ⟨⟨n, false, false⟩, by simp [Expectation.quant, Expectation.exactly, Expectation.init, hn], rfl, hx n (by omega)⟩
  | atLeast n =>
    simp only [expects] at h
    split at h
    · cases h
    · rename_i hn
      split at h
      · rename_i h0
        subst h0
        cases h
        exact ⟨⟨0, false, false⟩, by simp [Expectation.quant, Expectation.atLeast, Expectation.init], rfl, hx 0 (by omega)⟩
      · cases h
        exact ⟨⟨-n, false, false⟩, by simp [Expectation.quant, Expectation.atLeast, Expectation.init, hn], rfl, hl n (by omega)⟩

/-! ## Statements -/

theorem analyse_refines {s : AState V E} {w : World V E} (hw : Wf P nm w) (h : Rel P s w) (hm : s.made < wrap32) (hn : s.named.length < wrap32)
    {pat : List (Seq (Leaf V))} (hp : WritablePattern pat) {scope : Scope V} (ha : allAlive w (scope.source pat).mocks = true) :
    ∃ actual c matched, analyse P w scope pat = .done (actual, c, matched) ∧
      All2 (CR s w) actual (s.calls.filter (inScope P s pat scope)) ∧
      c = (findAll (denotes P s) (patternOf pat) ((s.calls.filter (inScope P s pat scope)).length + 1) (s.calls.filter (inScope P s pat scope))).1 ∧
      All2 (CR s w) matched
        (findAll (denotes P s) (patternOf pat) ((s.calls.filter (inScope P s pat scope)).length + 1) (s.calls.filter (inScope P s pat scope))).2 := by
  have ha' := aliveS_of ha
  obtain ⟨h1, h2⟩ := actual_spec (P := P) hw.recs (by rw [h.made]; exact hm) (scope.source pat) ha'
  have hrec : ∀ i ∈ sortByOrder ((scope.source pat).collect P w []), Recorded w i := fun i hi => inSource_recorded ((h2 i).1 hi)
  have hsel := h.select h1 hrec (Q := fun i => InScope P w pat scope i) (fun i _ => (h2 i).trans (inSource_scope hp scope))
    (fun i r c => c.inScope h hw pat scope)
  have hne : ∀ sq ∈ pat, sq.expected ≠ [] := fun sq hs => (hp.2 sq hs).expected_ne_nil
  have hfa := MatchAnalysis.countMatches_find (mt := leafMatches P w) (sortByOrder ((scope.source pat).collect P w [])) pat hne hp.1
  have hmt : ∀ i r, CR s w i r → ∀ l, leafMatches P w l i = denotes P s l r := by
    intro i r c l
    rw [Bool.eq_iff_iff, leafMatches_iff hw.recs (by rw [h.named]; exact hn) c.rec_, c.denotes h hw]
    rfl
  have hall := findAll_all2 hmt (patternOf pat) ((sortByOrder ((scope.source pat).collect P w [])).length + 1) hsel
  rw [hsel.length] at hall hfa
  refine ⟨_, _, _, ?_, hsel, hall.1, hall.2⟩
  simp only [analyse, hfa, R.bind_done]
  rfl

theorem verify_refines {s s' : AState V E} {w : World V E} (hw : Wf P nm w) (h : Rel P s w) {scope : Scope V} {pat : List (Seq (Leaf V))} {q : Quant}
    {mode : VMode} {o : ApiOut} (hp : WritablePattern pat) (hnm : ∀ l ∈ verifyLeaves scope pat, SlotRef.Named nm l.m l.slot)
    (hs : aVerify P s scope pat q mode = some (s', o)) (hm : s'.made < wrap32) (hn : s'.named.length < wrap32) :
    ∃ w', verifyStmt P w scope pat q mode = .done (w', o) ∧ Rel P s' w' := by
  simp only [aVerify, Option.bind_eq_bind, Option.bind_eq_some_iff] at hs
  obtain ⟨⟨s1, ok⟩, h1, h2⟩ := hs
  rw [mentionedBy_eq] at h1
  have hnm' : ∀ x ∈ (verifyLeaves scope pat).map (fun l => (l.m, l.slot)), SlotRef.Named nm x.1 x.2 := by
    intro x hx
    obtain ⟨l, hl, rfl⟩ := List.mem_map.1 hx
    exact hnm l hl
  have hkeep : s'.named = s1.named ∧ s'.made = s1.made := by
    cases ok <;> dsimp only at h2
    · cases h2; exact ⟨rfl, rfl⟩
    · repeat' (first | (dsimp only at h2; split at h2) | split at h2)
      all_goals first | (cases h2; done) | (cases h2; exact ⟨rfl, rfl⟩)
  rw [hkeep.2] at hm
  rw [hkeep.1] at hn
  obtain ⟨w1, ht, hR1, hw1⟩ := touchAll_refines hw h _ hnm' h1 hn
  unfold verifyStmt
  rw [ht]
  simp only [R.bind_done]
  cases ok with
  | false => cases h2; exact ⟨w1, rfl, hR1⟩
  | true =>
    dsimp only at h2 ⊢
    split at h2
    · rename_i hlive
      have hal := live_scope hR1 hp hlive
      simp only [hal, Bool.not_true, Bool.false_eq_true, if_false]
      cases hq : expects q with
      | none =>
        rw [hq] at h2
        cases h2
        rw [expects_none hq]
        exact ⟨w1, rfl, hR1⟩
      | some ex =>
        rw [hq] at h2
        dsimp only at h2
        obtain ⟨e, he, hev, hj⟩ := expects_some (V := V) hq
        rw [he]
        dsimp only
        obtain ⟨actual, c, matched, ha, hact, hc, hmat⟩ := analyse_refines hw1 hR1 hm hn hp hal
        have hvx : verifyExpectation P w1 scope pat e = .done (if fulfils ex c then ({ e with isVerified := true }, w1.mark (matched.map (·.uid)), none)
            else ({ e with isVerified := true }, w1, some (.sequence ex.1 ex.2 c actual))) := by
          simp only [verifyExpectation, hev, Bool.false_eq_true, if_false, ha, R.bind_done, hj]
          cases fulfils ex c <;> rfl
        have hnumbers : matched.map (·.uid) = ((findAll (denotes P s1) (patternOf pat) ((s1.calls.filter (inScope P s1 pat scope)).length + 1)
            (s1.calls.filter (inScope P s1 pat scope))).2).map Rec.number := All2.map_eq (fun i r c => c.rel.number.symm) hmat
        rw [hnumbers, hc] at hvx
        have hev' : EvRel s1.named (.sequence ex.1 ex.2 c actual) (.mismatch ex.1 ex.2 c (s1.calls.filter (inScope P s1 pat scope))) :=
          .mismatch (hact.mono fun _ _ c => c.rel)
        rw [hc] at hev'
        cases mode with
        | stmt b =>
          cases b with
          | true => rw [if_pos rfl] at h2; cases h2; exact ⟨w1, rfl, hR1⟩
          | false =>
            rw [if_neg (by intro h; cases h)] at h2
            simp only [hvx, R.bind_done]
            split at h2
            · rename_i hf
              cases h2
              rw [if_pos hf]
              exact ⟨_, rfl, mark_refines hR1 _⟩
            · rename_i hf
              rw [if_neg (by intro h; cases h)] at h2
              cases h2
              rw [if_neg hf]
              exact ⟨_, rfl, fire_refines hR1 hev'⟩
        | asBool =>
          rw [if_neg (by intro h; cases h)] at h2
          simp only [hvx, R.bind_done]
          split at h2
          · rename_i hf
            cases h2
            rw [if_pos hf]
            exact ⟨_, rfl, mark_refines hR1 _⟩
          · rename_i hf
            rw [if_pos rfl] at h2
            cases h2
            rw [if_neg hf]
            exact ⟨_, rfl, hR1⟩
    · cases h2

theorem noOther_refines {s s' : AState V E} {w : World V E} (hw : Wf P nm w) (h : Rel P s w) {srcs : List (Source V)} {mode : VMode} {o : ApiOut}
    (hnm : ∀ l ∈ (aggregate srcs).leaves, SlotRef.Named nm l.m l.slot)
    (hs : aNoOther P s srcs mode = some (s', o)) (hm : s'.made < wrap32) (hn : s'.named.length < wrap32) :
    ∃ w', noOtherStmt P w srcs mode = .done (w', o) ∧ Rel P s' w' := by
  simp only [aNoOther, Option.bind_eq_bind, Option.bind_eq_some_iff] at hs
  obtain ⟨⟨s1, ok⟩, h1, h2⟩ := hs
  rw [allOf_eq, leavesOf_eq] at h1
  have hnm' : ∀ x ∈ ((aggregate srcs).leaves).map (fun l => (l.m, l.slot)), SlotRef.Named nm x.1 x.2 := by
    intro x hx
    obtain ⟨l, hl, rfl⟩ := List.mem_map.1 hx
    exact hnm l hl
  have hkeep : s'.named = s1.named ∧ s'.made = s1.made := by
    cases ok <;> dsimp only at h2
    · cases h2; exact ⟨rfl, rfl⟩
    · repeat' (first | (dsimp only at h2; split at h2) | split at h2)
      all_goals first | (cases h2; done) | (cases h2; exact ⟨rfl, rfl⟩)
  rw [hkeep.2] at hm
  rw [hkeep.1] at hn
  obtain ⟨w1, ht, hR1, hw1⟩ := touchAll_refines hw h _ hnm' h1 hn
  unfold noOtherStmt
  rw [ht]
  simp only [R.bind_done]
  cases ok with
  | false => cases h2; exact ⟨w1, rfl, hR1⟩
  | true =>
    dsimp only at h2 ⊢
    split at h2
    · rename_i hlive
      rw [allOf_eq, mocksOf_eq] at hlive
      have hal : allAlive w1 (aggregate srcs).mocks = true := allAlive_of fun m hm => live_mock? hR1 hlive hm
      simp only [hal, Bool.not_true, Bool.false_eq_true, if_false]
      have hlt : w1.invTotal < wrap32 := by rw [hR1.made]; exact hm
      obtain ⟨c1, c2⟩ := collect_spec (P := P) hw1.recs (aggregate srcs) (aliveS_of hal) [] (by intro i hi; cases hi)
      have hcol : ∀ i, i ∈ (aggregate srcs).collect P w1 [] ↔ InSource P w1 (aggregate srcs) i := fun i => by rw [c1]; simp
      have hall : AllRec w1 ((aggregate srcs).collect P w1 []) := fun i hi => c2 i ((hcol i).1 hi)
      obtain ⟨a1, a2⟩ := sort_recorded hw1.recs hlt hall
      have hallu : AllRec w1 (((aggregate srcs).collect P w1 []).filter fun i => !i.verified) := fun i hi => hall i (List.mem_filter.1 hi).1
      obtain ⟨u1, u2⟩ := sort_recorded hw1.recs hlt hallu
      have sel1 := hR1.select a1 (fun i hi => hall i ((a2 i).1 hi)) (Q := InSource P w1 (aggregate srcs)) (fun i _ => (a2 i).trans (hcol i))
        (fun i r c => c.inSource hR1 hw1 (aggregate srcs))
      have sel2 := hR1.select u1 (fun i hi => hallu i ((u2 i).1 hi)) (Q := fun i => InSource P w1 (aggregate srcs) i ∧ i.verified = false)
        (fun i _ => by rw [u2, List.mem_filter, hcol]; simp) (q := fun r => !r.verified && inSource P s1 (aggregate srcs) r)
        (fun i r c => by rw [Bool.and_eq_true, c.inSource hR1 hw1 (aggregate srcs), c.rel.verified]; simp [and_comm])
      rw [← List.filter_filter] at sel2
      have hempty : ((s1.calls.filter (inSource P s1 (allOf srcs))).filter fun r => !r.verified).isEmpty = true ↔
          ¬ (((aggregate srcs).collect P w1 []).filter fun i => !i.verified).length > 0 := by
        have : ∀ l : List (Invocation V), ¬ l.length > 0 ↔ l = [] := by intro l; cases l <;> simp
        rw [this, List.isEmpty_iff]
        constructor
        · intro he
          rw [allOf_eq] at he
          rw [he] at sel2
          have := sel2.length
          rw [List.length_nil, List.length_eq_zero_iff] at this
          rw [List.eq_nil_iff_forall_not_mem] at this ⊢
          exact fun i hi => this i ((u2 i).2 hi)
        · intro he
          rw [he] at sel2
          have := sel2.length
          rw [allOf_eq, ← List.length_eq_zero_iff, ← this]
          rfl
      have hev' : EvRel s1.named (.noMoreInvocations (sortByOrder ((aggregate srcs).collect P w1 []))
          (sortByOrder (((aggregate srcs).collect P w1 []).filter fun i => !i.verified)))
          (.others (s1.calls.filter (inSource P s1 (allOf srcs))) ((s1.calls.filter (inSource P s1 (allOf srcs))).filter fun r => !r.verified)) :=
        .others (sel1.mono fun _ _ c => c.rel) (sel2.mono fun _ _ c => c.rel)
      by_cases hlen : (((aggregate srcs).collect P w1 []).filter fun i => !i.verified).length > 0
      · have hno : noOther P w1 srcs = some (.noMoreInvocations (sortByOrder ((aggregate srcs).collect P w1 []))
            (sortByOrder (((aggregate srcs).collect P w1 []).filter fun i => !i.verified))) := by
          unfold noOther; exact if_pos hlen
        rw [if_neg (c := List.isEmpty _ = true) (by rw [hempty]; exact fun hx => hx hlen)] at h2
        cases mode with
        | stmt b =>
          cases b with
          | true => rw [if_pos rfl] at h2; cases h2; exact ⟨w1, rfl, hR1⟩
          | false =>
            rw [if_neg (by intro h; cases h), if_neg (by intro h; cases h)] at h2
            cases h2
            simp only [hno]
            exact ⟨_, rfl, fire_refines hR1 hev'⟩
        | asBool =>
          rw [if_neg (by intro h; cases h), if_pos rfl] at h2
          cases h2
          simp only [hno]
          exact ⟨_, rfl, hR1⟩
      · have hno : noOther P w1 srcs = none := by unfold noOther; exact if_neg hlen
        rw [if_pos (c := List.isEmpty _ = true) (hempty.2 hlen)] at h2
        cases mode with
        | stmt b =>
          cases b with
          | true => rw [if_pos rfl] at h2; cases h2; exact ⟨w1, rfl, hR1⟩
          | false =>
            rw [if_neg (by intro h; cases h)] at h2
            cases h2
            simp only [hno]
            exact ⟨_, rfl, hR1⟩
        | asBool =>
          rw [if_neg (by intro h; cases h)] at h2
          cases h2
          simp only [hno]
          exact ⟨_, rfl, hR1⟩
    · cases h2

end FakeIt
