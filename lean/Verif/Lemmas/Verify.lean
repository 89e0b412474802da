import Verif.Lemmas.Source
import Verif.Lemmas.Log
import Verif.Lemmas.SingleMatch
import Verif.Spec.Verify
/-!
# Verification statements
-/
namespace FakeIt
variable {V E : Type} {P : Prog V E} {nm : MockId → Nat → Nat}
open Spec

/-! ## Worlds with the same calls -/

/-- Same histories, same variables, same mocks. -/
structure SameCalls (w w' : World V E) : Prop where
  hist : ∀ m off, history w' m off = history w m off
  heap : w'.heap = w.heap
  cls : ∀ m, (w'.mock? m).map (·.cls) = (w.mock? m).map (·.cls)

theorem SameCalls.refl (w : World V E) : SameCalls w w := ⟨fun _ _ => rfl, rfl, fun _ => rfl⟩

theorem SameCalls.trans {a b c : World V E} (h1 : SameCalls a b) (h2 : SameCalls b c) : SameCalls a c :=
  ⟨fun m off => (h2.hist m off).trans (h1.hist m off), h2.heap.trans h1.heap, fun m => (h2.cls m).trans (h1.cls m)⟩

theorem inSource_ctx_iff {w : World V E} {l : Leaf V} {i : Invocation V} : InSource P w (.ctx l) i ↔
    ∃ c off, (w.mock? l.m).map (·.cls) = some c ∧ l.slot.off (P.cls c) = some off ∧ i ∈ history w l.m off ∧ Recognises l w.heap i := by
  constructor
  · rintro ⟨k, off, hk, h⟩
    exact ⟨k.cls, off, by simp [hk], h⟩
  · rintro ⟨c, off, hc, h⟩
    obtain ⟨k, hk, rfl⟩ := Option.map_eq_some_iff.1 hc
    exact ⟨k, off, hk, h⟩

theorem SameCalls.inSource {w w' : World V E} (h : SameCalls w w') (s : Source V) (i : Invocation V) : InSource P w' s i ↔ InSource P w s i := by
  induction s with
  | empty => exact Iff.rfl
  | mock m => simp only [InSource, h.hist]
  | ctx l => rw [inSource_ctx_iff, inSource_ctx_iff]; simp only [h.hist, h.heap, h.cls]
  | unverified s ih => simp only [InSource, ih]
  | union s t ihs iht => simp only [InSource, ihs, iht]

theorem SameCalls.involved {w w' : World V E} (h : SameCalls w w') (pat : List (Seq (Leaf V))) (i : Invocation V) : Involved w' pat i ↔ Involved w pat i := by
  simp only [Involved, h.hist]

theorem SameCalls.inScope {w w' : World V E} (h : SameCalls w w') (scope : Scope V) (pat : List (Seq (Leaf V))) (i : Invocation V) :
    InScope P w' pat scope i ↔ InScope P w pat scope i := by
  cases scope with
  | involved => exact h.involved pat i
  | using_ s => exact h.inSource s i
  | unverified => simp only [InScope, h.involved]

theorem SameCalls.denotes {w w' : World V E} (h : SameCalls w w') : Denotes P w' = Denotes P w := by
  funext l i; exact propext (h.inSource (.ctx l) i)

theorem SameCalls.isActual {w w' : World V E} (h : SameCalls w w') {scope : Scope V} {pat : List (Seq (Leaf V))} {actual : List (Invocation V)} :
    IsActual P w' scope pat actual ↔ IsActual P w scope pat actual :=
  ⟨fun g => ⟨g.order, fun i => (g.mem i).trans (h.inScope scope pat i)⟩, fun g => ⟨g.order, fun i => (g.mem i).trans (h.inScope scope pat i).symm⟩⟩

theorem SameCalls.matchCount {w w' : World V E} (h : SameCalls w w') {scope : Scope V} {pat : List (Seq (Leaf V))} {n : Nat} :
    MatchCount P w' scope pat n ↔ MatchCount P w scope pat n := by
  simp only [MatchCount, h.isActual, h.denotes]

/-! ## Mentioning methods -/

theorem mock?_updMock_cls (w : World V E) (m m' : MockId) (f : Mock V E → Mock V E) (hf : ∀ k, (f k).cls = k.cls ∧ (f k).alive = k.alive) :
    ((w.updMock m f).mock? m').map (·.cls) = (w.mock? m').map (·.cls) := by
  simp only [World.mock?, World.mocks_updMock]
  by_cases hm : m = m'
  · subst hm
    rw [if_pos rfl]
    cases w.mocks[m]? with
    | none => rfl
    | some k =>
      simp only [Option.map_some, (hf k).2]
      split
      · simp [(hf k).1]
      · rfl
  · rw [if_neg hm]

theorem touch_same {w w' : World V E} {m : MockId} {slot : SlotRef} (h : touch P w m slot = .done (some w')) : SameCalls w w' := by
  unfold touch at h
  split at h
  · simp at h
  · rename_i k hk
    have hk' := (World.mock?_eq_some.1 hk).1
    split at h
    · split at h
      · simp at h
      · simp at h; subst h; exact .refl w
      · rename_i off ctr _ hn
        simp only [R.done.injEq, Option.some.injEq] at h
        subst h
        refine ⟨fun m' off' => ?_, rfl, fun m' => mock?_updMock_cls w m m' _ fun k => ⟨rfl, rfl⟩⟩
        have := body?_bindAt w m k off ctr hk' hn m' off'
        unfold history
        rw [show World.body? { w.updMock m (·.bind off ctr (newBody w.methTotal)) with methTotal := w.methTotal + 1 } m' off' = _ from this]
        split
        · rename_i he
          split at he
          · simp at he
          · rw [he]
        · rename_i b he
          split at he
          · rename_i hmo
            simp only [Option.some.injEq] at he
            rw [← hmo.1, ← hmo.2, body?_none_of hk' hn, ← he]; rfl
          · rw [he]
    · split at h
      · simp at h
      · rename_i d hd
        split at h
        · split at h
          · simp at h
          · simp at h; subst h; exact .refl w
          · rename_i hlt hn
            simp only [R.done.injEq, Option.some.injEq] at h
            subst h
            refine ⟨fun m' off' => ?_, rfl, fun m' => mock?_updMock_cls w m m' _ fun k => ⟨rfl, rfl⟩⟩
            have := body?_bindDtorAt w m k d hk' hn m' off'
            unfold history
            rw [show World.body? { w.updMock m (·.bindDtor d (newBody w.methTotal)) with methTotal := w.methTotal + 1 } m' off' = _ from this]
            split
            · rename_i he
              split at he
              · simp at he
              · rw [he]
            · rename_i b he
              split at he
              · rename_i hmo
                simp only [Option.some.injEq] at he
                rw [← hmo.1, ← hmo.2, body?_none_of hk' hn, ← he]; rfl
              · rw [he]
        · simp at h

theorem touchAll_same {w w' : World V E} {ok : Bool} (l : List (MockId × SlotRef)) (h : touchAll P w l = .done (w', ok)) : SameCalls w w' := by
  induction l generalizing w with
  | nil => simp [touchAll] at h; rw [h.1]; exact .refl _
  | cons x l ih =>
    simp only [touchAll, R.bind_eq_done] at h
    obtain ⟨r, h1, h2⟩ := h
    cases r with
    | none => simp at h2; rw [h2.1]; exact .refl _
    | some w1 => exact (touch_same h1).trans (ih h2)

/-! ## The involved mocks -/

theorem mem_involved {s : Seq (Leaf V)} (hs : Writable s) {m : MockId} : m ∈ s.involved Leaf.m ↔ ∃ l ∈ s.expected, l.m = m := by
  induction hs with
  | method l => simp [Seq.involved, Seq.expected, eq_comm]
  | plus h1 h2 i1 i2 =>
    simp only [Seq.opPlus, Seq.involved, Seq.expected, List.mem_append, i1, i2]
    constructor
    · rintro (⟨l, h, e⟩ | ⟨l, h, e⟩)
      · exact ⟨l, .inl h, e⟩
      · exact ⟨l, .inr h, e⟩
    · rintro ⟨l, h | h, e⟩
      · exact .inl ⟨l, h, e⟩
      · exact .inr ⟨l, h, e⟩
  | @star s r n h1 h2 ih =>
    simp only [Seq.opStar] at h2
    split at h2
    · simp at h2
    · simp only [Option.some.injEq] at h2
      subst h2
      simp only [Seq.involved, Seq.expected, ih]
      obtain ⟨k, hk⟩ : ∃ k, n.toNat = k + 1 := ⟨n.toNat - 1, by omega⟩
      constructor
      · rintro ⟨l, h, e⟩
        exact ⟨l, by rw [hk, List.replicate_succ]; simp [h], e⟩
      · rintro ⟨l, h, e⟩
        rw [List.mem_flatten] at h
        obtain ⟨x, hx, hl⟩ := h
        rw [List.eq_of_mem_replicate hx] at hl
        exact ⟨l, hl, e⟩

theorem inSource_involved {w : World V E} {pat : List (Seq (Leaf V))} (hp : WritablePattern pat) {i : Invocation V} :
    InSource P w (aggregate ((pat.flatMap (Seq.involved Leaf.m)).map Source.mock)) i ↔ Involved w pat i := by
  rw [inSource_aggregate]
  constructor
  · rintro ⟨s, hs, hi⟩
    obtain ⟨m, hm, rfl⟩ := List.mem_map.1 hs
    obtain ⟨s, hsp, hm⟩ := List.mem_flatMap.1 hm
    obtain ⟨l, hl, rfl⟩ := (mem_involved (hp.2 s hsp)).1 hm
    exact ⟨s, hsp, l, hl, hi⟩
  · rintro ⟨s, hs, l, hl, hi⟩
    exact ⟨.mock l.m, List.mem_map.2 ⟨l.m, List.mem_flatMap.2 ⟨s, hs, (mem_involved (hp.2 s hs)).2 ⟨l, hl, rfl⟩⟩, rfl⟩, hi⟩

theorem inSource_scope {w : World V E} {pat : List (Seq (Leaf V))} (hp : WritablePattern pat) (scope : Scope V) {i : Invocation V} :
    InSource P w (scope.source pat) i ↔ InScope P w pat scope i := by
  cases scope with
  | involved => exact inSource_involved hp
  | using_ s => exact Iff.rfl
  | unverified => simp only [Scope.source, InSource, InScope, inSource_involved hp]

/-! ## The analysis -/

theorem leafMatches_iff {w : World V E} (h : Recs w) (hlt : w.methTotal < wrap32) {l : Leaf V} {i : Invocation V} (hi : Recorded w i) :
    leafMatches P w l i = true ↔ Denotes P w l i := by
  unfold leafMatches Denotes InSource
  cases hk : w.mock? l.m with
  | none => simp
  | some k =>
    dsimp only
    cases hoff : l.slot.off (P.cls k.cls) with
    | none =>
      simp only [Bool.false_eq_true, false_iff, Option.some.injEq]
      rintro ⟨k', off, rfl, hoff', -⟩
      rw [hoff] at hoff'; cases hoff'
    | some off =>
      dsimp only
      cases hb : k.body? off with
      | none =>
        simp only [Bool.false_eq_true, false_iff, Option.some.injEq]
        rintro ⟨k', off', rfl, hoff', hm, -⟩
        rw [hoff] at hoff'; cases hoff'
        obtain ⟨b, hb', -⟩ := mem_history.1 hm
        rw [mock?_body hk, hb] at hb'; cases hb'
      | some b =>
        have hbw : w.body? l.m off = some b := by rw [mock?_body hk]; exact hb
        simp only [Bool.and_eq_true, beq_iff_eq, recognises_iff]
        constructor
        · rintro ⟨h1, h2⟩
          refine ⟨k, off, rfl, hoff, ?_, h2⟩
          obtain ⟨m', off', hi⟩ := hi
          obtain ⟨b', hb', hi'⟩ := mem_history.1 hi
          have := (h.ok m' off' b' hb' i hi').2.2.2.1
          obtain ⟨rfl, rfl⟩ := h.mcross hlt _ _ _ _ _ _ hb' hbw (by rw [← this, h1])
          exact hi
        · rintro ⟨k', off', hk', hoff', hm, h2⟩
          cases hk'
          rw [hoff] at hoff'; cases hoff'
          obtain ⟨b', hb', hi'⟩ := mem_history.1 hm
          rw [hbw] at hb'; cases hb'
          exact ⟨(h.ok _ _ _ hbw i hi').2.2.2.1, h2⟩

section Congr
variable {L I J : Type} {mt : L → I → Prop} {mt' : L → J → Prop} {actual : List I} (f : I → J)

theorem blockAt_map (h : ∀ l, ∀ i ∈ actual, mt' l (f i) ↔ mt l i) {e : List L} {i : Nat} :
    BlockAt mt' (actual.map f) e i ↔ BlockAt mt actual e i := by
  constructor
  · intro hb j l hj
    obtain ⟨a, ha, hm⟩ := hb j l hj
    rw [List.getElem?_map, Option.map_eq_some_iff] at ha
    obtain ⟨x, hx, rfl⟩ := ha
    exact ⟨x, hx, (h l x (List.mem_of_getElem? hx)).1 hm⟩
  · intro hb j l hj
    obtain ⟨a, ha, hm⟩ := hb j l hj
    exact ⟨f a, by rw [List.getElem?_map, ha]; rfl, (h l a (List.mem_of_getElem? ha)).2 hm⟩

theorem patAt_map (h : ∀ l, ∀ i ∈ actual, mt' l (f i) ↔ mt l i) {pat : List (List L)} {start stop : Nat} {idx : List Nat} :
    PatAt mt' (actual.map f) pat start stop idx ↔ PatAt mt actual pat start stop idx := by
  constructor
  · intro hp
    induction hp with
    | nil i => exact .nil i
    | cons h1 h2 _ ih => exact .cons h1 ((blockAt_map f h).1 h2) ih
  · intro hp
    induction hp with
    | nil i => exact .nil i
    | cons h1 h2 _ ih => exact .cons h1 ((blockAt_map f h).2 h2) ih

theorem occurs_map (h : ∀ l, ∀ i ∈ actual, mt' l (f i) ↔ mt l i) {pat : List (List L)} {k start stop : Nat} {idx : List Nat} :
    Occurs mt' (actual.map f) pat k start stop idx ↔ Occurs mt actual pat k start stop idx := by
  constructor
  · intro hp
    induction hp with
    | zero i => exact .zero i
    | succ h1 _ ih => exact .succ ((patAt_map f h).1 h1) ih
  · intro hp
    induction hp with
    | zero i => exact .zero i
    | succ h1 _ ih => exact .succ ((patAt_map f h).2 h1) ih

theorem isMaxCount_map (h : ∀ l, ∀ i ∈ actual, mt' l (f i) ↔ mt l i) {pat : List (List L)} {k : Nat} :
    IsMaxCount mt' (actual.map f) pat k ↔ IsMaxCount mt actual pat k := by
  simp only [IsMaxCount, occurs_map f h]
end Congr

theorem occurs_congr {L I : Type} {mt mt' : L → I → Prop} {actual : List I} (h : ∀ l, ∀ i ∈ actual, mt' l i ↔ mt l i) {pat : List (List L)} {k start stop : Nat}
    {idx : List Nat} : Occurs mt' actual pat k start stop idx ↔ Occurs mt actual pat k start stop idx := by
  have := occurs_map (mt := mt) (mt' := mt') (actual := actual) id h (pat := pat) (k := k) (start := start) (stop := stop) (idx := idx)
  rwa [List.map_id] at this

theorem patAt_congr {L I : Type} {mt mt' : L → I → Prop} {actual : List I} (h : ∀ l, ∀ i ∈ actual, mt' l i ↔ mt l i) {pat : List (List L)} {start stop : Nat}
    {idx : List Nat} : PatAt mt' actual pat start stop idx ↔ PatAt mt actual pat start stop idx := by
  have := patAt_map (mt := mt) (mt' := mt') (actual := actual) id h (pat := pat) (start := start) (stop := stop) (idx := idx)
  rwa [List.map_id] at this

theorem Spec.IsActual.unique {w : World V E} {scope : Scope V} {pat : List (Seq (Leaf V))} {a a' : List (Invocation V)} (h : IsActual P w scope pat a)
    (h' : IsActual P w scope pat a') : a = a' :=
  eq_of_sorted (Invocation.uid) h.order h'.order fun i => (h.mem i).trans (h'.mem i).symm

theorem Spec.MatchCount.unique {w : World V E} {scope : Scope V} {pat : List (Seq (Leaf V))} {n n' : Nat} (h : MatchCount P w scope pat n)
    (h' : MatchCount P w scope pat n') : n = n' := by
  obtain ⟨a, ha, ⟨s, ix, ho⟩, hm⟩ := h
  obtain ⟨a', ha', ⟨s', ix', ho'⟩, hm'⟩ := h'
  cases ha.unique ha'
  exact Nat.le_antisymm (hm' _ _ _ ho) (hm _ _ _ ho')

/-- What the analysis finds. -/
structure Found (P : Prog V E) (w : World V E) (scope : Scope V) (pat : List (Seq (Leaf V))) (actual : List (Invocation V)) (c : Nat)
    (matched : List (Invocation V)) : Prop where
  isActual : IsActual P w scope pat actual
  parts : ∃ m m' idx idx' stop, matched = m ++ m' ∧ Occurs (Denotes P w) actual (blocks pat) c 0 stop idx ∧
      MatchAnalysis.AtIdx actual idx m ∧ MatchAnalysis.AtIdx actual idx' m' ∧
      (∃ pre rest stop', pat = pre ++ rest ∧ rest ≠ [] ∧ PatAt (Denotes P w) actual (blocks pre) stop stop' idx')
  max : ∀ k stop' idx', Occurs (Denotes P w) actual (blocks pat) k 0 stop' idx' → k ≤ c

theorem Found.count {w : World V E} {scope : Scope V} {pat : List (Seq (Leaf V))} {actual c matched} (h : Found P w scope pat actual c matched) :
    MatchCount P w scope pat c := by
  obtain ⟨_, _, idx, _, stop, -, ho, -⟩ := h.parts
  exact ⟨actual, h.isActual, ⟨stop, idx, ho⟩, h.max⟩

theorem analyse_spec {w : World V E} (h : Recs w) (hu : Unwrapped w) {scope : Scope V} {pat : List (Seq (Leaf V))} (hp : WritablePattern pat)
    (ha : AliveS w (scope.source pat)) : ∃ actual c matched, analyse P w scope pat = .done (actual, c, matched) ∧ Found P w scope pat actual c matched := by
  obtain ⟨h1, h2⟩ := actual_spec (P := P) h hu.1 (scope.source pat) ha
  have hrec : ∀ i ∈ sortByOrder ((scope.source pat).collect P w []), Recorded w i := fun i hi =>
    (collect_spec (P := P) h _ ha [] (by intro i hi; cases hi)).2 i ((h2 i).1 hi)
  have hs : ∀ s ∈ pat, s.expected ≠ [] := fun s hs => (hp.2 s hs).expected_ne_nil
  obtain ⟨c, m, mt', idx, idx', stop, g1, g2, g3, g4, g5, pre, rest, stop', g6, g7, g8⟩ :=
    MatchAnalysis.countMatches_spec (mt := leafMatches P w) (sortByOrder ((scope.source pat).collect P w [])) pat hs hp.1
  have hcg : ∀ l, ∀ i ∈ sortByOrder ((scope.source pat).collect P w []), Denotes P w l i ↔ leafMatches P w l i = true :=
    fun l i hi => (leafMatches_iff h hu.2 (hrec i hi)).symm
  refine ⟨sortByOrder ((scope.source pat).collect P w []), c, m ++ mt', ?_, ?_, ?_, ?_⟩
  · simp only [analyse, g1, R.bind_done]
  · exact ⟨h1, fun i => (h2 i).trans (inSource_scope hp scope)⟩
  · exact ⟨m, mt', idx, idx', stop, rfl, (occurs_congr hcg).2 g2, g3, g5, pre, rest, stop', g6, g7, (patAt_congr hcg).2 g8⟩
  · intro k stop' idx' ho
    exact g4 k stop' idx' ((occurs_congr hcg).1 ho)

/-! ## Whole statements -/

/-- The mark. -/
def markIf (uids : List Nat) (i : Invocation V) : Invocation V := if uids.contains i.uid then { i with verified := true } else i

theorem history_mark (w : World V E) (uids : List Nat) (m off : Nat) : history (w.mark uids) m off = (history w m off).map (markIf uids) := by
  unfold history
  rw [World.body?_mark]
  cases w.body? m off <;> rfl

theorem mock?_mark (w : World V E) (uids : List Nat) (m : MockId) : ((w.mark uids).mock? m).map (·.cls) = (w.mock? m).map (·.cls) := by
  simp only [World.mock?, World.mocks_mark]
  cases w.mocks[m]? with
  | none => rfl
  | some k => simp only [Option.map_some, Mock.mark]; split <;> rfl

theorem aliveS_of {w : World V E} {s : Source V} (h : allAlive w s.mocks = true) : AliveS w s := by
  intro m hm
  have := List.all_eq_true.1 h m hm
  exact Option.isSome_iff_exists.1 this

/-- The expectation a legal quantifier makes. -/
theorem quant_some {q : Quant} (h : LegalQuant q) : ∃ e, Expectation.init.quant q = some e ∧ e.isVerified = false := by
  cases q with
  | exactly n =>
    simp only [LegalQuant] at h
    simp [Expectation.quant, Expectation.exactly, Expectation.init, Int.not_lt.2 h]
  | atLeast n =>
    simp only [LegalQuant] at h
    simp [Expectation.quant, Expectation.atLeast, Expectation.init, Int.not_lt.2 h]
  | _ => simp [Expectation.quant, Expectation.exactly, Expectation.init]

theorem quant_none {q : Quant} (h : ¬ LegalQuant q) : Expectation.init.quant q = none := by
  cases q with
  | exactly n =>
    simp only [LegalQuant] at h
    simp [Expectation.quant, Expectation.exactly, Int.not_le.1 h]
  | atLeast n =>
    simp only [LegalQuant] at h
    simp [Expectation.quant, Expectation.atLeast, Int.not_le.1 h]
  | _ => exact absurd trivial h

theorem legal_of_quant {q : Quant} {e : Expectation} (h : Expectation.init.quant q = some e) : LegalQuant q := by
  by_cases hl : LegalQuant q
  · exact hl
  · rw [quant_none hl] at h; cases h

/-- The verdict and the report. -/
theorem judge_spec {q : Quant} {e : Expectation} (h : Expectation.init.quant q = some e) (h0 : q ≠ .atLeast 0) (c : Nat) (seq : List (Invocation V)) :
    e.judge c seq = none ∧ Passes q c ∨ e.judge c seq = some (.sequence (Expects q).1 (Expects q).2 c seq) ∧ ¬ Passes q c := by
  cases q with
  | dflt =>
    simp only [Expectation.quant, Option.some.injEq, Expectation.init] at h; subst h
    simp only [Expectation.judge, Passes, Expects]
    by_cases hc : 1 ≤ c
    · left; simp; omega
    · right; simp; omega
  | any =>
    simp only [Expectation.quant, Option.some.injEq, Expectation.init] at h; subst h
    left; simp [Expectation.judge, Passes]
  | never =>
    simp [Expectation.quant, Expectation.exactly, Expectation.init] at h; subst h
    simp only [Expectation.judge, Passes, Expects]
    by_cases hc : c = 0
    · left; simp; omega
    · right; simp; omega
  | once =>
    simp [Expectation.quant, Expectation.exactly, Expectation.init] at h; subst h
    simp only [Expectation.judge, Passes, Expects]
    by_cases hc : c = 1
    · left; simp; omega
    · right; simp; omega
  | twice =>
    simp [Expectation.quant, Expectation.exactly, Expectation.init] at h; subst h
    simp only [Expectation.judge, Passes, Expects]
    by_cases hc : c = 2
    · left; simp; omega
    · right; simp; omega
  | atLeastOnce =>
    simp only [Expectation.quant, Option.some.injEq, Expectation.init] at h; subst h
    simp only [Expectation.judge, Passes, Expects]
    by_cases hc : 1 ≤ c
    · left; simp; omega
    · right; simp; omega
  | exactly n =>
    have hl : 0 ≤ n := legal_of_quant h
    simp [Expectation.quant, Expectation.exactly, Expectation.init, Int.not_lt.2 hl] at h; subst h
    simp only [Expectation.judge, Passes, Expects]
    by_cases hc : (c : Int) = n
    · left; simp [hc, Int.not_lt.2 hl]
    · right; simp [hc, Int.not_lt.2 hl]
  | atLeast n =>
    have hl : 0 ≤ n := legal_of_quant h
    have hn : 0 < n := by
      rcases Int.lt_or_eq_of_le hl with h | h
      · exact h
      · subst h; exact absurd rfl h0
    simp [Expectation.quant, Expectation.atLeast, Expectation.init, Int.not_lt.2 hl] at h; subst h
    simp only [Expectation.judge, Passes, Expects]
    by_cases hc : n ≤ (c : Int)
    · left; simp [hc, hn]
    · right; simp [hc, hn, Int.not_le.1 hc]

/-- `AtLeast(0)` judges like `Never`. -/
theorem judge_atLeast0 {e : Expectation} (h : Expectation.init.quant (.atLeast 0) = some e) (c : Nat) (seq : List (Invocation V)) :
    e.judge c seq = none ∧ c = 0 ∨ e.judge c seq = some (.sequence .exact 0 c seq) ∧ c ≠ 0 := by
  simp [Expectation.quant, Expectation.atLeast, Expectation.init] at h; subst h
  simp only [Expectation.judge]
  by_cases hc : c = 0
  · left; simp [hc]
  · right; simp [hc]

/-- A failure is reported by a statement, not by a conversion to `bool`. -/
def reported (mode : VMode) (w : World V E) (evt : Event V) : World V E :=
  match mode with | .asBool => w | .stmt _ => w.fire evt

/-- The parts of a verification statement that ran. -/
theorem verify_parts {w w' : World V E} (hw : Wf P nm w) {scope : Scope V} {pat : List (Seq (Leaf V))} {q : Quant} {mode : VMode} {b : Bool}
    (hn : (Api.verify (E := E) scope pat q mode).Named nm) (hpat : WritablePattern pat)
    (h : verifyStmt P w scope pat q mode = .done (w', .verdict b)) (hu : Unwrapped w') :
    ∃ w1 e actual c matched, SameCalls w w1 ∧ w1.log = w.log ∧ Wf P nm w1 ∧ Expectation.init.quant q = some e ∧
      Found P w scope pat actual c matched ∧
      ((e.judge c actual = none ∧ b = true ∧ w' = w1.mark (matched.map (·.uid))) ∨
        (∃ evt, e.judge c actual = some evt ∧ b = false ∧ w' = reported mode w1 evt)) := by
  simp only [verifyStmt, R.bind_eq_done] at h
  obtain ⟨⟨w1, ok⟩, h1, h2⟩ := h
  have hwf : Wf P nm w1 := (touchAll_stable apiStable2 _ hn hw.inv2 h1).wf hw
  have hsc := touchAll_same _ h1
  have hlog := touchAll_log _ h1
  cases ok with
  | false => simp at h2
  | true =>
    dsimp only at h2
    split at h2
    · simp at h2
    · rename_i hal
      have hal : AliveS w1 (scope.source pat) := aliveS_of (by simpa using hal)
      have key : ∀ e, Expectation.init.quant q = some e → Unwrapped w1 → ∃ actual c matched, analyse P w1 scope pat = .done (actual, c, matched) ∧
          Found P w scope pat actual c matched := by
        intro e he hu1
        obtain ⟨actual, c, matched, g1, g2⟩ := analyse_spec (P := P) hwf.recs hu1 hpat hal
        refine ⟨actual, c, matched, g1, ⟨hsc.isActual.1 g2.isActual, ?_, ?_⟩⟩
        · have := g2.parts; rwa [hsc.denotes] at this
        · have := g2.max; rwa [hsc.denotes] at this
      split at h2
      · simp at h2
      · rename_i e he
        have hv : e.isVerified = false := by
          obtain ⟨e', h1, h2⟩ := quant_some (legal_of_quant he)
          rw [he] at h1; cases h1; exact h2
        have hjs : ∀ w2 evt e', verifyExpectation P w1 scope pat e = .done (e', w2, evt) → Unwrapped w2 → Unwrapped w1 := by
          intro w2 evt e' hve hu
          unfold verifyExpectation at hve
          rw [hv] at hve
          simp only [Bool.false_eq_true, if_false, R.bind_eq_done] at hve
          obtain ⟨⟨actual, c, matched⟩, -, hve⟩ := hve
          dsimp only at hve
          split at hve
          · simp at hve; rw [hve.2.1]; exact hu
          · simp at hve; rw [← hve.2.1] at hu; exact hu
        have fin : ∀ w2 evt e', verifyExpectation P w1 scope pat e = .done (e', w2, evt) → Unwrapped w2 → ∃ actual c matched,
            Found P w scope pat actual c matched ∧ e.judge c actual = evt ∧
              w2 = match evt with | none => w1.mark (matched.map (·.uid)) | some _ => w1 := by
          intro w2 evt e' hve hu2
          obtain ⟨actual, c, matched, g1, g2⟩ := key e he (hjs w2 evt e' hve hu2)
          unfold verifyExpectation at hve
          rw [hv, g1] at hve
          simp only [Bool.false_eq_true, if_false, R.bind_done] at hve
          refine ⟨actual, c, matched, g2, ?_⟩
          split at hve
          · rename_i ev hj
            simp at hve
            rw [← hve.2.2, ← hve.2.1]; exact ⟨hj, rfl⟩
          · rename_i hj
            simp at hve
            rw [← hve.2.2, ← hve.2.1]; exact ⟨hj, rfl⟩
        split at h2
        · simp at h2
        · simp only [R.bind_eq_done] at h2
          obtain ⟨⟨e', w2, evt⟩, h3, h4⟩ := h2
          cases evt with
          | some ev =>
            simp at h4
            obtain ⟨rfl, rfl⟩ := h4
            obtain ⟨actual, c, matched, g1, g2, g3⟩ := fin w2 _ e' h3 hu
            dsimp only at g3
            exact ⟨w1, e, actual, c, matched, hsc, hlog, hwf, he, g1, .inr ⟨ev, g2, rfl, by rw [g3]; rfl⟩⟩
          | none =>
            simp at h4
            obtain ⟨rfl, rfl⟩ := h4
            obtain ⟨actual, c, matched, g1, g2, rfl⟩ := fin w2 _ e' h3 hu
            exact ⟨w1, e, actual, c, matched, hsc, hlog, hwf, he, g1, .inl ⟨g2, rfl, rfl⟩⟩
        · simp only [R.bind_eq_done] at h2
          obtain ⟨⟨e', w2, evt⟩, h3, h4⟩ := h2
          cases evt with
          | some ev =>
            simp at h4
            obtain ⟨rfl, rfl⟩ := h4
            obtain ⟨actual, c, matched, g1, g2, g3⟩ := fin w2 _ e' h3 hu
            dsimp only at g3
            exact ⟨w1, e, actual, c, matched, hsc, hlog, hwf, he, g1, .inr ⟨ev, g2, rfl, by rw [g3]; rfl⟩⟩
          | none =>
            simp at h4
            obtain ⟨rfl, rfl⟩ := h4
            obtain ⟨actual, c, matched, g1, g2, rfl⟩ := fin w2 _ e' h3 hu
            exact ⟨w1, e, actual, c, matched, hsc, hlog, hwf, he, g1, .inl ⟨g2, rfl, rfl⟩⟩

/-! ## Statements that run to the end -/

theorem touch_ok {w : World V E} (hw : Wf P nm w) {m : MockId} {slot : SlotRef} (h : Mentionable P w m slot) :
    ∃ w', touch P w m slot = .done (some w') := by
  cases slot with
  | meth off ctr =>
    obtain ⟨k, hk, hlt⟩ := h
    have hk' := World.mock?_eq_some.1 hk
    have t := hw.steady.1.1 m k hk'.1
    have hl : off < k.mocks.length := by rw [(t.mlen hk'.2).1, t.orig_length]; exact hlt
    simp only [touch, hk, List.getElem?_eq_getElem hl]
    cases k.mocks[off] <;> exact ⟨_, rfl⟩
  | dtor =>
    obtain ⟨k, d, hk, hd, hlt⟩ := h
    have hk' := World.mock?_eq_some.1 hk
    have t := hw.steady.1.1 m k hk'.1
    have hl : d < k.mocks.length := by rw [(t.mlen hk'.2).1, t.orig_length]; omega
    have hv : d + 1 < k.vt.length := by rw [t.vtlen, t.orig_length]; exact hlt
    simp only [touch, hk, hd, hv, if_true, List.getElem?_eq_getElem hl]
    cases k.mocks[d] <;> exact ⟨_, rfl⟩

theorem SameCalls.mentionable {w w' : World V E} (h : SameCalls w w') {m : MockId} {slot : SlotRef} (hm : Mentionable P w m slot) : Mentionable P w' m slot := by
  have hc := h.cls m
  cases slot with
  | meth off ctr =>
    obtain ⟨k, hk, hlt⟩ := hm
    rw [hk] at hc
    obtain ⟨k', hk', he⟩ := Option.map_eq_some_iff.1 hc
    exact ⟨k', hk', by rw [he]; exact hlt⟩
  | dtor =>
    obtain ⟨k, d, hk, hd⟩ := hm
    rw [hk] at hc
    obtain ⟨k', hk', he⟩ := Option.map_eq_some_iff.1 hc
    exact ⟨k', d, hk', by rw [he]; exact hd⟩

theorem SameCalls.alive {w w' : World V E} (h : SameCalls w w') (m : MockId) : (w'.mock? m).isSome = (w.mock? m).isSome := by
  have := congrArg Option.isSome (h.cls m)
  simpa using this

theorem touchAll_ok {w : World V E} (hw : Wf P nm w) (l : List (MockId × SlotRef)) (hn : ∀ x ∈ l, SlotRef.Named nm x.1 x.2)
    (h : ∀ x ∈ l, Mentionable P w x.1 x.2) : ∃ w', touchAll P w l = .done (w', true) := by
  induction l generalizing w with
  | nil => exact ⟨w, rfl⟩
  | cons x l ih =>
    obtain ⟨w1, h1⟩ := touch_ok hw (h x (by simp))
    have hwf := (touch_stable apiStable2 hw.inv2 (hn x (by simp)) h1).wf hw
    obtain ⟨w2, h2⟩ := ih hwf (fun x hx => hn x (by simp [hx])) (fun x hx => (touch_same h1).mentionable (h x (by simp [hx])))
    exact ⟨w2, by simp only [touchAll, h1, R.bind_done]; exact h2⟩

theorem touchAll_methTotal {w w' : World V E} {ok : Bool} (l : List (MockId × SlotRef)) (h : touchAll P w l = .done (w', ok)) :
    w'.invTotal = w.invTotal ∧ w'.methTotal ≤ w.methTotal + l.length := by
  induction l generalizing w with
  | nil => simp [touchAll] at h; rw [h.1]; simp
  | cons x l ih =>
    simp only [touchAll, R.bind_eq_done] at h
    obtain ⟨r, h1, h2⟩ := h
    cases r with
    | none => simp at h2; rw [h2.1]; simp
    | some w1 =>
      have := ih h2
      have h1' : w1.invTotal = w.invTotal ∧ w1.methTotal ≤ w.methTotal + 1 := by
        unfold touch at h1
        repeat' split at h1
        all_goals first | (simp at h1; done) | (simp at h1; subst h1; simp)
      simp only [List.length_cons]
      omega

end FakeIt
