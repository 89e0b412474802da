import Verif.Lemmas.Uninterrupted
import Verif.Lemmas.RefineRun
import Verif.Lemmas.OneThreadRun
import Verif.Props.Refinement
/-!
# Verifications that nothing interrupts: decisions of the two models
-/
namespace FakeIt.Checking
open FakeIt.Checking.Spec
open FakeIt.Spec (AState accepts findAll)

variable {V E X : Type} {kinds : Nat → MatcherKind V} {ctr : Nat → Nat → Nat} {P : Prog V E}

theorem mentionAll_meths : ∀ {l : List (MockId × SlotRef)} {s s1 : AState V E} {ok : Bool}, (∀ x ∈ l, ∃ off c, x.2 = .meth off c) →
    FakeIt.Spec.mentionAll P s l = some (s1, ok) → ok = true
  | [], _, _, _, _, h => by cases h; rfl
  | (m, slot) :: l, s, s1, ok, hl, h => by
    simp only [FakeIt.Spec.mentionAll, Option.bind_eq_bind, Option.bind_eq_some_iff] at h
    obtain ⟨r, h1, h2⟩ := h
    obtain ⟨off, c, e⟩ := hl (m, slot) (by simp)
    simp only [] at e
    subst e
    cases r with
    | none =>
      unfold FakeIt.Spec.mention at h1
      split at h1
      · cases h1
      · simp only [] at h1
        split at h1
        · split at h1 <;> cases h1
        · cases h1
    | some s' => exact mentionAll_meths (fun x hx => hl x (by simp [hx])) h2

theorem leavesOf_sourceOf : ∀ (src : Src), FakeIt.Spec.leavesOf (sourceOf kinds ctr src) = (srcLeaves src).map (leafOf kinds ctr)
  | .nothing => rfl
  | .mock _ => rfl
  | .method _ => rfl
  | .unverified s => leavesOf_sourceOf s
  | .group s => leavesOf_sourceOf s
  | .also s t => by simp [sourceOf, FakeIt.Spec.leavesOf, srcLeaves, leavesOf_sourceOf s, leavesOf_sourceOf t]

theorem Fits.mentioned {s s1 : AState V E} {recs : List (Rec (List V))} (h : Fits s recs) {l : List (MockId × SlotRef)} {ok : Bool} (hm : FakeIt.Spec.mentionAll P s l = some (s1, ok)) : Fits s1 recs := by
  obtain ⟨e1, -, e3, -, -, e6, -⟩ := Independent.mentionAll_keeps hm
  refine ⟨?_, ?_, by rw [e1]; exact h.nodup⟩
  · have := h.same
    unfold SameRecords at this ⊢
    rw [e1, e3]
    exact this
  · intro r hr m off e
    rw [e1] at hr
    obtain ⟨k, hk⟩ := h.mocks r hr m off e
    have hl := (List.getElem?_eq_some_iff.1 hk).1
    exact ⟨s1.mocks[m]'(by omega), List.getElem?_eq_getElem _⟩

theorem same_unmarked {s : AState V E} {recs recs' : List (Rec (List V))} (h : SameRecords s recs) (hm : Marked recs recs' fun _ => False) : SameRecords s recs' := by
  have e : recs' = recs := by
    refine List.ext_getElem? fun a => ?_
    cases hr : recs[a]? with
    | none =>
      rw [List.getElem?_eq_none_iff] at hr ⊢
      rw [hm.1]; exact hr
    | some r =>
      obtain ⟨b, hb, hv⟩ := hm.2 a r hr
      rw [hb]
      have : b = r.verified := by
        rw [Bool.eq_iff_iff, hv]
        simp
      rw [this]
  rw [e]; exact h

theorem Marked.congr {recs recs' : List (Rec V)} {p p' : Nat → Prop} (h : Marked recs recs' p) (hp : ∀ a, p a ↔ p' a) : Marked recs recs' p' :=
  ⟨h.1, fun a r hr => by
    obtain ⟨b, h1, h2⟩ := h.2 a r hr
    exact ⟨b, h1, by rw [h2, hp]⟩⟩

theorem all2_mem {α β : Type} {R : α → β → Prop} {l : List α} {l' : List β} (h : All2 R l l') : (∀ x ∈ l, ∃ y ∈ l', R x y) ∧ ∀ y ∈ l', ∃ x ∈ l, R x y := by
  induction h with
  | nil => simp
  | @cons a b l l' h1 _ ih =>
    refine ⟨fun x hx => ?_, fun y hy => ?_⟩
    · rcases List.mem_cons.1 hx with rfl | hx
      · exact ⟨b, by simp, h1⟩
      · obtain ⟨y, hy, hr⟩ := ih.1 x hx
        exact ⟨y, by simp [hy], hr⟩
    · rcases List.mem_cons.1 hy with rfl | hy
      · exact ⟨a, by simp, h1⟩
      · obtain ⟨x, hx, hr⟩ := ih.2 y hy
        exact ⟨x, by simp [hx], hr⟩

theorem same_marked {s : AState V E} {recs recs' : List (Rec (List V))} (h : Fits s recs) {taken : List (FakeIt.Spec.Rec V)} {pos : List Nat} (ht : All2 (fun r a => s.calls[a]? = some r) taken pos)
    (hm : Marked recs recs' (· ∈ pos)) : SameRecords { s with calls := s.calls.map (FakeIt.Spec.marked (taken.map FakeIt.Spec.Rec.number)) } recs' := by
  have hmem := all2_mem ht
  unfold SameRecords
  refine List.ext_getElem? fun a => ?_
  simp only [List.getElem?_map]
  cases hr : s.calls[a]? with
  | none =>
    have : recs'[a]? = none := by
      rw [List.getElem?_eq_none_iff] at hr ⊢
      rw [hm.1, h.length]; exact hr
    rw [this]; rfl
  | some r =>
    obtain ⟨c, hc, e1, e2, e3⟩ := h.at_ hr
    obtain ⟨b, hb, hv⟩ := hm.2 a c hc
    rw [hb]
    have hin : a ∈ pos ↔ (taken.map FakeIt.Spec.Rec.number).contains r.number = true := by
      rw [List.contains_iff_mem, List.mem_map]
      constructor
      · intro ha
        obtain ⟨x, hx, hr'⟩ := hmem.2 a ha
        rw [hr] at hr'
        cases hr'
        exact ⟨r, hx, rfl⟩
      · rintro ⟨x, hx, e⟩
        obtain ⟨a', ha', hx'⟩ := hmem.1 x hx
        have : a' = a := by
          have l1 := (List.getElem?_eq_some_iff.1 hx').1
          have l2 := (List.getElem?_eq_some_iff.1 hr).1
          refine (List.getElem?_inj (l := s.calls.map FakeIt.Spec.Rec.number) (by simpa using l1) h.nodup).1 ?_
          simp [hx', hr, e]
        rw [← this]; exact ha'
    simp only [Option.map_some, FakeIt.Spec.marked]
    cases hk : (taken.map FakeIt.Spec.Rec.number).contains r.number with
    | true =>
      have : b = true := hv.2 (.inr (hin.2 hk))
      simp [this, e1, e2]
    | false =>
      have : ¬ a ∈ pos := fun hh => by rw [hin, hk] at hh; cases hh
      have hb' : b = r.verified := by
        rw [Bool.eq_iff_iff, hv, e3]
        simp [this]
      simp [hb', e1, e2]

/-- A verdict as the library gives it. -/
def outOf : Verdict → ApiOut
  | .refused => .threw
  | .failed => .verdict false
  | .passed _ => .verdict true

theorem agrees_pattern {s s' : AState V E} {recs recs' : List (Rec (List V))} (h : Fits s recs) {scope : Scope} {pat : List (Seq Leaf)} {q : Quant} {mode : VMode} (hmode : mode ≠ .stmt true) {o : ApiOut}
    (ha : FakeIt.Spec.aVerify P s (scopeOf kinds ctr scope) (pat.map (seqOf kinds ctr)) q mode = some (s', o)) {v : Verdict} (hd : Decides (asks kinds) recs (.pattern scope pat) q v)
    (hm : Marked recs recs' (marks v)) : o = outOf v ∧ SameRecords s' recs' := by
  simp only [FakeIt.Spec.aVerify, Option.bind_eq_bind, Option.bind_eq_some_iff] at ha
  obtain ⟨⟨s1, ok⟩, h1, h2⟩ := ha
  have hok : ok = true := mentionAll_meths (fun x hx => by
    obtain ⟨l, hl, rfl⟩ := List.mem_map.1 hx
    have : ∃ l', l = leafOf kinds ctr l' := by
      simp only [FakeIt.Spec.mentionedBy, List.mem_append, patternOf_seqOf] at hl
      rcases hl with hl | hl
      · cases scope with
        | involved => simp [scopeOf] at hl
        | unverified => simp [scopeOf] at hl
        | «using» src =>
          simp only [scopeOf, leavesOf_sourceOf, List.mem_map] at hl
          obtain ⟨l', -, e⟩ := hl
          exact ⟨l', e.symm⟩
      · simp only [List.mem_flatten, List.mem_map] at hl
        obtain ⟨x, ⟨y, -, rfl⟩, hl⟩ := hl
        obtain ⟨l', -, e⟩ := List.mem_map.1 hl
        exact ⟨l', e.symm⟩
    obtain ⟨l', rfl⟩ := this
    exact ⟨_, _, rfl⟩) h1
  subst hok
  have hf := h.mentioned h1
  simp only [] at h2
  split at h2
  case isFalse => cases h2
  split at h2
  · rename_i hex
    cases h2
    have hr := expects_none.1 hex
    cases v with
    | refused => exact ⟨rfl, same_unmarked hf.same hm⟩
    | failed => exact absurd hr hd.1
    | passed p => exact absurd hr hd.1
  · rename_i ex hex
    have hnr : ¬ Refused q := fun hr => by rw [expects_none.2 hr] at hex; cases hex
    have key : ∀ (actual : List Nat) (n : Nat) (p : Nat → Prop), InOrder (InScope (asks kinds) recs pat scope) actual → Takes (asks kinds) recs actual pat n p →
        (findAll (FakeIt.Spec.denotes P s1) (FakeIt.Spec.patternOf (pat.map (seqOf kinds ctr)))
          ((s1.calls.filter (FakeIt.Spec.inScope P s1 (pat.map (seqOf kinds ctr)) (scopeOf kinds ctr scope))).length + 1)
          (s1.calls.filter (FakeIt.Spec.inScope P s1 (pat.map (seqOf kinds ctr)) (scopeOf kinds ctr scope)))).1 = n ∧
        ∃ pos, (∀ a, p a ↔ a ∈ pos) ∧ All2 (fun r a => s1.calls[a]? = some r) (findAll (FakeIt.Spec.denotes P s1) (FakeIt.Spec.patternOf (pat.map (seqOf kinds ctr)))
          ((s1.calls.filter (FakeIt.Spec.inScope P s1 (pat.map (seqOf kinds ctr)) (scopeOf kinds ctr scope))).length + 1)
          (s1.calls.filter (FakeIt.Spec.inScope P s1 (pat.map (seqOf kinds ctr)) (scopeOf kinds ctr scope)))).2 pos := by
      intro actual n p ho ht
      have hall := positions (l := s1.calls) (f := FakeIt.Spec.inScope P s1 (pat.map (seqOf kinds ctr)) (scopeOf kinds ctr scope)) ho (fun a ha => by rw [← hf.length]; exact InScope.lt ha)
        fun a x hx => inScope_at hf hx scope
      have hmt : ∀ (r : FakeIt.Spec.Rec V) (a : Nat), s1.calls[a]? = some r → ∀ l, FakeIt.Spec.denotes P s1 (leafOf kinds ctr l) r = holds (asks kinds) recs l a := fun r a hr l => by
        rw [Bool.eq_iff_iff, denotes_iff hf hr, holds_iff]
      have hfa := findAll_all2 hmt (pat.map Seq.expected) (actual.length + 1) hall
      obtain ⟨t1, t2⟩ := ht (holds (asks kinds) recs) fun l a => holds_iff
      rw [patternOf_seqOf, findAll_map, hall.length]
      exact ⟨hfa.1.trans t1, _, t2, hfa.2⟩
    cases v with
    | refused => exact absurd hd hnr
    | failed =>
      obtain ⟨-, actual, n, ho, -, hac, p, ht⟩ := hd
      obtain ⟨k1, -⟩ := key actual n p ho ht
      rw [k1] at h2
      rw [if_neg (fun hh => hac ((fulfils_iff hex n).1 hh))] at h2
      split at h2
      · cases h2
        exact ⟨rfl, same_unmarked hf.same hm⟩
      · cases h2
        exact ⟨rfl, same_unmarked (s := s1) hf.same hm⟩
    | passed p =>
      obtain ⟨-, actual, n, ho, -, hac, ht, -⟩ := hd
      obtain ⟨k1, pos, k2, k3⟩ := key actual n p ho ht
      rw [k1, if_pos ((fulfils_iff hex n).2 hac)] at h2
      cases h2
      exact ⟨rfl, same_marked hf k3 (Marked.congr hm k2)⟩

theorem agrees_noOther {s s' : AState V E} {recs recs' : List (Rec (List V))} (h : Fits s recs) {src : Src} {q : Quant} {mode : VMode} (hmode : mode ≠ .stmt true) {o : ApiOut}
    (ha : FakeIt.Spec.aNoOther P s [sourceOf kinds ctr src] mode = some (s', o)) {v : Verdict} (hd : Decides (asks kinds) recs (.noOther src) q v)
    (hm : Marked recs recs' (marks v)) : o = outOf v ∧ SameRecords s' recs' := by
  simp only [FakeIt.Spec.aNoOther, Option.bind_eq_bind, Option.bind_eq_some_iff] at ha
  obtain ⟨⟨s1, ok⟩, h1, h2⟩ := ha
  have hok : ok = true := mentionAll_meths (fun x hx => by
    obtain ⟨l, hl, rfl⟩ := List.mem_map.1 hx
    simp only [FakeIt.Spec.allOf, List.foldr, FakeIt.Spec.leavesOf, leavesOf_sourceOf, List.append_nil, List.mem_map] at hl
    obtain ⟨l', -, rfl⟩ := hl
    exact ⟨_, _, rfl⟩) h1
  subst hok
  have hf := h.mentioned h1
  simp only [] at h2
  split at h2
  case isFalse => cases h2
  have hin : ∀ (a : Nat) r, s1.calls[a]? = some r → (FakeIt.Spec.inSource P s1 (FakeIt.Spec.allOf [sourceOf kinds ctr src]) r = true ↔ InSrc (asks kinds) recs src a) := fun a r hr => by
    simp only [FakeIt.Spec.allOf, List.foldr, FakeIt.Spec.inSource, Bool.or_false]
    exact inSource_iff hf hr src
  have hempty : ((s1.calls.filter (FakeIt.Spec.inSource P s1 (FakeIt.Spec.allOf [sourceOf kinds ctr src]))).filter fun r => !r.verified).isEmpty = true ↔
      ∀ a c, InSrc (asks kinds) recs src a → recs[a]? = some c → c.verified = true := by
    rw [List.isEmpty_iff, List.filter_eq_nil_iff]
    constructor
    · intro hh a c ha hc
      have hl : a < s1.calls.length := by rw [← hf.length]; exact (List.getElem?_eq_some_iff.1 hc).1
      have hr := List.getElem?_eq_getElem hl
      obtain ⟨c', hc', -, -, e⟩ := hf.at_ hr
      rw [hc] at hc'
      cases hc'
      have := hh _ (List.mem_filter.2 ⟨List.mem_of_getElem? hr, (hin a _ hr).2 ha⟩)
      rw [e]
      simpa using this
    · intro hh r hr
      obtain ⟨hr1, hr2⟩ := List.mem_filter.1 hr
      obtain ⟨a, hra⟩ := List.getElem?_of_mem hr1
      obtain ⟨c, hc, -, -, e⟩ := hf.at_ hra
      have := hh a c ((hin a r hra).1 hr2) hc
      rw [← e, this]
      simp
  cases v with
  | refused => exact hd.elim
  | failed =>
    obtain ⟨a, c, ha, hc, hv⟩ := hd
    rw [if_neg (fun hh => by rw [hempty.1 hh a c ha hc] at hv; cases hv)] at h2
    split at h2
    · cases h2
      exact ⟨rfl, same_unmarked hf.same hm⟩
    · cases h2
      exact ⟨rfl, same_unmarked (s := s1) hf.same hm⟩
  | passed p =>
    rw [if_pos (hempty.2 hd.1)] at h2
    cases h2
    exact ⟨rfl, same_unmarked hf.same (Marked.congr hm fun a => ⟨fun hp => hd.2 a hp, fun hp => hp.elim⟩)⟩

theorem agrees {s s' : AState V E} {recs recs' : List (Rec (List V))} (h : Fits s recs) {c : Check} {q : Quant} {mode : VMode} (hmode : mode ≠ .stmt true) {o : ApiOut}
    (ha : FakeIt.Spec.aApi P s (apiOf kinds ctr c q mode) = some (s', o)) {v : Verdict} (hd : Decides (asks kinds) recs c q v) (hm : Marked recs recs' (marks v)) : o = outOf v ∧ SameRecords s' recs' := by
  cases c with
  | pattern scope pat => exact agrees_pattern h hmode ha hd hm
  | noOther src => exact agrees_noOther h hmode ha hd hm

/-! ## States of tests -/

theorem fits_of_rel {s : AState V E} {w : World V E} (h : Rel P s w) {recs : List (Rec (List V))} (hs : SameRecords s recs) : Fits s recs := by
  refine ⟨hs, fun r hr m off e => ?_, ?_⟩
  · have h1 := h.hist m off
    have h2 : r ∈ callsOf s.calls m off := by simp [callsOf, hr, e]
    obtain ⟨i, hi, -⟩ := (all2_mem h1).2 r h2
    simp only [FakeIt.Spec.history, World.body?] at hi
    cases hk : s.mocks[m]? with
    | some k => exact ⟨k, rfl⟩
    | none =>
      rw [h.mocks.none hk] at hi
      simp at hi
  · rw [List.nodup_iff_pairwise_ne, List.pairwise_map]
    exact h.sorted.imp fun hlt => Nat.ne_of_lt hlt

theorem fits_of_run {nm : MockId → Nat → Nat} (hP : P.Named nm) {heap : Addr → V} {ops : List (FakeIt.Op V E)} {outs : List (OpOut V E)} {s : AState V E} (hn : ∀ op ∈ ops, op.Within (Api.Named nm) fun _ _ => True)
    (hwr : ∀ op ∈ ops, op.Within Api.Writes fun _ _ => True) (hsm : FakeIt.Spec.Small ops) (hs : FakeIt.Spec.aRun P (AState.start heap) ops = some (outs, s)) {recs : List (Rec (List V))} (hr : SameRecords s recs) : Fits s recs := by
  have g := aRun_grows hs
  have g1 := g.made'
  have g2 := g.named'
  simp only [AState.start, List.length_nil, Nat.zero_add] at g1 g2
  have h1 := hsm.1
  have h2 := hsm.2
  obtain ⟨w, -, hR, -⟩ := run_refines hP (.start heap) (rel_start heap) hn hwr hs (by omega) (by omega) 0
  exact fits_of_rel hR hr

theorem small_left {ops ops' : List (FakeIt.Op V E)} (h : FakeIt.Spec.Small (ops ++ ops')) : FakeIt.Spec.Small ops := by
  have h1 := h.1
  have h2 := h.2
  simp only [List.length_append, List.map_append, List.sum_append] at h1 h2
  exact ⟨by omega, by omega⟩

theorem writable_seqOf {s : Seq Leaf} (h : FakeIt.Spec.Writable s) : FakeIt.Spec.Writable (seqOf kinds ctr s) := by
  induction h with
  | method l => exact .method _
  | plus _ _ i1 i2 => exact .plus i1 i2
  | @star s r n _ h2 ih =>
    simp only [Seq.opStar] at h2
    split at h2
    · cases h2
    · rename_i hn
      cases h2
      exact .star (n := n) ih (by simp [Seq.opStar, seqOf, hn])

theorem apiOf_writes {c : Check} (hc : Statable c) (q : Quant) (mode : VMode) : Api.Writes (apiOf (E := E) kinds ctr c q mode) := by
  cases c with
  | pattern scope pat =>
    refine ⟨by simpa using hc.1, fun s hs => ?_⟩
    obtain ⟨s', hs', rfl⟩ := List.mem_map.1 hs
    exact writable_seqOf (hc.2 s' hs')
  | noOther src => trivial

theorem library_runs {nm : MockId → Nat → Nat} (hP : P.Named nm) {heap : Addr → V} {ops : List (FakeIt.Op V E)} {outs : List (OpOut V E)} {s s' : AState V E} {c : Check} (hc : Statable c) {q : Quant} {mode : VMode} {o : ApiOut}
    (hn : ∀ op ∈ ops ++ [.api (apiOf kinds ctr c q mode)], op.Within (Api.Named nm) fun _ _ => True) (hwr : ∀ op ∈ ops, op.Within Api.Writes fun _ _ => True)
    (hsm : FakeIt.Spec.Small (ops ++ [.api (apiOf kinds ctr c q mode)])) (hs : FakeIt.Spec.aRun P (AState.start heap) ops = some (outs, s)) (ha : FakeIt.Spec.aApi P s (apiOf kinds ctr c q mode) = some (s', o)) (fuel : Nat) :
    ∃ w, runOps P (fuel + 3) (World.start heap) (ops ++ [.api (apiOf kinds ctr c q mode)]) = .done (outs ++ [.api o], w) ∧ FakeIt.Spec.Agrees s' w := by
  refine C56_library_refines_abstract_mock hP hn (fun op hop => ?_) hsm ?_ fuel
  · rcases List.mem_append.1 hop with hop | hop
    · exact hwr op hop
    · cases List.mem_singleton.1 hop
      exact apiOf_writes hc q mode
  · refine OneThread.aRun_append ops _ hs ?_
    simp [FakeIt.Spec.aRun, FakeIt.Spec.aStep, ha]

end FakeIt.Checking
