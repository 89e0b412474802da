import Verif.Lemmas.Verify
/-!
# Worlds that agree on what a verification looks at
-/
namespace FakeIt
variable {V E : Type} {P : Prog V E} {nm : MockId → Nat → Nat}
open Spec

/-- On the mocks in `S`, `v` has the histories of `w` up to `f` (which may only change verified marks), the classes and the argument values. -/
structure Agree (f : Invocation V → Invocation V) (S : MockId → Prop) (w v : World V E) : Prop where
  only : ∀ i, f i = { i with verified := (f i).verified }
  hist : ∀ m, S m → ∀ off, history v m off = (history w m off).map f
  cls : ∀ m, S m → (v.mock? m).map (·.cls) = (w.mock? m).map (·.cls)
  vals : ∀ m, S m → ∀ off, ∀ i ∈ history w m off, valuesOf v.heap i.args = valuesOf w.heap i.args

/-- The source mentions no `Unverified(...)`. -/
def Spec.NoUnverified : Source V → Prop
  | .unverified _ => False
  | .union s t => NoUnverified s ∧ NoUnverified t
  | _ => True

variable {f : Invocation V → Invocation V} {S : MockId → Prop} {w v : World V E}

theorem Agree.uid (h : Agree f S w v) (i : Invocation V) : (f i).uid = i.uid := by rw [h.only i]

theorem Agree.recognises (h : Agree f S w v) {l : Leaf V} {m : MockId} (hm : S m) {off : Nat} {i : Invocation V} (hi : i ∈ history w m off) :
    Recognises l v.heap (f i) ↔ Recognises l w.heap i := by
  have hv := h.vals m hm off i hi
  have h1 : (f i).matcher = i.matcher := by rw [h.only i]
  have h2 : (f i).args = i.args := by rw [h.only i]
  simp only [Recognises, h1, h2, hv]

theorem Agree.inCtx (h : Agree f S w v) {l : Leaf V} (hm : S l.m) (j : Invocation V) :
    InSource P v (.ctx l) j ↔ ∃ i, InSource P w (.ctx l) i ∧ j = f i := by
  rw [inSource_ctx_iff]
  have hc := h.cls l.m hm
  constructor
  · rintro ⟨c, off, hk, hoff, hmem, hr⟩
    rw [h.hist _ hm] at hmem
    obtain ⟨i, hi, rfl⟩ := List.mem_map.1 hmem
    exact ⟨i, inSource_ctx_iff.2 ⟨c, off, by rw [← hc]; exact hk, hoff, hi, (h.recognises hm hi).1 hr⟩, rfl⟩
  · rintro ⟨i, hi, rfl⟩
    obtain ⟨c, off, hk, hoff, hmem, hr⟩ := inSource_ctx_iff.1 hi
    exact ⟨c, off, by rw [hc]; exact hk, hoff, by rw [h.hist _ hm]; exact List.mem_map_of_mem hmem, (h.recognises hm hmem).2 hr⟩

theorem Agree.inSource (h : Agree f S w v) (s : Source V) (hs : ∀ m ∈ s.mocks, S m) (hu : NoUnverified s ∨ ∀ i, (f i).verified = i.verified)
    (j : Invocation V) : InSource P v s j ↔ ∃ i, InSource P w s i ∧ j = f i := by
  induction s with
  | empty => simp [InSource]
  | mock m =>
    have hm : S m := hs m (by simp [Source.mocks])
    simp only [InSource, h.hist m hm, List.mem_map]
    constructor
    · rintro ⟨off, i, hi, rfl⟩; exact ⟨i, ⟨off, hi⟩, rfl⟩
    · rintro ⟨i, ⟨off, hi⟩, rfl⟩; exact ⟨off, i, hi, rfl⟩
  | ctx l => exact h.inCtx (hs l.m (by simp [Source.mocks])) j
  | unverified s ih =>
    rcases hu with hu | hu
    · exact hu.elim
    · simp only [InSource, ih (by simpa [Source.mocks] using hs) (.inr hu)]
      constructor
      · rintro ⟨⟨i, hi, rfl⟩, hv⟩; exact ⟨i, ⟨hi, by rw [← hu]; exact hv⟩, rfl⟩
      · rintro ⟨i, ⟨hi, hv⟩, rfl⟩; exact ⟨⟨i, hi, rfl⟩, by rw [hu]; exact hv⟩
  | union s t ih1 ih2 =>
    simp only [Source.mocks, List.mem_append] at hs
    have e1 := ih1 (fun m hm => hs m (.inl hm)) (hu.imp (·.1) id)
    have e2 := ih2 (fun m hm => hs m (.inr hm)) (hu.imp (·.2) id)
    simp only [InSource, e1, e2]
    constructor
    · rintro (⟨i, hi, rfl⟩ | ⟨i, hi, rfl⟩)
      · exact ⟨i, .inl hi, rfl⟩
      · exact ⟨i, .inr hi, rfl⟩
    · rintro ⟨i, hi | hi, rfl⟩
      · exact .inl ⟨i, hi, rfl⟩
      · exact .inr ⟨i, hi, rfl⟩

/-- The mocks a statement looks at. -/
def Spec.Seen (scope : Scope V) (pat : List (Seq (Leaf V))) (m : MockId) : Prop :=
  match scope with
  | .using_ s => m ∈ s.mocks
  | _ => ∃ s ∈ pat, ∃ l ∈ s.expected, l.m = m

/-- The statement's scope does not depend on verified marks. -/
def Spec.IgnoresMarks : Scope V → Prop
  | .involved => True
  | .using_ s => NoUnverified s
  | .unverified => False

theorem Agree.inScope {scope : Scope V} {pat : List (Seq (Leaf V))} (h : Agree f S w v) (hs : ∀ m, Seen scope pat m → S m)
    (hu : IgnoresMarks scope ∨ ∀ i, (f i).verified = i.verified) (j : Invocation V) :
    InScope P v pat scope j ↔ ∃ i, InScope P w pat scope i ∧ j = f i := by
  have hinv : (∀ m, (∃ s ∈ pat, ∃ l ∈ s.expected, l.m = m) → S m) → ∀ j, Involved v pat j ↔ ∃ i, Involved w pat i ∧ j = f i := by
    intro hs j
    constructor
    · rintro ⟨s, hs', l, hl, off, hj⟩
      rw [h.hist _ (hs _ ⟨s, hs', l, hl, rfl⟩)] at hj
      obtain ⟨i, hi, rfl⟩ := List.mem_map.1 hj
      exact ⟨i, ⟨s, hs', l, hl, off, hi⟩, rfl⟩
    · rintro ⟨i, ⟨s, hs', l, hl, off, hi⟩, rfl⟩
      exact ⟨s, hs', l, hl, off, by rw [h.hist _ (hs _ ⟨s, hs', l, hl, rfl⟩)]; exact List.mem_map_of_mem hi⟩
  cases scope with
  | involved => exact hinv hs j
  | using_ s => exact h.inSource s hs (hu.imp id id) j
  | unverified =>
    rcases hu with hu | hu
    · exact hu.elim
    · simp only [InScope, hinv hs j]
      constructor
      · rintro ⟨⟨i, hi, rfl⟩, hv⟩; exact ⟨i, ⟨hi, by rw [← hu]; exact hv⟩, rfl⟩
      · rintro ⟨i, ⟨hi, hv⟩, rfl⟩; exact ⟨⟨i, hi, rfl⟩, by rw [hu]; exact hv⟩

/-- An invocation in scope belongs to a mock the statement looks at. -/
theorem inSource_seen {w : World V E} {s : Source V} {i : Invocation V} (h : InSource P w s i) : ∃ m ∈ s.mocks, ∃ off, i ∈ history w m off := by
  induction s with
  | empty => exact h.elim
  | mock m => obtain ⟨off, h⟩ := h; exact ⟨m, by simp [Source.mocks], off, h⟩
  | ctx l => obtain ⟨_, off, _, _, h, _⟩ := h; exact ⟨l.m, by simp [Source.mocks], off, h⟩
  | unverified s ih => obtain ⟨m, hm, hi⟩ := ih h.1; exact ⟨m, by simpa [Source.mocks] using hm, hi⟩
  | union s t ih1 ih2 =>
    rcases h with h | h
    · obtain ⟨m, hm, hi⟩ := ih1 h; exact ⟨m, by simp [Source.mocks, hm], hi⟩
    · obtain ⟨m, hm, hi⟩ := ih2 h; exact ⟨m, by simp [Source.mocks, hm], hi⟩

theorem inScope_seen {w : World V E} {scope : Scope V} {pat : List (Seq (Leaf V))} {i : Invocation V} (h : InScope P w pat scope i) :
    ∃ m, Seen scope pat m ∧ ∃ off, i ∈ history w m off := by
  cases scope with
  | involved => obtain ⟨s, hs, l, hl, off, hi⟩ := h; exact ⟨l.m, ⟨s, hs, l, hl, rfl⟩, off, hi⟩
  | using_ s => exact inSource_seen h
  | unverified => obtain ⟨⟨s, hs, l, hl, off, hi⟩, -⟩ := h; exact ⟨l.m, ⟨s, hs, l, hl, rfl⟩, off, hi⟩

/-- The method an invocation was recorded for. -/
theorem Recs.place {w : World V E} (h : Recs w) {i : Invocation V} {m off m' off' : Nat} (hi : i ∈ history w m off) (hj : i ∈ history w m' off') :
    m = m' ∧ off = off' := by
  obtain ⟨b, hb, hi⟩ := mem_history.1 hi
  obtain ⟨b', hb', hj⟩ := mem_history.1 hj
  exact h.cross _ _ _ _ _ _ _ _ hb hb' hi hj rfl

theorem Agree.matchCount {scope : Scope V} {pat : List (Seq (Leaf V))} (h : Agree f S w v) (hs : ∀ m, Seen scope pat m → S m)
    (hu : IgnoresMarks scope ∨ ∀ i, (f i).verified = i.verified) (hw : Recs w) (hv : Recs v) {n : Nat}
    (hc : MatchCount P w scope pat n) : MatchCount P v scope pat n := by
  obtain ⟨actual, ⟨ho, hmem⟩, hmax⟩ := hc
  refine ⟨actual.map f, ⟨?_, ?_⟩, ?_⟩
  · simp only [InCallOrder, List.pairwise_map, h.uid]; exact ho
  · intro j
    rw [h.inScope hs hu, List.mem_map]
    constructor
    · rintro ⟨i, hi, rfl⟩; exact ⟨i, (hmem i).1 hi, rfl⟩
    · rintro ⟨i, hi, rfl⟩; exact ⟨i, (hmem i).2 hi, rfl⟩
  · refine (isMaxCount_map f ?_).2 hmax
    intro l i hi
    obtain ⟨m, hm, off, hi⟩ := inScope_seen ((hmem i).1 hi)
    have hfi : f i ∈ history v m off := by rw [h.hist m (hs m hm)]; exact List.mem_map_of_mem hi
    constructor
    · intro hd
      have : l.m = m := by
        obtain ⟨_, off', _, _, hj, _⟩ := hd
        exact (hv.place hj hfi).1
      obtain ⟨i', hi', he⟩ := (h.inCtx (P := P) (by rw [this]; exact hs m hm) (f i)).1 hd
      have : i' = i := hw.uniq (inSource_recorded hi') ⟨m, off, hi⟩ (by rw [← h.uid i', ← he, h.uid])
      rw [← this]; exact hi'
    · intro hd
      have : l.m = m := by
        obtain ⟨_, off', _, _, hj, _⟩ := hd
        exact (hw.place hj hi).1
      exact (h.inCtx (P := P) (by rw [this]; exact hs m hm) (f i)).2 ⟨i, hd, rfl⟩

end FakeIt
