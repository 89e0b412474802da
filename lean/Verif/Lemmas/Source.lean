import Verif.Lemmas.Answer
import Verif.Lemmas.HistKeep
import Verif.Spec.Collects
/-!
# Sources and sorting
-/
namespace FakeIt
variable {V E : Type} {P : Prog V E} {nm : MockId → Nat → Nat}
open Spec

theorem mem_history {w : World V E} {m off : Nat} {i : Invocation V} : i ∈ history w m off ↔ ∃ b, w.body? m off = some b ∧ i ∈ b.invs := by
  unfold history
  cases w.body? m off <;> simp

/-- A number identifies the invocation. -/
theorem Recs.uniq {w : World V E} (h : Recs w) {i j : Invocation V} (hi : Recorded w i) (hj : Recorded w j) (he : i.uid = j.uid) : i = j := by
  obtain ⟨m, off, hi⟩ := hi
  obtain ⟨m', off', hj⟩ := hj
  obtain ⟨b, hb, hi⟩ := mem_history.1 hi
  obtain ⟨b', hb', hj⟩ := mem_history.1 hj
  obtain ⟨rfl, rfl⟩ := h.cross m off b m' off' b' i j hb hb' hi hj he
  rw [hb] at hb'; cases hb'
  have hnd : (b.invs.map (·.uid)).Nodup := by
    rw [List.Nodup, List.pairwise_map]
    exact (h.sorted m off b hb).imp fun h => Nat.ne_of_lt h
  exact eq_of_map_nodup hnd hi hj he

theorem Recs.ordinal {w : World V E} (h : Recs w) (hlt : w.invTotal < wrap32) {i : Invocation V} (hi : Recorded w i) : i.ordinal = i.uid := by
  obtain ⟨m, off, hi⟩ := hi
  obtain ⟨b, hb, hi⟩ := mem_history.1 hi
  have := h.ok m off b hb i hi
  rw [this.2.2.1]; exact Nat.mod_eq_of_lt (by omega)

/-! ## Insertion -/

/-- All elements are recorded invocations. -/
def AllRec (w : World V E) (l : List (Invocation V)) : Prop := ∀ i ∈ l, Recorded w i

theorem mem_insertU {w : World V E} (h : Recs w) {set : List (Invocation V)} (hs : AllRec w set) {x : Invocation V} (hx : Recorded w x)
    (i : Invocation V) : i ∈ insertU set x ↔ i ∈ set ∨ i = x := by
  unfold insertU
  split
  · rename_i ha
    rw [List.any_eq_true] at ha
    obtain ⟨y, hy, he⟩ := ha
    have : y = x := h.uniq (hs y hy) hx (by simpa using he)
    subst this
    exact ⟨.inl, fun h => h.elim id (fun h => h ▸ hy)⟩
  · simp

theorem mem_insertAllU {w : World V E} (h : Recs w) {l : List (Invocation V)} (hl : AllRec w l) {set : List (Invocation V)} (hs : AllRec w set)
    (i : Invocation V) : i ∈ insertAllU set l ↔ i ∈ set ∨ i ∈ l := by
  induction l generalizing set with
  | nil => simp [insertAllU]
  | cons x l ih =>
    have hx := hl x (by simp)
    have hs' : AllRec w (insertU set x) := by
      intro j hj
      rcases (mem_insertU h hs hx j).1 hj with h | h
      · exact hs j h
      · rw [h]; exact hx
    simp only [insertAllU, List.foldl_cons] at ih ⊢
    rw [ih (fun j hj => hl j (by simp [hj])) hs', mem_insertU h hs hx, List.mem_cons, or_assoc]

/-- No number twice. -/
def NodupU (l : List (Invocation V)) : Prop := (l.map (·.uid)).Nodup

theorem nodupU_insertU {set : List (Invocation V)} (hs : NodupU set) (x : Invocation V) : NodupU (insertU set x) := by
  unfold insertU
  split
  · exact hs
  · rename_i ha
    simp only [List.any_eq_true, beq_iff_eq, not_exists, not_and] at ha
    simp only [NodupU, List.map_append, List.map_cons, List.map_nil]
    rw [List.nodup_append]
    refine ⟨hs, by simp, ?_⟩
    intro a ha' b hb
    simp only [List.mem_singleton] at hb
    obtain ⟨y, hy, rfl⟩ := List.mem_map.1 ha'
    rw [hb]
    exact ha y hy

theorem nodupU_insertAllU (l : List (Invocation V)) {set : List (Invocation V)} (hs : NodupU set) : NodupU (insertAllU set l) := by
  induction l generalizing set with
  | nil => exact hs
  | cons x l ih => exact ih (nodupU_insertU hs x)

/-! ## Membership in a collected source -/

theorem mem_allInvs {k : Mock V E} {i : Invocation V} : i ∈ k.allInvs ↔ ∃ off b, k.body? off = some b ∧ i ∈ b.invs := by
  unfold Mock.allInvs
  rw [List.mem_flatMap]
  constructor
  · rintro ⟨o, ho, hi⟩
    cases o with
    | none => cases hi
    | some b =>
      obtain ⟨off, hoff⟩ := List.getElem?_of_mem ho
      exact ⟨off, b, by simp [Mock.body?, hoff], hi⟩
  · rintro ⟨off, b, hb, hi⟩
    simp only [Mock.body?] at hb
    cases hx : k.mocks[off]? with
    | none => simp [hx] at hb
    | some o =>
      simp [hx] at hb
      exact ⟨o, List.mem_of_getElem? hx, by rw [hb]; exact hi⟩

theorem recognises_iff {l : Leaf V} {heap : Addr → V} {i : Invocation V} :
    matcherMatches l.addr l.kind heap i = true ↔ Recognises l heap i := by
  by_cases h : l.addr ≠ none ∧ i.matcher = l.addr
  · constructor
    · intro _; exact .inl h
    · intro _
      obtain ⟨h1, h2⟩ := h
      have : (l.addr.isSome && i.matcher == l.addr) = true := by
        cases hx : l.addr with
        | none => exact absurd hx h1
        | some a => rw [h2, hx]; simp
      cases hk : l.kind <;> simp [matcherMatches, this]
  · rw [matcherMatches_iff]
    · exact ⟨.inr, fun hh => hh.elim (fun hh => absurd hh h) id⟩
    · rintro ⟨h1, h2⟩
      exact h ⟨by intro hn; simp [hn] at h1, h2⟩

/-- All mocks the source reads are alive. -/
def AliveS (w : World V E) (s : Source V) : Prop := ∀ m ∈ s.mocks, ∃ k, w.mock? m = some k

theorem mock?_body {w : World V E} {m : Nat} {k : Mock V E} (h : w.mock? m = some k) (off : Nat) : w.body? m off = k.body? off := by
  simp [World.body?, (World.mock?_eq_some.1 h).1]

theorem collect_spec {w : World V E} (h : Recs w) (s : Source V) (ha : AliveS w s) (into : List (Invocation V)) (hi : AllRec w into) :
    (∀ i, i ∈ s.collect P w into ↔ i ∈ into ∨ InSource P w s i) ∧ (∀ i, InSource P w s i → Recorded w i) := by
  induction s generalizing into with
  | empty => simp [Source.collect, InSource]
  | mock m =>
    have hr : ∀ i, InSource P w (.mock m) i → Recorded w i := fun i ⟨off, h⟩ => ⟨m, off, h⟩
    obtain ⟨k, hk⟩ := ha m (by simp [Source.mocks])
    have hm : ∀ i, i ∈ k.allInvs ↔ ∃ off, i ∈ history w m off := by
      intro i
      rw [mem_allInvs]
      simp only [mem_history, mock?_body hk]
    refine ⟨fun i => ?_, hr⟩
    simp only [Source.collect, hk]
    rw [mem_insertAllU h (fun i hi => hr i ((hm i).1 hi)) hi, hm]
    rfl
  | ctx l =>
    have hr : ∀ i, InSource P w (.ctx l) i → Recorded w i := fun i ⟨k, off, _, _, h, _⟩ => ⟨l.m, off, h⟩
    refine ⟨fun i => ?_, hr⟩
    obtain ⟨k, hk⟩ := ha l.m (by simp [Source.mocks])
    simp only [Source.collect, hk]
    cases hb : (l.slot.off (P.cls k.cls)).bind k.body? with
    | none =>
      simp only
      refine ⟨.inl, fun hh => hh.elim id ?_⟩
      rintro ⟨k', off, hk', hoff, hmem, -⟩
      rw [hk] at hk'; cases hk'
      obtain ⟨b, hb', -⟩ := mem_history.1 hmem
      rw [mock?_body hk] at hb'
      simp [hoff, hb'] at hb
    | some b =>
      simp only
      obtain ⟨off, hoff, hb⟩ := Option.bind_eq_some_iff.1 hb
      have hbw : w.body? l.m off = some b := by rw [mock?_body hk]; exact hb
      have hm : ∀ i, i ∈ b.invs.filter (fun i => matcherMatches l.addr l.kind w.heap i) ↔ InSource P w (.ctx l) i := by
        intro i
        rw [List.mem_filter, recognises_iff]
        constructor
        · rintro ⟨h1, h2⟩
          exact ⟨k, off, hk, hoff, mem_history.2 ⟨b, hbw, h1⟩, h2⟩
        · rintro ⟨k', off', hk', hoff', h1, h2⟩
          rw [hk] at hk'; cases hk'
          rw [hoff] at hoff'; cases hoff'
          obtain ⟨b', hb', h1⟩ := mem_history.1 h1
          rw [hbw] at hb'; cases hb'
          exact ⟨h1, h2⟩
      rw [mem_insertAllU h (fun i hi => hr i ((hm i).1 hi)) hi, hm]
  | unverified s ih =>
    have ⟨h1, h2⟩ := ih ha [] (by intro i hi; cases hi)
    have hm : ∀ i, i ∈ (s.collect P w []).filter (fun i => !i.verified) ↔ InSource P w (.unverified s) i := by
      intro i
      simp [List.mem_filter, h1, InSource]
    refine ⟨fun i => ?_, fun i hi => h2 i hi.1⟩
    simp only [Source.collect]
    rw [mem_insertAllU h (fun i hi => h2 i ((hm i).1 hi).1) hi, hm]
  | union s t ihs iht =>
    have has : AliveS w s := fun m hm => ha m (by simp [Source.mocks, hm])
    have hat : AliveS w t := fun m hm => ha m (by simp [Source.mocks, hm])
    have ⟨s1, s2⟩ := ihs has [] (by intro i hi; cases hi)
    have hsr : AllRec w (s.collect P w []) := by
      intro i hi
      rcases (s1 i).1 hi with h | h
      · cases h
      · exact s2 i h
    have ⟨t1, t2⟩ := iht hat (s.collect P w []) hsr
    have hr : ∀ i, InSource P w (.union s t) i → Recorded w i := fun i hi => hi.elim (s2 i) (t2 i)
    have hm : ∀ i, i ∈ t.collect P w (s.collect P w []) ↔ InSource P w (.union s t) i := by
      intro i
      rw [t1, s1]
      simp [InSource]
    refine ⟨fun i => ?_, hr⟩
    simp only [Source.collect]
    rw [mem_insertAllU h (fun i hi => hr i ((hm i).1 hi)) hi, hm]

theorem nodupU_collect {w : World V E} (s : Source V) {into : List (Invocation V)} (hi : NodupU into) : NodupU (s.collect P w into) := by
  cases s with
  | empty => exact hi
  | mock m =>
    simp only [Source.collect]
    split
    · exact hi
    · exact nodupU_insertAllU _ hi
  | ctx l =>
    simp only [Source.collect]
    split
    · exact hi
    · split
      · exact hi
      · exact nodupU_insertAllU _ hi
  | unverified s => exact nodupU_insertAllU _ hi
  | union s t => exact nodupU_insertAllU _ hi

/-! ## Sorting -/

/-- Sorted by ordinal. -/
def SortedO (l : List (Invocation V)) : Prop := l.Pairwise fun i j => i.ordinal < j.ordinal

theorem insertOrd_spec {S : Invocation V → Prop} (hS : ∀ i j, S i → S j → i.ordinal = j.ordinal → i = j) {x : Invocation V} (hx : S x)
    (l : List (Invocation V)) (hl : ∀ i ∈ l, S i) (hs : SortedO l) :
    SortedO (insertOrd x l) ∧ ∀ i, i ∈ insertOrd x l ↔ i = x ∨ i ∈ l := by
  induction l with
  | nil => simp [insertOrd, SortedO]
  | cons y l ih =>
    obtain ⟨h1, h2⟩ := List.pairwise_cons.1 hs
    obtain ⟨ih1, ih2⟩ := ih (fun i hi => hl i (by simp [hi])) h2
    simp only [insertOrd]
    split
    · rename_i hlt
      refine ⟨?_, by simp⟩
      refine List.pairwise_cons.2 ⟨?_, hs⟩
      intro i hi
      rcases List.mem_cons.1 hi with rfl | hi
      · exact hlt
      · exact Nat.lt_trans hlt (h1 i hi)
    · split
      · rename_i hlt
        refine ⟨List.pairwise_cons.2 ⟨?_, ih1⟩, ?_⟩
        · intro i hi
          rcases (ih2 i).1 hi with rfl | hi
          · exact hlt
          · exact h1 i hi
        · intro i
          simp only [List.mem_cons, ih2]
          constructor
          · rintro (h | h | h)
            · exact .inr (.inl h)
            · exact .inl h
            · exact .inr (.inr h)
          · rintro (h | h | h)
            · exact .inr (.inl h)
            · exact .inl h
            · exact .inr (.inr h)
      · rename_i h3 h4
        have : y = x := hS y x (hl y (by simp)) hx (by omega)
        subst this
        refine ⟨hs, fun i => ?_⟩
        simp only [List.mem_cons]
        constructor
        · exact .inr
        · rintro (h | h | h)
          · exact .inl h
          · exact .inl h
          · exact .inr h

theorem sortByOrder_spec {S : Invocation V → Prop} (hS : ∀ i j, S i → S j → i.ordinal = j.ordinal → i = j) (l : List (Invocation V))
    (hl : ∀ i ∈ l, S i) : SortedO (sortByOrder l) ∧ ∀ i, i ∈ sortByOrder l ↔ i ∈ l := by
  have gen : ∀ (l acc : List (Invocation V)), (∀ i ∈ l, S i) → (∀ i ∈ acc, S i) → SortedO acc →
      SortedO (l.foldl (fun acc i => insertOrd i acc) acc) ∧ ∀ i, i ∈ l.foldl (fun acc i => insertOrd i acc) acc ↔ i ∈ acc ∨ i ∈ l := by
    intro l
    induction l with
    | nil => intro acc _ _ hs; simp [hs]
    | cons x l ih =>
      intro acc hl ha hs
      obtain ⟨h1, h2⟩ := insertOrd_spec hS (hl x (by simp)) acc ha hs
      obtain ⟨h3, h4⟩ := ih (insertOrd x acc) (fun i hi => hl i (by simp [hi]))
        (fun i hi => ((h2 i).1 hi).elim (fun h => h ▸ hl x (by simp)) (ha i)) h1
      refine ⟨h3, fun i => ?_⟩
      rw [List.foldl_cons, h4, h2, List.mem_cons]
      constructor
      · rintro ((h | h) | h)
        · exact .inr (.inl h)
        · exact .inl h
        · exact .inr (.inr h)
      · rintro (h | h | h)
        · exact .inl (.inr h)
        · exact .inl (.inl h)
        · exact .inr h
  obtain ⟨h1, h2⟩ := gen l [] hl (by simp) List.Pairwise.nil
  exact ⟨h1, fun i => by rw [sortByOrder, h2]; simp⟩

/-- Lists strictly sorted by a number with the same elements are equal. -/
theorem eq_of_sorted {α : Type} (f : α → Nat) {l l' : List α} (h : l.Pairwise fun i j => f i < f j) (h' : l'.Pairwise fun i j => f i < f j)
    (hm : ∀ i, i ∈ l ↔ i ∈ l') : l = l' := by
  induction l generalizing l' with
  | nil =>
    cases l' with
    | nil => rfl
    | cons x l' => exact absurd ((hm x).2 (by simp)) (by simp)
  | cons x l ih =>
    cases l' with
    | nil => exact absurd ((hm x).1 (by simp)) (by simp)
    | cons y l' =>
      obtain ⟨h1, h2⟩ := List.pairwise_cons.1 h
      obtain ⟨h1', h2'⟩ := List.pairwise_cons.1 h'
      have hxy : x = y := by
        rcases List.mem_cons.1 ((hm x).1 (by simp)) with h | h
        · exact h
        · rcases List.mem_cons.1 ((hm y).2 (by simp)) with h' | h'
          · exact h'.symm
          · have := h1 y h'; have := h1' x h; omega
      subst hxy
      congr 1
      apply ih h2 h2'
      intro i
      constructor
      · intro hi
        rcases List.mem_cons.1 ((hm i).1 (by simp [hi])) with rfl | h
        · have := h1 i hi; omega
        · exact h
      · intro hi
        rcases List.mem_cons.1 ((hm i).2 (by simp [hi])) with rfl | h
        · have := h1' i hi; omega
        · exact h

/-- The sequence a verification works on. -/
theorem actual_spec {w : World V E} (h : Recs w) (hlt : w.invTotal < wrap32) (s : Source V) (ha : AliveS w s) :
    InCallOrder (sortByOrder (s.collect P w [])) ∧ ∀ i, i ∈ sortByOrder (s.collect P w []) ↔ InSource P w s i := by
  obtain ⟨hm, hr⟩ := collect_spec (P := P) h s ha [] (by intro i hi; cases hi)
  have hall : ∀ i ∈ s.collect P w [], Recorded w i := by
    intro i hi
    rcases (hm i).1 hi with h | h
    · cases h
    · exact hr i h
  obtain ⟨h1, h2⟩ := sortByOrder_spec (S := Recorded w)
    (fun i j hi hj he => h.uniq hi hj (by rw [← h.ordinal hlt hi, ← h.ordinal hlt hj, he])) _ hall
  refine ⟨?_, fun i => by rw [h2, hm]; simp⟩
  refine List.Pairwise.imp_of_mem ?_ h1
  intro i j hi hj hlt'
  rw [h.ordinal hlt (hall i ((h2 i).1 hi)), h.ordinal hlt (hall j ((h2 j).1 hj))] at hlt'
  exact hlt'

theorem inSource_recorded {w : World V E} {s : Source V} {i : Invocation V} (h : InSource P w s i) : Recorded w i := by
  induction s with
  | empty => exact h.elim
  | mock m => obtain ⟨off, h⟩ := h; exact ⟨m, off, h⟩
  | ctx l => obtain ⟨_, off, _, _, h, _⟩ := h; exact ⟨l.m, off, h⟩
  | unverified s ih => exact ih h.1
  | union s t ihs iht => exact h.elim ihs iht

/-- Whatever the iteration orders, the same invocations are collected. -/
theorem collects_mem {w : World V E} (h : Recs w) {s : Source V} {into out : List (Invocation V)} (hc : Collects P w s into out) (hi : AllRec w into) :
    ∀ i, i ∈ out ↔ i ∈ into ∨ InSource P w s i := by
  have nil : AllRec w [] := by intro i hi; cases hi
  induction hc with
  | relist _ hp ih => intro i; rw [← hp.mem_iff]; exact ih hi i
  | empty => intro i; simp [InSource]
  | @mock m k into hk =>
    intro i
    have hm : ∀ i, i ∈ k.allInvs ↔ InSource P w (.mock m) i := by
      intro i
      rw [mem_allInvs]
      simp only [InSource, mem_history, mock?_body hk]
    rw [mem_insertAllU h (fun i hi => inSource_recorded ((hm i).1 hi)) hi, hm]
  | @ctx l k off b into hk hoff hb =>
    intro i
    have hbw : w.body? l.m off = some b := by rw [mock?_body hk]; exact hb
    have hm : ∀ i, i ∈ b.invs.filter (fun i => matcherMatches l.addr l.kind w.heap i) ↔ InSource P w (.ctx l) i := by
      intro i
      rw [List.mem_filter, recognises_iff]
      constructor
      · rintro ⟨h1, h2⟩
        exact ⟨k, off, hk, hoff, mem_history.2 ⟨b, hbw, h1⟩, h2⟩
      · rintro ⟨k', off', hk', hoff', h1, h2⟩
        rw [hk] at hk'; cases hk'
        rw [hoff] at hoff'; cases hoff'
        obtain ⟨b', hb', h1⟩ := mem_history.1 h1
        rw [hbw] at hb'; cases hb'
        exact ⟨h1, h2⟩
    rw [mem_insertAllU h (fun i hi => inSource_recorded ((hm i).1 hi)) hi, hm]
  | @unverified s into out _ ih =>
    intro i
    have hm : ∀ i, i ∈ out.filter (fun i => !i.verified) ↔ InSource P w (.unverified s) i := by
      intro i
      simp [List.mem_filter, ih nil, InSource]
    rw [mem_insertAllU h (fun i hi => inSource_recorded ((hm i).1 hi)) hi, hm]
  | @union s t into out1 out2 _ _ ih1 ih2 =>
    intro i
    have h1 : AllRec w out1 := fun i hi => inSource_recorded (((ih1 nil i).1 hi).elim (fun h => by cases h) id)
    have hm : ∀ i, i ∈ out2 ↔ InSource P w (.union s t) i := by
      intro i
      rw [ih2 h1, ih1 nil]; simp [InSource]
    rw [mem_insertAllU h (fun i hi => inSource_recorded ((hm i).1 hi)) hi, hm]

/-- Sorting a list of recorded invocations. -/
theorem sort_recorded {w : World V E} (h : Recs w) (hlt : w.invTotal < wrap32) {l : List (Invocation V)} (hl : AllRec w l) :
    InCallOrder (sortByOrder l) ∧ ∀ i, i ∈ sortByOrder l ↔ i ∈ l := by
  obtain ⟨h1, h2⟩ := sortByOrder_spec (S := Recorded w)
    (fun i j hi hj he => h.uniq hi hj (by rw [← h.ordinal hlt hi, ← h.ordinal hlt hj, he])) _ hl
  refine ⟨?_, h2⟩
  refine List.Pairwise.imp_of_mem ?_ h1
  intro i j hi hj hlt'
  rw [h.ordinal hlt (hl i ((h2 i).1 hi)), h.ordinal hlt (hl j ((h2 j).1 hj))] at hlt'
  exact hlt'

theorem inSource_aggregate {w : World V E} {srcs : List (Source V)} {i : Invocation V} :
    InSource P w (aggregate srcs) i ↔ ∃ s ∈ srcs, InSource P w s i := by
  induction srcs with
  | nil => simp [aggregate, InSource]
  | cons s srcs ih =>
    simp only [aggregate, List.foldr_cons, InSource] at ih ⊢
    rw [ih]; simp

theorem mocks_aggregate {srcs : List (Source V)} {m : MockId} : m ∈ (aggregate srcs).mocks ↔ ∃ s ∈ srcs, m ∈ s.mocks := by
  induction srcs with
  | nil => simp [aggregate, Source.mocks]
  | cons s srcs ih =>
    simp only [aggregate, List.foldr_cons, Source.mocks, List.mem_append] at ih ⊢
    rw [ih]; simp

end FakeIt
