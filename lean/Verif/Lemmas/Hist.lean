import Verif.Lemmas.Hook
import Verif.Spec.History
/-!
# Histories: numbering, and growth
-/
namespace FakeIt
variable {V E : Type}
open Spec

theorem Spec.Same.refl (i : Invocation V) : Same i i := ⟨rfl, rfl, rfl, rfl, id⟩

theorem Spec.Same.trans {a b c : Invocation V} (h1 : Same a b) (h2 : Same b c) : Same a c :=
  ⟨h2.uid.trans h1.uid, h2.ordinal.trans h1.ordinal, h2.method.trans h1.method, h2.matcher.trans h1.matcher,
   fun h => h2.verified (h1.verified h)⟩

theorem Spec.Extends.map (f : Invocation V → Invocation V) (hf : ∀ i, Same i (f i)) (l : List (Invocation V)) : Extends l (l.map f) := by
  induction l with
  | nil => exact .nil _
  | cons i l ih => exact .cons (hf i) ih

theorem Spec.Extends.refl (l : List (Invocation V)) : Extends l l := by
  induction l with
  | nil => exact .nil _
  | cons i l ih => exact .cons (.refl i) ih

theorem Spec.Extends.append (l r : List (Invocation V)) : Extends l (l ++ r) := by
  induction l with
  | nil => exact .nil _
  | cons i l ih => exact .cons (.refl i) ih

theorem Spec.Extends.trans {a b c : List (Invocation V)} (h1 : Extends a b) (h2 : Extends b c) : Extends a c := by
  induction h1 generalizing c with
  | nil => exact .nil _
  | cons hs _ ih =>
    cases h2 with
    | cons hs' h2 => exact .cons (hs.trans hs') (ih h2)

theorem Spec.Extends.length_le {a b : List (Invocation V)} (h : Extends a b) : a.length ≤ b.length := by
  induction h with
  | nil => simp
  | cons _ _ ih => simp; exact ih

/-! ## Numbering of invocations and methods -/

/-- Numbering invariant. -/
structure Recs (w : World V E) : Prop where
  ok : ∀ m off b, w.body? m off = some b → ∀ i ∈ b.invs, 1 ≤ i.uid ∧ i.uid ≤ w.invTotal ∧ i.ordinal = i.uid % wrap32 ∧
    i.method = b.method ∧ ∃ a : Nat, i.matcher = some a ∧ a < w.alloc
  sorted : ∀ m off b, w.body? m off = some b → b.invs.Pairwise fun i j => i.uid < j.uid
  cross : ∀ m off b m' off' b' i i', w.body? m off = some b → w.body? m' off' = some b' → i ∈ b.invs → i' ∈ b'.invs →
    i.uid = i'.uid → m = m' ∧ off = off'
  meth : w.methTotal < wrap32 → ∀ m off b, w.body? m off = some b → 1 ≤ b.method ∧ b.method ≤ w.methTotal
  mcross : w.methTotal < wrap32 → ∀ m off b m' off' b', w.body? m off = some b → w.body? m' off' = some b' → b.method = b'.method →
    m = m' ∧ off = off'

/-- The part of a recorded invocation that never changes. -/
def key (i : Invocation V) : Nat × Nat × Nat × Option Addr := (i.uid, i.ordinal, i.method, i.matcher)

theorem key_mem {l l' : List (Invocation V)} (h : l'.map key = l.map key) {i : Invocation V} (hi : i ∈ l') :
    ∃ j ∈ l, j.uid = i.uid ∧ j.ordinal = i.ordinal ∧ j.method = i.method ∧ j.matcher = i.matcher := by
  have : key i ∈ l'.map key := List.mem_map_of_mem hi
  rw [h] at this
  obtain ⟨j, hj, he⟩ := List.mem_map.1 this
  simp only [key, Prod.mk.injEq] at he
  exact ⟨j, hj, he.1, he.2.1, he.2.2.1, he.2.2.2⟩

theorem key_sorted {l l' : List (Invocation V)} (h : l'.map key = l.map key) (hs : l.Pairwise fun i j => i.uid < j.uid) :
    l'.Pairwise fun i j => i.uid < j.uid := by
  have h2 : (l.map key).Pairwise fun a b => a.1 < b.1 := by
    rw [List.pairwise_map]; exact hs
  rw [← h, List.pairwise_map] at h2
  exact h2

/-- Updates that keep, empty or drop whole histories. -/
theorem Recs.keep {w w' : World V E} (h : Recs w) (ha : w.alloc ≤ w'.alloc) (hi : w.invTotal ≤ w'.invTotal) (hm : w'.methTotal = w.methTotal)
    (hb : ∀ m off b', w'.body? m off = some b' → ∃ b, w.body? m off = some b ∧ b'.method = b.method ∧
      (b'.invs.map key = b.invs.map key ∨ b'.invs = [])) : Recs w' := by
  have hmem : ∀ m off b', w'.body? m off = some b' → ∃ b, w.body? m off = some b ∧ b'.method = b.method ∧ ∀ i ∈ b'.invs,
      ∃ j ∈ b.invs, j.uid = i.uid ∧ j.ordinal = i.ordinal ∧ j.method = i.method ∧ j.matcher = i.matcher := by
    intro m off b' hb'
    obtain ⟨b, h1, h2, h3⟩ := hb m off b' hb'
    refine ⟨b, h1, h2, fun i hi => ?_⟩
    rcases h3 with h3 | h3
    · exact key_mem h3 hi
    · rw [h3] at hi; cases hi
  constructor
  · intro m off b' hb' i hi'
    obtain ⟨b, h1, h2, h3⟩ := hmem m off b' hb'
    obtain ⟨j, hj, e1, e2, e3, e4⟩ := h3 i hi'
    obtain ⟨g1, g2, g3, g4, a, g5, g6⟩ := h.ok m off b h1 j hj
    refine ⟨by omega, by omega, by rw [← e1, ← e2]; exact g3, by rw [← e3, h2]; exact g4, a, by rw [← e4]; exact g5, by omega⟩
  · intro m off b' hb'
    obtain ⟨b, h1, h2, h3⟩ := hb m off b' hb'
    rcases h3 with h3 | h3
    · exact key_sorted h3 (h.sorted m off b h1)
    · rw [h3]; exact .nil
  · intro m off b' m2 off2 b2' i i2 hb' hb2' hi' hi2 he
    obtain ⟨b, h1, -, h3⟩ := hmem m off b' hb'
    obtain ⟨b2, h12, -, h32⟩ := hmem m2 off2 b2' hb2'
    obtain ⟨j, hj, e1, -⟩ := h3 i hi'
    obtain ⟨j2, hj2, e2, -⟩ := h32 i2 hi2
    exact h.cross m off b m2 off2 b2 j j2 h1 h12 hj hj2 (by omega)
  · intro hlt m off b' hb'
    obtain ⟨b, h1, h2, -⟩ := hb m off b' hb'
    rw [hm] at hlt ⊢
    rw [h2]; exact h.meth hlt m off b h1
  · intro hlt m off b' m2 off2 b2' hb' hb2' he
    obtain ⟨b, h1, h2, -⟩ := hb m off b' hb'
    obtain ⟨b2, h12, h22, -⟩ := hb m2 off2 b2' hb2'
    rw [hm] at hlt
    exact h.mcross hlt m off b m2 off2 b2 h1 h12 (by rw [← h2, ← h22]; exact he)

theorem Recs.same {w w' : World V E} (h : Recs w) (hm : w'.mocks = w.mocks) (ha : w'.alloc = w.alloc) (hi : w.invTotal ≤ w'.invTotal)
    (ht : w'.methTotal = w.methTotal) : Recs w' :=
  h.keep (by omega) hi ht fun m off b' hb' => ⟨b', by simpa only [World.body?, hm] using hb', rfl, .inl rfl⟩

theorem Recs.updBody {w : World V E} (h : Recs w) (m off : Nat) (f : MBody V E → MBody V E)
    (hf : ∀ b, (f b).method = b.method ∧ (f b).invs.map key = b.invs.map key) : Recs (w.updBody m off f) := by
  refine h.keep (Nat.le_refl _) (Nat.le_refl _) rfl ?_
  intro m' off' b' hb'
  rw [World.body?_updBody] at hb'
  split at hb'
  · rw [Option.map_eq_some_iff] at hb'
    obtain ⟨b, hb, rfl⟩ := hb'
    exact ⟨b, hb, (hf b).1, .inl (hf b).2⟩
  · exact ⟨b', hb', rfl, .inl rfl⟩

theorem Recs.updMock {w : World V E} (h : Recs w) (m : Nat) (f : Mock V E → Mock V E)
    (hf : ∀ k off b', w.mocks[m]? = some k → (f k).body? off = some b' → ∃ b, k.body? off = some b ∧ b'.method = b.method ∧
      (b'.invs.map key = b.invs.map key ∨ b'.invs = [])) : Recs (w.updMock m f) := by
  refine h.keep (Nat.le_refl _) (Nat.le_refl _) rfl ?_
  intro m' off b' hb'
  simp only [World.body?, World.mocks_updMock] at hb' ⊢
  by_cases hm : m = m'
  · subst hm
    simp only [if_true] at hb'
    cases hk : w.mocks[m]? with
    | none => simp [hk] at hb'
    | some k =>
      simp only [hk, Option.map_some, Option.bind_some] at hb' ⊢
      exact hf k off b' hk hb'
  · simp only [if_neg hm] at hb'
    exact ⟨b', hb', rfl, .inl rfl⟩

theorem Recs.setVt {w : World V E} (h : Recs w) (m off : Nat) (c : Code) : Recs (w.setVt m off c) :=
  h.updMock m _ fun k off b' _ hb' => ⟨b', hb', rfl, .inl rfl⟩

theorem Recs.updSeq {w : World V E} (h : Recs w) (m off α : Nat) (f : ActionSeq V E → ActionSeq V E) : Recs (w.updSeq m off α f) :=
  h.updBody m off _ fun b => ⟨rfl, rfl⟩

theorem Recs.updInv {w : World V E} (h : Recs w) (m off uid : Nat) (f : Invocation V → Invocation V) (hf : ∀ i, key (f i) = key i) :
    Recs (w.updInv m off uid f) :=
  h.updBody m off _ fun b => ⟨rfl, by
    rw [List.map_map]
    apply List.map_congr_left
    intro i _
    simp only [Function.comp]
    split
    · exact hf i
    · rfl⟩

theorem Recs.push {w : World V E} (h : Recs w) (ho : HOk w) (m off : Nat) (b : MBody V E) (args : List (Arg V)) (hd : Handler V E)
    (hb : w.body? m off = some b) (hm : hd ∈ b.handlers) :
    Recs (w.bumpInv.pushInv m off (recorded w b args hd)) := by
  have hbody : ∀ m' off' b', (w.bumpInv.pushInv m off (recorded w b args hd)).body? m' off' = some b' →
      (∃ b0, w.body? m' off' = some b0 ∧ b'.method = b0.method ∧ ((m = m' ∧ off = off' ∧ b0 = b ∧ b'.invs = b.invs ++ [recorded w b args hd]) ∨
        (¬(m = m' ∧ off = off') ∧ b'.invs = b0.invs))) := by
    intro m' off' b' hb'
    simp only [World.pushInv, World.body?_updBody, World.body?_bumpInv] at hb'
    by_cases hc : m = m' ∧ off = off'
    · obtain ⟨rfl, rfl⟩ := hc
      simp only [and_self, if_true, hb, Option.map_some, Option.some.injEq] at hb'
      subst hb'
      exact ⟨b, hb, rfl, .inl ⟨rfl, rfl, rfl, rfl⟩⟩
    · rw [if_neg hc] at hb'
      exact ⟨b', hb', rfl, .inr ⟨hc, rfl⟩⟩
  have hmem : ∀ m' off' b', (w.bumpInv.pushInv m off (recorded w b args hd)).body? m' off' = some b' → ∀ i ∈ b'.invs,
      (∃ b0, w.body? m' off' = some b0 ∧ b'.method = b0.method ∧ i ∈ b0.invs) ∨ (m = m' ∧ off = off' ∧ b'.method = b.method ∧ i = recorded w b args hd) := by
    intro m' off' b' hb' i hi
    obtain ⟨b0, hb0, hme, hc⟩ := hbody m' off' b' hb'
    rcases hc with ⟨rfl, rfl, rfl, hinv⟩ | ⟨-, hinv⟩
    · rw [hinv] at hi
      rcases List.mem_append.1 hi with hi | hi
      · exact .inl ⟨b0, hb0, hme, hi⟩
      · exact .inr ⟨rfl, rfl, hme, by simpa using hi⟩
    · exact .inl ⟨b0, hb0, hme, by rw [← hinv]; exact hi⟩
  constructor
  · intro m' off' b' hb' i hi
    show 1 ≤ i.uid ∧ i.uid ≤ w.invTotal + 1 ∧ _
    rcases hmem m' off' b' hb' i hi with ⟨b0, hb0, hme, hi⟩ | ⟨rfl, rfl, hme, rfl⟩
    · obtain ⟨g1, g2, g3, g4, a, g5, g6⟩ := h.ok _ _ _ hb0 i hi
      exact ⟨g1, by omega, g3, by rw [hme]; exact g4, a, g5, g6⟩
    · refine ⟨by simp [recorded], by simp [recorded], rfl, by rw [hme]; rfl, hd.matcher.addr, rfl, ?_⟩
      have : (hd.addr, hd.matcher.addr) ∈ haddrs w m off := by
        simp only [World.body?, Option.bind_eq_some_iff] at hb
        obtain ⟨k, hk, hkb⟩ := hb
        simp only [haddrs, hk, kaddrs, hkb]
        exact List.mem_map_of_mem (f := fun h : Handler V E => (h.addr, h.matcher.addr)) hm
      have := ho.lt _ _ _ this
      have key : ∀ a b c : Nat, b < c ∧ a + 1 = b → a < c := by omega
      exact key _ _ _ this
  · intro m' off' b' hb'
    obtain ⟨b0, hb0, -, hc⟩ := hbody m' off' b' hb'
    rcases hc with ⟨rfl, rfl, rfl, hinv⟩ | ⟨-, hinv⟩
    · rw [hinv, List.pairwise_append]
      refine ⟨h.sorted _ _ _ hb0, by simp, ?_⟩
      intro x hx y hy
      simp only [List.mem_singleton] at hy
      subst hy
      have := (h.ok _ _ _ hb0 x hx).2.1
      show x.uid < w.invTotal + 1
      omega
    · rw [hinv]; exact h.sorted _ _ _ hb0
  · intro m1 o1 b1 m2 o2 b2 i1 i2 hb1 hb2 hi1 hi2 he
    rcases hmem _ _ _ hb1 _ hi1 with ⟨c1, hc1, -, hi1⟩ | ⟨rfl, rfl, -, rfl⟩
    · rcases hmem _ _ _ hb2 _ hi2 with ⟨c2, hc2, -, hi2⟩ | ⟨rfl, rfl, -, rfl⟩
      · exact h.cross _ _ _ _ _ _ _ _ hc1 hc2 hi1 hi2 he
      · have := (h.ok _ _ _ hc1 _ hi1).2.1
        simp only [recorded] at he
        omega
    · rcases hmem _ _ _ hb2 _ hi2 with ⟨c2, hc2, -, hi2⟩ | ⟨rfl, rfl, -, rfl⟩
      · have := (h.ok _ _ _ hc2 _ hi2).2.1
        simp only [recorded] at he
        omega
      · exact ⟨rfl, rfl⟩
  · intro hlt m' off' b' hb'
    obtain ⟨b0, hb0, hme, -⟩ := hbody m' off' b' hb'
    rw [hme]; exact h.meth hlt _ _ _ hb0
  · intro hlt m1 o1 b1 m2 o2 b2 hb1 hb2 he
    obtain ⟨c1, hc1, hm1, -⟩ := hbody _ _ _ hb1
    obtain ⟨c2, hc2, hm2, -⟩ := hbody _ _ _ hb2
    exact h.mcross hlt _ _ _ _ _ _ hc1 hc2 (by rw [← hm1, ← hm2]; exact he)

/-- A new record gets a new method number. -/
theorem Recs.newRecord {w w' : World V E} (h : Recs w) (m off : Nat) (ha : w'.alloc = w.alloc) (hi : w'.invTotal = w.invTotal)
    (ht : w'.methTotal = w.methTotal + 1)
    (hb : ∀ m' off', w'.body? m' off' = if m = m' ∧ off = off' then some (newBody w.methTotal) else w.body? m' off') : Recs w' := by
  have hcase : ∀ m' off' b', w'.body? m' off' = some b' →
      (m = m' ∧ off = off' ∧ b' = newBody w.methTotal) ∨ (¬ (m = m' ∧ off = off') ∧ w.body? m' off' = some b') := by
    intro m' off' b' hb'
    rw [hb] at hb'
    by_cases hc : m = m' ∧ off = off'
    · rw [if_pos hc] at hb'
      simp only [Option.some.injEq] at hb'
      exact .inl ⟨hc.1, hc.2, hb'.symm⟩
    · rw [if_neg hc] at hb'
      exact .inr ⟨hc, hb'⟩
  constructor
  · intro m' off' b' hb' i hi'
    rcases hcase _ _ _ hb' with ⟨-, -, rfl⟩ | ⟨-, hb'⟩
    · simp [newBody] at hi'
    · obtain ⟨g1, g2, g3, g4, a, g5, g6⟩ := h.ok _ _ _ hb' i hi'
      exact ⟨g1, by omega, g3, g4, a, g5, by omega⟩
  · intro m' off' b' hb'
    rcases hcase _ _ _ hb' with ⟨-, -, rfl⟩ | ⟨-, hb'⟩
    · simp [newBody]
    · exact h.sorted _ _ _ hb'
  · intro m1 o1 b1 m2 o2 b2 i1 i2 hb1 hb2 hi1 hi2 he
    rcases hcase _ _ _ hb1 with ⟨-, -, rfl⟩ | ⟨-, hb1⟩
    · simp [newBody] at hi1
    · rcases hcase _ _ _ hb2 with ⟨-, -, rfl⟩ | ⟨-, hb2⟩
      · simp [newBody] at hi2
      · exact h.cross _ _ _ _ _ _ _ _ hb1 hb2 hi1 hi2 he
  · intro hlt m' off' b' hb'
    rw [ht] at hlt ⊢
    rcases hcase _ _ _ hb' with ⟨-, -, rfl⟩ | ⟨-, hb'⟩
    · simp only [newBody]
      rw [Nat.mod_eq_of_lt hlt]; omega
    · have := h.meth (by omega) _ _ _ hb'
      omega
  · intro hlt m1 o1 b1 m2 o2 b2 hb1 hb2 he
    rw [ht] at hlt
    rcases hcase _ _ _ hb1 with ⟨rfl, rfl, rfl⟩ | ⟨-, hb1⟩
    · rcases hcase _ _ _ hb2 with ⟨rfl, rfl, rfl⟩ | ⟨-, hb2⟩
      · exact ⟨rfl, rfl⟩
      · have := (h.meth (by omega) _ _ _ hb2).2
        simp only [newBody, Nat.mod_eq_of_lt hlt] at he
        omega
    · rcases hcase _ _ _ hb2 with ⟨rfl, rfl, rfl⟩ | ⟨-, hb2⟩
      · have := (h.meth (by omega) _ _ _ hb1).2
        simp only [newBody, Nat.mod_eq_of_lt hlt] at he
        omega
      · exact h.mcross (by omega) _ _ _ _ _ _ hb1 hb2 he

theorem body?_bindAt (w : World V E) (m k off ctr) (hk : w.mocks[m]? = some k) (hn : k.mocks[off]? = some none) (m' off' : Nat) :
    (w.bindAt m off ctr).body? m' off' = if m = m' ∧ off = off' then some (newBody w.methTotal) else w.body? m' off' := by
  show (w.updMock m _).body? m' off' = _
  simp only [World.body?, World.mocks_updMock]
  by_cases hm : m = m'
  · subst hm
    simp only [if_true, hk, Option.map_some, Option.bind_some, true_and, Mock.bind, Mock.body?]
    by_cases ho : off = off'
    · subst ho
      rw [List.getElem?_set_self (lt_of_getElem?_some hn)]; simp
    · rw [List.getElem?_set_ne ho, if_neg ho]
  · simp [hm]

theorem body?_bindDtorAt (w : World V E) (m k d) (hk : w.mocks[m]? = some k) (hn : k.mocks[d]? = some none) (m' off' : Nat) :
    (w.bindDtorAt m d).body? m' off' = if m = m' ∧ d = off' then some (newBody w.methTotal) else w.body? m' off' := by
  show (w.updMock m _).body? m' off' = _
  simp only [World.body?, World.mocks_updMock]
  by_cases hm : m = m'
  · subst hm
    simp only [if_true, hk, Option.map_some, Option.bind_some, true_and, Mock.bindDtor, Mock.body?]
    by_cases ho : d = off'
    · subst ho
      rw [List.getElem?_set_self (lt_of_getElem?_some hn)]; simp
    · rw [List.getElem?_set_ne ho, if_neg ho]
  · simp [hm]

theorem body?_none_of {w : World V E} {m k off} (hk : w.mocks[m]? = some k) (hn : k.mocks[off]? = some none) : w.body? m off = none := by
  simp [World.body?, hk, Mock.body?, hn]

theorem Mock.body?_clear (k : Mock V E) (off : Nat) : k.clear.body? off = (k.body? off).map MBody.clear := by
  unfold Mock.clear Mock.initData
  split <;> (simp only [Mock.body?, List.getElem?_map]; cases k.mocks[off]? with
    | none => rfl
    | some x => cases x <;> rfl)

theorem Mock.body?_reset (k : Mock V E) (off : Nat) : k.reset.body? off = none := by
  unfold Mock.reset Mock.initData
  split <;> simp only [Mock.body?, Mock.proxyReset, List.getElem?_replicate] <;> split <;> rfl

theorem Mock.body?_destroy (k : Mock V E) (off : Nat) : k.destroy.body? off = none := by
  simp [Mock.body?, Mock.destroy]

theorem Mock.body?_mk' (cls : Nat) (c : ClassDecl V) (own : Bool) (off : Nat) : (Mock.mk' (E := E) cls c own).body? off = none := by
  simp only [Mock.body?, Mock.mk', List.getElem?_replicate]
  split <;> rfl

theorem body?_newMock (w : World V E) (cls : Nat) (c : ClassDecl V) (own : Bool) (m off : Nat) :
    ({ w with mocks := w.mocks ++ [Mock.mk' cls c own] } : World V E).body? m off = w.body? m off := by
  simp only [World.body?]
  by_cases hlt : m < w.mocks.length
  · rw [List.getElem?_append_left hlt]
  · rw [List.getElem?_append_right (Nat.le_of_not_lt hlt), List.getElem?_eq_none (Nat.le_of_not_lt hlt)]
    cases hi : m - w.mocks.length with
    | zero => simp [Mock.body?_mk']
    | succ n => simp

/-! ## The full invariant -/

/-- Tables, handlers and numbering. -/
def Inv2 (P : Prog V E) (nm : MockId → Nat → Nat) (w : World V E) : Prop := Inv0 P nm w ∧ Recs w

/-- Kept by every step. -/
def Q2 (P : Prog V E) (nm : MockId → Nat → Nat) (w w' : World V E) : Prop :=
  Q1 P nm w w' ∧ (Inv2 P nm w → Recs w') ∧ w.invTotal ≤ w'.invTotal ∧ w.methTotal ≤ w'.methTotal

variable {P : Prog V E} {nm : MockId → Nat → Nat}

theorem Q2.inv {w w' : World V E} (h : Q2 P nm w w') (hI : Inv2 P nm w) : Inv2 P nm w' := ⟨h.1.1.1 hI.1, h.2.1 hI⟩

theorem Q2.trans {a b c : World V E} (h1 : Q2 P nm a b) (h2 : Q2 P nm b c) : Q2 P nm a c :=
  ⟨h1.1.trans h2.1, fun h => h2.2.1 (h1.inv h), Nat.le_trans h1.2.2.1 h2.2.2.1, Nat.le_trans h1.2.2.2 h2.2.2.2⟩

theorem Q2.of {w w' : World V E} (h : Q1 P nm w w') (hr : Recs w → Recs w') (hi : w'.invTotal = w.invTotal) (hm : w'.methTotal = w.methTotal) :
    Q2 P nm w w' := ⟨h, fun hI => hr hI.2, by omega, by omega⟩

theorem apiStable2 : ApiStable P (Api.Named nm) (fun m s => s.Named nm m) (Inv2 P nm) (Q2 P nm) where
  inv h hI := h.inv hI
  refl w := .of (apiStable1.refl w) id rfl rfl
  trans h1 h2 := h1.trans h2
  slots h := h
  newMock w cls own hI := .of (apiStable1.newMock w cls own hI.1)
    (fun h => h.keep (Nat.le_refl _) (Nat.le_refl _) rfl fun m off b' hb' => ⟨b', by rw [body?_newMock] at hb'; exact hb', rfl, .inl rfl⟩) rfl rfl
  destroy w m k hI hA hk := .of (apiStable1.destroy w m k hI.1 hA hk)
    (fun h => h.updMock _ _ fun k off b' _ hb' => by rw [Mock.body?_destroy] at hb'; cases hb') rfl rfl
  reset w m k hI hA hk := .of (apiStable1.reset w m k hI.1 hA hk)
    (fun h => h.updMock _ _ fun k off b' _ hb' => by rw [Mock.body?_reset] at hb'; cases hb') rfl rfl
  clear w m k hI hA hk := .of (apiStable1.clear w m k hI.1 hA hk)
    (fun h => h.updMock _ _ fun k off b' _ hb' => by
      rw [Mock.body?_clear, Option.map_eq_some_iff] at hb'
      obtain ⟨b, hb, rfl⟩ := hb'
      exact ⟨b, hb, rfl, .inr rfl⟩) rfl rfl
  stubData w m k cell v hI hA hk hlt := .of (apiStable1.stubData w m k cell v hI.1 hA hk hlt)
    (fun h => h.updMock _ _ fun k off b' _ hb' => ⟨b', hb', rfl, .inl rfl⟩) rfl rfl
  writeData w m k cell v hI hA hk hlt := .of (apiStable1.writeData w m k cell v hI.1 hA hk hlt)
    (fun h => h.updMock _ _ fun k off b' _ hb' => ⟨b', hb', rfl, .inl rfl⟩) rfl rfl
  bind w m k off ctr hI hB hk hn := by
    refine ⟨apiStable1.bind w m k off ctr hI.1 hB hk hn, fun h => ?_, Nat.le_refl _, Nat.le_succ _⟩
    have hk' := (World.mock?_eq_some.1 hk).1
    exact h.2.newRecord m off rfl rfl rfl (body?_bindAt w m k off ctr hk' hn)
  bindDtor w m k d hI hB hk hd hlt hn := by
    refine ⟨apiStable1.bindDtor w m k d hI.1 hB hk hd hlt hn, fun h => ?_, Nat.le_refl _, Nat.le_succ _⟩
    have hk' := (World.mock?_eq_some.1 hk).1
    exact h.2.newRecord m d rfl rfl rfl (body?_bindDtorAt w m k d hk' hn)
  commit w m k slot off b kind acts hI hs hB hk hoff hb := .of (apiStable1.commit w m k slot off b kind acts hI.1 hs hB hk hoff hb)
    (fun h => h.keep (by simp [World.commitAt]) (Nat.le_refl _) rfl fun m' off' b' hb' => by
      change (w.updBody m off _).body? m' off' = some b' at hb'
      rw [World.body?_updBody] at hb'
      split at hb'
      · rw [Option.map_eq_some_iff] at hb'
        obtain ⟨b, hb, rfl⟩ := hb'
        exact ⟨b, hb, rfl, .inl rfl⟩
      · exact ⟨b', hb', rfl, .inl rfl⟩) rfl rfl
  write w a v hI := .of (apiStable1.write w a v hI.1) (fun h => h.same rfl rfl (Nat.le_refl _) rfl) rfl rfl
  fire w e hI := .of (apiStable1.fire w e hI.1) (fun h => h.same rfl rfl (Nat.le_refl _) rfl) rfl rfl
  mark w scope pat q mode actual count matched hI hA h := .of (apiStable1.mark w scope pat q mode actual count matched hI.1 hA h)
    (fun h => h.keep (Nat.le_refl _) (Nat.le_refl _) rfl fun m off b' hb' => by
      rw [World.body?_mark, Option.map_eq_some_iff] at hb'
      obtain ⟨b, hb, rfl⟩ := hb'
      refine ⟨b, hb, rfl, .inl ?_⟩
      rw [List.map_map]
      apply List.map_congr_left
      intro i _
      simp only [Function.comp]
      split <;> rfl) rfl rfl

theorem stable2 : Stable P (Api.Named nm) (fun _ _ => True) (fun _ _ => True) (fun _ _ _ _ => True) (Inv2 P nm) (Q2 P nm) where
  inv h hI := h.inv hI
  dispatch _ _ _ _ _ := trivial
  frame _ _ _ := trivial
  thunk _ _ _ _ _ := trivial
  deleg _ := trivial
  swapIn hI hD hk ho := ⟨stable1.swapIn hI.1 hD hk ho, hI.2.setVt _ _ _⟩
  refl w := .of (stable1.refl w) id rfl rfl
  trans h1 h2 := h1.trans h2
  api hI hA h := apiStep_stable apiStable2 hI hA h
  write w a v hI := .of (stable1.write w a v hI.1) (fun h => h.same rfl rfl (Nat.le_refl _) rfl) rfl rfl
  setArgs w m off uid args f hI hD hf := .of (stable1.setArgs w m off uid args f hI.1 hD hf) (fun h => h.updInv _ _ _ _ fun i => rfl) rfl rfl
  bump w hI := ⟨stable1.bump w hI.1, fun h => h.2.same rfl rfl (Nat.le_succ _) rfl, Nat.le_succ _, Nat.le_refl _⟩
  fire w e hI := .of (stable1.fire w e hI.1) (fun h => h.same rfl rfl (Nat.le_refl _) rfl) rfl rfl
  push w m off b args h hI hD hb hf :=
    ⟨stable1.push w m off b args h hI.1 hD hb hf, fun hI => hI.2.push hI.1.2 m off b args h hb (findHandler_mem hf), Nat.le_succ _, Nat.le_refl _⟩
  tick w m off h i hI hD := .of (stable1.tick w m off h i hI.1 hD) (fun h => h.updSeq _ _ _ _) rfl rfl
  fin w m off h hd i s hI hD hh hs := .of (stable1.fin w m off h hd i s hI.1 hD hh hs) (fun h => h.updSeq _ _ _ _) rfl rfl
  swap w w' m off h k fake orig hd0 hd i s hI hD hk hf ho hh hQ hh' hs := by
    refine ⟨stable1.swap w w' m off h k fake orig hd0 hd i s hI.1 hD hk hf ho hh hQ.1 hh' hs, fun _ => ?_, hQ.2.2.1, hQ.2.2.2⟩
    exact ((hQ.2.1 ⟨stable1.swapIn hI.1 hD hk ho, hI.2.setVt _ _ _⟩).setVt _ _ _).updSeq _ _ _ _

/-- Everything that holds between the steps of a test program. -/
structure Wf (P : Prog V E) (nm : MockId → Nat → Nat) (w : World V E) : Prop where
  steady : Steady P nm w
  recs : Recs w

theorem Wf.inv2 {w : World V E} (h : Wf P nm w) : Inv2 P nm w := ⟨h.steady.1, h.recs⟩

theorem Q2.wf {w w' : World V E} (h : Q2 P nm w w') (hw : Wf P nm w) : Wf P nm w' := ⟨h.1.steady hw.steady, h.2.1 hw.inv2⟩

theorem recs_start (heap : Addr → V) : Recs (World.start (E := E) heap) := by
  constructor <;> simp [World.body?, World.start]

theorem Reach.wf (hP : P.Named nm) {w : World V E} (h : Reach P nm w) : Wf P nm w := by
  induction h with
  | start heap => exact ⟨steady_start heap, recs_start heap⟩
  | step _ hop hs ih => exact (opStep_stable stable2 hP _ _ hop _ _ _ ih.inv2 hs).wf ih

end FakeIt
