import Verif.Lemmas.Agree
/-!
# Steps that do not concern a mock leave it alone
-/
namespace FakeIt
variable {V E : Type} {P : Prog V E} {nm : MockId → Nat → Nat}
open Spec

/-- The operation does not name mock `m`. -/
def Spec.Avoids (m : MockId) : Api V E → Prop
  | .newMock _ => True
  | .newSpy _ => True
  | .write _ _ => True
  | .destroy m' => m' ≠ m
  | .touch m' _ => m' ≠ m
  | .reset m' => m' ≠ m
  | .clear m' => m' ≠ m
  | .stubData m' _ _ => m' ≠ m
  | .writeData m' _ _ => m' ≠ m
  | .when_ t _ _ => t.m ≠ m
  | .assign t _ => t.m ≠ m
  | .fake ts => ∀ t ∈ ts, t.m ≠ m
  | .spy _ ts => ∀ t ∈ ts, t.m ≠ m
  | .verify scope pat _ _ => (∀ l ∈ verifyLeaves scope pat, l.m ≠ m) ∧ m ∉ (scope.source pat).mocks
  | .verifyNoOther srcs _ => (∀ l ∈ (aggregate srcs).leaves, l.m ≠ m) ∧ m ∉ (aggregate srcs).mocks

/-! ## What a verification marks belongs to the mocks it reads -/

theorem mem_of_insertAllU {l set : List (Invocation V)} {i : Invocation V} (h : i ∈ insertAllU set l) : i ∈ set ∨ i ∈ l := by
  induction l generalizing set with
  | nil => exact .inl h
  | cons x l ih =>
    rcases ih h with h | h
    · unfold insertU at h
      split at h
      · exact .inl h
      · rcases List.mem_append.1 h with h | h
        · exact .inl h
        · rw [List.mem_singleton.1 h]; exact .inr (List.mem_cons_self)
    · exact .inr (List.mem_cons_of_mem _ h)

theorem mem_of_collect {w : World V E} (s : Source V) {into : List (Invocation V)} {i : Invocation V} (h : i ∈ s.collect P w into) :
    i ∈ into ∨ ∃ m ∈ s.mocks, ∃ off, i ∈ history w m off := by
  induction s generalizing into with
  | empty => exact .inl h
  | mock m =>
    simp only [Source.collect] at h
    split at h
    · exact .inl h
    · rename_i k hk
      rcases mem_of_insertAllU h with h | h
      · exact .inl h
      · obtain ⟨off, b, hb, hi⟩ := mem_allInvs.1 h
        exact .inr ⟨m, by simp [Source.mocks], off, mem_history.2 ⟨b, by rw [mock?_body hk]; exact hb, hi⟩⟩
  | ctx l =>
    simp only [Source.collect] at h
    split at h
    · exact .inl h
    · rename_i k hk
      split at h
      · exact .inl h
      · rename_i b hb
        rcases mem_of_insertAllU h with h | h
        · exact .inl h
        · obtain ⟨off, -, hb⟩ := Option.bind_eq_some_iff.1 hb
          exact .inr ⟨l.m, by simp [Source.mocks], off, mem_history.2 ⟨b, by rw [mock?_body hk]; exact hb, (List.mem_filter.1 h).1⟩⟩
  | unverified s ih =>
    rcases mem_of_insertAllU h with h | h
    · exact .inl h
    · rcases ih (List.mem_filter.1 h).1 with h | h
      · cases h
      · exact .inr h
  | union s t ih1 ih2 =>
    rcases mem_of_insertAllU h with h | h
    · exact .inl h
    · simp only [Source.mocks, List.mem_append]
      rcases ih2 h with h | ⟨m, hm, h⟩
      · rcases ih1 h with h | ⟨m, hm, h⟩
        · cases h
        · exact .inr ⟨m, .inl hm, h⟩
      · exact .inr ⟨m, .inr hm, h⟩

theorem mem_of_insertOrd {x i : Invocation V} {l : List (Invocation V)} (h : i ∈ insertOrd x l) : i = x ∨ i ∈ l := by
  induction l with
  | nil => exact .inl (List.mem_singleton.1 h)
  | cons y l ih =>
    unfold insertOrd at h
    split at h
    · exact List.mem_cons.1 h
    · split at h
      · rcases List.mem_cons.1 h with rfl | h
        · exact .inr List.mem_cons_self
        · exact (ih h).imp id (List.mem_cons_of_mem _)
      · exact .inr h

theorem mem_of_sortByOrder {l : List (Invocation V)} {i : Invocation V} (h : i ∈ sortByOrder l) : i ∈ l := by
  have gen : ∀ (l acc : List (Invocation V)), i ∈ l.foldl (fun acc i => insertOrd i acc) acc → i ∈ acc ∨ i ∈ l := by
    intro l
    induction l with
    | nil => intro acc h; exact .inl h
    | cons x l ih =>
      intro acc h
      rcases ih _ h with h | h
      · rcases mem_of_insertOrd h with rfl | h
        · exact .inr List.mem_cons_self
        · exact .inl h
      · exact .inr (List.mem_cons_of_mem _ h)
  rcases gen l [] h with h | h
  · cases h
  · exact h

namespace MatchAnalysis
variable {L I : Type} {mt : L → I → Bool}

theorem mem_of_collect {actual : List I} {start len : Nat} {c : List I} (h : collect actual start len = .done c) {i : I} (hi : i ∈ c) : i ∈ actual := by
  induction len generalizing start c with
  | zero => simp [collect] at h; subst h; cases hi
  | succ n ih =>
    simp only [collect] at h
    split at h
    · cases h
    · rename_i a ha
      simp only [R.bind_eq_done, R.done.injEq] at h
      obtain ⟨rest, hr, rfl⟩ := h
      rcases List.mem_cons.1 hi with rfl | hi
      · exact List.mem_of_getElem? ha
      · exact ih hr hi

theorem mem_of_findNextP {actual : List I} (ps : List (Seq L)) {start : Nat} {matched matched' : List I} {r : Option Nat}
    (h : findNextP mt actual ps start matched = .done (r, matched')) {i : I} (hi : i ∈ matched') : i ∈ matched ∨ i ∈ actual := by
  induction ps generalizing start matched with
  | nil => simp only [findNextP, R.done.injEq, Prod.mk.injEq] at h; rw [h.2]; exact .inl hi
  | cons s ps ih =>
    simp only [findNextP, R.bind_eq_done] at h
    obtain ⟨o, h1, h2⟩ := h
    cases o with
    | none => simp only [R.done.injEq, Prod.mk.injEq] at h2; rw [h2.2]; exact .inl hi
    | some k =>
      simp only [R.bind_eq_done] at h2
      obtain ⟨c, hc, h3⟩ := h2
      rcases ih h3 with h | h
      · rcases List.mem_append.1 h with h | h
        · exact .inl h
        · exact .inr (mem_of_collect hc h)
      · exact .inr h

theorem mem_of_countLoop {actual : List I} {ps : List (Seq L)} {fuel start count n : Nat} {matched matched' : List I}
    (h : countLoop mt actual ps fuel start count matched = .done (n, matched')) {i : I} (hi : i ∈ matched') : i ∈ matched ∨ i ∈ actual := by
  induction fuel generalizing start count matched with
  | zero => simp [countLoop] at h
  | succ fuel ih =>
    simp only [countLoop, R.bind_eq_done] at h
    obtain ⟨⟨o, m1⟩, h1, h2⟩ := h
    cases o with
    | none => simp only [R.done.injEq, Prod.mk.injEq] at h2; exact mem_of_findNextP ps h1 (by rw [h2.2]; exact hi)
    | some e =>
      rcases ih h2 with h | h
      · exact mem_of_findNextP ps h1 h
      · exact .inr h
end MatchAnalysis

theorem mem_of_analyse {w : World V E} {scope : Scope V} {pat : List (Seq (Leaf V))} {actual matched : List (Invocation V)} {c : Nat}
    (h : analyse P w scope pat = .done (actual, c, matched)) {i : Invocation V} (hi : i ∈ matched) :
    ∃ m ∈ (scope.source pat).mocks, ∃ off, i ∈ history w m off := by
  simp only [analyse, R.bind_eq_done] at h
  obtain ⟨⟨c', m'⟩, h1, h2⟩ := h
  simp only [R.done.injEq, Prod.mk.injEq] at h2
  obtain ⟨rfl, rfl, rfl⟩ := h2
  rcases MatchAnalysis.mem_of_countLoop h1 hi with h | h
  · cases h
  · rcases mem_of_collect _ (mem_of_sortByOrder h) with h | h
    · cases h
    · exact h

/-- Marking invocations of other mocks. -/
theorem mocks_mark_other {w : World V E} (hr : Recs w) {m : MockId} {uids : List Nat}
    (h : ∀ u ∈ uids, ∃ m' ≠ m, ∃ off, ∃ i ∈ history w m' off, i.uid = u) : (w.mark uids).mocks[m]? = w.mocks[m]? := by
  rw [World.mocks_mark]
  cases hk : w.mocks[m]? with
  | none => rfl
  | some k =>
    rw [Option.map_some, Option.some.injEq]
    have hb : ∀ (off : Nat) (b : MBody V E), k.mocks[off]? = some (some b) → ∀ i ∈ b.invs, uids.contains i.uid = false := by
      intro off b hb i hi
      rw [← Bool.not_eq_true, List.contains_iff_mem]
      intro hu
      obtain ⟨m', hne, off', j, hj, he⟩ := h _ hu
      obtain ⟨b', hb', hj⟩ := mem_history.1 hj
      refine hne (hr.cross m' off' b' m off b j i hb' ?_ hj hi he).1
      simp [World.body?, hk, Mock.body?, hb]
    have : (Mock.mark uids k).mocks = k.mocks := by
      unfold Mock.mark
      refine List.ext_getElem? fun off => ?_
      rw [List.getElem?_map]
      cases ho : k.mocks[off]? with
      | none => rfl
      | some o =>
        cases o with
        | none => rfl
        | some b =>
          simp only [Option.map_some]
          congr 2
          have : b.invs.map (fun i => if uids.contains i.uid then { i with verified := true } else i) = b.invs := by
            conv => rhs; rw [← List.map_id b.invs]
            refine List.map_congr_left fun i hi => ?_
            rw [hb off b ho i hi]; rfl
          rw [this]
    show Mock.mark uids k = k
    calc Mock.mark uids k = { k with mocks := (Mock.mark uids k).mocks } := rfl
      _ = k := by rw [this]

/-! ## Isolation -/

/-- Invariants kept and the object of mock `m` (stubbings, scripts, histories, virtual table, data members) kept. -/
def QI (P : Prog V E) (nm : MockId → Nat → Nat) (m : MockId) (w w' : World V E) : Prop := Q2 P nm w w' ∧ (m < w.mocks.length → w'.mocks[m]? = w.mocks[m]?)

def II (P : Prog V E) (nm : MockId → Nat → Nat) (m : MockId) (w : World V E) : Prop := Inv2 P nm w ∧ m < w.mocks.length

theorem QI.inv {m : MockId} {w w' : World V E} (h : QI P nm m w w') (hI : II P nm m w) : II P nm m w' := by
  refine ⟨h.1.inv hI.1, ?_⟩
  have := h.2 hI.2
  rw [List.getElem?_eq_getElem hI.2] at this
  exact (List.getElem?_eq_some_iff.1 this).1

theorem QI.trans {m : MockId} {a b c : World V E} (h1 : QI P nm m a b) (h2 : QI P nm m b c) : QI P nm m a c := by
  refine ⟨h1.1.trans h2.1, fun hm => ?_⟩
  have e1 := h1.2 hm
  rw [← e1]
  refine h2.2 ?_
  rw [List.getElem?_eq_getElem hm] at e1
  exact (List.getElem?_eq_some_iff.1 e1).1

theorem mocks_updMock_ne {w : World V E} {m m' : MockId} (h : m' ≠ m) (f : Mock V E → Mock V E) : (w.updMock m' f).mocks[m]? = w.mocks[m]? := by
  rw [World.mocks_updMock, if_neg h]

theorem apiStableI (m : MockId) : ApiStable P (fun a => a.Named nm ∧ Avoids m a) (fun m' s => s.Named nm m' ∧ m' ≠ m) (II P nm m) (QI P nm m) where
  inv h hI := h.inv hI
  refl w := ⟨apiStable2.refl w, fun _ => rfl⟩
  trans h1 h2 := h1.trans h2
  slots {a} h x hx := by
    refine ⟨h.1 x hx, ?_⟩
    have ha := h.2
    cases a <;> simp only [Api.slots, Avoids, List.mem_singleton, List.mem_map, List.not_mem_nil] at hx ha
    all_goals first
      | (subst hx; exact ha)
      | (obtain ⟨t, ht, rfl⟩ := hx; exact ha t ht)
      | (obtain ⟨t, ht, rfl⟩ := hx; exact ha.1 t ht)
  newMock w cls own hI := ⟨apiStable2.newMock w cls own hI.1, fun hm => List.getElem?_append_left hm⟩
  destroy w m' k hI hA hk := ⟨apiStable2.destroy w m' k hI.1 hA.1 hk, fun _ => mocks_updMock_ne hA.2 _⟩
  reset w m' k hI hA hk := ⟨apiStable2.reset w m' k hI.1 hA.1 hk, fun _ => mocks_updMock_ne hA.2 _⟩
  clear w m' k hI hA hk := ⟨apiStable2.clear w m' k hI.1 hA.1 hk, fun _ => mocks_updMock_ne hA.2 _⟩
  stubData w m' k cell v hI hA hk hlt := ⟨apiStable2.stubData w m' k cell v hI.1 hA.1 hk hlt, fun _ => mocks_updMock_ne hA.2 _⟩
  writeData w m' k cell v hI hA hk hlt := ⟨apiStable2.writeData w m' k cell v hI.1 hA.1 hk hlt, fun _ => mocks_updMock_ne hA.2 _⟩
  bind w m' k off ctr hI hB hk hn := ⟨apiStable2.bind w m' k off ctr hI.1 hB.1 hk hn, fun _ => mocks_updMock_ne hB.2 _⟩
  bindDtor w m' k d hI hB hk hd hlt hn := ⟨apiStable2.bindDtor w m' k d hI.1 hB.1 hk hd hlt hn, fun _ => mocks_updMock_ne hB.2 _⟩
  commit w m' k slot off b kind acts hI hs hB hk hoff hb :=
    ⟨apiStable2.commit w m' k slot off b kind acts hI.1 (hs.imp fun a h => ⟨h.1.1, h.2⟩) hB.1 hk hoff hb, fun _ => mocks_updMock_ne hB.2 _⟩
  write w a v hI := ⟨apiStable2.write w a v hI.1, fun _ => rfl⟩
  fire w e hI := ⟨apiStable2.fire w e hI.1, fun _ => rfl⟩
  mark w scope pat q mode actual count matched hI hA h := by
    refine ⟨apiStable2.mark w scope pat q mode actual count matched hI.1 hA.1 h, fun _ => mocks_mark_other hI.1.2 ?_⟩
    intro u hu
    obtain ⟨i, hi, rfl⟩ := List.mem_map.1 hu
    obtain ⟨m', hm', off, hi'⟩ := mem_of_analyse h hi
    exact ⟨m', fun e => hA.2.2 (e ▸ hm'), off, i, hi', rfl⟩

theorem stableI (m : MockId) : Stable P (fun a => a.Named nm ∧ Avoids m a) (fun m' _ => m' ≠ m) (fun m' _ => m' ≠ m)
    (fun m' _ _ _ => m' ≠ m) (II P nm m) (QI P nm m) where
  inv h hI := h.inv hI
  dispatch _ hC _ _ _ := hC
  frame _ _ h := h
  thunk _ hC _ _ _ := hC
  deleg h := h
  swapIn {w m' k off' orig} hI hD hk ho := by
    refine ⟨stable2.swapIn hI.1 trivial hk ho, ?_⟩
    simpa [World.setVt, World.updMock] using hI.2
  refl w := ⟨stable2.refl w, fun _ => rfl⟩
  trans h1 h2 := h1.trans h2
  api hI hA h := apiStep_stable (apiStableI m) hI hA h
  write w a v hI := ⟨stable2.write w a v hI.1, fun _ => rfl⟩
  setArgs w m' off' uid args f hI hD hf := ⟨stable2.setArgs w m' off' uid args f hI.1 trivial hf, fun _ => mocks_updMock_ne hD _⟩
  bump w hI := ⟨stable2.bump w hI.1, fun _ => rfl⟩
  fire w e hI := ⟨stable2.fire w e hI.1, fun _ => rfl⟩
  push w m' off' b args h hI hD hb hf := ⟨stable2.push w m' off' b args h hI.1 trivial hb hf, fun _ => mocks_updMock_ne hD _⟩
  tick w m' off' h i hI hD := ⟨stable2.tick w m' off' h i hI.1 trivial, fun _ => mocks_updMock_ne hD _⟩
  fin w m' off' h hd i s hI hD hh hs := ⟨stable2.fin w m' off' h hd i s hI.1 trivial hh hs, fun _ => mocks_updMock_ne hD _⟩
  swap w w' m' off' h k fake orig hd0 hd i s hI hD hk hf ho hh hQ hh' hs := by
    refine ⟨stable2.swap w w' m' off' h k fake orig hd0 hd i s hI.1 trivial hk hf ho hh hQ.1 hh' hs, fun hm => ?_⟩
    have h1 : (w.setVt m' off' orig).mocks[m]? = w.mocks[m]? := mocks_updMock_ne hD _
    have h2 := hQ.2 (by simpa [World.setVt, World.updMock] using hm)
    rw [← h1, ← h2]
    exact (mocks_updMock_ne hD _).trans (mocks_updMock_ne hD _)

end FakeIt
