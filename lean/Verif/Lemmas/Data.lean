import Verif.Lemmas.Hist
/-!
# The data area of every instance has the size of its class
-/
namespace FakeIt
variable {V E : Type} {P : Prog V E} {nm : MockId → Nat → Nat}

/-- Every mock's data area has the size of its class. -/
def DataOk (P : Prog V E) (w : World V E) : Prop := ∀ (m : Nat) (k : Mock V E), w.mocks[m]? = some k → k.data.length = (P.cls k.cls).dataSize

theorem DataOk.updMock {w : World V E} (h : DataOk P w) (m : MockId) (f : Mock V E → Mock V E) (hf : ∀ k, (f k).cls = k.cls ∧ (f k).data.length = k.data.length) :
    DataOk P (w.updMock m f) := by
  intro m' k hk
  rw [World.mocks_updMock] at hk
  by_cases hm : m = m'
  · rw [if_pos hm] at hk
    obtain ⟨k0, hk0, rfl⟩ := Option.map_eq_some_iff.1 hk
    rw [(hf k0).1, (hf k0).2]
    exact h m' k0 hk0
  · rw [if_neg hm] at hk
    exact h m' k hk

theorem DataOk.same {w w' : World V E} (h : DataOk P w) (he : w'.mocks = w.mocks) : DataOk P w' := by
  intro m k hk; rw [he] at hk; exact h m k hk

theorem apiStableD : ApiStable P (fun _ => True) (fun _ _ => True) (fun _ => True) (fun w w' => DataOk P w → DataOk P w') where
  inv _ _ := trivial
  refl _ := id
  trans h1 h2 := fun h => h2 (h1 h)
  slots _ _ _ := trivial
  newMock w cls own _ := fun h m k hk => by
    by_cases hm : m < w.mocks.length
    · exact h m k (by rw [← hk]; exact (List.getElem?_append_left hm).symm)
    · simp only [] at hk
      rw [List.getElem?_append_right (by omega)] at hk
      cases hn : m - w.mocks.length with
      | zero => rw [hn] at hk; simp at hk; subst hk; simp [Mock.mk']
      | succ n => rw [hn] at hk; simp at hk
  destroy w m k _ _ _ h := h.updMock _ _ fun k => ⟨rfl, rfl⟩
  reset w m k _ _ _ h := h.updMock _ _ fun k => by unfold Mock.reset Mock.initData; split <;> simp [Mock.proxyReset]
  clear w m k _ _ _ h := h.updMock _ _ fun k => by unfold Mock.clear Mock.initData; split <;> simp
  stubData w m k cell v _ _ _ _ h := h.updMock _ _ fun k => ⟨rfl, by simp⟩
  writeData w m k cell v _ _ _ _ h := h.updMock _ _ fun k => ⟨rfl, by simp⟩
  bind w m k off ctr _ _ _ _ h := DataOk.same (h.updMock m (·.bind off ctr (newBody w.methTotal)) fun k => ⟨rfl, rfl⟩) rfl
  bindDtor w m k d _ _ _ _ _ _ h := DataOk.same (h.updMock m (·.bindDtor d (newBody w.methTotal)) fun k => ⟨rfl, rfl⟩) rfl
  commit w m k slot off b kind acts _ _ _ _ _ _ h := by
    refine DataOk.same (w := w.updBody m off _) (h.updMock _ _ fun k => ?_) rfl
    exact ⟨rfl, rfl⟩
  write w a v _ h := h.same rfl
  fire w e _ h := h.same rfl
  mark w scope pat q mode actual count matched _ _ _ h := fun m k hk => by
    rw [World.mocks_mark] at hk
    obtain ⟨k0, hk0, rfl⟩ := Option.map_eq_some_iff.1 hk
    exact h m k0 hk0

theorem stableD : Stable P (fun _ => True) (fun _ _ => True) (fun _ _ => True) (fun _ _ _ _ => True) (fun _ => True) (fun w w' => DataOk P w → DataOk P w') where
  inv _ _ := trivial
  dispatch _ _ _ _ _ := trivial
  frame _ _ _ := trivial
  thunk _ _ _ _ _ := trivial
  deleg _ := trivial
  swapIn _ _ _ _ := trivial
  refl _ := id
  trans h1 h2 := fun h => h2 (h1 h)
  api hI hA h := apiStep_stable apiStableD hI hA h
  write w a v _ h := h.same rfl
  setArgs w m off uid args f _ _ _ h := h.updMock _ _ fun k => ⟨rfl, rfl⟩
  bump w _ h := h.same rfl
  fire w e _ h := h.same rfl
  push w m off b args hd _ _ _ _ h := DataOk.updMock (w := w.bumpInv) (h.same rfl) _ _ fun k => ⟨rfl, rfl⟩
  tick w m off h i _ _ hd := hd.updMock _ _ fun k => ⟨rfl, rfl⟩
  fin w m off h hd i s _ _ _ _ hD := hD.updMock _ _ fun k => ⟨rfl, rfl⟩
  swap w w' m off h k fake orig hd0 hd i s _ _ _ _ _ _ hQ _ _ hD := by
    have h1 : DataOk P (w'.setVt m off fake) := DataOk.updMock (hQ (hD.updMock _ _ fun k => ⟨rfl, rfl⟩)) _ _ fun k => ⟨rfl, rfl⟩
    exact h1.updMock _ _ fun k => ⟨rfl, rfl⟩

theorem within_true (P : Prog V E) : P.Within (fun _ => True) (fun _ _ => True) := by
  intro f vs
  generalize P.fn f vs = b
  induction b with
  | done o => trivial
  | setArg i x k ih => exact ih
  | call m off as k ih => exact ⟨trivial, fun o => ih o⟩
  | api a k ih => exact ⟨trivial, fun o => ih o⟩

theorem Reach.dataOk {w : World V E} (h : Reach P nm w) : DataOk P w := by
  induction h with
  | start heap => intro m k hk; simp [World.start] at hk
  | @step w w' fuel op out hr hop hs ih => exact opStep_stable (stableD (P := P)) (within_true P) _ _ (by cases op <;> trivial) _ _ _ trivial hs ih

end FakeIt
