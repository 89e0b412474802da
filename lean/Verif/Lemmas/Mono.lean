import Verif.Lemmas.Data
/-!
# Properties of single mocks that no step takes away
-/
namespace FakeIt
variable {V E : Type} {P : Prog V E} {nm : MockId → Nat → Nat}

/-- A relation between states of one mock that holds across every update the library makes. -/
structure MockMono (T : Mock V E → Mock V E → Prop) : Prop where
  refl : ∀ k, T k k
  trans : ∀ {a b c}, T a b → T b c → T a c
  destroy : ∀ k : Mock V E, T k k.destroy
  reset : ∀ k : Mock V E, k.alive = true → T k k.reset
  clear : ∀ k : Mock V E, T k k.clear
  data : ∀ (k : Mock V E) d ms, T k { k with data := d, members := ms }
  bodies : ∀ (k : Mock V E) ms, T k { k with mocks := ms }
  bind : ∀ (k : Mock V E) off ctr b, T k (k.bind off ctr b)
  bindDtor : ∀ (k : Mock V E) d b, T k (k.bindDtor d b)
  vt : ∀ (k : Mock V E) vt, T k { k with vt := vt }

/-- Every mock is related to its later state. -/
def QT (T : Mock V E → Mock V E → Prop) (w w' : World V E) : Prop := ∀ (m : Nat) (k : Mock V E), w.mocks[m]? = some k → ∃ k', w'.mocks[m]? = some k' ∧ T k k'

variable {T : Mock V E → Mock V E → Prop}

theorem QT.updMock (M : MockMono T) (w : World V E) (m : MockId) (f : Mock V E → Mock V E) (hf : ∀ k, w.mocks[m]? = some k → T k (f k)) : QT T w (w.updMock m f) := by
  intro m' k hk
  rw [World.mocks_updMock]
  by_cases hm : m = m'
  · subst hm; exact ⟨f k, by simp [hk], hf k hk⟩
  · exact ⟨k, by simp [hm, hk], M.refl k⟩

theorem QT.same (M : MockMono T) {w w' : World V E} (he : w'.mocks = w.mocks) : QT T w w' := fun m k hk => ⟨k, by rw [he]; exact hk, M.refl k⟩

theorem QT.trans (M : MockMono T) {a b c : World V E} (h1 : QT T a b) (h2 : QT T b c) : QT T a c := by
  intro m k hk
  obtain ⟨k1, h3, h4⟩ := h1 m k hk
  obtain ⟨k2, h5, h6⟩ := h2 m k1 h3
  exact ⟨k2, h5, M.trans h4 h6⟩

theorem apiStableT (M : MockMono T) : ApiStable P (fun _ => True) (fun _ _ => True) (fun _ => True) (QT T) where
  inv _ _ := trivial
  refl w := .same M rfl
  trans h1 h2 := h1.trans M h2
  slots _ _ _ := trivial
  newMock w cls own _ := fun m k hk => ⟨k, by
    show (w.mocks ++ _)[m]? = _
    rw [List.getElem?_append_left (lt_of_getElem?_some hk)]; exact hk, M.refl k⟩
  destroy w m k _ _ _ := .updMock M _ _ _ fun k _ => M.destroy k
  reset w m k _ _ h := .updMock M _ _ _ fun k' hk' => M.reset k' (by
    obtain ⟨h1, h2⟩ := World.mock?_eq_some.1 h
    rw [h1] at hk'; cases hk'; exact h2)
  clear w m k _ _ _ := .updMock M _ _ _ fun k _ => M.clear k
  stubData w m k cell v _ _ _ _ := .updMock M _ _ _ fun k _ => M.data k _ _
  writeData w m k cell v _ _ _ _ := .updMock M _ _ _ fun k _ => M.data k _ _
  bind w m k off ctr _ _ _ _ := QT.trans M (.updMock M w m (·.bind off ctr (newBody w.methTotal)) fun k _ => M.bind k _ _ _) (.same M rfl)
  bindDtor w m k d _ _ _ _ _ _ := QT.trans M (.updMock M w m (·.bindDtor d (newBody w.methTotal)) fun k _ => M.bindDtor k _ _) (.same M rfl)
  commit w m k slot off b kind acts _ _ _ _ _ _ := QT.trans (b := w.updBody m off _) M (.updMock M w m _ fun k _ => M.bodies k _) (.same M rfl)
  write w a v _ := .same M rfl
  fire w e _ := .same M rfl
  mark w scope pat q mode actual count matched _ _ _ := fun m k hk => by
    rw [World.mocks_mark, hk]
    exact ⟨_, rfl, M.bodies k _⟩

theorem stableT (M : MockMono T) : Stable P (fun _ => True) (fun _ _ => True) (fun _ _ => True) (fun _ _ _ _ => True) (fun _ => True) (QT T) where
  inv _ _ := trivial
  dispatch _ _ _ _ _ := trivial
  frame _ _ _ := trivial
  thunk _ _ _ _ _ := trivial
  deleg _ := trivial
  swapIn _ _ _ _ := trivial
  refl w := .same M rfl
  trans h1 h2 := h1.trans M h2
  api hI hA h := apiStep_stable (apiStableT M) hI hA h
  write w a v _ := .same M rfl
  setArgs w m off uid args f _ _ _ := .updMock M _ _ _ fun k _ => M.bodies k _
  bump w _ := .same M rfl
  fire w e _ := .same M rfl
  push w m off b args hd _ _ _ _ := QT.trans M (b := w.bumpInv) (.same M rfl) (.updMock M _ _ _ fun k _ => M.bodies k _)
  tick w m off h i _ _ := .updMock M _ _ _ fun k _ => M.bodies k _
  fin w m off h hd i s _ _ _ _ := .updMock M _ _ _ fun k _ => M.bodies k _
  swap w w' m off h k fake orig hd0 hd i s _ _ _ _ _ _ hQ _ _ :=
    QT.trans M (QT.trans M (.updMock M _ _ _ fun k _ => M.vt k _) hQ) (QT.trans M (b := w'.setVt m off fake) (.updMock M _ _ _ fun k _ => M.vt k _) (.updMock M _ _ _ fun k _ => M.bodies k _))

theorem runOps_mono (M : MockMono T) {fuel : Nat} {ops : List (Op V E)} {w w' : World V E} {outs : List (OpOut V E)} (h : runOps P fuel w ops = .done (outs, w')) : QT T w w' :=
  runOps_stable (stableT (P := P) M) (within_true P) fuel ops (fun op _ => by cases op <;> trivial) w outs w' trivial h

/-- A destroyed mock stays destroyed. -/
theorem mono_dead : MockMono (V := V) (E := E) fun k k' => k'.cls = k.cls ∧ k'.owner = k.owner ∧ (k.alive = false → k'.alive = false) where
  refl k := ⟨rfl, rfl, id⟩
  trans h1 h2 := ⟨h2.1.trans h1.1, h2.2.1.trans h1.2.1, fun h => h2.2.2 (h1.2.2 h)⟩
  destroy k := ⟨rfl, rfl, fun _ => rfl⟩
  reset k _ := by unfold Mock.reset Mock.initData; split <;> exact ⟨rfl, rfl, id⟩
  clear k := by unfold Mock.clear Mock.initData; split <;> exact ⟨rfl, rfl, id⟩
  data k d ms := ⟨rfl, rfl, id⟩
  bodies k ms := ⟨rfl, rfl, id⟩
  bind k off ctr b := ⟨rfl, rfl, id⟩
  bindDtor k d b := ⟨rfl, rfl, id⟩
  vt k vt := ⟨rfl, rfl, id⟩

end FakeIt
