import Verif.Lemmas.Serve
import Verif.Lemmas.Data
/-!
# The destructor's entry in `_offsets`
-/
namespace FakeIt
variable {V E : Type} {P : Prog V E} {nm : MockId → Nat → Nat}

/-- All entries of `_offsets` for methods without a record still have the value the constructor gave them. -/
def Unreset (m : MockId) (w : World V E) : Prop :=
  ∀ (k : Mock V E) (off : Nat), w.mocks[m]? = some k → k.mocks[off]? = some none → k.offsets[off]? = some intMax

theorem Unreset.updMock {m m' : MockId} {w : World V E} (h : Unreset m w) (f : Mock V E → Mock V E)
    (hf : m' = m → ∀ (k : Mock V E) (off : Nat), w.mocks[m]? = some k → (f k).mocks[off]? = some none → k.mocks[off]? = some none ∧ (f k).offsets[off]? = k.offsets[off]?) :
    Unreset m (w.updMock m' f) := by
  intro k off hk hn
  rw [World.mocks_updMock] at hk
  by_cases hm : m' = m
  · rw [if_pos hm] at hk
    obtain ⟨k0, hk0, rfl⟩ := Option.map_eq_some_iff.1 hk
    obtain ⟨h1, h2⟩ := hf hm k0 off hk0 hn
    rw [h2]; exact h k0 off hk0 h1
  · rw [if_neg hm] at hk
    exact h k off hk hn

theorem Unreset.same {m : MockId} {w w' : World V E} (h : Unreset m w) (he : w'.mocks[m]? = w.mocks[m]?) : Unreset m w' := by
  intro k off hk; rw [he] at hk; exact h k off hk

theorem Unreset.updBody {m m' off : Nat} {w : World V E} (h : Unreset m w) (f : MBody V E → MBody V E) : Unreset m (w.updBody m' off f) := by
  refine h.updMock _ fun _ k off' _ hn => ⟨?_, rfl⟩
  simp only [Mock.updBody, List.getElem?_modify] at hn
  obtain ⟨x, hx, he⟩ := Option.map_eq_some_iff.1 hn
  split at he
  · cases x with
    | none => exact hx
    | some x => cases he
  · cases he; exact hx

theorem apiStableU (m : MockId) : ApiStable P (fun a => a ≠ .reset m) (fun _ _ => True) (fun w => m < w.mocks.length) (fun w w' => m < w.mocks.length → m < w'.mocks.length ∧ (Unreset m w → Unreset m w')) where
  inv h hI := (h hI).1
  refl _ := fun h => ⟨h, id⟩
  trans h1 h2 := fun h => ⟨(h2 (h1 h).1).1, fun hu => (h2 (h1 h).1).2 ((h1 h).2 hu)⟩
  slots _ _ _ := trivial
  newMock w cls own _ := fun hm => ⟨by rw [List.length_append]; exact Nat.lt_add_right _ hm, fun h => h.same (List.getElem?_append_left hm)⟩
  destroy w m' k _ _ _ := fun hm => ⟨by simpa [World.updMock] using hm, fun h => h.updMock _ fun _ k off _ hn => by simp [Mock.destroy] at hn⟩
  reset w m' k _ hA _ := fun hm => ⟨by simpa [World.updMock] using hm, fun h => h.updMock _ fun e => absurd (by rw [e]) hA⟩
  clear w m' k _ _ _ := fun hm => ⟨by simpa [World.updMock] using hm, fun h => h.updMock _ fun _ k off _ hn => by
    have hc : k.clear.mocks = k.mocks.map (Option.map MBody.clear) := by unfold Mock.clear Mock.initData; split <;> rfl
    have ho : k.clear.offsets = k.offsets := by unfold Mock.clear Mock.initData; split <;> rfl
    rw [hc, List.getElem?_map] at hn
    obtain ⟨x, hx, he⟩ := Option.map_eq_some_iff.1 hn
    cases x with
    | none => exact ⟨hx, by rw [ho]⟩
    | some x => cases he⟩
  stubData w m' k cell v _ _ _ _ := fun hm => ⟨by simpa [World.updMock] using hm, fun h => h.updMock _ fun _ k off _ hn => ⟨hn, rfl⟩⟩
  writeData w m' k cell v _ _ _ _ := fun hm => ⟨by simpa [World.updMock] using hm, fun h => h.updMock _ fun _ k off _ hn => ⟨hn, rfl⟩⟩
  bind w m' k off ctr _ _ _ _ := fun hm => ⟨by simpa [World.bindAt, World.updMock] using hm, fun h => by
    refine Unreset.same (w := w.updMock m' (·.bind off ctr (newBody w.methTotal))) (h.updMock _ fun _ k off' _ hn => ?_) rfl
    simp only [Mock.bind, List.getElem?_set] at hn ⊢
    by_cases he : off = off'
    · simp only [if_pos he] at hn; split at hn <;> cases hn
    · simp only [if_neg he] at hn ⊢; exact ⟨hn, trivial⟩⟩
  bindDtor w m' k d _ _ _ _ _ _ := fun hm => ⟨by simpa [World.bindDtorAt, World.updMock] using hm, fun h => by
    refine Unreset.same (w := w.updMock m' (·.bindDtor d (newBody w.methTotal))) (h.updMock _ fun _ k off' _ hn => ?_) rfl
    simp only [Mock.bindDtor, List.getElem?_set] at hn ⊢
    by_cases he : d = off'
    · simp only [if_pos he] at hn; split at hn <;> cases hn
    · simp only [if_neg he] at hn ⊢; exact ⟨hn, trivial⟩⟩
  commit w m' k slot off b kind acts _ _ _ _ _ _ := fun hm => ⟨by simpa [World.commitAt, World.updBody, World.updMock] using hm, fun h =>
    Unreset.same (w := w.updBody m' off _) (h.updBody _) rfl⟩
  write w a v _ := fun hm => ⟨hm, fun h => h.same rfl⟩
  fire w e _ := fun hm => ⟨hm, fun h => h.same rfl⟩
  mark w scope pat q mode actual count matched _ _ _ := fun hm => ⟨by simpa [World.mark] using hm, fun h => by
    intro k off hk hn
    rw [World.mocks_mark] at hk
    obtain ⟨k0, hk0, rfl⟩ := Option.map_eq_some_iff.1 hk
    refine h k0 off hk0 ?_
    simp only [Mock.mark, List.getElem?_map] at hn
    obtain ⟨x, hx, he⟩ := Option.map_eq_some_iff.1 hn
    cases x with
    | none => exact hx
    | some x => cases he⟩

theorem stableU (m : MockId) : Stable P (fun a => a ≠ .reset m) (fun _ _ => True) (fun _ _ => True) (fun _ _ _ _ => True) (fun w => m < w.mocks.length)
    (fun w w' => m < w.mocks.length → m < w'.mocks.length ∧ (Unreset m w → Unreset m w')) where
  inv h hI := (h hI).1
  dispatch _ _ _ _ _ := trivial
  frame _ _ _ := trivial
  thunk _ _ _ _ _ := trivial
  deleg _ := trivial
  swapIn h _ _ _ := by simpa [World.setVt, World.updMock] using h
  refl _ := fun h => ⟨h, id⟩
  trans h1 h2 := fun h => ⟨(h2 (h1 h).1).1, fun hu => (h2 (h1 h).1).2 ((h1 h).2 hu)⟩
  api hI hA h := apiStep_stable (apiStableU m) hI hA h
  write w a v _ := fun hm => ⟨hm, fun h => h.same rfl⟩
  setArgs w m' off uid args f _ _ _ := fun hm => ⟨by simpa [World.updInv, World.updBody, World.updMock] using hm, fun h => h.updBody _⟩
  bump w _ := fun hm => ⟨hm, fun h => h.same rfl⟩
  fire w e _ := fun hm => ⟨hm, fun h => h.same rfl⟩
  push w m' off b args hd _ _ _ _ := fun hm => ⟨by simpa [World.pushInv, World.updBody, World.updMock, World.bumpInv] using hm, fun h =>
    Unreset.updBody (w := w.bumpInv) (h.same rfl) _⟩
  tick w m' off h i _ _ := fun hm => ⟨by simpa [World.updSeq, World.updBody, World.updMock] using hm, fun h => h.updBody _⟩
  fin w m' off h hd i s _ _ _ _ := fun hm => ⟨by simpa [World.updSeq, World.updBody, World.updMock] using hm, fun h => h.updBody _⟩
  swap w w' m' off h k fake orig hd0 hd i s _ _ _ _ _ _ hQ _ _ := fun hm => by
    obtain ⟨h1, h2⟩ := hQ (by simpa [World.setVt, World.updMock] using hm)
    refine ⟨by simpa [World.updSeq, World.updBody, World.setVt, World.updMock] using h1, fun hu => ?_⟩
    have h3 : Unreset m (w'.setVt m' off fake) := Unreset.updMock (h2 (hu.updMock _ fun _ k off _ hn => ⟨hn, rfl⟩)) _ fun _ k off _ hn => ⟨hn, rfl⟩
    exact h3.updBody _

theorem getOffset_zero {os : List Nat} {d : Nat} (hd : os[d]? = some 0) (h : ∀ off, off < d → os[off]? ≠ some 0) : Mock.getOffset os 0 = d := by
  unfold Mock.getOffset
  have hlt := lt_of_getElem?_some hd
  rw [List.findIdx_eq hlt]
  refine ⟨by rw [List.getElem?_eq_getElem hlt] at hd; simpa using hd, fun j hj => ?_⟩
  have := h j hj
  rw [List.getElem?_eq_getElem (by omega)] at this
  simpa using this

/-- The destructor's record is found if no other entry of `_offsets` before it holds 0. -/
theorem dtor_live {w : World V E} (hw : Steady P nm w) {m d : Nat} {b : MBody V E} (hb : w.body? m d = some b)
    {k : Mock V E} (hk : w.mocks[m]? = some k) (hd : (P.cls k.cls).dtor = some d)
    (h : ∀ off, off < d → k.offsets[off]? ≠ some 0) : Live w m d b := by
  obtain ⟨k', id, hk', ha, hv, ho⟩ := hw.2 m d (by intro k' d' hk' hd'; rw [hk] at hk'; cases hk'; rw [hd] at hd'; cases hd'; simp) ⟨b, hb⟩
  rw [hk] at hk'; cases hk'
  have t := hw.1.1 m k hk
  have hkb : k.body? d = some b := by simpa [World.body?, hk] using hb
  cases id with
  | zero => exact ⟨k, 0, hk, ha, hv, getOffset_zero ho h, hkb⟩
  | succ ctr =>
    obtain ⟨hg, -⟩ := t.dispatch_meth ha d ctr hv
    exact ⟨k, ctr + 1, hk, ha, hv, hg, hkb⟩

/-! ## The deleting destructor -/

/-- If the destructor has a record, the deleting destructor's entry is the library's own function, which calls the destructor. -/
def DelOk (P : Prog V E) (m d : Nat) (w : World V E) : Prop :=
  ∀ (k : Mock V E) (b : MBody V E), w.mocks[m]? = some k → (P.cls k.cls).dtor = some d → k.mocks[d]? = some (some b) → k.vt[d + 1]? = some .dtorThunk

theorem DelOk.updMock {m m' d : Nat} {w : World V E} (h : DelOk P m d w) (f : Mock V E → Mock V E)
    (hf : m' = m → ∀ (k : Mock V E) (b : MBody V E), w.mocks[m]? = some k → (P.cls (f k).cls).dtor = some d → (f k).mocks[d]? = some (some b) →
      (f k).vt[d + 1]? = some .dtorThunk ∨ ((P.cls k.cls).dtor = some d ∧ (∃ b', k.mocks[d]? = some (some b')) ∧ (f k).vt[d + 1]? = k.vt[d + 1]?)) :
    DelOk P m d (w.updMock m' f) := by
  intro k b hk hd hb
  rw [World.mocks_updMock] at hk
  by_cases hm : m' = m
  · rw [if_pos hm] at hk
    obtain ⟨k0, hk0, rfl⟩ := Option.map_eq_some_iff.1 hk
    rcases hf hm k0 b hk0 hd hb with h1 | ⟨h1, ⟨b', h2⟩, h3⟩
    · exact h1
    · rw [h3]; exact h k0 b' hk0 h1 h2
  · rw [if_neg hm] at hk
    exact h k b hk hd hb

theorem DelOk.same {m d : Nat} {w w' : World V E} (h : DelOk P m d w) (he : w'.mocks[m]? = w.mocks[m]?) : DelOk P m d w' := by
  intro k b hk; rw [he] at hk; exact h k b hk

theorem DelOk.updBody {m m' off d : Nat} {w : World V E} (h : DelOk P m d w) (f : MBody V E → MBody V E) : DelOk P m d (w.updBody m' off f) := by
  refine h.updMock _ fun _ k b _ hd hb => .inr ⟨hd, ?_, rfl⟩
  simp only [Mock.updBody, List.getElem?_modify] at hb
  obtain ⟨x, hx, he⟩ := Option.map_eq_some_iff.1 hb
  cases x with
  | none => split at he <;> cases he
  | some b' => exact ⟨b', hx⟩

theorem DelOk.setVt {m m' off d : Nat} {w : World V E} (h : DelOk P m d w) (hoff : m' = m → off ≠ d + 1) (x : Code) : DelOk P m d (w.setVt m' off x) := by
  refine h.updMock _ fun e k b _ hd hb => .inr ⟨hd, ⟨b, hb⟩, ?_⟩
  simp [List.getElem?_set, hoff e]

/-- Method expressions of mock `m` never name entries of the destructor. -/
def NoDel (P : Prog V E) (nm : MockId → Nat → Nat) (m d : Nat) : Prop := ∀ ctr, nm m ctr ≠ d ∧ nm m ctr ≠ d + 1

theorem apiStableDel {m d : Nat} (hn : NoDel P nm m d) : ApiStable P (Api.Named nm) (fun m' s => s.Named nm m') (Inv2 P nm) (fun w w' => Q2 P nm w w' ∧ (Inv2 P nm w → DelOk P m d w → DelOk P m d w')) where
  inv h hI := h.1.inv hI
  refl w := ⟨apiStable2.refl w, fun _ => id⟩
  trans h1 h2 := ⟨apiStable2.trans h1.1 h2.1, fun hI h => h2.2 (h1.1.inv hI) (h1.2 hI h)⟩
  slots h x hx := h x hx
  newMock w cls own hI := ⟨apiStable2.newMock w cls own hI, fun _ h => by
    intro k b hk hd hb
    by_cases hm : m < w.mocks.length
    · exact h k b (by rw [← hk]; exact (List.getElem?_append_left hm).symm) hd hb
    · change (w.mocks ++ _)[m]? = _ at hk
      rw [List.getElem?_append_right (by omega)] at hk
      cases hn : m - w.mocks.length with
      | zero => rw [hn] at hk; simp at hk; subst hk; simp [Mock.mk', List.getElem?_replicate] at hb
      | succ n => rw [hn] at hk; simp at hk⟩
  destroy w m' k hI hA hk := ⟨apiStable2.destroy w m' k hI hA hk, fun _ h => h.updMock _ fun _ k b _ _ hb => by simp [Mock.destroy] at hb⟩
  reset w m' k hI hA hk := ⟨apiStable2.reset w m' k hI hA hk, fun _ h => h.updMock _ fun _ k b _ _ hb => by
    have : k.reset.mocks = List.replicate k.orig.length none := by unfold Mock.reset Mock.initData; split <;> rfl
    rw [this, List.getElem?_replicate] at hb
    split at hb <;> cases hb⟩
  clear w m' k hI hA hk := ⟨apiStable2.clear w m' k hI hA hk, fun _ h => h.updMock _ fun _ k b _ hd hb => by
    have hc : k.clear.mocks = k.mocks.map (Option.map MBody.clear) := by unfold Mock.clear Mock.initData; split <;> rfl
    have hv : k.clear.vt = k.vt := by unfold Mock.clear Mock.initData; split <;> rfl
    have hcl : k.clear.cls = k.cls := by unfold Mock.clear Mock.initData; split <;> rfl
    rw [hc, List.getElem?_map] at hb
    rw [hcl] at hd
    obtain ⟨x, hx, he⟩ := Option.map_eq_some_iff.1 hb
    cases x with
    | none => cases he
    | some b' => exact .inr ⟨hd, ⟨b', hx⟩, by rw [hv]⟩⟩
  stubData w m' k cell v hI hA hk hlt := ⟨apiStable2.stubData w m' k cell v hI hA hk hlt, fun _ h => h.updMock _ fun _ k b _ hd hb => .inr ⟨hd, ⟨b, hb⟩, rfl⟩⟩
  writeData w m' k cell v hI hA hk hlt := ⟨apiStable2.writeData w m' k cell v hI hA hk hlt, fun _ h => h.updMock _ fun _ k b _ hd hb => .inr ⟨hd, ⟨b, hb⟩, rfl⟩⟩
  bind w m' k off ctr hI hB hk hn' := ⟨apiStable2.bind w m' k off ctr hI hB hk hn', fun _ h => by
    refine DelOk.same (w := w.updMock m' (·.bind off ctr (newBody w.methTotal))) (h.updMock _ fun e k b _ hd hb => .inr ⟨hd, ?_, ?_⟩) rfl
    all_goals
      have ho : off ≠ d ∧ off ≠ d + 1 := by rw [← hB.1, e]; exact hn ctr
      simp only [Mock.bind, List.getElem?_set, if_neg ho.1, if_neg ho.2] at hb ⊢
    exact ⟨b, hb⟩⟩
  bindDtor w m' k d' hI hB hk hd' hlt hn' := ⟨apiStable2.bindDtor w m' k d' hI hB hk hd' hlt hn', fun _ h => by
    refine DelOk.same (w := w.updMock m' (·.bindDtor d' (newBody w.methTotal))) (h.updMock _ fun e k0 b hk0 hd hb => .inl ?_) rfl
    subst e
    rw [(World.mock?_eq_some.1 hk).1] at hk0
    cases hk0
    change (P.cls k.cls).dtor = some d at hd
    rw [hd'] at hd
    cases hd
    simp [Mock.bindDtor, hlt]⟩
  commit w m' k slot off b kind acts hI hs hB hk hoff hb := ⟨apiStable2.commit w m' k slot off b kind acts hI hs hB hk hoff hb, fun _ h =>
    DelOk.same (w := w.updBody m' off _) (h.updBody _) rfl⟩
  write w a v hI := ⟨apiStable2.write w a v hI, fun _ h => h.same rfl⟩
  fire w e hI := ⟨apiStable2.fire w e hI, fun _ h => h.same rfl⟩
  mark w scope pat q mode actual count matched hI hA h := ⟨apiStable2.mark w scope pat q mode actual count matched hI hA h, fun _ h => by
    intro k b hk hd hb
    rw [World.mocks_mark] at hk
    obtain ⟨k0, hk0, rfl⟩ := Option.map_eq_some_iff.1 hk
    simp only [Mock.mark, List.getElem?_map] at hb
    obtain ⟨x, hx, he⟩ := Option.map_eq_some_iff.1 hb
    cases x with
    | none => cases he
    | some b' => exact h k0 b' hk0 hd hx⟩

theorem stableDel {m d : Nat} (hn : NoDel P nm m d) : Stable P (Api.Named nm) (fun _ _ => True) (fun m' off => m' = m → off ≠ d + 1) (fun _ _ _ _ => True) (fun w => Inv2 P nm w ∧ ∃ k, w.mocks[m]? = some k ∧ (P.cls k.cls).dtor = some d)
    (fun w w' => Q2 P nm w w' ∧ (Inv2 P nm w → DelOk P m d w → DelOk P m d w')) where
  inv h hI := ⟨h.1.inv hI.1, by
    obtain ⟨k, hk, hd⟩ := hI.2
    obtain ⟨k', hk', hc, -⟩ := h.1.1.1.2.stat m k hk
    exact ⟨k', hk', by rw [hc]; exact hd⟩⟩
  dispatch {w m' k off id} hI _ hk hv hb := by
    intro e
    subst e
    obtain ⟨b, hb⟩ := hb
    have t := hI.1.1.1 m' k hk
    have hb' : k.mocks[Mock.getOffset k.offsets id]? = some (some b) := by
      simp only [Mock.body?] at hb
      cases hx : k.mocks[Mock.getOffset k.offsets id]? with
      | none => simp [hx] at hb
      | some x => simp [hx] at hb; simp [hb]
    obtain ⟨id', -, h | ⟨ctr, -, h, -⟩⟩ := t.bound _ b hb'
    · obtain ⟨k', hk', hd⟩ := hI.2
      rw [hk] at hk'; cases hk'
      rw [hd] at h
      have := Option.some.inj h.2
      omega
    · rw [← h]; exact (hn ctr).2
  frame _ _ _ := trivial
  thunk _ _ _ _ _ := trivial
  deleg _ := trivial
  swapIn {w m' k off orig} hI hD hk ho := ⟨stable2.swapIn hI.1 trivial hk ho, by
    obtain ⟨k', hk', hd⟩ := hI.2
    by_cases hm : m' = m
    · exact ⟨{ k' with vt := k'.vt.set off orig }, by rw [World.setVt, World.mocks_updMock, hk']; simp [hm], hd⟩
    · exact ⟨k', by rw [World.setVt, World.mocks_updMock, if_neg hm]; exact hk', hd⟩⟩
  refl w := ⟨stable2.refl w, fun _ => id⟩
  trans h1 h2 := ⟨stable2.trans h1.1 h2.1, fun hI h => h2.2 (h1.1.inv hI) (h1.2 hI h)⟩
  api hI hA h := apiStep_stable (apiStableDel hn) hI.1 hA h
  write w a v hI := ⟨stable2.write w a v hI.1, fun _ h => h.same rfl⟩
  setArgs w m' off uid args f hI hD hf := ⟨stable2.setArgs w m' off uid args f hI.1 trivial hf, fun _ h => h.updBody _⟩
  bump w hI := ⟨stable2.bump w hI.1, fun _ h => h.same rfl⟩
  fire w e hI := ⟨stable2.fire w e hI.1, fun _ h => h.same rfl⟩
  push w m' off b args hd hI hD hb hf := ⟨stable2.push w m' off b args hd hI.1 trivial hb hf, fun _ h => DelOk.updBody (w := w.bumpInv) (h.same rfl) _⟩
  tick w m' off h i hI hD := ⟨stable2.tick w m' off h i hI.1 trivial, fun _ h => h.updBody _⟩
  fin w m' off h hd i s hI hD hh hs := ⟨stable2.fin w m' off h hd i s hI.1 trivial hh hs, fun _ h => h.updBody _⟩
  swap w w' m' off h k fake orig hd0 hd i s hI hD hk hf ho hh hQ hh' hs :=
    ⟨stable2.swap w w' m' off h k fake orig hd0 hd i s hI.1 trivial hk hf ho hh hQ.1 hh' hs, fun _ hd =>
      (DelOk.setVt (hQ.2 (stable2.swapIn hI.1 trivial hk ho) (hd.setVt hD orig)) hD fake).updBody _⟩

end FakeIt
