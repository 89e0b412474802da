import Verif.Lemmas.Hist
/-!
# Code that does not call a method leaves its stubbings alone
-/
namespace FakeIt
variable {V E : Type}

/-- The stubbings of method `off` of mock `m` are unchanged, except for new ones at the end, with matchers in `Φ`. -/
def Kept (Φ : MatcherKind V → Prop) (m off : Nat) (w w' : World V E) : Prop :=
  ∀ b, w.body? m off = some b → ∃ b' more, w'.body? m off = some b' ∧ b'.method = b.method ∧ b'.handlers = b.handlers ++ more ∧
    ∀ h ∈ more, Φ h.matcher.kind

variable {Φ : MatcherKind V → Prop}

theorem Kept.refl (m off : Nat) (w : World V E) : Kept Φ m off w w := fun b hb => ⟨b, [], hb, rfl, by simp, by simp⟩

theorem Kept.trans {m off : Nat} {a b c : World V E} (h1 : Kept Φ m off a b) (h2 : Kept Φ m off b c) : Kept Φ m off a c := by
  intro x hx
  obtain ⟨y, m1, hy, e1, e2, p1⟩ := h1 x hx
  obtain ⟨z, m2, hz, e3, e4, p2⟩ := h2 y hy
  refine ⟨z, m1 ++ m2, hz, e3.trans e1, by rw [e4, e2, List.append_assoc], ?_⟩
  intro h hh
  rcases List.mem_append.1 hh with hh | hh
  · exact p1 h hh
  · exact p2 h hh

theorem Kept.same {m off : Nat} {w w' : World V E} (h : w'.body? m off = w.body? m off) : Kept Φ m off w w' :=
  fun b hb => ⟨b, [], by rw [h, hb], rfl, by simp, by simp⟩

theorem Kept.map {m off : Nat} {w w' : World V E} (f : MBody V E → MBody V E) (h : w'.body? m off = (w.body? m off).map f)
    (hf : ∀ b, ∃ more, (f b).method = b.method ∧ (f b).handlers = b.handlers ++ more ∧ ∀ h ∈ more, Φ h.matcher.kind) : Kept Φ m off w w' := by
  intro b hb
  obtain ⟨more, h1, h2, h3⟩ := hf b
  exact ⟨f b, more, by rw [h, hb]; rfl, h1, h2, h3⟩

theorem Kept.updBody {m off : Nat} (w : World V E) (m' off' : Nat) (f : MBody V E → MBody V E)
    (hf : m' = m ∧ off' = off → ∀ b, ∃ more, (f b).method = b.method ∧ (f b).handlers = b.handlers ++ more ∧ ∀ h ∈ more, Φ h.matcher.kind) : Kept Φ m off w (w.updBody m' off' f) := by
  by_cases hc : m' = m ∧ off' = off
  · exact Kept.map f (by rw [World.body?_updBody, if_pos hc]) (hf hc)
  · exact Kept.same (by rw [World.body?_updBody, if_neg hc])

theorem Kept.updMock {m off : Nat} (w : World V E) (m' : Nat) (f : Mock V E → Mock V E)
    (hf : m' = m → ∀ k, w.mocks[m]? = some k → (f k).body? off = k.body? off) : Kept Φ m off w (w.updMock m' f) := by
  apply Kept.same
  simp only [World.body?, World.mocks_updMock]
  by_cases hm : m' = m
  · subst hm
    simp only [if_true]
    cases hk : w.mocks[m']? with
    | none => rfl
    | some k => simp only [Option.map_some, Option.bind_some]; exact hf rfl k hk
  · rw [if_neg hm]

variable {P : Prog V E} {nm : MockId → Nat → Nat}

/-- Invariants kept and the stubbings of (`m`, `off`) kept. -/
def QF (P : Prog V E) (nm : MockId → Nat → Nat) (Φ : MatcherKind V → Prop) (m off : Nat) (w w' : World V E) : Prop := Q2 P nm w w' ∧ Kept Φ m off w w'

/-- The situation in which frames are considered: the method has a record. -/
def IF (P : Prog V E) (nm : MockId → Nat → Nat) (c : ClassDecl V) (m off : Nat) (w : World V E) : Prop :=
  Inv2 P nm w ∧ (∃ k, w.mocks[m]? = some k ∧ P.cls k.cls = c) ∧ Bound w m off

theorem QF.inv {c : ClassDecl V} {m off : Nat} {w w' : World V E} (h : QF P nm Φ m off w w') (hI : IF P nm c m off w) : IF P nm c m off w' := by
  obtain ⟨h1, ⟨k, hk, hc⟩, b, hb⟩ := hI
  obtain ⟨k', hk', hcls, -⟩ := h.1.1.1.2.stat m k hk
  obtain ⟨b', more, hb', -⟩ := h.2 b hb
  exact ⟨h.1.inv h1, ⟨k', hk', by rw [hcls]; exact hc⟩, b', hb'⟩

theorem QF.trans {m off : Nat} {a b c : World V E} (h1 : QF P nm Φ m off a b) (h2 : QF P nm Φ m off b c) : QF P nm Φ m off a c :=
  ⟨h1.1.trans h2.1, h1.2.trans h2.2⟩

theorem apiStableF (c : ClassDecl V) (m off : Nat) : ApiStable P (Api.Gentle nm c m off Φ) (fun m s => s.Named nm m)
    (IF P nm c m off) (QF P nm Φ m off) where
  inv h hI := h.inv hI
  refl w := ⟨apiStable2.refl w, Kept.refl _ _ w⟩
  trans h1 h2 := h1.trans h2
  slots h := h.1
  newMock w cls own hI := ⟨apiStable2.newMock w cls own hI.1, Kept.same (body?_newMock w cls _ own m off)⟩
  destroy w m' k hI hA hk := ⟨apiStable2.destroy w m' k hI.1 hA.1 hk, Kept.updMock _ _ _ fun e => absurd e hA.2.1⟩
  reset w m' k hI hA hk := ⟨apiStable2.reset w m' k hI.1 hA.1 hk, Kept.updMock _ _ _ fun e => absurd e hA.2.1⟩
  clear w m' k hI hA hk := by
    refine ⟨apiStable2.clear w m' k hI.1 hA.1 hk, ?_⟩
    by_cases hm : m' = m
    · subst hm
      refine Kept.map MBody.clear ?_ fun b => ⟨[], rfl, by simp [MBody.clear], by simp⟩
      simp only [World.body?, World.mocks_updMock, if_true]
      cases w.mocks[m']? with
      | none => rfl
      | some k => simp only [Option.map_some, Option.bind_some, Mock.body?_clear]
    · exact Kept.updMock _ _ _ fun e => absurd e hm
  stubData w m' k cell v hI hA hk hlt := ⟨apiStable2.stubData w m' k cell v hI.1 hA.1 hk hlt, Kept.updMock _ _ _ fun _ _ _ => rfl⟩
  writeData w m' k cell v hI hA hk hlt := ⟨apiStable2.writeData w m' k cell v hI.1 hA.1 hk hlt, Kept.updMock _ _ _ fun _ _ _ => rfl⟩
  bind w m' k off' ctr hI hB hk hn := by
    refine ⟨apiStable2.bind w m' k off' ctr hI.1 hB hk hn, Kept.same ?_⟩
    have hk' := (World.mock?_eq_some.1 hk).1
    rw [body?_bindAt w m' k off' ctr hk' hn, if_neg]
    rintro ⟨rfl, rfl⟩
    obtain ⟨b, hb⟩ := hI.2.2
    rw [body?_none_of hk' hn] at hb; cases hb
  bindDtor w m' k d hI hB hk hd hlt hn := by
    refine ⟨apiStable2.bindDtor w m' k d hI.1 hB hk hd hlt hn, Kept.same ?_⟩
    have hk' := (World.mock?_eq_some.1 hk).1
    rw [body?_bindDtorAt w m' k d hk' hn, if_neg]
    rintro ⟨rfl, rfl⟩
    obtain ⟨b, hb⟩ := hI.2.2
    rw [body?_none_of hk' hn] at hb; cases hb
  commit w m' k slot off' b kind acts hI hs hB hk hoff hb := by
    refine ⟨apiStable2.commit w m' k slot off' b kind acts hI.1 (hs.imp fun a h => ⟨h.1.1, h.2⟩) hB hk hoff hb,
      Kept.updBody w m' off' _ fun e b => ⟨_, rfl, rfl, ?_⟩⟩
    obtain ⟨rfl, rfl⟩ := e
    obtain ⟨a, ha, hmem⟩ := hs
    obtain ⟨k0, hk0, hc⟩ := hI.2.1
    rw [(World.mock?_eq_some.1 hk).1] at hk0; cases hk0
    have := ha.2.2 _ hmem rfl (by rw [← hc]; exact hoff)
    simpa using this
  write w a v hI := ⟨apiStable2.write w a v hI.1, Kept.same rfl⟩
  fire w e hI := ⟨apiStable2.fire w e hI.1, Kept.same rfl⟩
  mark w scope pat q mode actual count matched hI hA h := ⟨apiStable2.mark w scope pat q mode actual count matched hI.1 hA.1 h,
    Kept.map _ (World.body?_mark _ _ _ _) fun b => ⟨[], rfl, by simp, by simp⟩⟩

theorem apart_dispatch {c : ClassDecl V} {m off : Nat} {w : World V E} {m' : Nat} {k : Mock V E} {off' id : Nat}
    (hI : IF P nm c m off w) (hC : Apart c m off m' off') (hk : w.mocks[m']? = some k) (hv : k.vt[off']? = some (.proxy id))
    (hb : ∃ b, k.body? (Mock.getOffset k.offsets id) = some b) : Apart c m off m' (Mock.getOffset k.offsets id) := by
  obtain ⟨b, hb⟩ := hb
  have t := hI.1.1.1 m' k hk
  rw [t.dispatch off' id hv b hb]
  exact hC

theorem apart_thunk {c : ClassDecl V} {m off : Nat} {w : World V E} {m' : Nat} {k : Mock V E} {off' d : Nat}
    (hI : IF P nm c m off w) (hC : Apart c m off m' off') (hk : w.mocks[m']? = some k) (hv : k.vt[off']? = some .dtorThunk)
    (hd : (P.cls k.cls).dtor = some d) : Apart c m off m' d := by
  have t := hI.1.1.1 m' k hk
  obtain ⟨d', hd', he⟩ := t.thunk off' hv
  rw [hd] at hd'; cases hd'
  rintro rfl
  obtain ⟨k0, hk0, hc⟩ := hI.2.1
  rw [hk] at hk0; cases hk0
  rw [hc] at hd
  obtain ⟨h1, h2⟩ := hC rfl
  constructor
  · rintro rfl
    exact h2 hd he
  · intro h
    rw [hd] at h; cases h
    omega

theorem stableF (c : ClassDecl V) (m off : Nat) : Stable P (Api.Gentle nm c m off Φ) (Apart c m off) (Apart c m off)
    (fun _ _ _ _ => True) (IF P nm c m off) (QF P nm Φ m off) where
  inv h hI := h.inv hI
  dispatch hI hC hk hv hb := apart_dispatch hI hC hk hv hb
  frame _ _ _ := trivial
  thunk hI hC hk hv hd := apart_thunk hI hC hk hv hd
  deleg h := h
  swapIn {w m' k off' orig} hI hD hk ho := by
    obtain ⟨h1, ⟨k0, hk0, hc⟩, b, hb⟩ := hI
    refine ⟨stable2.swapIn h1 trivial hk ho, ?_, b, by rw [World.body?_setVt]; exact hb⟩
    obtain ⟨k1, hk1, hcls, -⟩ := (keep_setVt w m' off' orig).2.stat m k0 hk0
    exact ⟨k1, hk1, by rw [hcls]; exact hc⟩
  refl w := ⟨stable2.refl w, Kept.refl _ _ w⟩
  trans h1 h2 := h1.trans h2
  api hI hA h := apiStep_stable (apiStableF c m off) hI hA h
  write w a v hI := ⟨stable2.write w a v hI.1, Kept.same rfl⟩
  setArgs w m' off' uid args f hI hD hf := ⟨stable2.setArgs w m' off' uid args f hI.1 trivial hf,
    Kept.updBody w m' off' _ fun _ b => ⟨[], rfl, by simp, by simp⟩⟩
  bump w hI := ⟨stable2.bump w hI.1, Kept.same rfl⟩
  fire w e hI := ⟨stable2.fire w e hI.1, Kept.same rfl⟩
  push w m' off' b args h hI hD hb hf := ⟨stable2.push w m' off' b args h hI.1 trivial hb hf,
    (Kept.same (w' := w.bumpInv) rfl).trans (Kept.updBody _ m' off' _ fun _ b => ⟨[], rfl, by simp, by simp⟩)⟩
  tick w m' off' h i hI hD := ⟨stable2.tick w m' off' h i hI.1 trivial,
    Kept.updBody w m' off' _ fun e => absurd e.2 (hD e.1).1⟩
  fin w m' off' h hd i s hI hD hh hs := ⟨stable2.fin w m' off' h hd i s hI.1 trivial hh hs,
    Kept.updBody w m' off' _ fun e => absurd e.2 (hD e.1).1⟩
  swap w w' m' off' h k fake orig hd0 hd i s hI hD hk hf ho hh hQ hh' hs :=
    ⟨stable2.swap w w' m' off' h k fake orig hd0 hd i s hI.1 trivial hk hf ho hh hQ.1 hh' hs,
     ((Kept.same (World.body?_setVt _ _ _ _ _ _)).trans (hQ.2.trans (Kept.same (World.body?_setVt _ _ _ _ _ _)))).trans
      (Kept.updBody _ m' off' _ fun e => absurd e.2 (hD e.1).1)⟩

end FakeIt
