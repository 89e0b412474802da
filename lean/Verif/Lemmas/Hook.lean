import Verif.Lemmas.Invariants
/-!
# Between calls every mentioned method is hooked
-/
namespace FakeIt
variable {V E : Type}

/-- The method has a record. -/
def Bound (w : World V E) (m off : Nat) : Prop := ∃ b, w.body? m off = some b

/-- The method's table entry is the proxy of its record. -/
def Hooked (w : World V E) (m off : Nat) : Prop :=
  ∃ k id, w.mocks[m]? = some k ∧ k.alive = true ∧ k.vt[off]? = some (.proxy id) ∧ k.offsets[off]? = some id

/-- A method with a record is hooked. -/
def OkAt (w : World V E) (m off : Nat) : Prop := Bound w m off → Hooked w m off

/-- `off` is not the entry of the deleting destructor. -/
def NotDel (P : Prog V E) (w : World V E) (m off : Nat) : Prop :=
  ∀ k d, w.mocks[m]? = some k → (P.cls k.cls).dtor = some d → off ≠ d + 1

/-- Hooked methods stay hooked as long as they have a record. -/
def Q1 (P : Prog V E) (nm : MockId → Nat → Nat) (w w' : World V E) : Prop :=
  Q0 P nm w w' ∧ ∀ m off, NotDel P w' m off → OkAt w m off → OkAt w' m off

variable {P : Prog V E} {nm : MockId → Nat → Nat}

theorem NotDel.back {w w' : World V E} (hc : Cont w w') {m off : Nat} (h : NotDel P w' m off) : NotDel P w m off := by
  intro k d hk hd
  obtain ⟨k', hk', hcls, -⟩ := hc.stat m k hk
  exact h k' d hk' (by rw [hcls]; exact hd)

theorem Q1.trans {a b c : World V E} (h1 : Q1 P nm a b) (h2 : Q1 P nm b c) : Q1 P nm a c :=
  ⟨⟨fun h => h2.1.1 (h1.1.1 h), h1.1.2.trans h2.1.2⟩,
   fun m off hn ho => h2.2 m off hn (h1.2 m off (hn.back h2.1.2) ho)⟩

theorem OkAt.map {w w' : World V E} {m off : Nat} (f : Mock V E → Mock V E) (hw : w'.mocks[m]? = (w.mocks[m]?).map f)
    (hf : ∀ k, w.mocks[m]? = some k → (f k).vt[off]? = k.vt[off]? ∧ (f k).offsets[off]? = k.offsets[off]? ∧ (f k).alive = k.alive ∧
      (((f k).body? off).isSome → (k.body? off).isSome)) (h : OkAt w m off) : OkAt w' m off := by
  rintro ⟨b, hb⟩
  simp only [World.body?, hw, Option.bind_eq_some_iff, Option.map_eq_some_iff] at hb
  obtain ⟨k', ⟨k, hk, rfl⟩, hb⟩ := hb
  obtain ⟨h1, h2, h3, h4⟩ := hf k hk
  obtain ⟨b0, hb0⟩ := Option.isSome_iff_exists.1 (h4 (by rw [hb]; rfl))
  obtain ⟨k1, id, hk1, ha, hv, ho⟩ := h ⟨b0, by simp [World.body?, hk, hb0]⟩
  rw [hk] at hk1; cases hk1
  exact ⟨f k, id, by rw [hw, hk]; rfl, by rw [h3]; exact ha, by rw [h1]; exact hv, by rw [h2]; exact ho⟩

theorem OkAt.same {w w' : World V E} {m off : Nat} (hw : w'.mocks[m]? = w.mocks[m]?) (h : OkAt w m off) : OkAt w' m off := by
  refine h.map id (by simp [hw]) (fun k _ => ⟨rfl, rfl, rfl, id⟩)

theorem OkAt.updMock {w : World V E} {m m' off : Nat} (f : Mock V E → Mock V E)
    (hf : ∀ k, w.mocks[m]? = some k → (f k).vt[off]? = k.vt[off]? ∧ (f k).offsets[off]? = k.offsets[off]? ∧ (f k).alive = k.alive ∧
      (((f k).body? off).isSome → (k.body? off).isSome)) (h : OkAt w m' off) : OkAt (w.updMock m f) m' off := by
  by_cases hm : m = m'
  · subst hm
    exact h.map f (by rw [World.mocks_updMock, if_pos rfl]) hf
  · exact h.same (by rw [World.mocks_updMock, if_neg hm])

theorem isSome_body?_updBody (k : Mock V E) (off off' : Nat) (f : MBody V E → MBody V E) :
    ((k.updBody off f).body? off').isSome = (k.body? off').isSome := by
  rw [body?_updBody_mock]
  by_cases h : off = off'
  · rw [if_pos h]; simp
  · rw [if_neg h]

theorem OkAt.updBody {w : World V E} {m m' off off' : Nat} (f : MBody V E → MBody V E) (h : OkAt w m' off') :
    OkAt (w.updBody m off f) m' off' :=
  h.updMock _ fun k _ => ⟨rfl, rfl, rfl, by rw [isSome_body?_updBody]; exact id⟩

theorem OkAt.unbound {w : World V E} {m off : Nat} (h : w.body? m off = none) : OkAt w m off := by
  rintro ⟨b, hb⟩; rw [h] at hb; cases hb

theorem apiStable1 : ApiStable P (Api.Named nm) (fun m s => s.Named nm m) (Inv0 P nm) (Q1 P nm) where
  inv h hI := h.1.1 hI
  refl w := ⟨apiStable0.refl w, fun _ _ _ h => h⟩
  trans h1 h2 := h1.trans h2
  slots h := h
  newMock w cls own hI := by
    refine ⟨apiStable0.newMock w cls own hI, fun m off _ h => ?_⟩
    by_cases hlt : m < w.mocks.length
    · exact h.same (by simp [List.getElem?_append_left hlt])
    · apply OkAt.unbound
      simp only [World.body?, List.getElem?_append_right (Nat.le_of_not_lt hlt)]
      cases hi : m - w.mocks.length with
      | zero =>
        simp only [List.getElem?_cons_zero, Option.bind_some, Mock.body?, Mock.mk', List.getElem?_replicate]
        split <;> rfl
      | succ n => simp
  destroy w m k hI hA hk := by
    refine ⟨apiStable0.destroy w m k hI hA hk, fun m' off _ h => ?_⟩
    by_cases hm : m = m'
    · subst hm
      apply OkAt.unbound
      simp only [World.body?, World.mocks_updMock, if_true]
      cases w.mocks[m]? <;> simp [Mock.body?, Mock.destroy]
    · exact h.same (by rw [World.mocks_updMock, if_neg hm])
  reset w m k hI hA hk := by
    refine ⟨apiStable0.reset w m k hI hA hk, fun m' off _ h => ?_⟩
    by_cases hm : m = m'
    · subst hm
      apply OkAt.unbound
      simp only [World.body?, World.mocks_updMock, if_true]
      cases w.mocks[m]? with
      | none => rfl
      | some k =>
        simp only [Option.map_some, Option.bind_some]
        unfold Mock.reset Mock.initData
        split <;> simp only [Mock.body?, Mock.proxyReset, List.getElem?_replicate] <;> split <;> rfl
    · exact h.same (by rw [World.mocks_updMock, if_neg hm])
  clear w m k hI hA hk := by
    refine ⟨apiStable0.clear w m k hI hA hk, fun m' off _ h => h.updMock _ fun k _ => ?_⟩
    unfold Mock.clear Mock.initData
    split <;> (refine ⟨rfl, rfl, rfl, ?_⟩; simp only [Mock.body?, List.getElem?_map]; cases k.mocks[off]? with
          | none => exact id
          | some x => cases x <;> simp)
  stubData w m k cell v hI hA hk hlt :=
    ⟨apiStable0.stubData w m k cell v hI hA hk hlt, fun m' off _ h => h.updMock _ fun k _ => ⟨rfl, rfl, rfl, id⟩⟩
  writeData w m k cell v hI hA hk hlt :=
    ⟨apiStable0.writeData w m k cell v hI hA hk hlt, fun m' off _ h => h.updMock _ fun k _ => ⟨rfl, rfl, rfl, id⟩⟩
  bind w m k off ctr hI hB hk hn := by
    refine ⟨apiStable0.bind w m k off ctr hI hB hk hn, fun m' off' _ h => ?_⟩
    obtain ⟨hk, ha⟩ := World.mock?_eq_some.1 hk
    have ht := hI.1 m k hk
    have hlt := lt_of_getElem?_some hn
    obtain ⟨hml, hol⟩ := ht.mlen ha
    by_cases hc : m = m' ∧ off = off'
    · obtain ⟨rfl, rfl⟩ := hc
      intro _
      refine ⟨k.bind off ctr (newBody w.methTotal), ctr + 1, ?_, ha, ?_, ?_⟩
      · show (w.updMock m _).mocks[m]? = _
        rw [World.mocks_updMock, if_pos rfl, hk]; rfl
      · simp only [Mock.bind]; rw [List.getElem?_set_self]; rw [ht.vtlen]; omega
      · simp only [Mock.bind]; rw [List.getElem?_set_self]; omega
    · by_cases hm : m = m'
      · subst hm
        have hne : off ≠ off' := fun e => hc ⟨rfl, e⟩
        have := h.updMock (m := m) (·.bind off ctr (newBody w.methTotal)) fun k _ => by
          simp only [Mock.bind, Mock.body?, List.getElem?_set_ne hne, true_and]; exact id
        exact this
      · exact h.same (by show (w.updMock m _).mocks[m']? = _; rw [World.mocks_updMock, if_neg hm])
  bindDtor w m k d hI hB hk hd hlt hn := by
    refine ⟨apiStable0.bindDtor w m k d hI hB hk hd hlt hn, fun m' off' hnd h => ?_⟩
    obtain ⟨hk, ha⟩ := World.mock?_eq_some.1 hk
    have ht := hI.1 m k hk
    have hlt' := lt_of_getElem?_some hn
    obtain ⟨hml, hol⟩ := ht.mlen ha
    have hmock : (w.bindDtorAt m d).mocks[m]? = some (k.bindDtor d (newBody w.methTotal)) := by
      show (w.updMock m _).mocks[m]? = _
      rw [World.mocks_updMock, if_pos rfl, hk]; rfl
    by_cases hm : m = m'
    · subst hm
      have hne1 : d + 1 ≠ off' := fun e => hnd _ d hmock hd e.symm
      by_cases hc : d = off'
      · subst hc
        intro _
        refine ⟨k.bindDtor d (newBody w.methTotal), 0, hmock, ha, ?_, ?_⟩
        · simp only [Mock.bindDtor]
          rw [List.getElem?_set_ne (by omega), List.getElem?_set_self]; rw [ht.vtlen]; omega
        · simp only [Mock.bindDtor]; rw [List.getElem?_set_self]; omega
      · have := h.updMock (m := m) (·.bindDtor d (newBody w.methTotal)) fun k _ => by
          simp only [Mock.bindDtor, Mock.body?, List.getElem?_set_ne hc, List.getElem?_set_ne hne1, true_and]; exact id
        exact this
    · exact h.same (by show (w.updMock m _).mocks[m']? = _; rw [World.mocks_updMock, if_neg hm])
  commit w m k slot off b kind acts hI hs hB hk hoff hb :=
    ⟨apiStable0.commit w m k slot off b kind acts hI hs hB hk hoff hb, fun m' off' _ h => h.updBody _⟩
  write w a v hI := ⟨apiStable0.write w a v hI, fun m' off' _ h => h⟩
  fire w e hI := ⟨apiStable0.fire w e hI, fun m' off' _ h => h⟩
  mark w scope pat q mode actual count matched hI hA h := by
    refine ⟨apiStable0.mark w scope pat q mode actual count matched hI hA h, fun m' off' _ h => ?_⟩
    refine h.map _ (World.mocks_mark _ _ _) fun k _ => ⟨rfl, rfl, rfl, ?_⟩
    rw [Mock.body?_mark]; simp

theorem stable1 : Stable P (Api.Named nm) (fun _ _ => True) (fun _ _ => True) (fun _ _ _ _ => True) (Inv0 P nm) (Q1 P nm) where
  inv h hI := h.1.1 hI
  dispatch _ _ _ _ _ := trivial
  frame _ _ _ := trivial
  thunk _ _ _ _ _ := trivial
  deleg _ := trivial
  swapIn hI hD hk ho := stable0.swapIn hI hD hk ho
  refl w := ⟨stable0.refl w, fun _ _ _ h => h⟩
  trans h1 h2 := h1.trans h2
  api hI hA h := apiStep_stable apiStable1 hI hA h
  write w a v hI := ⟨stable0.write w a v hI, fun m' off' _ h => h⟩
  setArgs w m off uid args f hI hD hf := ⟨stable0.setArgs w m off uid args f hI hD hf, fun m' off' _ h => h.updBody _⟩
  bump w hI := ⟨stable0.bump w hI, fun m' off' _ h => h⟩
  fire w e hI := ⟨stable0.fire w e hI, fun m' off' _ h => h⟩
  push w m off b args h hI hD hb hf := ⟨stable0.push w m off b args h hI hD hb hf, fun m' off' _ h => h.updBody _⟩
  tick w m off h i hI hD := ⟨stable0.tick w m off h i hI hD, fun m' off' _ h => h.updBody _⟩
  fin w m off h hd i s hI hD hh hs := ⟨stable0.fin w m off h hd i s hI hD hh hs, fun m' off' _ h => h.updBody _⟩
  swap w w' m off h k fake orig hd0 hd i s hI hD hk hf ho hh hQ hh' hs := by
    refine ⟨stable0.swap w w' m off h k fake orig hd0 hd i s hI hD hk hf ho hh hQ.1 hh' hs, fun m' off' hnd hok => ?_⟩
    apply OkAt.updBody
    -- other methods
    have hcont : Cont w' ((w'.setVt m off fake).updSeq m off h fun _ => s) :=
      (keep_setVt w' m off fake).2.trans (keep_updSeq _ m off h _).2
    by_cases hc : m = m' ∧ off = off'
    · obtain ⟨rfl, rfl⟩ := hc
      intro hb
      obtain ⟨k1, id, hk1, ha, hv, hofs⟩ := hok (by
        simp only [World.handler?, Option.bind_eq_some_iff] at hh
        obtain ⟨b, hb, -⟩ := hh; exact ⟨b, hb⟩)
      rw [hk] at hk1; cases hk1
      rw [hf] at hv; cases hv
      have hC2 : Cont w (w'.setVt m off (.proxy id)) :=
        ((keep_setVt w m off orig).2.trans hQ.1.2).trans (keep_setVt w' m off (.proxy id)).2
      obtain ⟨x0, hx0, hxe0⟩ := mem_haddrs_of_handler? hh
      obtain ⟨x, hx, hxe⟩ := mem_haddrs_of_handler? hh'
      have hlt : x.1 < w.alloc := by rw [hxe, ← hxe0]; exact (hI.2.lt _ _ _ hx0).1
      obtain ⟨-, hoff⟩ := hC2.mem _ _ _ hx hlt
      obtain ⟨b', hb'⟩ := hb
      rw [World.body?_setVt] at hb'
      simp only [World.body?, Option.bind_eq_some_iff] at hb'
      obtain ⟨k', hk', hkb⟩ := hb'
      have hI' := hQ.1.1 (stable0.swapIn hI hD hk ho)
      have t' := hI'.1 m k' hk'
      have hmk : off < k'.mocks.length := by
        simp only [Mock.body?] at hkb
        cases hx : k'.mocks[off]? with
        | none => simp [hx] at hkb
        | some x => exact lt_of_getElem?_some hx
      have halive : k'.alive = true := by
        cases ha' : k'.alive with
        | true => rfl
        | false => have := (t'.dead ha').2; rw [this] at hmk; simp at hmk
      refine ⟨{ k' with vt := k'.vt.set off (.proxy id) }, id, ?_, halive, ?_, ?_⟩
      · simp only [World.setVt, World.mocks_updMock, if_true, hk', Option.map_some]
      · rw [List.getElem?_set_self]; rw [t'.vtlen]; have := (t'.mlen halive).1; omega
      · simp only [offAt, World.setVt, World.mocks_updMock, if_true, hk', hk, Option.map_some, Option.bind_some] at hoff
        rw [hoff, hofs]
    · have hset : ∀ (w : World V E) c, OkAt w m' off' → OkAt (w.setVt m off c) m' off' := by
        intro w c hok
        by_cases hm : m = m'
        · subst hm
          exact hok.updMock _ fun k _ => ⟨by
            rw [List.getElem?_set_ne]; intro e; exact hc ⟨rfl, e⟩, rfl, rfl, fun h => h⟩
        · exact hok.same (by simp only [World.setVt, World.mocks_updMock, if_neg hm])
      exact hset _ _ (hQ.2 m' off' (hnd.back hcont) (hset _ _ hok))

/-- The invariant between calls. -/
def Steady (P : Prog V E) (nm : MockId → Nat → Nat) (w : World V E) : Prop :=
  Inv0 P nm w ∧ ∀ m off, NotDel P w m off → OkAt w m off

theorem Q1.steady {w w' : World V E} (h : Q1 P nm w w') (hs : Steady P nm w) : Steady P nm w' :=
  ⟨h.1.1 hs.1, fun m off hn => h.2 m off hn (hs.2 m off (hn.back h.1.2))⟩

theorem steady_start (heap : Addr → V) : Steady P nm (World.start heap) := by
  refine ⟨⟨fun m k hk => by simp [World.start] at hk, ⟨?_, ?_, ?_⟩⟩, fun m off _ => OkAt.unbound (by simp [World.body?, World.start])⟩
  · intro m off x hx; simp [haddrs, World.start] at hx
  · intro m off; simp [haddrs, World.start]
  · intro m off m' off' x x' hx; simp [haddrs, World.start] at hx

/-- Every reachable world is steady. -/
theorem Reach.steady (hP : P.Named nm) {w : World V E} (h : Reach P nm w) : Steady P nm w := by
  induction h with
  | start heap => exact steady_start heap
  | step _ hop hs ih => exact (opStep_stable stable1 hP _ _ hop _ _ _ ih.1 hs).steady ih

end FakeIt
