import Verif.Lemmas.Tables
/-!
# Invariants of whole worlds: tables and handlers
-/
namespace FakeIt
variable {V E : Type}

/-- Addresses of the handlers (and of their matchers) of one method record. -/
def kaddrs (k : Mock V E) (off : Nat) : List (Nat × Nat) :=
  match k.body? off with
  | none => []
  | some b => b.handlers.map fun h => (h.addr, h.matcher.addr)

/-- Addresses of the handlers of method `off` of mock `m`. -/
def haddrs (w : World V E) (m off : Nat) : List (Nat × Nat) :=
  match w.mocks[m]? with
  | none => []
  | some k => kaddrs k off

/-- The entry of `_offsets`. -/
def offAt (w : World V E) (m off : Nat) : Option Nat := (w.mocks[m]?).bind (·.offsets[off]?)

/-- Handler addresses are allocated, unique in the world; the matcher's address is the one before. -/
structure HOk (w : World V E) : Prop where
  lt : ∀ m off x, x ∈ haddrs w m off → x.1 < w.alloc ∧ x.2 + 1 = x.1
  nodup : ∀ m off, ((haddrs w m off).map Prod.fst).Nodup
  cross : ∀ m off m' off' x x', x ∈ haddrs w m off → x' ∈ haddrs w m' off' → x.1 = x'.1 → m = m' ∧ off = off'

/-- Handlers of `w` that still exist in `w'` are where they were, under the same table entry. -/
structure Cont (w w' : World V E) : Prop where
  alloc : w.alloc ≤ w'.alloc
  stat : ∀ (m : Nat) k, w.mocks[m]? = some k →
    ∃ k', w'.mocks[m]? = some k' ∧ k'.cls = k.cls ∧ k'.owner = k.owner ∧ k'.orig = k.orig
  mem : ∀ m off x, x ∈ haddrs w' m off → x.1 < w.alloc → x ∈ haddrs w m off ∧ offAt w' m off = offAt w m off

theorem Cont.refl (w : World V E) : Cont w w := ⟨Nat.le_refl _, fun _ k h => ⟨k, h, rfl, rfl, rfl⟩, fun _ _ _ h _ => ⟨h, rfl⟩⟩

theorem Cont.trans {a b c : World V E} (h1 : Cont a b) (h2 : Cont b c) : Cont a c := by
  refine ⟨Nat.le_trans h1.alloc h2.alloc, fun m k hk => ?_, fun m off x hx hlt => ?_⟩
  · obtain ⟨k1, hk1, e1, e2, e3⟩ := h1.stat m k hk
    obtain ⟨k2, hk2, f1, f2, f3⟩ := h2.stat m k1 hk1
    exact ⟨k2, hk2, f1.trans e1, f2.trans e2, f3.trans e3⟩
  obtain ⟨h3, h4⟩ := h2.mem m off x hx (Nat.lt_of_lt_of_le hlt h1.alloc)
  obtain ⟨h5, h6⟩ := h1.mem m off x h3 hlt
  exact ⟨h5, h4.trans h6⟩

/-- An update that keeps or drops whole records. -/
theorem keep (w w' : World V E) (ha : w'.alloc = w.alloc)
    (hst : ∀ (m : Nat) k, w.mocks[m]? = some k →
      ∃ k', w'.mocks[m]? = some k' ∧ k'.cls = k.cls ∧ k'.owner = k.owner ∧ k'.orig = k.orig)
    (h : ∀ m off, haddrs w' m off = [] ∨ (haddrs w' m off = haddrs w m off ∧ offAt w' m off = offAt w m off)) :
    (HOk w → HOk w') ∧ Cont w w' := by
  have hsub : ∀ m off x, x ∈ haddrs w' m off → x ∈ haddrs w m off := by
    intro m off x hx
    rcases h m off with h | h
    · simp [h] at hx
    · rw [h.1] at hx; exact hx
  refine ⟨fun hw => ⟨?_, ?_, ?_⟩, ⟨by omega, hst, ?_⟩⟩
  · intro m off x hx
    rw [ha]; exact hw.lt m off x (hsub _ _ _ hx)
  · intro m off
    rcases h m off with h | h
    · simp [h]
    · rw [h.1]; exact hw.nodup m off
  · intro m off m' off' x x' hx hx'
    exact hw.cross m off m' off' x x' (hsub _ _ _ hx) (hsub _ _ _ hx')
  · intro m off x hx hlt
    rcases h m off with h | h
    · simp [h] at hx
    · rw [h.1] at hx; exact ⟨hx, h.2⟩

theorem haddrs_updMock (w : World V E) (m m' : MockId) (f : Mock V E → Mock V E) (off : Nat) :
    haddrs (w.updMock m f) m' off =
      if m = m' then (match w.mocks[m']? with | none => [] | some k => kaddrs (f k) off) else haddrs w m' off := by
  simp only [haddrs, World.mocks_updMock]
  by_cases hm : m = m'
  · simp only [if_pos hm]; cases w.mocks[m']? <;> simp
  · simp only [if_neg hm]

theorem offAt_updMock (w : World V E) (m m' : MockId) (f : Mock V E → Mock V E) (off : Nat) :
    offAt (w.updMock m f) m' off =
      if m = m' then (w.mocks[m']?).bind (fun k => (f k).offsets[off]?) else offAt w m' off := by
  simp only [offAt, World.mocks_updMock]
  by_cases hm : m = m'
  · simp only [if_pos hm]; cases w.mocks[m']? <;> simp
  · simp only [if_neg hm]

theorem stat_updMock (w : World V E) (m : MockId) (f : Mock V E → Mock V E)
    (hst : ∀ k, (f k).cls = k.cls ∧ (f k).owner = k.owner ∧ (f k).orig = k.orig) :
    ∀ (m' : Nat) k, w.mocks[m']? = some k →
      ∃ k', (w.updMock m f).mocks[m']? = some k' ∧ k'.cls = k.cls ∧ k'.owner = k.owner ∧ k'.orig = k.orig := by
  intro m' k hk
  rw [World.mocks_updMock]
  by_cases hm : m = m'
  · rw [if_pos hm, hk]; exact ⟨f k, rfl, hst k⟩
  · rw [if_neg hm, hk]; exact ⟨k, rfl, rfl, rfl, rfl⟩

theorem keepMock (w : World V E) (m : MockId) (f : Mock V E → Mock V E)
    (hst : ∀ k, (f k).cls = k.cls ∧ (f k).owner = k.owner ∧ (f k).orig = k.orig)
    (h : ∀ k, w.mocks[m]? = some k → ∀ off : Nat, kaddrs (f k) off = [] ∨ (kaddrs (f k) off = kaddrs k off ∧ (f k).offsets[off]? = k.offsets[off]?)) :
    (HOk w → HOk (w.updMock m f)) ∧ Cont w (w.updMock m f) := by
  refine keep _ _ (by rfl) (by exact stat_updMock w m f hst) ?_
  intro m' off
  rw [haddrs_updMock, offAt_updMock]
  by_cases hm : m = m'
  · subst hm
    simp only [if_true]
    cases hk : w.mocks[m]? with
    | none => simp
    | some k =>
      simp only [haddrs, offAt, hk, Option.bind_some]
      exact h k hk off
  · simp [hm]

theorem body?_updBody_mock (k : Mock V E) (off off' : Nat) (f : MBody V E → MBody V E) :
    (k.updBody off f).body? off' = if off = off' then (k.body? off').map f else k.body? off' := by
  simp only [Mock.body?, Mock.updBody, List.getElem?_modify]
  by_cases ho : off = off'
  · subst ho
    simp only [if_true]
    cases k.mocks[off]? with
    | none => simp
    | some x => cases x <;> simp [Option.join]
  · simp only [if_neg ho]
    cases k.mocks[off']? <;> simp

/-- Updates of one method record that keep its handlers' addresses. -/
theorem keepBody (w : World V E) (m off : Nat) (f : MBody V E → MBody V E)
    (h : ∀ b, (f b).handlers.map (fun h => (h.addr, h.matcher.addr)) = b.handlers.map fun h => (h.addr, h.matcher.addr)) :
    (HOk w → HOk (w.updBody m off f)) ∧ Cont w (w.updBody m off f) := by
  refine keepMock _ _ _ (by intro k; exact ⟨rfl, rfl, rfl⟩) ?_
  intro k hk off'
  right
  refine ⟨?_, rfl⟩
  simp only [kaddrs, body?_updBody_mock]
  by_cases ho : off = off'
  · simp only [if_pos ho]; cases k.body? off' <;> simp [h]
  · simp only [if_neg ho]

theorem keep_updSeq (w : World V E) (m off h : Nat) (f : ActionSeq V E → ActionSeq V E) :
    (HOk w → HOk (w.updSeq m off h f)) ∧ Cont w (w.updSeq m off h f) := by
  apply keepBody
  intro b
  simp only [List.map_map]
  apply List.map_congr_left
  intro x _
  simp only [Function.comp]
  split <;> rfl

theorem keep_updInv (w : World V E) (m off uid : Nat) (f : Invocation V → Invocation V) :
    (HOk w → HOk (w.updInv m off uid f)) ∧ Cont w (w.updInv m off uid f) := by
  apply keepBody; intro b; rfl

theorem keep_setVt (w : World V E) (m off : Nat) (c : Code) :
    (HOk w → HOk (w.setVt m off c)) ∧ Cont w (w.setVt m off c) := by
  refine keepMock _ _ _ (by intro k; exact ⟨rfl, rfl, rfl⟩) ?_
  intro k hk off'
  right
  exact ⟨rfl, rfl⟩

theorem WfT.updMock {P : Prog V E} {nm} {w : World V E} (hw : WfT P nm w) (m : MockId) (f : Mock V E → Mock V E)
    (h : ∀ k, w.mocks[m]? = some k → TableOk P (nm m) k → TableOk P (nm m) (f k)) : WfT P nm (w.updMock m f) := by
  intro m' k hk
  rw [World.mocks_updMock] at hk
  by_cases hm : m = m'
  · subst hm
    simp only [if_true, Option.map_eq_some_iff] at hk
    obtain ⟨k0, hk0, rfl⟩ := hk
    exact h k0 hk0 (hw m k0 hk0)
  · rw [if_neg hm] at hk
    exact hw m' k hk

theorem WfT.updBody {P : Prog V E} {nm} {w : World V E} (hw : WfT P nm w) (m off : Nat) (f : MBody V E → MBody V E) :
    WfT P nm (w.updBody m off f) := hw.updMock m _ fun _ _ t => t.updBody off f

/-- Both invariants. -/
def Inv0 (P : Prog V E) (nm : MockId → Nat → Nat) (w : World V E) : Prop := WfT P nm w ∧ HOk w

/-- Both invariants kept, and continuity. -/
def Q0 (P : Prog V E) (nm : MockId → Nat → Nat) (w w' : World V E) : Prop := (Inv0 P nm w → Inv0 P nm w') ∧ Cont w w'

variable {P : Prog V E} {nm : MockId → Nat → Nat}

theorem Q0.of {w w' : World V E} (h1 : WfT P nm w → WfT P nm w') (h2 : (HOk w → HOk w') ∧ Cont w w') : Q0 P nm w w' :=
  ⟨fun h => ⟨h1 h.1, h2.1 h.2⟩, h2.2⟩

theorem Q0.same {w w' : World V E} (hm : w'.mocks = w.mocks) (ha : w'.alloc = w.alloc) : Q0 P nm w w' := by
  apply Q0.of
  · intro h m k hk; rw [hm] at hk; exact h m k hk
  · refine keep _ _ ha (fun m k hk => ⟨k, by rw [hm]; exact hk, rfl, rfl, rfl⟩) fun m off => .inr ?_
    simp only [haddrs, offAt, hm, and_self]

theorem mem_haddrs_of_handler? {w : World V E} {m off h : Nat} {hd : Handler V E} (hh : w.handler? m off h = some hd) :
    ∃ x ∈ haddrs w m off, x.1 = h := by
  simp only [World.handler?, World.body?, Option.bind_eq_some_iff] at hh
  obtain ⟨b, ⟨k, hk, hb⟩, hf⟩ := hh
  refine ⟨(hd.addr, hd.matcher.addr), ?_, ?_⟩
  · simp only [haddrs, hk, kaddrs, hb]
    exact List.mem_map.2 ⟨hd, List.mem_of_find?_eq_some hf, rfl⟩
  · have := List.find?_some hf
    simpa using this

theorem apiStable0 : ApiStable P (Api.Named nm) (fun m s => s.Named nm m) (Inv0 P nm) (Q0 P nm) where
  inv h hI := h.1 hI
  refl w := ⟨id, Cont.refl w⟩
  trans h1 h2 := ⟨fun h => h2.1 (h1.1 h), h1.2.trans h2.2⟩
  slots h := h
  newMock w cls own _ := by
    apply Q0.of
    · intro hw m k hk
      simp only [List.getElem?_append] at hk
      split at hk
      · exact hw m k hk
      · cases hi : m - w.mocks.length with
        | zero => simp [hi] at hk; subst hk; exact tableOk_mk' _ _
        | succ n => simp [hi] at hk
    · refine keep _ _ (by rfl) (by intro m k hk; exact ⟨k, by simp only; rw [List.getElem?_append_left (lt_of_getElem?_some hk), hk], rfl, rfl, rfl⟩) ?_
      intro m off
      by_cases hlt : m < w.mocks.length
      · right
        simp only [haddrs, offAt, List.getElem?_append_left hlt, and_self]
      · left
        simp only [haddrs, List.getElem?_append_right (Nat.le_of_not_lt hlt)]
        cases hi : m - w.mocks.length with
        | zero =>
          simp only [List.getElem?_cons_zero, kaddrs]
          have : (Mock.mk' (E := E) cls (P.cls cls) own).body? off = none := by
            simp only [Mock.body?, Mock.mk', List.getElem?_replicate]
            split <;> rfl
          rw [this]
        | succ n => simp
  destroy w m k _ _ hk := by
    obtain ⟨hk, ha⟩ := World.mock?_eq_some.1 hk
    apply Q0.of
    · intro hw; exact hw.updMock m _ fun _ _ t => t.destroy
    · refine keepMock _ _ _ (by intro k; exact ⟨rfl, rfl, rfl⟩) ?_
      intro k hk off
      left
      simp [kaddrs, Mock.body?, Mock.destroy]
  reset w m k _ _ hk := by
    obtain ⟨hk, ha⟩ := World.mock?_eq_some.1 hk
    apply Q0.of
    · intro hw
      exact hw.updMock m _ fun k' hk' t => t.reset (by rw [hk] at hk'; cases hk'; exact ha)
    · refine keepMock _ _ _ (by intro k; unfold Mock.reset Mock.initData; split <;> exact ⟨rfl, rfl, rfl⟩) ?_
      intro k hk off
      left
      have : k.reset.body? off = none := by
        unfold Mock.reset Mock.initData
        split <;> simp only [Mock.body?, Mock.proxyReset, List.getElem?_replicate] <;> split <;> rfl
      simp [kaddrs, this]
  clear w m k _ _ hk := by
    apply Q0.of
    · intro hw; exact hw.updMock m _ fun _ _ t => t.clear
    · refine keepMock _ _ _ (by intro k; unfold Mock.clear Mock.initData; split <;> exact ⟨rfl, rfl, rfl⟩) ?_
      intro k hk off
      right
      have hb : k.clear.body? off = (k.body? off).map MBody.clear := by
        unfold Mock.clear Mock.initData
        split <;> (simp only [Mock.body?, List.getElem?_map]; cases k.mocks[off]? with
          | none => rfl
          | some x => cases x <;> rfl)
      have ho : k.clear.offsets = k.offsets := by
        unfold Mock.clear Mock.initData; split <;> rfl
      refine ⟨?_, by rw [ho]⟩
      simp only [kaddrs, hb]
      cases k.body? off <;> simp [MBody.clear]
  stubData w m k cell v _ _ hk hlt := by
    apply Q0.of
    · intro hw; exact hw.updMock m _ fun _ _ t => t.congr rfl rfl rfl rfl rfl rfl rfl
    · exact keepMock _ _ _ (by intro k; exact ⟨rfl, rfl, rfl⟩) fun k hk off => .inr ⟨rfl, rfl⟩
  writeData w m k cell v _ _ hk hlt := by
    apply Q0.of
    · intro hw; exact hw.updMock m _ fun _ _ t => t.congr rfl rfl rfl rfl rfl rfl rfl
    · exact keepMock _ _ _ (by intro k; exact ⟨rfl, rfl, rfl⟩) fun k hk off => .inr ⟨rfl, rfl⟩
  bind w m k off ctr _ hB hk hn := by
    obtain ⟨hk, ha⟩ := World.mock?_eq_some.1 hk
    apply Q0.of
    · intro hw
      have := hw.updMock m (·.bind off ctr (newBody w.methTotal)) fun k' hk' t => by
        rw [hk] at hk'; cases hk'
        exact t.bind off ctr _ ha hn hB.1 hB.2
      exact this
    · have := keepMock w m (·.bind off ctr (newBody w.methTotal)) (fun k => ⟨rfl, rfl, rfl⟩) fun k' hk' off' => by
        rw [hk] at hk'; cases hk'
        by_cases he : off = off'
        · left
          subst he
          simp [kaddrs, Mock.body?, Mock.bind, List.getElem?_set, lt_of_getElem?_some hn, newBody]
        · right
          simp [kaddrs, Mock.body?, Mock.bind, List.getElem?_set, he]
      exact ⟨fun h => ⟨(this.1 h).lt, (this.1 h).nodup, (this.1 h).cross⟩, ⟨this.2.alloc, this.2.stat, this.2.mem⟩⟩
  bindDtor w m k d _ hB hk hd hlt hn := by
    obtain ⟨hk, ha⟩ := World.mock?_eq_some.1 hk
    apply Q0.of
    · intro hw
      have := hw.updMock m (·.bindDtor d (newBody w.methTotal)) fun k' hk' t => by
        rw [hk] at hk'; cases hk'
        exact t.bindDtor d _ ha hn hd hlt
      exact this
    · have := keepMock w m (·.bindDtor d (newBody w.methTotal)) (fun k => ⟨rfl, rfl, rfl⟩) fun k' hk' off' => by
        rw [hk] at hk'; cases hk'
        by_cases he : d = off'
        · left
          subst he
          simp [kaddrs, Mock.body?, Mock.bindDtor, List.getElem?_set, lt_of_getElem?_some hn, newBody]
        · right
          simp [kaddrs, Mock.body?, Mock.bindDtor, List.getElem?_set, he]
      exact ⟨fun h => ⟨(this.1 h).lt, (this.1 h).nodup, (this.1 h).cross⟩, ⟨this.2.alloc, this.2.stat, this.2.mem⟩⟩
  commit w m k slot off b kind acts _ _ hB hk hoff hb := by
    obtain ⟨hk, ha⟩ := World.mock?_eq_some.1 hk
    have hkb : k.body? off = some b := by simpa [World.body?, hk] using hb
    have haddr : ∀ m' off', haddrs (w.commitAt m off kind acts) m' off' =
        if m = m' ∧ off = off' then haddrs w m' off' ++ [(w.alloc + 1, w.alloc)] else haddrs w m' off' := by
      intro m' off'
      show haddrs (w.updMock m _) m' off' = _
      rw [haddrs_updMock]
      by_cases hm : m = m'
      · subst hm
        simp only [if_true, hk, true_and, haddrs, kaddrs, body?_updBody_mock]
        by_cases ho : off = off'
        · subst ho; simp [hkb]
        · simp [ho]
      · simp [hm]
    have hoffs : ∀ m' off', offAt (w.commitAt m off kind acts) m' off' = offAt w m' off' := by
      intro m' off'
      show offAt (w.updMock m _) m' off' = _
      rw [offAt_updMock]
      by_cases hm : m = m'
      · subst hm; simp [offAt, Mock.updBody]
      · simp [hm]
    apply Q0.of
    · intro hw; exact hw.updBody m off _
    · refine ⟨fun h => ⟨?_, ?_, ?_⟩, ⟨by simp [World.commitAt], stat_updMock w m _ (fun k => ⟨rfl, rfl, rfl⟩), ?_⟩⟩
      · intro m' off' x hx
        show x.1 < w.alloc + 2 ∧ _
        rw [haddr] at hx
        split at hx
        · rcases List.mem_append.1 hx with hx | hx
          · have := h.lt _ _ _ hx; omega
          · simp at hx; subst hx; simp
        · have := h.lt _ _ _ hx; omega
      · intro m' off'
        rw [haddr]
        split
        · rw [List.map_append, List.nodup_append]
          refine ⟨h.nodup _ _, by simp, ?_⟩
          intro a ha' b hb' he
          obtain ⟨x, hx, rfl⟩ := List.mem_map.1 ha'
          have := (h.lt _ _ _ hx).1
          simp at hb'
          omega
        · exact h.nodup _ _
      · have hmem : ∀ m' off' x, x ∈ haddrs (w.commitAt m off kind acts) m' off' →
            (x ∈ haddrs w m' off' ∧ x.1 < w.alloc) ∨ (m = m' ∧ off = off' ∧ x.1 = w.alloc + 1) := by
          intro m' off' x hx
          rw [haddr] at hx
          split at hx
          · rename_i he
            rcases List.mem_append.1 hx with hx | hx
            · exact .inl ⟨hx, (h.lt _ _ _ hx).1⟩
            · simp at hx; exact .inr ⟨he.1, he.2, by rw [hx]⟩
          · exact .inl ⟨hx, (h.lt _ _ _ hx).1⟩
        intro m1 o1 m2 o2 x y hx hy he
        rcases hmem _ _ _ hx with ⟨hx, hl⟩ | ⟨rfl, rfl, hl⟩
        · rcases hmem _ _ _ hy with ⟨hy, hl'⟩ | ⟨rfl, rfl, hl'⟩
          · exact h.cross _ _ _ _ _ _ hx hy he
          · omega
        · rcases hmem _ _ _ hy with ⟨hy, hl'⟩ | ⟨rfl, rfl, hl'⟩
          · omega
          · exact ⟨rfl, rfl⟩
      · intro m' off' x hx hlt
        rw [haddr] at hx
        refine ⟨?_, hoffs _ _⟩
        split at hx
        · rcases List.mem_append.1 hx with hx | hx
          · exact hx
          · simp at hx; subst hx; simp at hlt
            omega
        · exact hx
  write w a v _ := Q0.same rfl rfl
  fire w e _ := Q0.same rfl rfl
  mark w scope pat q mode actual count matched _ hA h := by
    have hmock : ∀ m : Nat, (w.mark (matched.map (·.uid))).mocks[m]? = (w.mocks[m]?).map fun k =>
        { k with mocks := k.mocks.map (Option.map fun b =>
          { b with invs := b.invs.map fun i => if (matched.map (·.uid)).contains i.uid then { i with verified := true } else i }) } := by
      intro m; simp only [World.mark, List.getElem?_map]
    apply Q0.of
    · intro hw m k hk
      rw [hmock, Option.map_eq_some_iff] at hk
      obtain ⟨k0, hk0, rfl⟩ := hk
      exact (hw m k0 hk0).mapBodies _
    · refine keep _ _ (by rfl) (by intro m k hk; rw [hmock, hk]; exact ⟨_, rfl, rfl, rfl, rfl⟩) ?_
      intro m off
      right
      simp only [haddrs, offAt, hmock]
      cases w.mocks[m]? with
      | none => simp
      | some k =>
        simp only [Option.map_some, Option.bind_some, and_true, kaddrs, Mock.body?, List.getElem?_map]
        cases k.mocks[off]? with
        | none => rfl
        | some x => cases x <;> rfl

theorem stable0 : Stable P (Api.Named nm) (fun _ _ => True) (fun _ _ => True) (fun _ _ _ _ => True) (Inv0 P nm) (Q0 P nm) where
  inv h hI := h.1 hI
  dispatch _ _ _ _ _ := trivial
  frame _ _ _ := trivial
  thunk _ _ _ _ _ := trivial
  deleg _ := trivial
  swapIn {w m k off orig} hI _ hk ho := by
    refine ⟨hI.1.updMock m _ fun k' hk' t => ?_, (keep_setVt w m off orig).1 hI.2⟩
    rw [hk] at hk'; cases hk'
    exact t.swapIn off orig ho
  refl w := ⟨id, Cont.refl w⟩
  trans h1 h2 := ⟨fun h => h2.1 (h1.1 h), h1.2.trans h2.2⟩
  api hI hA h := apiStep_stable apiStable0 hI hA h
  write w a v _ := Q0.same rfl rfl
  setArgs w m off uid _ f _ _ _ := Q0.of (fun hw => hw.updBody m off _) (keep_updInv w m off uid _)
  bump w _ := Q0.same rfl rfl
  fire w e _ := Q0.same rfl rfl
  push w m off b args h _ _ hb _ := by
    have : Q0 P nm w (w.pushInv m off (recorded w b args h)) :=
      Q0.of (fun hw => hw.updBody m off _) (keepBody w m off _ fun b => rfl)
    exact ⟨fun hI => ⟨(this.1 hI).1, ⟨(this.1 hI).2.lt, (this.1 hI).2.nodup, (this.1 hI).2.cross⟩⟩, ⟨this.2.alloc, this.2.stat, this.2.mem⟩⟩
  tick w m off h i _ _ := Q0.of (fun hw => hw.updBody m off _) (keep_updSeq w m off h _)
  fin w m off h hd i s _ _ _ _ := Q0.of (fun hw => hw.updBody m off _) (keep_updSeq w m off h _)
  swap w w' m off h k fake orig hd0 hd i s hI _ hk hf ho hh hQ hh' hs := by
    have hIin : Inv0 P nm (w.setVt m off orig) := by
      refine ⟨hI.1.updMock m _ fun k' hk' t => ?_, (keep_setVt w m off orig).1 hI.2⟩
      rw [hk] at hk'; cases hk'
      exact t.swapIn off orig ho
    have hI' := hQ.1 hIin
    have hC : Cont w w' := (keep_setVt w m off orig).2.trans hQ.2
    have hC2 : Cont w (w'.setVt m off fake) := hC.trans (keep_setVt w' m off fake).2
    obtain ⟨x0, hx0, hxe0⟩ := mem_haddrs_of_handler? hh
    obtain ⟨x, hx, hxe⟩ := mem_haddrs_of_handler? hh'
    have hlt : x.1 < w.alloc := by rw [hxe, ← hxe0]; exact (hI.2.lt _ _ _ hx0).1
    obtain ⟨-, hoff⟩ := hC2.mem _ _ _ hx hlt
    have hI2 : Inv0 P nm (w'.setVt m off fake) := by
      refine ⟨hI'.1.updMock m _ fun k' hk' t => ?_, (keep_setVt w' m off fake).1 hI'.2⟩
      -- the record still exists in `w'`
      have hbody : ∃ b', k'.body? off = some b' := by
        rw [World.handler?, World.body?_setVt, World.body?, hk'] at hh'
        simp only [Option.bind_some] at hh'
        cases hb : k'.body? off with
        | none => simp [hb] at hh'
        | some b' => exact ⟨b', rfl⟩
      obtain ⟨b', hb'⟩ := hbody
      have hb'' : k'.mocks[off]? = some (some b') := by
        simp only [Mock.body?] at hb'
        cases hx : k'.mocks[off]? with
        | none => simp [hx] at hb'
        | some x => simp [hx] at hb'; simp [hb']
      have halive : k'.alive = true := by
        cases ha : k'.alive with
        | true => rfl
        | false => have := (t.dead ha).2; rw [this] at hb''; simp at hb''
      have tk := hI.1 m k hk
      refine t.swapOut off fake halive ?_ ?_ ?_
      · intro id hid
        refine ⟨⟨b', hb''⟩, ?_⟩
        subst hid
        obtain ⟨-, ho'⟩ := tk.proxy off id hf
        simp only [offAt, World.setVt, World.mocks_updMock, if_true, hk', hk, Option.map_some, Option.bind_some] at hoff
        rw [hoff, ho']
      · intro hth
        subst hth
        obtain ⟨d, hd, he⟩ := tk.thunk off hf
        obtain ⟨k2, hk2, hcls, -⟩ := hC.stat m k hk
        rw [hk'] at hk2; cases hk2
        exact ⟨d, by rw [hcls]; exact hd, he⟩
      · obtain ⟨k2, hk2, -, -, horig⟩ := hC.stat m k hk
        rw [hk'] at hk2; cases hk2
        rw [horig]; exact tk.entry off fake hf
    refine ⟨fun _ => ?_, hC2.trans (keep_updSeq _ m off h _).2⟩
    exact ⟨hI2.1.updBody m off _, (keep_updSeq _ m off h _).1 hI2.2⟩

end FakeIt
