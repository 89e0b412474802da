import Verif.Lemmas.ApiStable
import Verif.Spec.Discipline
/-!
# Invariants of the dispatch tables
-/
namespace FakeIt
variable {V E : Type}

/-- Table invariant of one mock. -/
structure TableOk (P : Prog V E) (nm : Nat → Nat) (k : Mock V E) : Prop where
  orig_eq : k.orig = if k.owner then fakeVt (P.cls k.cls) else nativeVt (P.cls k.cls)
  vtlen : k.vt.length = k.orig.length
  dead : k.alive = false → k.vt = k.orig ∧ k.mocks = []
  mlen : k.alive = true → k.mocks.length = k.orig.length ∧ k.offsets.length = k.orig.length
  bound : ∀ (off : Nat) b, k.mocks[off]? = some (some b) → ∃ id, k.offsets[off]? = some id ∧
    ((id = 0 ∧ (P.cls k.cls).dtor = some off) ∨ (∃ ctr, id = ctr + 1 ∧ nm ctr = off ∧ id < intMax))
  unbound : ∀ off : Nat, k.mocks[off]? = some none → k.offsets[off]? = some 0 ∨ k.offsets[off]? = some intMax
  proxy : ∀ (off : Nat) id, k.vt[off]? = some (.proxy id) → (∃ b, k.mocks[off]? = some (some b)) ∧ k.offsets[off]? = some id
  thunk : ∀ off : Nat, k.vt[off]? = some .dtorThunk → ∃ d, (P.cls k.cls).dtor = some d ∧ off = d + 1
  entry : ∀ (off : Nat) x, k.vt[off]? = some x → (∃ id, x = .proxy id) ∨ x = .dtorThunk ∨ k.orig[off]? = some x

/-- All mocks have well-formed tables. -/
def WfT (P : Prog V E) (nm : MockId → Nat → Nat) (w : World V E) : Prop :=
  ∀ (m : Nat) k, w.mocks[m]? = some k → TableOk P (nm m) k

theorem getElem?_fakeVt (c : ClassDecl V) (off : Nat) (x : Code) (h : (fakeVt c)[off]? = some x) :
    (x = .unmocked ∨ x = .unmockedDtor) ∨ (x = .dtorThunk ∧ ∃ d, c.dtor = some d ∧ off = d + 1) := by
  unfold fakeVt at h
  split at h
  · rw [List.getElem?_replicate] at h
    split at h <;> simp_all
  · rename_i d hd
    rw [List.getElem?_set] at h
    split at h
    · rename_i he
      split at h
      · simp at h; right; exact ⟨h.symm, d, hd, he.symm⟩
      · simp at h
    · rw [List.getElem?_set] at h
      split at h
      · split at h
        · simp at h; left; right; exact h.symm
        · simp at h
      · rw [List.getElem?_replicate] at h
        split at h <;> simp_all

theorem getElem?_nativeVt (c : ClassDecl V) (off : Nat) (x : Code) (h : (nativeVt c)[off]? = some x) :
    x = .native (c.impl off) ∧ off < c.size := by
  unfold nativeVt at h
  rw [List.getElem?_map] at h
  by_cases hlt : off < c.size
  · rw [List.getElem?_range hlt] at h
    simp at h; exact ⟨h.symm, hlt⟩
  · rw [List.getElem?_eq_none (by simp; omega)] at h
    simp at h

variable {P : Prog V E} {nm : Nat → Nat} {k : Mock V E}

/-- The original table contains no proxies, and a thunk only in the deleting destructor's place. -/
theorem TableOk.orig_entry (t : TableOk P nm k) (off : Nat) (x : Code) (h : k.orig[off]? = some x) :
    (∀ id, x ≠ .proxy id) ∧ (x = .dtorThunk → ∃ d, (P.cls k.cls).dtor = some d ∧ off = d + 1) := by
  rw [t.orig_eq] at h
  split at h
  · rcases getElem?_fakeVt _ _ _ h with h | h
    · rcases h with rfl | rfl <;> simp
    · obtain ⟨rfl, h'⟩ := h
      exact ⟨by simp, fun _ => h'⟩
  · obtain ⟨rfl, -⟩ := getElem?_nativeVt _ _ _ h
    simp

theorem length_fakeVt (c : ClassDecl V) : (fakeVt c).length = c.size := by
  unfold fakeVt; split <;> simp

theorem length_nativeVt (c : ClassDecl V) : (nativeVt c).length = c.size := by simp [nativeVt]

theorem TableOk.orig_length (t : TableOk P nm k) : k.orig.length = (P.cls k.cls).size := by
  rw [t.orig_eq]; split
  · exact length_fakeVt _
  · exact length_nativeVt _

theorem tableOk_mk' (cls : Nat) (own : Bool) : TableOk P nm (Mock.mk' (E := E) cls (P.cls cls) own) := by
  have hlen : (if own then fakeVt (P.cls cls) else nativeVt (P.cls cls)).length = (P.cls cls).size := by
    split
    · exact length_fakeVt _
    · exact length_nativeVt _
  have horig : ∀ (off : Nat) x, (if own then fakeVt (P.cls cls) else nativeVt (P.cls cls))[off]? = some x →
      (∀ id, x ≠ .proxy id) ∧ (x = .dtorThunk → ∃ d, (P.cls cls).dtor = some d ∧ off = d + 1) := by
    intro off x h
    split at h
    · rcases getElem?_fakeVt _ _ _ h with h | h
      · rcases h with rfl | rfl <;> simp
      · obtain ⟨rfl, h'⟩ := h
        exact ⟨by simp, fun _ => h'⟩
    · obtain ⟨rfl, -⟩ := getElem?_nativeVt _ _ _ h
      simp
  constructor
  · rfl
  · rfl
  · intro h; simp [Mock.mk'] at h
  · intro _; simp [Mock.mk', hlen]
  · intro off b h; simp [Mock.mk', List.getElem?_replicate] at h
  · intro off h
    simp only [Mock.mk', List.getElem?_replicate] at h ⊢
    split at h
    · rename_i hlt; simp [hlt]
    · simp at h
  · intro off id h
    exact absurd rfl ((horig off _ h).1 id)
  · intro off h
    exact (horig off _ h).2 rfl
  · intro off x h; exact .inr (.inr h)

/-- The table invariant only depends on the tables and on which entries of `_methodMocks` are non-null. -/
theorem TableOk.congr (t : TableOk P nm k) {k' : Mock V E} (h1 : k'.cls = k.cls) (h2 : k'.owner = k.owner) (h3 : k'.alive = k.alive)
    (h4 : k'.orig = k.orig) (h5 : k'.vt = k.vt) (h6 : k'.offsets = k.offsets)
    (h7 : k'.mocks.map Option.isSome = k.mocks.map Option.isSome) : TableOk P nm k' := by
  have hlen : k'.mocks.length = k.mocks.length := by simpa using congrArg List.length h7
  have hget : ∀ i : Nat, (k'.mocks[i]?).map Option.isSome = (k.mocks[i]?).map Option.isSome := by
    intro i
    have := congrArg (fun l => l[i]?) h7
    simpa [List.getElem?_map] using this
  have hsome : ∀ (i : Nat) b', k'.mocks[i]? = some (some b') → ∃ b, k.mocks[i]? = some (some b) := by
    intro i b' h
    have := hget i
    rw [h] at this
    cases hk : k.mocks[i]? with
    | none => simp [hk] at this
    | some x => cases x with
      | none => simp [hk] at this
      | some b => exact ⟨b, rfl⟩
  have hnone : ∀ (i : Nat), k'.mocks[i]? = some none → k.mocks[i]? = some none := by
    intro i h
    have := hget i
    rw [h] at this
    cases hk : k.mocks[i]? with
    | none => simp [hk] at this
    | some x => cases x with
      | none => rfl
      | some b => simp [hk] at this
  have hsome' : ∀ (i : Nat) b, k.mocks[i]? = some (some b) → ∃ b', k'.mocks[i]? = some (some b') := by
    intro i b' h
    have := hget i
    rw [h] at this
    cases hk : k'.mocks[i]? with
    | none => simp [hk] at this
    | some x => cases x with
      | none => simp [hk] at this
      | some b => exact ⟨b, rfl⟩
  constructor
  · rw [h4, h2, h1]; exact t.orig_eq
  · rw [h5, h4]; exact t.vtlen
  · intro ha; rw [h3] at ha
    obtain ⟨a, b⟩ := t.dead ha
    refine ⟨by rw [h5, h4]; exact a, ?_⟩
    have : k'.mocks.length = 0 := by rw [hlen, b]; rfl
    exact List.length_eq_zero_iff.1 this
  · intro ha; rw [h3] at ha
    rw [hlen, h6, h4]; exact t.mlen ha
  · intro off b hb
    obtain ⟨b0, hb0⟩ := hsome off b hb
    rw [h6, h1]; exact t.bound off b0 hb0
  · intro off hn; rw [h6]; exact t.unbound off (hnone off hn)
  · intro off id hp
    rw [h5] at hp
    obtain ⟨⟨b, hb⟩, ho⟩ := t.proxy off id hp
    exact ⟨hsome' off b hb, by rw [h6]; exact ho⟩
  · intro off ht; rw [h5] at ht; rw [h1]; exact t.thunk off ht
  · intro off x hx; rw [h5] at hx; rw [h4]; exact t.entry off x hx

theorem map_isSome_modify {α : Type} (l : List (Option α)) (off : Nat) (f : α → α) :
    (l.modify off (Option.map f)).map Option.isSome = l.map Option.isSome := by
  apply List.ext_getElem?
  intro i
  simp only [List.getElem?_map, List.getElem?_modify]
  cases l[i]? with
  | none => simp
  | some x => cases x <;> simp <;> split <;> simp

theorem TableOk.updBody (t : TableOk P nm k) (off : Nat) (f : MBody V E → MBody V E) : TableOk P nm (k.updBody off f) :=
  t.congr rfl rfl rfl rfl rfl rfl (by simp [Mock.updBody, map_isSome_modify])

theorem TableOk.mapBodies (t : TableOk P nm k) (f : MBody V E → MBody V E) :
    TableOk P nm { k with mocks := k.mocks.map (Option.map f) } :=
  t.congr rfl rfl rfl rfl rfl rfl (by simp [Function.comp_def])

theorem TableOk.initData (t : TableOk P nm k) : TableOk P nm k.initData := by
  unfold Mock.initData
  split
  · exact t.congr rfl rfl rfl rfl rfl rfl rfl
  · exact t

theorem TableOk.clear (t : TableOk P nm k) : TableOk P nm k.clear := (t.mapBodies MBody.clear).initData

theorem TableOk.reset (t : TableOk P nm k) (ha : k.alive = true) : TableOk P nm k.reset := by
  apply TableOk.initData
  constructor
  · exact t.orig_eq
  · rfl
  · intro h; exact absurd (show k.alive = false from h) (by rw [ha]; simp)
  · intro _; simp [Mock.proxyReset]
  · intro off b h; simp [Mock.proxyReset, List.getElem?_replicate] at h
  · intro off h
    simp only [Mock.proxyReset, List.getElem?_replicate] at h ⊢
    split at h
    · rename_i hlt; simp [hlt]
    · simp at h
  · intro off id h
    exact absurd rfl ((t.orig_entry off _ h).1 id)
  · intro off h
    exact (t.orig_entry off _ h).2 rfl
  · intro off x h; exact .inr (.inr h)

theorem TableOk.destroy (t : TableOk P nm k) : TableOk P nm k.destroy := by
  constructor
  · exact t.orig_eq
  · rfl
  · intro _; exact ⟨rfl, rfl⟩
  · intro h; simp [Mock.destroy] at h
  · intro off b h; simp [Mock.destroy] at h
  · intro off h; simp [Mock.destroy] at h
  · intro off id h
    exact absurd rfl ((t.orig_entry off _ h).1 id)
  · intro off h
    exact (t.orig_entry off _ h).2 rfl
  · intro off x h; exact .inr (.inr h)

theorem lt_of_getElem?_some {α : Type} {l : List α} {i : Nat} {x : α} (h : l[i]? = some x) : i < l.length :=
  (List.getElem?_eq_some_iff.1 h).1

theorem TableOk.bind (t : TableOk P nm k) (off ctr : Nat) (b : MBody V E) (ha : k.alive = true) (hn : k.mocks[off]? = some none)
    (hnm : nm ctr = off) (hc : ctr + 1 < intMax) : TableOk P nm (k.bind off ctr b) := by
  obtain ⟨hm, ho⟩ := t.mlen ha
  have hlt := lt_of_getElem?_some hn
  constructor
  · exact t.orig_eq
  · simp [Mock.bind, t.vtlen]
  · intro h; exact absurd (show k.alive = false from h) (by rw [ha]; simp)
  · intro _; simp [Mock.bind, hm, ho]
  · intro off' b' h
    simp only [Mock.bind, List.getElem?_set] at h ⊢
    by_cases he : off = off'
    · subst he
      simp only [if_true, ho, ← hm, hlt]
      exact ⟨ctr + 1, rfl, .inr ⟨ctr, rfl, hnm, hc⟩⟩
    · simp only [if_neg he] at h ⊢
      exact t.bound off' b' h
  · intro off' h
    simp only [Mock.bind, List.getElem?_set] at h ⊢
    by_cases he : off = off'
    · subst he; simp [hlt] at h
    · simp only [if_neg he] at h ⊢
      exact t.unbound off' h
  · intro off' id h
    simp only [Mock.bind, List.getElem?_set] at h ⊢
    by_cases he : off = off'
    · subst he
      simp only [if_true, t.vtlen, ← hm, hlt, Option.some.injEq, Code.proxy.injEq] at h
      simp [ho, ← hm, hlt, h]
    · simp only [if_neg he] at h ⊢
      exact t.proxy off' id h
  · intro off' h
    simp only [Mock.bind, List.getElem?_set] at h ⊢
    by_cases he : off = off'
    · subst he
      simp [t.vtlen, ← hm, hlt] at h
    · simp only [if_neg he] at h ⊢
      exact t.thunk off' h
  · intro off' x h
    simp only [Mock.bind, List.getElem?_set] at h ⊢
    by_cases he : off = off'
    · subst he
      simp [t.vtlen, ← hm, hlt] at h
      exact .inl ⟨_, h.symm⟩
    · simp only [if_neg he] at h ⊢
      exact t.entry off' x h

theorem TableOk.bindDtor (t : TableOk P nm k) (d : Nat) (b : MBody V E) (ha : k.alive = true) (hn : k.mocks[d]? = some none)
    (hd : (P.cls k.cls).dtor = some d) (hlt1 : d + 1 < k.vt.length) : TableOk P nm (k.bindDtor d b) := by
  obtain ⟨hm, ho⟩ := t.mlen ha
  have hlt := lt_of_getElem?_some hn
  constructor
  · exact t.orig_eq
  · simp [Mock.bindDtor, t.vtlen]
  · intro h; exact absurd (show k.alive = false from h) (by rw [ha]; simp)
  · intro _; simp [Mock.bindDtor, hm, ho]
  · intro off' b' h
    simp only [Mock.bindDtor, List.getElem?_set] at h ⊢
    by_cases he : d = off'
    · subst he
      simp only [if_true, ho, ← hm, hlt]
      exact ⟨0, rfl, .inl ⟨rfl, hd⟩⟩
    · simp only [if_neg he] at h ⊢
      exact t.bound off' b' h
  · intro off' h
    simp only [Mock.bindDtor, List.getElem?_set] at h ⊢
    by_cases he : d = off'
    · subst he; simp [hlt] at h
    · simp only [if_neg he] at h ⊢
      exact t.unbound off' h
  · intro off' id h
    simp only [Mock.bindDtor, List.getElem?_set, List.length_set] at h ⊢
    by_cases h1 : d + 1 = off'
    · subst h1; simp [hlt1] at h
    · simp only [if_neg h1] at h
      by_cases he : d = off'
      · subst he
        simp only [if_true, t.vtlen, ← hm, hlt, Option.some.injEq, Code.proxy.injEq] at h
        simp [ho, ← hm, hlt, h]
      · simp only [if_neg he] at h ⊢
        exact t.proxy off' id h
  · intro off' h
    simp only [Mock.bindDtor, List.getElem?_set, List.length_set] at h ⊢
    by_cases h1 : d + 1 = off'
    · exact ⟨d, hd, h1.symm⟩
    · simp only [if_neg h1] at h
      by_cases he : d = off'
      · subst he
        simp [t.vtlen, ← hm, hlt] at h
      · simp only [if_neg he] at h ⊢
        exact t.thunk off' h
  · intro off' x h
    simp only [Mock.bindDtor, List.getElem?_set, List.length_set] at h ⊢
    by_cases h1 : d + 1 = off'
    · subst h1; simp [hlt1] at h; exact .inr (.inl h.symm)
    · simp only [if_neg h1] at h
      by_cases he : d = off'
      · subst he
        simp [t.vtlen, ← hm, hlt] at h
        exact .inl ⟨_, h.symm⟩
      · simp only [if_neg he] at h ⊢
        exact t.entry off' x h

/-- Replacing an entry of the clone by the original one keeps the invariant. -/
theorem TableOk.swapIn (t : TableOk P nm k) (off : Nat) (orig : Code) (ho : k.orig[off]? = some orig) :
    TableOk P nm { k with vt := k.vt.set off orig } := by
  obtain ⟨hp, hth⟩ := t.orig_entry off orig ho
  constructor
  · exact t.orig_eq
  · simp [t.vtlen]
  · intro ha
    obtain ⟨a, b⟩ := t.dead ha
    refine ⟨?_, b⟩
    simp only
    rw [a]
    apply List.ext_getElem?
    intro i
    rw [List.getElem?_set]
    by_cases he : off = i
    · subst he; rw [ho]; simp [lt_of_getElem?_some ho]
    · simp [he]
  · exact t.mlen
  · exact t.bound
  · exact t.unbound
  · intro off' id h
    simp only [List.getElem?_set] at h
    by_cases he : off = off'
    · subst he
      simp only [if_true] at h
      split at h
      · simp at h; exact absurd h (hp id)
      · simp at h
    · simp only [if_neg he] at h
      exact t.proxy off' id h
  · intro off' h
    simp only [List.getElem?_set] at h
    by_cases he : off = off'
    · subst he
      simp only [if_true] at h
      split at h
      · simp at h; exact hth h
      · simp at h
    · simp only [if_neg he] at h
      exact t.thunk off' h
  · intro off' x h
    simp only [List.getElem?_set] at h
    by_cases he : off = off'
    · subst he
      simp only [if_true] at h
      split at h
      · simp at h; subst h; exact .inr (.inr ho)
      · simp at h
    · simp only [if_neg he] at h
      exact t.entry off' x h

/-- Putting back an entry that fits the tables keeps the invariant. -/
theorem TableOk.swapOut (t : TableOk P nm k) (off : Nat) (fake : Code) (ha : k.alive = true)
    (hp : ∀ id, fake = .proxy id → (∃ b, k.mocks[off]? = some (some b)) ∧ k.offsets[off]? = some id)
    (hth : fake = .dtorThunk → ∃ d, (P.cls k.cls).dtor = some d ∧ off = d + 1)
    (hen : (∃ id, fake = .proxy id) ∨ fake = .dtorThunk ∨ k.orig[off]? = some fake) :
    TableOk P nm { k with vt := k.vt.set off fake } := by
  constructor
  · exact t.orig_eq
  · simp [t.vtlen]
  · intro h; exact absurd (show k.alive = false from h) (by rw [ha]; simp)
  · exact t.mlen
  · exact t.bound
  · exact t.unbound
  · intro off' id h
    simp only [List.getElem?_set] at h
    by_cases he : off = off'
    · subst he
      simp only [if_true] at h
      split at h
      · simp at h; exact hp id h
      · simp at h
    · simp only [if_neg he] at h
      exact t.proxy off' id h
  · intro off' h
    simp only [List.getElem?_set] at h
    by_cases he : off = off'
    · subst he
      simp only [if_true] at h
      split at h
      · simp at h; exact hth h
      · simp at h
    · simp only [if_neg he] at h
      exact t.thunk off' h
  · intro off' x h
    simp only [List.getElem?_set] at h
    by_cases he : off = off'
    · subst he
      simp only [if_true] at h
      split at h
      · simp at h; subst h; exact hen
      · simp at h
    · simp only [if_neg he] at h
      exact t.entry off' x h

/-- An entry without a record is the original one, apart from the deleting destructor's. -/
theorem TableOk.unbound_entry (t : TableOk P nm k) {off : Nat} {x : Code} (hx : k.vt[off]? = some x) (hb : k.body? off = none)
    (hnd : ∀ d, (P.cls k.cls).dtor = some d → off ≠ d + 1) : k.orig[off]? = some x := by
  rcases t.entry off x hx with ⟨id, rfl⟩ | rfl | h
  · obtain ⟨⟨b, hb'⟩, -⟩ := t.proxy off id hx
    simp [Mock.body?, hb'] at hb
  · obtain ⟨d, hd, he⟩ := t.thunk off hx
    exact absurd he (hnd d hd)
  · exact h

/-- Where a proxy finds its record: the method called, or (destructor proxy only) an unbound entry. -/
theorem TableOk.dispatch (t : TableOk P nm k) (off id : Nat) (h : k.vt[off]? = some (.proxy id)) (b : MBody V E)
    (hb : k.body? (Mock.getOffset k.offsets id) = some b) : Mock.getOffset k.offsets id = off := by
  obtain ⟨⟨b0, hb0⟩, hoff⟩ := t.proxy off id h
  have hb' : k.mocks[Mock.getOffset k.offsets id]? = some (some b) := by
    simp only [Mock.body?] at hb
    cases hx : k.mocks[Mock.getOffset k.offsets id]? with
    | none => simp [hx] at hb
    | some x => simp [hx] at hb; simp [hb]
  obtain ⟨id', hid', hcase'⟩ := t.bound _ b hb'
  have hid : id' = id := by
    have hlt := lt_of_getElem?_some hid'
    have := List.findIdx_getElem (w := hlt)
    rw [List.getElem?_eq_getElem hlt] at hid'
    simp only [Option.some.injEq] at hid'
    have h2 : (k.offsets[Mock.getOffset k.offsets id]'hlt == id) = true := List.findIdx_getElem (w := hlt)
    rw [hid'] at h2
    simpa using h2
  subst hid
  obtain ⟨id2, hid2, hcase⟩ := t.bound off b0 hb0
  rw [hoff] at hid2
  simp only [Option.some.injEq] at hid2
  subst hid2
  rcases hcase with ⟨h0, hd⟩ | ⟨ctr, hc, hn, -⟩
  · rcases hcase' with ⟨-, hd'⟩ | ⟨ctr, hc, -⟩
    · rw [hd] at hd'; simp at hd'; exact hd'.symm
    · omega
  · rcases hcase' with ⟨h0, -⟩ | ⟨ctr', hc', hn', -⟩
    · omega
    · have : ctr = ctr' := by omega
      subst this
      rw [← hn, ← hn']

/-- A method proxy (not the destructor's) always finds its record. -/
theorem TableOk.dispatch_meth (t : TableOk P nm k) (ha : k.alive = true) (off ctr : Nat) (h : k.vt[off]? = some (.proxy (ctr + 1))) :
    Mock.getOffset k.offsets (ctr + 1) = off ∧ ∃ b, k.body? off = some b := by
  obtain ⟨⟨b0, hb0⟩, hoff⟩ := t.proxy off _ h
  have hlt := lt_of_getElem?_some hoff
  obtain ⟨id2, hid2, hcase2⟩ := t.bound off b0 hb0
  rw [hoff] at hid2
  simp only [Option.some.injEq] at hid2
  subst hid2
  have hmax : ctr + 1 < intMax := by
    rcases hcase2 with ⟨h0, -⟩ | ⟨c, hc, -, hl⟩
    · omega
    · exact hl
  have hex : k.offsets.findIdx (fun x => x == ctr + 1) < k.offsets.length := by
    apply List.findIdx_lt_length_of_exists
    exact ⟨ctr + 1, List.mem_of_getElem? hoff, by simp⟩
  obtain ⟨hm, ho⟩ := t.mlen ha
  have hget : (k.offsets[k.offsets.findIdx (fun x => x == ctr + 1)]'hex == ctr + 1) = true := List.findIdx_getElem (w := hex)
  have hb : ∃ b, k.body? (Mock.getOffset k.offsets (ctr + 1)) = some b := by
    have hlt' : k.offsets.findIdx (fun x => x == ctr + 1) < k.mocks.length := by omega
    cases hx : k.mocks[k.offsets.findIdx (fun x => x == ctr + 1)]'hlt' with
    | some b => exact ⟨b, by simp [Mock.body?, Mock.getOffset, List.getElem?_eq_getElem hlt', hx]⟩
    | none =>
      exfalso
      have := t.unbound (k.offsets.findIdx (fun x => x == ctr + 1)) (by rw [List.getElem?_eq_getElem hlt', hx])
      rw [List.getElem?_eq_getElem hex] at this
      simp only [Option.some.injEq] at this
      simp only [beq_iff_eq] at hget
      rcases this with h' | h' <;> omega
  obtain ⟨b, hb⟩ := hb
  have hd := t.dispatch off (ctr + 1) h b hb
  exact ⟨hd, b, by rw [← hd]; exact hb⟩

end FakeIt
