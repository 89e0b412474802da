import Verif.Lemmas.RacesCore
/-!
# Helper lemmas for races: what the operations on mocks read and write
-/
namespace FakeIt.Races.Spec

variable {V : Type}

/-- The tables of the mocks are the same. -/
structure Quiet (μ μ' : Mem V) : Prop where
  vecs : ∀ m, μ' (.vecs m) = μ (.vecs m)
  entry : ∀ m k, μ' (.entry m k) = μ (.entry m k)
  body : ∀ m k, μ' (.body m k) = μ (.body m k)
  ident : ∀ m k, μ' (.ident m k) = μ (.ident m k)

theorem Quiet.refl (μ : Mem V) : Quiet μ μ := ⟨fun _ => rfl, fun _ _ => rfl, fun _ _ => rfl, fun _ _ => rfl⟩

theorem Quiet.trans {μ μ' μ'' : Mem V} (h : Quiet μ μ') (h' : Quiet μ' μ'') : Quiet μ μ'' :=
  ⟨fun m => (h'.vecs m).trans (h.vecs m), fun m k => (h'.entry m k).trans (h.entry m k), fun m k => (h'.body m k).trans (h.body m k),
   fun m k => (h'.ident m k).trans (h.ident m k)⟩

theorem Quiet.set {μ μ' : Mem V} (h : Quiet μ μ') (l : Loc) (v : Val V l) (h1 : ∀ m, l ≠ .vecs m) (h2 : ∀ m k, l ≠ .entry m k)
    (h3 : ∀ m k, l ≠ .body m k) (h4 : ∀ m k, l ≠ .ident m k) : Quiet μ (μ'.set l v) :=
  ⟨fun m => (set_other _ _ (fun he => h1 m he.symm)).trans (h.vecs m), fun m k => (set_other _ _ (fun he => h2 m k he.symm)).trans (h.entry m k),
   fun m k => (set_other _ _ (fun he => h3 m k he.symm)).trans (h.body m k), fun m k => (set_other _ _ (fun he => h4 m k he.symm)).trans (h.ident m k)⟩

/-- What an operation keeps: the invariants, the sizes, and unless it is a `Reset` the methods named. -/
structure Keeps (orig : Nat → Nat → Entry) (μ μ' : Mem V) : Prop where
  settled : Settled orig μ'
  vecs : ∀ m, μ' (.vecs m) = μ (.vecs m)
  known : ∀ m k, Known μ m k → Known μ' m k

theorem Quiet.settled {orig : Nat → Nat → Entry} {μ μ' : Mem V} (hs : Settled orig μ) (h : Quiet μ μ') : Settled orig μ' := by
  refine ⟨?_, ?_, ?_, ?_, hs.orig⟩
  · intro m k hk
    rw [h.vecs]
    exact hs.inside m k (by rw [Known, ← h.body]; exact hk)
  · intro m k hk
    rw [h.entry, h.ident]
    exact hs.known m k (by rw [Known, ← h.body]; exact hk)
  · intro m k hk
    rw [h.entry]
    exact hs.unknown m k (by rw [Known, ← h.body]; exact hk)
  · intro m k j hj
    rw [h.ident] at hj
    exact hs.own m k j hj

theorem Quiet.keeps {orig : Nat → Nat → Entry} {μ μ' : Mem V} (hs : Settled orig μ) (h : Quiet μ μ') : Keeps orig μ μ' :=
  ⟨h.settled hs, h.vecs, fun m k hk => by rw [Known, h.body]; exact hk⟩

theorem Keeps.trans {orig : Nat → Nat → Entry} {μ μ' μ'' : Mem V} (h : Keeps orig μ μ') (h' : Keeps orig μ' μ'') : Keeps orig μ μ'' :=
  ⟨h'.settled, fun m => (h'.vecs m).trans (h.vecs m), fun m k hk => h'.known m k (h.known m k hk)⟩

/-- The search for the proxy's number. -/
theorem getOffset_safe {F : Access → Prop} {m off : Nat} {μ : Mem V} (hid : μ (.ident m off) = some off)
    (hown : ∀ k j, μ (.ident m k) = some j → j = k) :
    ∀ (n k : Nat), k ≤ off → off < k + n → (∀ j, k ≤ j → j ≤ off → F ⟨.ident m j, false⟩) →
    Safe F (getOffset m off k n) μ (fun r μ' => r = some off ∧ μ' = μ)
  | 0, k, h1, h2, _ => by omega
  | n + 1, k, h1, h2, hF => by
    rw [getOffset, safe_bind, safe_get]
    refine ⟨hF k (Nat.le_refl _) h1, ?_⟩
    by_cases he : μ (.ident m k) = some off
    · rw [if_pos he, safe_pure]
      exact ⟨by rw [hown k off he], rfl⟩
    · rw [if_neg he]
      have hne : k ≠ off := fun h => he (h ▸ hid)
      exact getOffset_safe hid hown n (k + 1) (by omega) (by omega) fun j h3 h4 => hF j (by omega) h4

/-- What a call changes besides the tables. -/
theorem act_safe {F : Access → Prop} {m f k : Nat} {o : Entry} (kd : Kind V) (μ : Mem V)
    (hargs : ∀ w, F ⟨.args m f k, w⟩) (hentry : ∀ w, F ⟨.entry m f, w⟩) :
    Safe F (act m f k o kd) μ (fun _ μ' => Quiet μ μ' ∧ ∀ h, μ' (.seq m f h) = μ (.seq m f h)) := by
  cases kd with
  | gives => exact ⟨.refl _, fun _ => rfl⟩
  | sets g =>
    simp only [act, safe_bind, safe_get, safe_put]
    refine ⟨hargs _, hargs _, (Quiet.refl μ).set _ _ ?_ ?_ ?_ ?_, fun h => ?_⟩ <;> simp [Mem.set]
  | spies =>
    simp only [act, safe_bind, safe_get, safe_put, set_same]
    refine ⟨hentry _, hentry _, hentry _, ?_⟩
    rw [safe_ret, set_same, if_pos rfl, safe_put]
    refine ⟨hentry _, ⟨fun _ => by simp [Mem.set], fun m' k' => ?_, fun _ _ => by simp [Mem.set], fun _ _ => by simp [Mem.set]⟩,
      fun h => by simp [Mem.set]⟩
    by_cases he : Loc.entry m' k' = .entry m f
    · cases he
      rw [set_same]
    · rw [set_other _ _ he, set_other _ _ he]

theorem handle_safe {F : Access → Prop} {m f h k : Nat} {o : Entry} (μ : Mem V)
    (hseq : ∀ w, F ⟨.seq m f h, w⟩) (hargs : ∀ w, F ⟨.args m f k, w⟩) (hentry : ∀ w, F ⟨.entry m f, w⟩) :
    Safe F (handle m f h k o) μ (fun _ μ' => Quiet μ μ') := by
  rw [handle, safe_bind, safe_get]
  refine ⟨hseq _, ?_⟩
  cases hq : μ (.seq m f h) with
  | nil => exact .refl _
  | cons x rest =>
    cases ht : x.times with
    | none =>
      simp only [ht, safe_bind]
      exact (act_safe x.kind μ hargs hentry).mono (fun _ h => h) fun _ μ' h => h.1
    | some t =>
      simp only [ht, safe_bind, safe_put]
      refine ⟨hseq _, (act_safe x.kind _ hargs hentry).mono (fun _ h => h) fun _ μ' hμ' => ?_⟩
      obtain ⟨hq1, hq2⟩ := hμ'
      have hq0 : Quiet μ μ' := by
        refine Quiet.trans ((Quiet.refl μ).set (.seq m f h) _ ?_ ?_ ?_ ?_) hq1 <;> simp
      rw [safe_get]
      refine ⟨hseq _, ?_⟩
      rw [hq2, set_same]
      by_cases h0 : t - 1 = 0
      · simp only [h0, if_true, safe_bind, safe_put]
        refine ⟨hseq _, hq0.set _ _ ?_ ?_ ?_ ?_⟩ <;> simp
      · simp only [Option.some.injEq, h0, if_false]
        exact hq0

theorem unexpected_safe {F : Access → Prop} {m f : Nat} (μ : Mem V) (hctx : F ⟨.ctx, false⟩) (hname : F ⟨.name m f, false⟩) :
    Safe F (unexpected m f) μ (fun _ μ' => μ' = μ) := ⟨hctx, hname, rfl⟩

theorem invoke_safe {F : Access → Prop} {m f : Nat} {o : Entry} (a : V) (μ : Mem V)
    (hstubs : F ⟨.stubs m f, false⟩) (hname : F ⟨.name m f, false⟩) (hctx : F ⟨.ctx, false⟩) (hrecs : ∀ w, F ⟨.recs m f, w⟩)
    (hflag : ∀ k w, F ⟨.flag m f k, w⟩)
    (hseq : ∀ h w, F ⟨.seq m f h, w⟩) (hargs : ∀ k w, F ⟨.args m f k, w⟩) (hentry : ∀ w, F ⟨.entry m f, w⟩) :
    Safe F (invoke m f o a) μ (fun _ μ' => Quiet μ μ') := by
  rw [invoke, safe_bind, safe_next]
  intro _
  rw [safe_bind, safe_get]
  refine ⟨hstubs, ?_⟩
  cases hf : findStub a (μ (.stubs m f)) with
  | none => exact (unexpected_safe μ hctx hname).mono (fun _ h => h) fun _ μ' h => h ▸ .refl _
  | some h =>
    simp only [safe_bind, safe_get, safe_put]
    refine ⟨hrecs _, hargs _ _, hflag _ _, hrecs _, (handle_safe _ (hseq _) (hargs _) hentry).mono (fun _ h => h) fun ok μ' hμ' => ?_⟩
    have hq : Quiet μ μ' := by
      refine Quiet.trans ?_ hμ'
      refine (((Quiet.refl μ).set _ _ ?_ ?_ ?_ ?_).set _ _ ?_ ?_ ?_ ?_).set _ _ ?_ ?_ ?_ ?_ <;> simp
    cases ok
    · exact (unexpected_safe μ' hctx hname).mono (fun _ h => h) fun _ μ'' h => h ▸ hq
    · exact hq

/-- What an operation may read and write, if the methods `K` have been named before. -/
def may (K : Nat → Nat → Prop) : Op V → Access → Prop
  | .call m f _, a =>
    match a.loc with
    | .vecs m' => m' = m ∧ a.write = false
    | .ident m' k => m' = m ∧ k ≤ f ∧ a.write = false
    | .body m' k => m' = m ∧ k = f ∧ a.write = false
    | .name m' k => m' = m ∧ k = f ∧ a.write = false
    | .stubs m' k => m' = m ∧ k = f ∧ a.write = false
    | .entry m' k => m' = m ∧ k = f
    | .recs m' k => m' = m ∧ k = f
    | .seq m' k _ => m' = m ∧ k = f
    | .args m' k _ => m' = m ∧ k = f
    | .flag m' k _ => m' = m ∧ k = f
    | .ctx => a.write = false
  | .stub m f _ _ _, a =>
    match a.loc with
    | .vecs m' => m' = m ∧ a.write = false
    | .ident m' k => m' = m ∧ k = f ∧ ¬ K m f
    | .body m' k => m' = m ∧ k = f ∧ (a.write = true → ¬ K m f)
    | .entry m' k => m' = m ∧ k = f
    | .name m' k => m' = m ∧ k = f
    | .stubs m' k => m' = m ∧ k = f
    | .recs m' k => m' = m ∧ k = f
    | .seq m' k _ => m' = m ∧ k = f
    | .args _ _ _ => False
    | .flag _ _ _ => False
    | .ctx => False
  | o, a =>
    match a.loc with
    | .vecs m' => m' = mockOf o ∧ (a.write = true → ∀ m'', o ≠ .noOther m'')
    | .ident m' _ => m' = mockOf o ∧ (a.write = true → ∀ m'', o ≠ .noOther m'')
    | .body m' _ => m' = mockOf o ∧ (a.write = true → ∀ m'', o ≠ .noOther m'')
    | .entry m' _ => m' = mockOf o ∧ (a.write = true → ∀ m'', o ≠ .noOther m'')
    | .name m' _ => m' = mockOf o ∧ (a.write = true → ∀ m'', o ≠ .noOther m'')
    | .stubs m' _ => m' = mockOf o ∧ (a.write = true → ∀ m'', o ≠ .noOther m'')
    | .recs m' _ => m' = mockOf o ∧ (a.write = true → ∀ m'', o ≠ .noOther m'')
    | .seq m' _ _ => m' = mockOf o ∧ (a.write = true → ∀ m'', o ≠ .noOther m'')
    | .args m' _ _ => m' = mockOf o ∧ (a.write = true → ∀ m'', o ≠ .noOther m'')
    | .flag m' _ _ => m' = mockOf o ∧ (a.write = true → ∀ m'', o ≠ .noOther m'')
    | .ctx => a.write = false

theorem call_safe {orig : Nat → Nat → Entry} {μ : Mem V} (hs : Settled orig μ) (K : Nat → Nat → Prop) (m f : Nat) (a : V) :
    Safe (may K (.call m f a)) (call orig m f a) μ (fun _ μ' => Quiet μ μ') := by
  rw [call, safe_bind, safe_get]
  refine ⟨by simp [may], ?_⟩
  cases he : μ (.entry m f) with
  | original => exact .refl _
  | unmocked =>
    simp only [unmocked, safe_bind, safe_next, safe_get]
    exact fun _ => ⟨by simp [may], .refl _⟩
  | proxy =>
    have hk : Known μ m f := by
      by_cases hk : Known μ m f
      · exact hk
      · exact absurd (he.symm.trans (hs.unknown m f hk)).symm (hs.orig m f)
    simp only [safe_bind, safe_get]
    refine ⟨by simp [may], (getOffset_safe (hs.known m f hk).2 (hs.own m) _ 0 (Nat.zero_le _) (by simpa using hs.inside m f hk) ?_).mono
      (fun _ h => h) fun r μ' h => ?_⟩
    · intro j _ hj
      simp [may, hj]
    · obtain ⟨h1, h2⟩ := h
      subst h1 h2
      simp only [safe_bind, safe_get]
      refine ⟨by simp [may], ?_⟩
      have : μ' (.body m f) = true := hk
      rw [safe_ret, if_pos this]
      exact invoke_safe a μ' (by simp [may]) (by simp [may]) (by simp [may]) (by simp [may]) (by simp [may]) (by simp [may]) (by simp [may]) (by simp [may])

/-- Looking up a method's records. -/
theorem recordedBody_safe {orig : Nat → Nat → Entry} {F : Access → Prop} {μ : Mem V} (hs : Settled orig μ) (m f : Nat) (hf : f < μ (.vecs m))
    (h1 : F ⟨.vecs m, false⟩) (h2 : F ⟨.body m f, false⟩)
    (h3 : ¬ Known μ m f → F ⟨.name m f, true⟩ ∧ F ⟨.stubs m f, true⟩ ∧ F ⟨.recs m f, true⟩ ∧ F ⟨.entry m f, true⟩ ∧ F ⟨.body m f, true⟩ ∧
      F ⟨.ident m f, true⟩) :
    Safe F (recordedBody m f) μ (fun _ μ' => Keeps orig μ μ' ∧ Known μ' m f ∧ (Known μ m f → μ' = μ)) := by
  rw [recordedBody, safe_bind, safe_get]
  refine ⟨h1, ?_⟩
  rw [if_pos hf]
  simp only [safe_bind, safe_get]
  refine ⟨h2, ?_⟩
  by_cases hk : Known μ m f
  · have hb : μ (.body m f) = true := hk
    rw [safe_ret, if_pos hb, safe_pure]
    refine ⟨h2, ?_⟩
    rw [safe_ret, if_pos hb, safe_pure]
    exact ⟨(Quiet.refl μ).keeps hs, hk, fun _ => rfl⟩
  · have hb : μ (.body m f) = false := by
      cases h : μ (.body m f) with
      | false => rfl
      | true => exact absurd h hk
    obtain ⟨g1, g2, g3, g4, g5, g6⟩ := h3 hk
    rw [safe_ret, if_neg (by rw [hb]; simp)]
    simp only [bindMethod, safe_bind, safe_next, safe_put]
    refine fun _ => ⟨g1, g2, g3, g4, g5, g6, h2, ?_⟩
    have hbt : (((((((μ.set (.name m f) 0).set (.stubs m f) []).set (.recs m f) 0).set (.entry m f) Entry.proxy).set (.body m f) true).set
        (.ident m f) (some f)) : Mem V) (.body m f) = true := by simp [Mem.set]
    rw [safe_ret, if_pos hbt]
    have hkn : ∀ m' k', Known ((((((μ.set (.name m f) 0).set (.stubs m f) []).set (.recs m f) 0).set (.entry m f) Entry.proxy).set (.body m f) true).set
        (.ident m f) (some f)) m' k' ↔ (Known μ m' k' ∨ (m' = m ∧ k' = f)) := by
      intro m' k'
      by_cases hm : m' = m ∧ k' = f
      · obtain ⟨rfl, rfl⟩ := hm
        simp [Known, Mem.set]
      · simp [Known, Mem.set, hm]
    refine ⟨⟨⟨?_, ?_, ?_, ?_, hs.orig⟩, fun m' => by simp [Mem.set], fun m' k' hk' => (hkn m' k').2 (.inl hk')⟩, (hkn m f).2 (.inr ⟨rfl, rfl⟩),
      fun h => absurd h hk⟩
    · intro m' k' hk'
      rcases (hkn m' k').1 hk' with h | ⟨rfl, rfl⟩
      · simpa [Mem.set] using hs.inside m' k' h
      · simpa [Mem.set] using hf
    · intro m' k' hk'
      by_cases hm : m' = m ∧ k' = f
      · obtain ⟨rfl, rfl⟩ := hm
        simp [Mem.set]
      · rcases (hkn m' k').1 hk' with h | h
        · simpa [Mem.set, hm] using hs.known m' k' h
        · exact absurd h hm
    · intro m' k' hk'
      have hm : ¬ (m' = m ∧ k' = f) := fun h => hk' ((hkn m' k').2 (.inr h))
      have h' : ¬ Known μ m' k' := fun h => hk' ((hkn m' k').2 (.inl h))
      simpa [Mem.set, hm] using hs.unknown m' k' h'
    · intro m' k' j hj
      by_cases hm : m' = m ∧ k' = f
      · obtain ⟨rfl, rfl⟩ := hm
        simp [Mem.set] at hj
        exact hj.symm
      · simp [Mem.set, hm] at hj
        exact hs.own m' k' j hj

theorem methodExpr_safe {orig : Nat → Nat → Entry} {F : Access → Prop} {μ : Mem V} (hs : Settled orig μ) (m f txt : Nat) (hf : f < μ (.vecs m))
    (h1 : F ⟨.vecs m, false⟩) (h2 : F ⟨.body m f, false⟩) (h0 : F ⟨.name m f, true⟩)
    (h3 : ¬ Known μ m f → F ⟨.stubs m f, true⟩ ∧ F ⟨.recs m f, true⟩ ∧ F ⟨.entry m f, true⟩ ∧ F ⟨.body m f, true⟩ ∧ F ⟨.ident m f, true⟩) :
    Safe F (methodExpr m f txt) μ (fun _ μ' => Keeps orig μ μ' ∧ Known μ' m f ∧ (Known μ m f → μ' = μ.set (.name m f) txt)) := by
  rw [methodExpr, safe_bind]
  refine (recordedBody_safe hs m f hf h1 h2 fun h => ⟨h0, h3 h⟩).mono (fun _ h => h) fun _ μ' ⟨hk, hkn, he⟩ => ?_
  rw [safe_put]
  have hq : Quiet μ' (μ'.set (.name m f) txt) := by
    refine (Quiet.refl μ').set _ _ ?_ ?_ ?_ ?_ <;> simp
  exact ⟨h0, hk.trans (hq.keeps hk.settled), (hq.keeps hk.settled).known _ _ hkn, fun h => by rw [he h]⟩

theorem stub_safe {orig : Nat → Nat → Entry} {μ : Mem V} (hs : Settled orig μ) (K : Nat → Nat → Prop) (m f txt : Nat) (p : V → Bool)
    (q : List (Action V)) (hf : f < μ (.vecs m)) (hK : K m f → Known μ m f) :
    Safe (may K (.stub m f txt p q)) (stub m f txt p q) μ (fun _ μ' => Keeps orig μ μ') := by
  rw [stub, safe_bind]
  refine (methodExpr_safe hs m f txt hf (by simp [may]) (by simp [may]) (by simp [may]) ?_).mono (fun _ h => h) fun _ μ' ⟨hk, hkn, _⟩ => ?_
  · intro h
    have : ¬ K m f := fun h' => h (hK h')
    simp [may, this]
  · rw [safe_bind]
    refine (recordedBody_safe hk.settled m f (by rw [hk.vecs]; exact hf) (by simp [may]) (by simp [may]) fun h => absurd hkn h).mono (fun _ h => h)
      fun _ μ'' ⟨hk', _, _⟩ => ?_
    simp only [safe_bind, safe_get, safe_put]
    refine ⟨by simp [may], by simp [may], by simp [may], ?_⟩
    refine (hk.trans hk').trans (Quiet.keeps hk'.settled ?_)
    refine ((Quiet.refl μ'').set _ _ ?_ ?_ ?_ ?_).set _ _ ?_ ?_ ?_ ?_ <;> simp

/-! ## Operations that read or write anything of their mock -/

theorem loop_safe {F : Access → Prop} {I : Mem V → Prop} {g : Nat → Prog V Unit} :
    ∀ (n : Nat) {μ : Mem V}, I μ → (∀ k μ', k < n → I μ' → Safe F (g k) μ' (fun _ μ'' => I μ'')) → Safe F (loop n g) μ (fun _ μ' => I μ')
  | 0, _, h, _ => h
  | n + 1, μ, h, hg => by
    rw [loop, safe_bind]
    refine (loop_safe n h fun k μ' hk hI => hg k μ' (by omega) hI).mono (fun _ h => h) fun _ μ' h' => hg n μ' (by omega) h'

/-- What has been recorded of each method, below `n`. -/
def recorded (μ : Mem V) (m : Nat) : Nat → List (Nat × Nat)
  | 0 => []
  | n + 1 => if μ (.body m n) then recorded μ m n ++ [(n, μ (.recs m n))] else recorded μ m n

theorem gather_safe {F : Access → Prop} {m : Nat} {μ : Mem V} (hb : ∀ k, F ⟨.body m k, false⟩) (hr : ∀ k, Known μ m k → F ⟨.recs m k, false⟩) :
    ∀ n, Safe F (gather m n) μ (fun r μ' => r = recorded μ m n ∧ μ' = μ)
  | 0 => ⟨rfl, rfl⟩
  | n + 1 => by
    rw [gather, safe_bind]
    refine (gather_safe hb hr n).mono (fun _ h => h) fun r μ' ⟨h1, h2⟩ => ?_
    subst h1 h2
    rw [safe_bind, safe_get]
    refine ⟨hb _, ?_⟩
    cases h : μ' (.body m n) with
    | false =>
      rw [if_neg (by simp), safe_pure, recorded, h]
      exact ⟨rfl, rfl⟩
    | true =>
      rw [if_pos rfl, safe_bind, safe_get]
      exact ⟨hr n h, by rw [safe_pure, recorded, h]; exact ⟨rfl, rfl⟩⟩

theorem printAll_safe {F : Access → Prop} {m : Nat} {μ : Mem V} : ∀ (l : List (Nat × Nat)),
    (∀ x, x ∈ l → F ⟨.name m x.1, false⟩ ∧ F ⟨.args m x.1 x.2, false⟩) → Safe F (printAll m l) μ (fun _ μ' => μ' = μ)
  | [], _ => rfl
  | (o, k) :: l, h => by
    have h0 := h (o, k) (List.mem_cons_self ..)
    exact ⟨h0.1, h0.2, printAll_safe l fun x hx => h x (List.mem_cons_of_mem _ hx)⟩

theorem openOf_safe {F : Access → Prop} {m : Nat} {μ : Mem V} : ∀ (l : List (Nat × Nat)), (∀ x, x ∈ l → F ⟨.flag m x.1 x.2, false⟩) →
    Safe F (openOf m l) μ (fun r μ' => r = l.filter (fun x => !μ (.flag m x.1 x.2)) ∧ μ' = μ)
  | [], _ => ⟨rfl, rfl⟩
  | (o, k) :: l, h => by
    rw [openOf, safe_bind, safe_get]
    refine ⟨h (o, k) (List.mem_cons_self ..), ?_⟩
    rw [safe_bind]
    refine (openOf_safe l fun x hx => h x (List.mem_cons_of_mem _ hx)).mono (fun _ h => h) fun r μ' ⟨h1, h2⟩ => ?_
    subst h1 h2
    cases hf : μ' (.flag m o k)
    · exact ⟨by simp [hf], rfl⟩
    · exact ⟨by simp [hf], rfl⟩

theorem matching_safe {orig : Nat → Nat → Entry} {F : Access → Prop} {μ : Mem V} (hs : Settled orig μ) (m f : Nat) (p : V → Bool) (hk : Known μ m f)
    (h1 : F ⟨.vecs m, false⟩) (h2 : F ⟨.body m f, false⟩) : ∀ r, (∀ k, k < r → F ⟨.args m f k, false⟩) →
    Safe F (matching m f p r) μ (fun x μ' => x = (List.range r).filter (fun k => p (μ (.args m f k))) ∧ μ' = μ)
  | 0, _ => ⟨rfl, rfl⟩
  | r + 1, h3 => by
    rw [matching, safe_bind]
    refine (matching_safe hs m f p hk h1 h2 r fun k hk' => h3 k (by omega)).mono (fun _ h => h) fun x μ' ⟨e1, e2⟩ => ?_
    subst e1 e2
    rw [safe_bind]
    refine (recordedBody_safe hs m f (hs.inside m f hk) h1 h2 fun h => absurd hk h).mono (fun _ h => h) fun _ μ'' ⟨_, _, he⟩ => ?_
    rw [he hk, safe_bind, safe_get]
    refine ⟨h3 r (by omega), ?_⟩
    cases hp : p (μ' (.args m f r))
    · exact ⟨by simp [List.range_succ, hp], rfl⟩
    · exact ⟨by simp [List.range_succ, hp], rfl⟩

theorem search_safe {orig : Nat → Nat → Entry} {F : Access → Prop} {μ : Mem V} (hs : Settled orig μ) (m f : Nat) (p : V → Bool) (hk : Known μ m f)
    (h1 : F ⟨.vecs m, false⟩) (h2 : F ⟨.body m f, false⟩) : ∀ l : List (Nat × Nat), (∀ k r, (f, r) ∈ l → k < r → F ⟨.args m f k, false⟩) →
    Safe F (search m f p l) μ
      (fun x μ' => x = (each (l.filter fun y => y.1 = f)).filterMap (fun y => if p (μ (.args m f y.2)) then some y.2 else none) ∧ μ' = μ)
  | [], _ => ⟨rfl, rfl⟩
  | (o, r) :: l, h3 => by
    have h3' : ∀ k r, (f, r) ∈ l → k < r → F ⟨.args m f k, false⟩ := fun k r' hm => h3 k r' (List.mem_cons_of_mem _ hm)
    rw [search]
    by_cases ho : o = f
    · subst ho
      rw [if_pos rfl, safe_bind]
      refine (matching_safe hs m o p hk h1 h2 r fun k hk' => h3 k r (List.mem_cons_self ..) hk').mono (fun _ h => h) fun x μ' ⟨e1, e2⟩ => ?_
      subst e1 e2
      rw [safe_bind]
      refine (search_safe hs m o p hk h1 h2 l h3').mono (fun _ h => h) fun x μ' ⟨e1, e2⟩ => ?_
      subst e1 e2
      refine ⟨?_, rfl⟩
      simp only [each, List.filter_cons, decide_true, if_true, List.flatMap_cons, List.filterMap_append, List.filterMap_map]
      congr 1
      rw [← List.filterMap_eq_filter]
      congr 1
    · rw [if_neg ho, safe_bind]
      refine (loop_safe (I := fun μ' => μ' = μ) r rfl fun k μ' _ hμ' => ?_).mono (fun _ h => h) fun _ μ' hμ' => ?_
      · subst hμ'
        exact (recordedBody_safe hs m f (hs.inside m f hk) h1 h2 fun h => absurd hk h).mono (fun _ h => h) fun _ μ'' ⟨_, _, he⟩ => he hk
      · subst hμ'
        have := search_safe hs m f p hk h1 h2 l h3'
        simpa [List.filter_cons, ho] using this

theorem markAll_safe {F : Access → Prop} {m f : Nat} : ∀ (l : List Nat) (μ : Mem V), (∀ k, k ∈ l → F ⟨.flag m f k, true⟩) →
    Safe F (markAll m f l) μ (fun _ μ' => Quiet μ μ')
  | [], μ, _ => .refl μ
  | k :: l, μ, h => by
    refine ⟨h k (List.mem_cons_self ..), (markAll_safe l _ fun x hx => h x (List.mem_cons_of_mem _ hx)).mono (fun _ h => h) fun _ μ' h' => ?_⟩
    refine Quiet.trans ((Quiet.refl μ).set _ _ ?_ ?_ ?_ ?_) h' <;> simp

theorem recorded_mem {μ : Mem V} {m : Nat} : ∀ {n f r : Nat}, (f, r) ∈ recorded μ m n → f < n ∧ Known μ m f ∧ r = μ (.recs m f)
  | 0, _, _, h => by cases h
  | n + 1, f, r, h => by
    rw [recorded] at h
    split at h
    · rename_i hb
      rcases List.mem_append.1 h with h' | h'
      · obtain ⟨h1, h2, h3⟩ := recorded_mem h'
        exact ⟨by omega, h2, h3⟩
      · simp at h'
        obtain ⟨rfl, rfl⟩ := h'
        exact ⟨by omega, hb, rfl⟩
    · obtain ⟨h1, h2, h3⟩ := recorded_mem h
      exact ⟨by omega, h2, h3⟩

theorem recorded_filter {μ : Mem V} {m f : Nat} (hk : Known μ m f) : ∀ {n : Nat},
    (recorded μ m n).filter (fun y => y.1 = f) = if f < n then [(f, μ (.recs m f))] else []
  | 0 => by simp [recorded]
  | n + 1 => by
    have ih := recorded_filter hk (n := n)
    rw [recorded]
    by_cases hn : n = f
    · subst hn
      have hb : μ (.body m n) = true := hk
      rw [if_pos hb, List.filter_append, ih]
      simp
    · have hlt : (f < n + 1) = (f < n) := by
        apply propext
        omega
      simp only [hlt]
      split
      · rw [List.filter_append, ih]
        simp [hn]
      · exact ih

theorem each_mem {l : List (Nat × Nat)} {x : Nat × Nat} (h : x ∈ each l) : ∃ r, (x.1, r) ∈ l ∧ x.2 < r := by
  simp only [each, List.mem_flatMap, List.mem_map, List.mem_range] at h
  obtain ⟨y, h1, k, h2, h3⟩ := h
  subst h3
  exact ⟨y.2, h1, h2⟩

theorem verify_safe {orig : Nat → Nat → Entry} {F : Access → Prop} {μ : Mem V} (hs : Settled orig μ) (m f txt : Nat) (p : V → Bool)
    (e : Nat → Bool) (hf : f < μ (.vecs m)) (h1 : F ⟨.vecs m, false⟩) (h2 : ∀ k, F ⟨.body m k, false⟩) (h0 : F ⟨.name m f, true⟩)
    (h3 : ¬ Known μ m f → F ⟨.stubs m f, true⟩ ∧ F ⟨.recs m f, true⟩ ∧ F ⟨.entry m f, true⟩ ∧ F ⟨.body m f, true⟩ ∧ F ⟨.ident m f, true⟩)
    (h4 : ∀ k, F ⟨.recs m k, false⟩) (h5 : ∀ k, F ⟨.args m f k, false⟩) (h6 : ∀ k, F ⟨.flag m f k, true⟩)
    (h7 : ¬ (Known μ m f ∧ Holds μ m f p e) → F ⟨.ctx, false⟩ ∧ (∀ k, F ⟨.name m k, false⟩) ∧ ∀ k j, F ⟨.args m k j, false⟩) :
    Safe F (verify m f txt p e) μ (fun _ μ' => Keeps orig μ μ') := by
  rw [verify, safe_bind]
  refine (methodExpr_safe hs m f txt hf h1 (h2 f) h0 h3).mono (fun _ h => h) fun _ μ1 ⟨hk, hkn, he⟩ => ?_
  rw [safe_bind]
  refine ⟨h1, ?_⟩
  rw [safe_ret, safe_bind]
  refine (gather_safe h2 (fun k _ => h4 k) _).mono (fun _ h => h) fun all μ2 ⟨e1, e2⟩ => ?_
  subst e2
  rw [safe_bind]
  refine (search_safe hk.settled m f p hkn h1 (h2 f) all fun k r _ _ => h5 k).mono (fun _ h => h) fun fnd μ3 ⟨e3, e4⟩ => ?_
  subst e4
  have hfnd : fnd = found μ3 m f p := by
    rw [e3, e1, recorded_filter hkn, if_pos (hk.settled.inside m f hkn)]
    simp only [each, List.flatMap_cons, List.flatMap_nil, List.append_nil, List.filterMap_map, found]
    rw [← List.filterMap_eq_filter]
    congr 1
  split
  · rw [safe_bind]
    refine (markAll_safe fnd μ3 fun k _ => h6 k).mono (fun _ h => h) fun _ μ4 hq => ?_
    exact hk.trans (hq.keeps hk.settled)
  · rename_i hx
    have h7' := h7 (by
      intro ⟨hkn0, hh⟩
      apply hx
      rw [hfnd]
      have hmem := he hkn0
      have : found μ3 m f p = found μ m f p := by
        rw [hmem]
        simp [found, Mem.set]
      rw [this]
      exact hh)
    rw [safe_bind]
    refine ⟨h7'.1, ?_⟩
    rw [safe_ret, safe_bind]
    refine (recordedBody_safe hk.settled m f (hk.settled.inside m f hkn) h1 (h2 f) fun h => absurd hkn h).mono (fun _ h => h) fun _ μ4 ⟨_, _, he4⟩ => ?_
    have he4 := he4 hkn
    subst he4
    rw [safe_bind]
    refine ⟨h7'.2.1 _, ?_⟩
    rw [safe_ret, safe_bind]
    exact (printAll_safe _ fun x _ => ⟨h7'.2.1 _, h7'.2.2 _ _⟩).mono (fun _ h => h) fun _ μ5 h5 => h5 ▸ hk

theorem noOther_safe {F : Access → Prop} {μ : Mem V} (m : Nat) (h1 : F ⟨.vecs m, false⟩) (h2 : ∀ k, F ⟨.body m k, false⟩)
    (h4 : ∀ k, F ⟨.recs m k, false⟩) (h5 : ∀ k j, F ⟨.args m k j, false⟩) (h6 : ∀ k j, F ⟨.flag m k j, false⟩) (h7 : ∀ k, F ⟨.name m k, false⟩)
    (h8 : F ⟨.ctx, false⟩) : Safe F (noOther m) μ (fun _ μ' => μ' = μ) := by
  rw [noOther, safe_bind]
  refine ⟨h1, ?_⟩
  rw [safe_ret, safe_bind]
  refine (gather_safe h2 (fun k _ => h4 k) _).mono (fun _ h => h) fun all μ2 ⟨e1, e2⟩ => ?_
  subst e2
  rw [safe_bind]
  refine (openOf_safe _ fun x _ => h6 _ _).mono (fun _ h => h) fun rest μ3 ⟨e3, e4⟩ => ?_
  subst e4
  split
  · rfl
  · rw [safe_bind]
    refine ⟨h8, ?_⟩
    rw [safe_ret, safe_bind]
    exact (printAll_safe _ fun x _ => ⟨h7 _, h5 _ _⟩).mono (fun _ h => h) fun _ μ5 h5 => h5

/-- What holds in the middle of `Reset`: the first `n` methods are forgotten, the others as before. -/
structure Resetting (orig : Nat → Nat → Entry) (m : Nat) (μ : Mem V) (n : Nat) (μ' : Mem V) : Prop where
  vecs : ∀ m, μ' (.vecs m) = μ (.vecs m)
  other : ∀ m' k, (m' ≠ m ∨ n ≤ k) → μ' (.entry m' k) = μ (.entry m' k) ∧ μ' (.body m' k) = μ (.body m' k) ∧ μ' (.ident m' k) = μ (.ident m' k)
  gone : ∀ k, k < n → μ' (.entry m k) = orig m k ∧ μ' (.body m k) = false ∧ μ' (.ident m k) = none

theorem resetting_safe {orig : Nat → Nat → Entry} {F : Access → Prop} {m : Nat} {μ0 : Mem V} (hF : ∀ k, F ⟨.name m k, true⟩ ∧ F ⟨.stubs m k, true⟩ ∧
    F ⟨.recs m k, true⟩ ∧ F ⟨.body m k, true⟩ ∧ F ⟨.ident m k, true⟩ ∧ F ⟨.entry m k, true⟩) : ∀ n {μ : Mem V}, Resetting orig m μ0 0 μ →
    Safe F (loop n fun k => do
      put (.name m k) 0
      put (.stubs m k) []
      put (.recs m k) 0
      put (.body m k) false
      put (.ident m k) none
      put (.entry m k) (orig m k)) μ (fun _ μ' => Resetting orig m μ0 n μ')
  | 0, _, h => h
  | n + 1, μ, h => by
    rw [loop, safe_bind]
    refine (resetting_safe hF n h).mono (fun _ h => h) fun _ μ' h' => ?_
    obtain ⟨g1, g2, g3, g4, g5, g6⟩ := hF n
    refine ⟨g1, g2, g3, g4, g5, g6, ?_⟩
    refine ⟨fun m' => by simpa [Mem.set] using h'.vecs m', ?_, ?_⟩
    · intro m' k hmk
      have hne : ¬ (m' = m ∧ k = n) := by
        rintro ⟨rfl, rfl⟩
        rcases hmk with h | h
        · exact h rfl
        · omega
      have := h'.other m' k (hmk.imp id (by omega))
      simpa [Mem.set, hne] using this
    · intro k hk
      by_cases hkn : k = n
      · subst hkn
        simp [Mem.set]
      · have := h'.gone k (by omega)
        simpa [Mem.set, hkn] using this

theorem reset_safe {orig : Nat → Nat → Entry} {F : Access → Prop} {μ : Mem V} (hs : Settled orig μ) (m : Nat) (h1 : ∀ w, F ⟨.vecs m, w⟩)
    (hF : ∀ k, F ⟨.name m k, true⟩ ∧ F ⟨.stubs m k, true⟩ ∧
    F ⟨.recs m k, true⟩ ∧ F ⟨.body m k, true⟩ ∧ F ⟨.ident m k, true⟩ ∧ F ⟨.entry m k, true⟩) :
    Safe F (reset orig m) μ (fun _ μ' => Settled orig μ' ∧ (∀ m', μ' (.vecs m') = μ (.vecs m')) ∧ (∀ k, ¬ Known μ' m k) ∧
      ∀ m' k, m' ≠ m → (Known μ' m' k ↔ Known μ m' k)) := by
  rw [reset, safe_bind]
  refine ⟨h1 _, ?_⟩
  rw [safe_ret, safe_bind]
  refine ⟨h1 _, ?_⟩
  rw [safe_ret, safe_bind]
  have hset : μ.set (.vecs m) (μ (.vecs m)) = μ := by
    funext l
    by_cases hl : l = .vecs m
    · subst hl
      rw [set_same]
    · rw [set_other _ _ hl]
  rw [hset]
  have h0 : Resetting orig m μ 0 μ := ⟨fun _ => rfl, fun _ _ _ => ⟨rfl, rfl, rfl⟩, fun k hk => absurd hk (by omega)⟩
  refine (resetting_safe hF _ h0).mono (fun _ h => h) fun _ μ' h => ?_
  have hgone : ∀ k, ¬ Known μ' m k := by
    intro k hk
    rcases Nat.lt_or_ge k (μ (.vecs m)) with hlt | hge
    · have := (h.gone k hlt).2.1
      rw [Known, this] at hk
      cases hk
    · have hk' : Known μ m k := by
        rw [Known, ← (h.other m k (.inr hge)).2.1]
        exact hk
      have := hs.inside m k hk'
      omega
  have hoth : ∀ m' k, m' ≠ m → (Known μ' m' k ↔ Known μ m' k) := by
    intro m' k hm
    rw [Known, Known, (h.other m' k (.inl hm)).2.1]
  refine ⟨⟨?_, ?_, ?_, ?_, hs.orig⟩, h.vecs, hgone, hoth⟩
  · intro m' k hk
    by_cases hm : m' = m
    · exact absurd (hm ▸ hk) (hgone k)
    · rw [h.vecs]
      exact hs.inside m' k ((hoth m' k hm).1 hk)
  · intro m' k hk
    by_cases hm : m' = m
    · exact absurd (hm ▸ hk) (hgone k)
    · rw [(h.other m' k (.inl hm)).1, (h.other m' k (.inl hm)).2.2]
      exact hs.known m' k ((hoth m' k hm).1 hk)
  · intro m' k hk
    by_cases hm : m' = m
    · subst hm
      rcases Nat.lt_or_ge k (μ (.vecs m')) with hlt | hge
      · exact (h.gone k hlt).1
      · rw [(h.other m' k (.inr hge)).1]
        refine hs.unknown m' k fun hk' => ?_
        have := hs.inside m' k hk'
        omega
    · rw [(h.other m' k (.inl hm)).1]
      exact hs.unknown m' k fun hk' => hk ((hoth m' k hm).2 hk')
  · intro m' k j hj
    by_cases hm : m' ≠ m ∨ μ (.vecs m) ≤ k
    · rw [(h.other m' k hm).2.2] at hj
      exact hs.own m' k j hj
    · have hm1 : m' = m := Classical.byContradiction fun h' => hm (.inl h')
      subst hm1
      have hlt : k < μ (.vecs m') := by
        rcases Nat.lt_or_ge k (μ (.vecs m')) with h' | h'
        · exact h'
        · exact absurd (.inr h') hm
      rw [(h.gone k hlt).2.2] at hj
      cases hj

theorem clear_safe {F : Access → Prop} {μ : Mem V} (m : Nat) (h1 : F ⟨.vecs m, false⟩) (h2 : ∀ k, F ⟨.body m k, false⟩)
    (h3 : ∀ k, F ⟨.recs m k, true⟩) : Safe F (clear m) μ (fun _ μ' => Quiet μ μ') := by
  rw [clear, safe_bind]
  refine ⟨h1, ?_⟩
  rw [safe_ret, safe_bind]
  refine (loop_safe (I := fun μ' => Quiet μ μ') _ (.refl μ) fun k μ' _ hq => ?_).mono (fun _ h => h) fun _ μ' h => h
  rw [safe_bind]
  refine ⟨h2 _, ?_⟩
  rw [safe_ret]
  split
  · rw [safe_put]
    refine ⟨h3 _, hq.set _ _ ?_ ?_ ?_ ?_⟩ <;> simp
  · exact hq

/-! ## Any operation, and threads -/

/-- What an operation keeps. -/
structure OpKeeps (orig : Nat → Nat → Entry) (o : Op V) (μ μ' : Mem V) : Prop where
  settled : Settled orig μ'
  vecs : ∀ m, μ' (.vecs m) = μ (.vecs m)
  known : ∀ m k, o ≠ .reset m → Known μ m k → Known μ' m k

theorem Keeps.op {orig : Nat → Nat → Entry} {μ μ' : Mem V} (h : Keeps orig μ μ') (o : Op V) : OpKeeps orig o μ μ' :=
  ⟨h.settled, h.vecs, fun m k _ hk => h.known m k hk⟩

theorem op_safe {orig : Nat → Nat → Entry} {μ : Mem V} (hs : Settled orig μ) (K : Nat → Nat → Prop) (o : Op V) (hfit : Fits μ o)
    (hK : ∀ k, K (mockOf o) k → Known μ (mockOf o) k) : Safe (may K o) (o.prog orig) μ (fun _ μ' => OpKeeps orig o μ μ') := by
  cases o with
  | call m f a => exact (call_safe hs K m f a).mono (fun _ h => h) fun _ μ' h => (h.keeps hs).op _
  | stub m f txt p q => exact (stub_safe hs K m f txt p q (hfit f rfl) (hK f)).mono (fun _ h => h) fun _ μ' h => h.op _
  | verify m f txt p e =>
    exact (verify_safe hs m f txt p e (hfit f rfl) (by simp [may, mockOf]) (by simp [may, mockOf]) (by simp [may, mockOf]) (by simp [may, mockOf])
      (by simp [may, mockOf]) (by simp [may, mockOf]) (by simp [may, mockOf]) (by simp [may, mockOf])).mono (fun _ h => h) fun _ μ' h => h.op _
  | noOther m =>
    exact (noOther_safe m (by simp [may, mockOf]) (by simp [may, mockOf]) (by simp [may, mockOf]) (by simp [may, mockOf]) (by simp [may, mockOf])
      (by simp [may, mockOf]) (by simp [may])).mono (fun _ h => h) fun _ μ' h => by
        subst h
        exact ((Quiet.refl _).keeps hs).op _
  | reset m =>
    refine (reset_safe hs m (by simp [may, mockOf]) (by simp [may, mockOf])).mono (fun _ h => h) fun _ μ' ⟨h1, h2, h3, h4⟩ => ⟨h1, h2, ?_⟩
    intro m' k hne hk
    exact (h4 m' k fun h => hne (by rw [h])).2 hk
  | clear m =>
    exact (clear_safe m (by simp [may, mockOf]) (by simp [may, mockOf]) (by simp [may, mockOf])).mono (fun _ h => h) fun _ μ' h => (h.keeps hs).op _

/-- What a thread may read and write. -/
def mayAll (K : Nat → Nat → Prop) (os : List (Op V)) (a : Access) : Prop :=
  ∃ o, o ∈ os ∧ may (fun m k => K m k ∧ Op.reset m ∉ os) o a

theorem thread_safe {orig : Nat → Nat → Entry} (K : Nat → Nat → Prop) (all : List (Op V)) : ∀ (os : List (Op V)), (∀ o, o ∈ os → o ∈ all) →
    ∀ {μ : Mem V}, Settled orig μ → (∀ o, o ∈ os → Fits μ o) → (∀ m k, Op.reset m ∉ all → K m k → Known μ m k) →
    Safe (mayAll K all) (thread orig os) μ (fun _ μ' => Settled orig μ')
  | [], _, _, hs, _, _ => hs
  | o :: os, hall, μ, hs, hfit, hK => by
    rw [thread, safe_bind]
    have ho := hall o (List.mem_cons_self ..)
    refine (op_safe hs (fun m k => K m k ∧ Op.reset m ∉ all) o (hfit o (List.mem_cons_self ..)) (fun k hk => hK _ _ hk.2 hk.1)).mono
      (fun a ha => ⟨o, ho, ha⟩) fun _ μ' h => ?_
    rw [safe_bind]
    refine (thread_safe K all os (fun x hx => hall x (List.mem_cons_of_mem _ hx)) h.settled ?_ ?_).mono (fun _ h => h) fun _ μ'' h => h
    · intro x hx f hf
      rw [h.vecs]
      exact hfit x (List.mem_cons_of_mem _ hx) f hf
    · intro m k hnr hk
      exact h.known m k (fun he => hnr (he ▸ ho)) (hK m k hnr hk)

/-- What operations on different mocks use is different. -/
theorem may_mock {K : Nat → Nat → Prop} {o : Op V} {a : Access} (h : may K o a) : a.loc = .ctx ∧ a.write = false ∨
    (∃ k, a.loc = .vecs (mockOf o) ∨ a.loc = .entry (mockOf o) k ∨ a.loc = .body (mockOf o) k ∨ a.loc = .ident (mockOf o) k ∨
      a.loc = .name (mockOf o) k ∨ a.loc = .stubs (mockOf o) k ∨ a.loc = .recs (mockOf o) k ∨
      ∃ j, a.loc = .seq (mockOf o) k j ∨ a.loc = .args (mockOf o) k j ∨ a.loc = .flag (mockOf o) k j) := by
  obtain ⟨l, w⟩ := a
  cases o <;> cases l <;> simp_all [may, mockOf]

theorem callStub_apart {K K' K0 : Nat → Nat → Prop} {m f g txt : Nat} {x : V} {p : V → Bool} {q : List (Action V)} {a b : Access}
    (ha : may K (.call m f x) a) (hb : may K' (.stub m g txt p q) b) (hc : CallStub K0 m f g) (hK : ∀ k, K0 m k → K' m k) : ¬ Conflict a b := by
  rintro ⟨hl, hw⟩
  obtain ⟨hne, hkn⟩ := hc
  obtain ⟨l, w⟩ := a
  obtain ⟨l', w'⟩ := b
  simp only at hl hw
  subst hl
  cases l with
  | vecs m' =>
    simp only [may] at ha hb
    rw [ha.2, hb.2] at hw
    simp at hw
  | ident m' k =>
    simp only [may] at ha hb
    rcases hkn with h | h
    · exact hb.2.2 (hK g h)
    · omega
  | ctx => exact hb
  | args _ _ _ => exact hb
  | flag _ _ _ => exact hb
  | body m' k => simp only [may] at ha hb; omega
  | entry m' k => simp only [may] at ha hb; omega
  | name m' k => simp only [may] at ha hb; omega
  | stubs m' k => simp only [may] at ha hb; omega
  | recs m' k => simp only [may] at ha hb; omega
  | seq m' k h => simp only [may] at ha hb; omega

theorem compatible_apart {K K' K0 : Nat → Nat → Prop} {o o' : Op V} {a b : Access} (ha : may K o a) (hb : may K' o' b)
    (hc : Compatible K0 o o') (hK : ∀ k, mockOf o = mockOf o' → K0 (mockOf o) k → K (mockOf o) k ∧ K' (mockOf o) k) : ¬ Conflict a b := by
  by_cases hm : mockOf o = mockOf o'
  · have hsame : SameMock K0 o o' := hc.elim (fun h => absurd hm h) id
    cases o with
    | call m f x =>
      cases o' with
      | call m' g y =>
        rintro ⟨hl, hw⟩
        simp only [SameMock] at hsame
        obtain ⟨l, w⟩ := a
        obtain ⟨l', w'⟩ := b
        simp only at hl hw
        subst hl
        cases l <;> simp only [may] at ha hb <;> first | omega | (simp_all; done)
      | stub m' g txt p q =>
        cases hm
        exact callStub_apart ha hb hsame fun k h => (hK k rfl h).2
      | _ => exact hsame.elim
    | stub m g txt p q =>
      cases o' with
      | call m' f y =>
        cases hm
        intro hcf
        exact callStub_apart hb ha hsame (fun k h => (hK k rfl h).1) ⟨hcf.1.symm, hcf.2.symm⟩
      | stub m' f txt' p' q' =>
        rintro ⟨hl, hw⟩
        simp only [SameMock] at hsame
        obtain ⟨l, w⟩ := a
        obtain ⟨l', w'⟩ := b
        simp only at hl hw
        subst hl
        cases l <;> simp only [may] at ha hb <;> first | omega | (simp_all; done)
      | _ => exact hsame.elim
    | noOther m =>
      cases o' with
      | noOther m' =>
        rintro ⟨hl, hw⟩
        obtain ⟨l, w⟩ := a
        obtain ⟨l', w'⟩ := b
        cases l <;> cases l' <;> simp_all [may]
      | _ => exact hsame.elim
    | _ => cases o' <;> exact hsame.elim
  · rintro ⟨hl, hw⟩
    rcases may_mock ha with h | ⟨k, h⟩ <;> rcases may_mock hb with h' | ⟨k', h'⟩
    · simp_all
    · rw [← hl, h.1] at h'
      simp at h'
    · rw [hl, h'.1] at h
      simp at h
    · rw [← hl] at h'
      generalize a.loc = x at h h'
      cases x <;> simp_all

end FakeIt.Races.Spec
