import Verif.Lemmas.Frame
import Verif.Lemmas.Answer
/-!
# Facts about the recorded arguments of the first `N` invocations
-/
namespace FakeIt
variable {V E : Type}
open Spec

/-- The recorded arguments of all invocations numbered up to `N` satisfy `X`. -/
def GoodArgs (X : MockId → Nat → Nat → List (Arg V) → Prop) (N : Nat) (w : World V E) : Prop :=
  ∀ m off b, w.body? m off = some b → ∀ i ∈ b.invs, i.uid ≤ N → X m off i.uid i.args

variable {X : MockId → Nat → Nat → List (Arg V) → Prop} {N : Nat} {P : Prog V E} {nm : MockId → Nat → Nat}

theorem GoodArgs.keep {w w' : World V E} (h : GoodArgs X N w)
    (hb : ∀ m off b', w'.body? m off = some b' → ∀ i' ∈ b'.invs, i'.uid ≤ N →
      ∃ b, w.body? m off = some b ∧ ∃ i ∈ b.invs, i.uid = i'.uid ∧ (X m off i.uid i.args → X m off i.uid i'.args)) : GoodArgs X N w' := by
  intro m off b' hb' i' hi' hu
  obtain ⟨b, hb, i, hi, he, hx⟩ := hb m off b' hb' i' hi' hu
  rw [← he]
  exact hx (h m off b hb i hi (by omega))

theorem GoodArgs.same {w w' : World V E} (h : GoodArgs X N w) (hb : ∀ m off, w'.body? m off = w.body? m off) : GoodArgs X N w' :=
  h.keep fun m off b' hb' i' hi' _ => ⟨b', by rw [← hb]; exact hb', i', hi', rfl, id⟩

theorem GoodArgs.updBody {w : World V E} (h : GoodArgs X N w) (m off : Nat) (f : MBody V E → MBody V E)
    (hf : ∀ b, w.body? m off = some b → ∀ i' ∈ (f b).invs, i'.uid ≤ N → ∃ i ∈ b.invs, i.uid = i'.uid ∧ (X m off i.uid i.args → X m off i.uid i'.args)) :
    GoodArgs X N (w.updBody m off f) := by
  refine h.keep fun m' off' b' hb' i' hi' hu => ?_
  rw [World.body?_updBody] at hb'
  split at hb'
  · rename_i hc
    obtain ⟨rfl, rfl⟩ := hc
    obtain ⟨b, hb, rfl⟩ := Option.map_eq_some_iff.1 hb'
    exact ⟨b, hb, hf b hb i' hi' hu⟩
  · exact ⟨b', hb', i', hi', rfl, id⟩

theorem GoodArgs.updMock {w : World V E} (h : GoodArgs X N w) (m : Nat) (f : Mock V E → Mock V E)
    (hf : ∀ k off b', w.mocks[m]? = some k → (f k).body? off = some b' → ∃ b, k.body? off = some b ∧ (b'.invs = b.invs ∨ b'.invs = [])) :
    GoodArgs X N (w.updMock m f) := by
  refine h.keep fun m' off b' hb' i' hi' hu => ?_
  simp only [World.body?, World.mocks_updMock] at hb' ⊢
  by_cases hm : m = m'
  · subst hm
    simp only [if_true] at hb'
    cases hk : w.mocks[m]? with
    | none => simp [hk] at hb'
    | some k =>
      simp only [hk, Option.map_some, Option.bind_some] at hb' ⊢
      obtain ⟨b, hb, he⟩ := hf k off b' hk hb'
      refine ⟨b, hb, ?_⟩
      rcases he with he | he
      · rw [he] at hi'; exact ⟨i', hi', rfl, id⟩
      · rw [he] at hi'; cases hi'
  · simp only [if_neg hm] at hb'
    exact ⟨b', hb', i', hi', rfl, id⟩

/-- Kept by every step. -/
def QX (P : Prog V E) (nm : MockId → Nat → Nat) (X : MockId → Nat → Nat → List (Arg V) → Prop) (N : Nat) (w w' : World V E) : Prop :=
  Q2 P nm w w' ∧ (GoodArgs X N w → GoodArgs X N w')

/-- All invariants, and the invocations in question exist already. -/
def IX (P : Prog V E) (nm : MockId → Nat → Nat) (N : Nat) (w : World V E) : Prop := Inv2 P nm w ∧ N ≤ w.invTotal

theorem QX.inv {w w' : World V E} (h : QX P nm X N w w') (hI : IX P nm N w) : IX P nm N w' :=
  ⟨h.1.inv hI.1, Nat.le_trans hI.2 h.1.2.2.1⟩

theorem QX.trans {a b c : World V E} (h1 : QX P nm X N a b) (h2 : QX P nm X N b c) : QX P nm X N a c :=
  ⟨h1.1.trans h2.1, fun h => h2.2 (h1.2 h)⟩

theorem apiStableX (X : MockId → Nat → Nat → List (Arg V) → Prop) (N : Nat) :
    ApiStable P (Api.Named nm) (fun m s => s.Named nm m) (IX P nm N) (QX P nm X N) where
  inv h hI := h.inv hI
  refl w := ⟨apiStable2.refl w, id⟩
  trans h1 h2 := h1.trans h2
  slots h := h
  newMock w cls own hI := ⟨apiStable2.newMock w cls own hI.1, fun h => h.same fun m off => body?_newMock w cls _ own m off⟩
  destroy w m k hI hA hk := ⟨apiStable2.destroy w m k hI.1 hA hk, fun h => h.updMock m _ fun k off b' _ hb' => by
    rw [Mock.body?_destroy] at hb'; cases hb'⟩
  reset w m k hI hA hk := ⟨apiStable2.reset w m k hI.1 hA hk, fun h => h.updMock m _ fun k off b' _ hb' => by
    rw [Mock.body?_reset] at hb'; cases hb'⟩
  clear w m k hI hA hk := ⟨apiStable2.clear w m k hI.1 hA hk, fun h => h.updMock m _ fun k off b' _ hb' => by
    rw [Mock.body?_clear, Option.map_eq_some_iff] at hb'
    obtain ⟨b, hb, rfl⟩ := hb'
    exact ⟨b, hb, .inr rfl⟩⟩
  stubData w m k cell v hI hA hk hlt := ⟨apiStable2.stubData w m k cell v hI.1 hA hk hlt, fun h => h.updMock m _ fun k off b' _ hb' => ⟨b', hb', .inl rfl⟩⟩
  writeData w m k cell v hI hA hk hlt := ⟨apiStable2.writeData w m k cell v hI.1 hA hk hlt, fun h => h.updMock m _ fun k off b' _ hb' => ⟨b', hb', .inl rfl⟩⟩
  bind w m k off ctr hI hB hk hn := ⟨apiStable2.bind w m k off ctr hI.1 hB hk hn, fun h => h.keep fun m' off' b' hb' i' hi' _ => by
    rw [body?_bindAt w m k off ctr (World.mock?_eq_some.1 hk).1 hn] at hb'
    split at hb'
    · cases hb'; simp [newBody] at hi'
    · exact ⟨b', hb', i', hi', rfl, id⟩⟩
  bindDtor w m k d hI hB hk hd hlt hn := ⟨apiStable2.bindDtor w m k d hI.1 hB hk hd hlt hn, fun h => h.keep fun m' off' b' hb' i' hi' _ => by
    rw [body?_bindDtorAt w m k d (World.mock?_eq_some.1 hk).1 hn] at hb'
    split at hb'
    · cases hb'; simp [newBody] at hi'
    · exact ⟨b', hb', i', hi', rfl, id⟩⟩
  commit w m k slot off b kind acts hI hs hB hk hoff hb := ⟨apiStable2.commit w m k slot off b kind acts hI.1 hs hB hk hoff hb,
    fun h => h.updBody m off _ fun b _ i' hi' _ => ⟨i', hi', rfl, id⟩⟩
  write w a v hI := ⟨apiStable2.write w a v hI.1, fun h => h.same fun _ _ => rfl⟩
  fire w e hI := ⟨apiStable2.fire w e hI.1, fun h => h.same fun _ _ => rfl⟩
  mark w scope pat q mode actual count matched hI hA h := ⟨apiStable2.mark w scope pat q mode actual count matched hI.1 hA h,
    fun h => h.keep fun m off b' hb' i' hi' _ => by
      rw [World.body?_mark, Option.map_eq_some_iff] at hb'
      obtain ⟨b, hb, rfl⟩ := hb'
      obtain ⟨i, hi, rfl⟩ := List.mem_map.1 hi'
      refine ⟨b, hb, i, hi, ?_⟩
      split <;> exact ⟨rfl, id⟩⟩

/-- Callables with this frame keep `X`. -/
def FX (X : MockId → Nat → Nat → List (Arg V) → Prop) (N : Nat) (m off uid : Nat) (args : List (Arg V)) : Prop :=
  N < uid ∨ ∀ l f, KeepsForm args f → X m off uid l → X m off uid (f l)

theorem GoodArgs.updSeq {w : World V E} (h : GoodArgs X N w) (m off α : Nat) (f : ActionSeq V E → ActionSeq V E) : GoodArgs X N (w.updSeq m off α f) :=
  h.updBody m off _ fun _ _ i' hi' _ => ⟨i', hi', rfl, id⟩

theorem stableX (X : MockId → Nat → Nat → List (Arg V) → Prop) (N : Nat) :
    Stable P (Api.Named nm) (fun _ _ => True) (fun _ _ => True) (FX X N) (IX P nm N) (QX P nm X N) where
  inv h hI := h.inv hI
  dispatch _ _ _ _ _ := trivial
  frame _ hI _ := .inl (by have := hI.2; omega)
  thunk _ _ _ _ _ := trivial
  deleg _ := trivial
  swapIn hI hD hk ho := ⟨stable2.swapIn hI.1 hD hk ho, hI.2⟩
  refl w := ⟨stable2.refl w, id⟩
  trans h1 h2 := h1.trans h2
  api hI hA h := apiStep_stable (apiStableX X N) hI hA h
  write w a v hI := ⟨stable2.write w a v hI.1, fun h => h.same fun _ _ => rfl⟩
  setArgs w m off uid args f hI hF hf := ⟨stable2.setArgs w m off uid args f hI.1 trivial hf, fun h => h.updBody m off _ fun b hb i' hi' hu => by
    obtain ⟨i, hi, rfl⟩ := List.mem_map.1 hi'
    refine ⟨i, hi, ?_⟩
    split
    · rename_i hc
      rw [if_pos hc] at hu
      have hc : i.uid = uid := by simpa using hc
      refine ⟨rfl, fun hx => ?_⟩
      rw [hc] at hx hu ⊢
      rcases hF with hF | hF
      · omega
      · exact hF _ f hf hx
    · exact ⟨rfl, id⟩⟩
  bump w hI := ⟨stable2.bump w hI.1, fun h => h.same fun _ _ => rfl⟩
  fire w e hI := ⟨stable2.fire w e hI.1, fun h => h.same fun _ _ => rfl⟩
  push w m off b args h hI hD hb hf := ⟨stable2.push w m off b args h hI.1 hD hb hf, fun hg =>
    GoodArgs.updBody (w := w.bumpInv) (hg.same fun _ _ => rfl) m off _ fun b' _ i' hi' hu => by
      rcases List.mem_append.1 hi' with hi' | hi'
      · exact ⟨i', hi', rfl, id⟩
      · simp only [List.mem_singleton] at hi'
        subst hi'
        have := hI.2
        simp only [recorded] at hu
        omega⟩
  tick w m off h i hI hD := ⟨stable2.tick w m off h i hI.1 hD, fun hg => hg.updSeq _ _ _ _⟩
  fin w m off h hd i s hI hD hh hs := ⟨stable2.fin w m off h hd i s hI.1 hD hh hs, fun hg => hg.updSeq _ _ _ _⟩
  swap w w' m off h k fake orig hd0 hd i s hI hD hk hf ho hh hQ hh' hs :=
    ⟨stable2.swap w w' m off h k fake orig hd0 hd i s hI.1 hD hk hf ho hh hQ.1 hh' hs, fun hg =>
      ((hQ.2 (hg.same fun _ _ => World.body?_setVt _ _ _ _ _ _)).same fun _ _ => World.body?_setVt _ _ _ _ _ _).updSeq _ _ _ _⟩

/-- What a call leaves of the arguments it records: `X` if the recorded tuple has it at first and the callable run by the call keeps it. -/
theorem call_args (hP : P.Named nm) {w : World V E} (hI : Inv2 P nm w) {m off : Nat} {b : MBody V E} (hlive : Live w m off b) {args : List (Arg V)}
    {h : Handler V E} (hsel : Selected b.handlers (valuesOf w.heap args) h) (X : List (Arg V) → Prop) (hX : X args)
    (hF : ∀ i act, h.seq.front = .done (i, act) → act.Writes → ∀ l f, KeepsForm args f → X l → X (f l))
    {fuel : Nat} {o : Outcome V E} {w' : World V E} (hcall : callSlot P (fuel + 1) w m off args = .done (o, w')) :
    ∀ m' off' b', w'.body? m' off' = some b' → ∀ i ∈ b'.invs, i.uid = w.invTotal + 1 → X i.args := by
  rw [callSlot_live hlive] at hcall
  have hb := hlive.body
  have hfind : findHandler w.heap b.handlers (fresh w b args) = some h := by
    rw [findHandler_some _ _ rfl]; exact hsel
  rw [handleCall_eq, hfind] at hcall
  simp only [R.bind_eq_done] at hcall
  obtain ⟨⟨o1, w1⟩, h1, h2⟩ := hcall
  have hq1 : Q2 P nm w (w.bumpInv.pushInv m off (recorded w b args h)) := stable2.push w m off b args h hI trivial hb hfind
  have hbp : (w.bumpInv.pushInv m off (recorded w b args h)).body? m off = some { b with invs := b.invs ++ [recorded w b args h] } := by
    simp only [World.pushInv, World.body?_updBody, and_self, if_true, World.body?_bumpInv, hb, Option.map_some]
  obtain ⟨hd0, hhd⟩ := handler?_isSome (h := h) hbp (findHandler_mem hfind)
  let Y : MockId → Nat → Nat → List (Arg V) → Prop := fun _ _ uid l => uid = w.invTotal + 1 → X l
  have S := stableX (P := P) (nm := nm) Y (w.invTotal + 1)
  have hIX : IX P nm (w.invTotal + 1) (w.bumpInv.pushInv m off (recorded w b args h)) := ⟨hq1.inv hI, Nat.le_refl _⟩
  have hg : GoodArgs Y (w.invTotal + 1) (w.bumpInv.pushInv m off (recorded w b args h)) := by
    intro m' off' b' hb' i hi _ hu
    simp only [World.pushInv, World.body?_updBody, World.body?_bumpInv] at hb'
    have hold : ∀ b0, w.body? m' off' = some b0 → i ∈ b0.invs → X i.args := by
      intro b0 hb0 hi0
      have := (hI.2.ok m' off' b0 hb0 i hi0).2.1
      omega
    split at hb'
    · obtain ⟨b0, hb0, rfl⟩ := Option.map_eq_some_iff.1 hb'
      rcases List.mem_append.1 hi with hi | hi
      · exact hold b0 hb0 hi
      · simp only [List.mem_singleton] at hi
        subst hi
        exact hX
    · exact hold b' hb' hi
  have hq2 := runHandler_gen S hP (callSlot P fuel) (callSlot_stable S hP fuel) _ hIX ⟨m, off, w.invTotal + 1⟩ h args
    (fun i act hf hw => .inr fun l f hk hx hu => hF i act hf hw l f hk (hx hu)) hd0 hhd
    (fun i _ _ => S.tick _ m off h.addr i hIX trivial)
    (fun i _ _ hd s _ _ hI1 hhd hs => S.fin _ m off h.addr hd i s hI1 trivial hhd hs)
    (fun i _ _ _ k fake orig hdx hd s _ _ hI1 hk hf ho hhdx ⟨_, hc⟩ hhd hs => S.swap _ _ m off h.addr k fake orig hdx hd i s hI1 trivial hk hf ho hhdx
      (callSlot_stable S hP fuel _ _ _ _ _ _ (S.swapIn hI1 trivial hk ho) trivial hc) hhd hs) o1 w1 h1
  have hg1 := hq2.2 hg
  have hfinal : ∀ w2 : World V E, (∀ m' off', w2.body? m' off' = w1.body? m' off') → ∀ m' off' b', w2.body? m' off' = some b' → ∀ i ∈ b'.invs,
      i.uid = w.invTotal + 1 → X i.args := by
    intro w2 he m' off' b' hb' i hi hu
    rw [he] at hb'
    exact hg1 m' off' b' hb' i hi (by omega) hu
  split at h2
  · rename_i heq
    cases heq
    simp only [unmatched, R.done.injEq, Prod.mk.injEq] at h2
    exact hfinal _ (by rw [← h2.2]; intros; rfl)
  · rename_i heq
    cases heq
    simp only [R.done.injEq, Prod.mk.injEq] at h2
    exact hfinal _ (by rw [← h2.2]; intros; rfl)

end FakeIt
