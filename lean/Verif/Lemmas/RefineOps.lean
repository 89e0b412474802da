import Verif.Lemmas.Refine
/-!
# Creating, resetting, clearing and destroying mocks; data members; the test's variables
-/
namespace FakeIt
variable {V E : Type} {P : Prog V E} {nm : MockId → Nat → Nat}
open Spec

theorem onMock_spec {s s' : AState V E} {m : MockId} {f : AMock V E → Option (AMock V E)} (h : onMock s m f = some s') :
    ∃ a a', s.mocks[m]? = some a ∧ a.alive = true ∧ f a = some a' ∧ s' = { s with mocks := s.mocks.set m a' } := by
  unfold onMock at h
  split at h
  · cases h
  · rename_i a ha
    split at h
    · rename_i hal
      obtain ⟨a', h1, h2⟩ := Option.map_eq_some_iff.1 h
      exact ⟨a, a', ha, hal, h1, h2.symm⟩
    · cases h

theorem callsOf_forget (calls : List (Rec V)) (m m' off' : Nat) :
    callsOf (calls.filter fun r => !ofMock m r) m' off' = if m' = m then [] else callsOf calls m' off' := by
  unfold callsOf
  rw [List.filter_filter]
  by_cases h : m' = m
  · subst h
    rw [if_pos rfl, List.filter_eq_nil_iff]
    intro r _ hc
    simp only [ofMock, Bool.and_eq_true, beq_iff_eq] at hc
    rw [hc.1] at hc
    simp at hc
  · rw [if_neg h]
    apply List.filter_congr
    intro r _
    cases hr : r.meth with
    | none => simp
    | some p =>
      obtain ⟨p1, p2⟩ := p
      by_cases hp : p1 = m
      · subst hp
        simp [ofMock, hr, Ne.symm h]
      · simp [ofMock, hr, hp]

/-- Mock `m`'s calls are forgotten, the mock is changed. -/
theorem rel_forget {s : AState V E} {w : World V E} (h : Rel P s w) {m : MockId} {k : Mock V E} (hk : w.mocks[m]? = some k)
    (g : Mock V E → Mock V E) {a' : AMock V E} (hrel : MRel P a' (g k))
    (hbody : ∀ off b', (g k).body? off = some b' → b'.invs = [] ∧ ∃ b, k.body? off = some b ∧ b'.method = b.method) :
    Rel P { forget s m with mocks := s.mocks.set m a' } (w.updMock m g) := by
  have hb : ∀ m' off', (w.updMock m g).body? m' off' = if m = m' then (g k).body? off' else w.body? m' off' := by
    intro m' off'
    simp only [World.body?, World.mocks_updMock]
    by_cases hm : m = m'
    · subst hm; simp [hk]
    · simp [hm]
  refine ⟨?_, fun m' off' => ?_, ?_, ?_, ?_, h.heap, h.made, h.named, h.alloc, ?_, h.log⟩
  · show MocksRel P (w.mocks.modify m g) (s.mocks.set m a')
    rw [set_eq_modify]
    refine h.mocks.modify m ?_
    intro k' _ hk' _
    rw [hk] at hk'; cases hk'
    exact hrel
  · show All2 _ _ (callsOf (s.calls.filter fun r => !ofMock m r) m' off')
    rw [callsOf_forget]
    by_cases hm : m' = m
    · subst hm
      rw [if_pos rfl]
      have : history (w.updMock m' g) m' off' = [] := by
        simp only [history, hb, if_true]
        cases hx : (g k).body? off' with
        | none => rfl
        | some b' => exact (hbody off' b' hx).1
      rw [this]; exact .nil
    · have he : (w.updMock m g).body? m' off' = w.body? m' off' := by rw [hb, if_neg (Ne.symm hm)]
      rw [if_neg hm, history_body he]
      exact h.hist m' off'
  · intro r hr; exact h.known r (List.mem_filter.1 hr).1
  · exact h.sorted.filter _
  · intro r hr; exact h.bound r (List.mem_filter.1 hr).1
  · intro m' off' b hx
    rw [hb] at hx
    split at hx
    · rename_i he
      obtain ⟨-, b0, hb0, he0⟩ := hbody off' b hx
      rw [he0]
      refine h.meths m' off' b0 ?_
      rw [← he]
      simp [World.body?, hk, hb0]
    · exact h.meths m' off' b hx

theorem body?_replicate {k : Mock V E} {n : Nat} (h : k.mocks = List.replicate n none) (off : Nat) : k.body? off = none := by
  simp only [Mock.body?, h, List.getElem?_replicate]
  split <;> rfl

theorem reset_refines {s s' : AState V E} {w : World V E} {m : MockId} (h : Rel P s w)
    (hs : onMock (forget s m) m (fun k => some { k with stubs := fun _ => none, wasReset := true, data := zeroed k }) = some s') :
    (∃ k, w.mock? m = some k) ∧ Rel P s' (w.updMock m Mock.reset) := by
  obtain ⟨a, a', ha, hal, h1, rfl⟩ := onMock_spec hs
  cases h1
  obtain ⟨k, hk, R⟩ := h.mocks.get (show s.mocks[m]? = some a from ha)
  have hmock : w.mock? m = some k := World.mock?_eq_some.2 ⟨hk, by rw [R.alive]; exact hal⟩
  refine ⟨⟨k, hmock⟩, rel_forget h hk Mock.reset ?_ ?_⟩
  · have e1 : k.reset.cls = k.cls ∧ k.reset.owner = k.owner ∧ k.reset.alive = k.alive ∧ k.reset.mocks = List.replicate k.orig.length none ∧
        k.reset.vt = k.orig ∧ k.reset.orig = k.orig ∧ k.reset.data = zeroed a := by
      unfold Mock.reset Mock.initData Mock.proxyReset
      dsimp only
      rw [R.owner]
      cases hsp : a.spied <;> simp [zeroed, hsp, R.data]
    refine ⟨e1.1.trans R.cls, e1.2.1.trans R.owner, e1.2.2.1.trans R.alive, e1.2.2.2.2.2.2, fun off => ?_, fun hc => by simp at hc, fun _ _ _ => rfl, fun d hd => ?_⟩
    · rw [body?_replicate e1.2.2.2.1]; trivial
    · exact ⟨rfl, by rw [e1.2.2.2.2.1, e1.2.2.2.2.2.1]; rfl⟩
  · intro off b' hb'
    rw [body?_replicate (n := k.orig.length)] at hb'
    · cases hb'
    · unfold Mock.reset Mock.initData Mock.proxyReset; dsimp only; split <;> rfl

theorem destroy_refines {s s' : AState V E} {w : World V E} {m : MockId} (h : Rel P s w)
    (hs : onMock (forget s m) m (fun k => some { k with alive := false, stubs := fun _ => none }) = some s') :
    (∃ k, w.mock? m = some k) ∧ Rel P s' (w.updMock m Mock.destroy) := by
  obtain ⟨a, a', ha, hal, h1, rfl⟩ := onMock_spec hs
  cases h1
  obtain ⟨k, hk, R⟩ := h.mocks.get (show s.mocks[m]? = some a from ha)
  have hmock : w.mock? m = some k := World.mock?_eq_some.2 ⟨hk, by rw [R.alive]; exact hal⟩
  refine ⟨⟨k, hmock⟩, rel_forget h hk Mock.destroy ?_ ?_⟩
  · exact ⟨R.cls, R.owner, rfl, R.data, fun off => by simp [Mock.body?, Mock.destroy, BRel], fun _ off ho => by simp [Mock.destroy] at ho,
      fun _ _ _ => rfl, fun d hd => ⟨rfl, rfl⟩⟩
  · intro off b' hb'
    simp [Mock.body?, Mock.destroy] at hb'

theorem initData_fields (k : Mock V E) : k.initData.mocks = k.mocks ∧ k.initData.vt = k.vt ∧ k.initData.orig = k.orig ∧ k.initData.cls = k.cls ∧
    k.initData.owner = k.owner ∧ k.initData.alive = k.alive ∧ k.initData.offsets = k.offsets := by
  unfold Mock.initData
  split <;> simp

theorem clear_refines {s s' : AState V E} {w : World V E} {m : MockId} (h : Rel P s w)
    (hs : onMock (forget s m) m (fun k => some { k with data := zeroed k }) = some s') :
    (∃ k, w.mock? m = some k) ∧ Rel P s' (w.updMock m Mock.clear) := by
  obtain ⟨a, a', ha, hal, h1, rfl⟩ := onMock_spec hs
  cases h1
  obtain ⟨k, hk, R⟩ := h.mocks.get (show s.mocks[m]? = some a from ha)
  have hmock : w.mock? m = some k := World.mock?_eq_some.2 ⟨hk, by rw [R.alive]; exact hal⟩
  have hf := initData_fields ({ k with mocks := k.mocks.map (Option.map MBody.clear) } : Mock V E)
  have hbody : ∀ off, k.clear.body? off = (k.body? off).map MBody.clear := by
    intro off
    simp only [Mock.body?, Mock.clear, hf.1, List.getElem?_map]
    cases k.mocks[off]? with
    | none => rfl
    | some x => rfl
  refine ⟨⟨k, hmock⟩, rel_forget h hk Mock.clear ?_ ?_⟩
  · refine ⟨hf.2.2.2.1.trans R.cls, hf.2.2.2.2.1.trans R.owner, hf.2.2.2.2.2.1.trans R.alive, ?_, fun off => ?_, fun hr off ho => ?_, R.reset, fun d hd => ?_⟩
    · unfold Mock.clear Mock.initData
      dsimp only
      rw [R.owner]
      cases hsp : a.spied <;> simp [zeroed, hsp, R.data]
    · rw [hbody]
      have := R.body off
      cases hb : k.body? off with
      | none => rw [hb] at this; exact this
      | some b =>
        rw [hb] at this
        dsimp only
        cases hso : a.stubs off with
        | none => rw [hso] at this; exact this.elim
        | some l => rw [hso] at this; exact this
    · unfold Mock.clear at ho ⊢
      rw [hf.1] at ho
      rw [hf.2.2.2.2.2.2]
      refine R.fresh hr off ?_
      simp only [List.getElem?_map] at ho
      obtain ⟨x, hx, hxe⟩ := Option.map_eq_some_iff.1 ho
      cases x with
      | none => exact hx
      | some x => cases hxe
    · have := R.del d hd
      unfold Mock.clear
      rw [hf.2.1, hf.2.2.1]
      exact this
  · intro off b' hb'
    rw [hbody] at hb'
    obtain ⟨b, hb, rfl⟩ := Option.map_eq_some_iff.1 hb'
    exact ⟨rfl, b, hb, rfl⟩

theorem data_refines {s s' : AState V E} {w : World V E} {m : MockId} {cell : Nat} {v : Int} (h : Rel P s w)
    (hs : onMock s m (fun k => setCell k cell v) = some s') (g : Mock V E → Mock V E)
    (hg : ∀ k : Mock V E, g k = { k with data := k.data.set cell v, members := (g k).members }) :
    (∃ k, w.mock? m = some k ∧ cell < k.data.length) ∧ Rel P s' (w.updMock m g) := by
  obtain ⟨a, a', ha, hal, h1, rfl⟩ := onMock_spec hs
  unfold setCell at h1
  split at h1
  · rename_i hc
    cases h1
    obtain ⟨k, hk, R⟩ := h.mocks.get ha
    have hmock : w.mock? m = some k := World.mock?_eq_some.2 ⟨hk, by rw [R.alive]; exact hal⟩
    refine ⟨⟨k, hmock, by rw [R.data]; exact hc⟩, ?_⟩
    refine h.withMocks ?_ (fun m' off' => ?_) rfl rfl
    · show MocksRel P (w.mocks.modify m g) (s.mocks.set m _)
      rw [set_eq_modify]
      refine h.mocks.modify m ?_
      intro k' a' hk' ha'
      rw [hk] at hk'; cases hk'
      rw [hg k]
      exact ⟨R.cls, R.owner, R.alive, by simp [R.data], R.body, R.fresh, R.reset, R.del⟩
    · simp only [World.body?, World.mocks_updMock]
      by_cases hm : m = m'
      · subst hm
        rw [if_pos rfl]
        cases w.mocks[m]? with
        | none => rfl
        | some k => simp only [Option.map_some, Option.bind_some]; rw [hg k]; rfl
      · rw [if_neg hm]
  · cases h1

theorem new_refines {s : AState V E} {w : World V E} (h : Rel P s w) (cls : Nat) (spied : Bool) :
    Rel P (aNew P s cls spied) { w with mocks := w.mocks ++ [Mock.mk' cls (P.cls cls) (!spied)] } := by
  have hget : ∀ {α : Type} (l : List α) (x : α) (m : Nat) y, (l ++ [x])[m]? = some y → l[m]? = some y ∨ (m = l.length ∧ y = x) := by
    intro α l x m y hy
    by_cases hm : m < l.length
    · rw [List.getElem?_append_left hm] at hy; exact .inl hy
    · rw [List.getElem?_append_right (by omega)] at hy
      by_cases he : m - l.length = 0
      · rw [he] at hy; simp at hy; exact .inr ⟨by omega, hy.symm⟩
      · rw [List.getElem?_singleton, if_neg he] at hy; cases hy
  have hb : ∀ m off, ({ w with mocks := w.mocks ++ [Mock.mk' cls (P.cls cls) (!spied)] } : World V E).body? m off = w.body? m off := by
    intro m off
    simp only [World.body?]
    by_cases hm : m < w.mocks.length
    · rw [List.getElem?_append_left hm]
    · rw [List.getElem?_append_right (Nat.le_of_not_lt hm), List.getElem?_eq_none (Nat.le_of_not_lt hm), List.getElem?_singleton]
      split
      · simp only [Option.bind_some, Option.bind_none]
        exact body?_replicate (n := (P.cls cls).size) rfl off
      · rfl
  refine h.withMocks ?_ hb rfl rfl
  refine ⟨by simp [aNew, h.mocks.len], ?_⟩
  intro m k a hk ha
  rcases hget _ _ _ _ hk with hk' | ⟨hm, rfl⟩
  · rcases hget _ _ _ _ ha with ha' | ⟨hm, -⟩
    · exact h.mocks.mock m k a hk' ha'
    · have := (List.getElem?_eq_some_iff.1 hk').1
      rw [h.mocks.len, hm] at this
      exact absurd this (Nat.lt_irrefl _)
  · rcases hget _ _ _ _ ha with ha' | ⟨-, rfl⟩
    · have := (List.getElem?_eq_some_iff.1 ha').1
      rw [← h.mocks.len, hm] at this
      exact absurd this (Nat.lt_irrefl _)
    · refine ⟨rfl, rfl, rfl, rfl, fun off => ?_, fun _ off ho => ?_, fun hc => by simp at hc, fun d _ => ⟨rfl, rfl⟩⟩
      · rw [body?_replicate (n := (P.cls cls).size) rfl off]; trivial
      · simp only [Mock.mk', List.getElem?_replicate] at ho ⊢
        split at ho
        · rename_i hlt; rw [if_pos hlt]
        · cases ho

end FakeIt
