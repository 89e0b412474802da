import Verif.Spec.Inside
/-!
# Handlers of events that use and change mocks: the model does what the specification says
-/
namespace FakeIt.Inside
open Spec

variable {A V X : Type}

theorem serve_eq (a : A) (l : List (Stub A V)) : Spec.serve a l = useNewest a l := by
  induction l with
  | nil => rfl
  | cons s l ih =>
    simp only [useNewest, ← ih, Spec.serve, List.findIdx?_cons]
    by_cases h : s.accepts a
    · simp only [h, if_true, List.getElem?_cons_zero, Option.map_some, Stub.use]
      cases hs : s.script <;> simp
    · simp only [h, Bool.false_eq_true, if_false]
      cases hf : l.findIdx? (fun s => s.accepts a) with
      | none => simp
      | some i =>
        simp only [Option.map_some, List.getElem?_cons_succ]
        cases hg : l[i]? with
        | none => simp
        | some x => cases hx : x.script <;> simp [hx]

def Inv.value (i : Inv A) : Rec A := ⟨i.mock, i.method, i.args, i.verified⟩
def Body.meth (b : Body A V) : Method A V := ⟨b.name, b.stubs⟩

/-- The objects and what they stand for. -/
structure Rel (w : World A V) (s : Mocks A V) : Prop where
  methods : ∀ m f, s.methods m f = (w.bodies m f).map Body.meth
  recs : s.recs = w.recs.map Inv.value
  ended : s.ended = w.ended
  events : s.events = w.events
  printed : s.printed = w.printed
  body_lt : ∀ m f b, w.bodies m f = some b → b.uid < w.next
  body_inj : ∀ m f b m' f' b', w.bodies m f = some b → w.bodies m' f' = some b' → b.uid = b'.uid → m = m' ∧ f = f'
  rec_lt : ∀ i, i ∈ w.recs → i.uid < w.next
  rec_uniq : ∀ i j, i ∈ w.recs → j ∈ w.recs → i.uid = j.uid → i = j
  rec_body : ∀ i, i ∈ w.recs → ∃ b, w.bodies i.mock i.method = some b ∧ b.uid = i.body

/-- A pointer to a recorded call. -/
structure Ptr (w : World A V) (s : Mocks A V) (p : Nat) (c : Shown A) : Prop where
  lt : p < w.next
  le : c.deletions ≤ s.deletions c.mock
  here : s.deletions c.mock = c.deletions → ∃ i, i ∈ w.recs ∧ i.uid = p ∧ i.mock = c.mock ∧ i.method = c.method ∧ i.args = c.args
  gone : s.deletions c.mock ≠ c.deletions → ∀ i, i ∈ w.recs → i.uid ≠ p

/-- A reference to a body. -/
structure Held (w : World A V) (s : Mocks A V) (m f body resets : Nat) : Prop where
  lt : body < w.next
  le : resets ≤ s.resets m
  here : s.resets m = resets → ∃ b, w.bodies m f = some b ∧ b.uid = body
  gone : s.resets m ≠ resets → ∀ b, w.bodies m f = some b → b.uid ≠ body

inductive Ptrs (w : World A V) (s : Mocks A V) : List Nat → List (Shown A) → Prop where
  | nil : Ptrs w s [] []
  | cons {p c ps cs} (h : Ptr w s p c) (hs : Ptrs w s ps cs) : Ptrs w s (p :: ps) (c :: cs)

/-- An event object and what happened. -/
inductive Ev (w : World A V) (s : Mocks A V) : Event A → Happening A → Prop where
  | unmocked : Ev w s .unmocked .unmocked
  | unexpected {i r} (h : Held w s i.mock i.method i.body r) : Ev w s (.unexpected i) (.unexpected i.mock i.method i.args r)
  | failed {m f c t ps cs} (h : Ptrs w s ps cs) : Ev w s (.failed m f c t ps) (.failed m f c t cs)
  | noMore {t ps cs} (h : Ptrs w s ps cs) : Ev w s (.noMore t ps) (.noMore t cs)

theorem Ev.kind {w : World A V} {s : Mocks A V} {e h} (H : Ev w s e h) : e.kind = h.kind := by cases H <;> rfl

/-- Everything that was right about pointers still is. -/
structure Later (w : World A V) (s : Mocks A V) (w' : World A V) (s' : Mocks A V) : Prop where
  ptr : ∀ p c, Ptr w s p c → Ptr w' s' p c
  held : ∀ m f b r, Held w s m f b r → Held w' s' m f b r

theorem Later.refl (w : World A V) (s : Mocks A V) : Later w s w s := ⟨fun _ _ h => h, fun _ _ _ _ h => h⟩

theorem Later.trans {w s w' s' w'' s''} (h : Later (A := A) (V := V) w s w' s') (h' : Later w' s' w'' s'') : Later w s w'' s'' :=
  ⟨fun p c H => h'.ptr p c (h.ptr p c H), fun m f b r H => h'.held m f b r (h.held m f b r H)⟩

theorem Later.ptrs {w s w' s'} (h : Later (A := A) (V := V) w s w' s') {ps cs} (H : Ptrs w s ps cs) : Ptrs w' s' ps cs := by
  induction H with
  | nil => exact .nil
  | cons h₁ _ ih => exact .cons (h.ptr _ _ h₁) ih

theorem Later.ev {w s w' s'} (h : Later (A := A) (V := V) w s w' s') {e d} (H : Ev w s e d) : Ev w' s' e d := by
  cases H with
  | unmocked => exact .unmocked
  | unexpected H => exact .unexpected (h.held _ _ _ _ H)
  | failed H => exact .failed (h.ptrs H)
  | noMore H => exact .noMore (h.ptrs H)

/-- What a step has to do. -/
theorem later_of {w s w' s'} (hr : Rel (A := A) (V := V) w s) (hn : w.next ≤ w'.next) (hd : ∀ m, s.deletions m ≤ s'.deletions m) (hrs : ∀ m, s.resets m ≤ s'.resets m)
    (h₁ : ∀ i, i ∈ w.recs → s'.deletions i.mock = s.deletions i.mock → ∃ i', i' ∈ w'.recs ∧ i'.uid = i.uid ∧ i'.mock = i.mock ∧ i'.method = i.method ∧ i'.args = i.args)
    (h₂ : ∀ i', i' ∈ w'.recs → i'.uid < w.next → ∃ i, i ∈ w.recs ∧ i.uid = i'.uid ∧ s'.deletions i.mock = s.deletions i.mock)
    (h₃ : ∀ m f b, w.bodies m f = some b → s'.resets m = s.resets m → ∃ b', w'.bodies m f = some b' ∧ b'.uid = b.uid)
    (h₄ : ∀ m f b', w'.bodies m f = some b' → b'.uid < w.next → ∃ b, w.bodies m f = some b ∧ b.uid = b'.uid ∧ s'.resets m = s.resets m) :
    Later w s w' s' := by
  constructor
  · intro p c H
    refine ⟨Nat.lt_of_lt_of_le H.lt hn, Nat.le_trans H.le (hd _), ?_, ?_⟩
    · intro e
      have e₁ : s.deletions c.mock = c.deletions := Nat.le_antisymm (e ▸ hd _) H.le
      obtain ⟨i, hi, hu, hm, hf, ha⟩ := H.here e₁
      obtain ⟨i', hi', hu', hm', hf', ha'⟩ := h₁ i hi (by rw [hm, e, e₁])
      exact ⟨i', hi', hu'.trans hu, hm'.trans hm, hf'.trans hf, ha'.trans ha⟩
    · intro hne i' hi' hu
      obtain ⟨i, hi, hui, hdi⟩ := h₂ i' hi' (hu ▸ H.lt)
      by_cases e : s.deletions c.mock = c.deletions
      · obtain ⟨j, hj, huj, hmj, _, _⟩ := H.here e
        have : i = j := hr.rec_uniq i j hi hj (by rw [hui, hu, huj])
        subst this
        rw [hmj] at hdi
        exact hne (hdi.trans e)
      · exact H.gone e i hi (hui.trans hu)
  · intro m f b r H
    refine ⟨Nat.lt_of_lt_of_le H.lt hn, Nat.le_trans H.le (hrs _), ?_, ?_⟩
    · intro e
      have e₁ : s.resets m = r := Nat.le_antisymm (e ▸ hrs _) H.le
      obtain ⟨b₁, hb₁, hu⟩ := H.here e₁
      obtain ⟨b', hb', hu'⟩ := h₃ m f b₁ hb₁ (by rw [e, e₁])
      exact ⟨b', hb', hu'.trans hu⟩
    · intro hne b' hb' hu
      obtain ⟨b₁, hb₁, hu₁, hs⟩ := h₄ m f b' hb' (hu ▸ H.lt)
      by_cases e : s.resets m = r
      · exact hne (hs.trans e)
      · exact H.gone e b₁ hb₁ (hu₁.trans hu)

/-! ## The steps -/

theorem put_same (w : World A V) (m f : Nat) (b : Body A V) : (w.put m f b).bodies m f = some b := by simp [World.put]

theorem put_bodies (w : World A V) (m f : Nat) (b : Body A V) (m' f' : Nat) :
    (w.put m f b).bodies m' f' = if m' = m ∧ f' = f then some b else w.bodies m' f' := rfl

/-- A body is changed. -/
theorem step_put {w : World A V} {s : Mocks A V} (hr : Rel w s) {m f : Nat} {b b' : Body A V} (hb : w.bodies m f = some b) (hu : b'.uid = b.uid) {d} (hd : d = b'.meth) :
    Rel (w.put m f b') (s.put m f d) ∧ Later w s (w.put m f b') (s.put m f d) := by
  subst hd
  constructor
  · refine ⟨?_, hr.recs, hr.ended, hr.events, hr.printed, ?_, ?_, hr.rec_lt, hr.rec_uniq, ?_⟩
    · intro m' f'
      simp only [Mocks.put, World.put]
      split
      · rfl
      · exact hr.methods m' f'
    · intro m' f' c hc
      rw [put_bodies] at hc
      split at hc
      · cases hc; rw [hu]; exact hr.body_lt _ _ _ hb
      · exact hr.body_lt _ _ _ hc
    · intro m₁ f₁ c₁ m₂ f₂ c₂ h₁ h₂ e
      rw [put_bodies] at h₁ h₂
      split at h₁ <;> split at h₂
      · rename_i g₁ g₂; exact ⟨g₁.1.trans g₂.1.symm, g₁.2.trans g₂.2.symm⟩
      · rename_i g₁ g₂; cases h₁
        obtain ⟨e₁, e₂⟩ := hr.body_inj _ _ _ _ _ _ hb h₂ (hu ▸ e)
        exact ⟨g₁.1.trans e₁, g₁.2.trans e₂⟩
      · rename_i g₁ g₂; cases h₂
        obtain ⟨e₁, e₂⟩ := hr.body_inj _ _ _ _ _ _ h₁ hb (e.trans hu)
        exact ⟨e₁.trans g₂.1.symm, e₂.trans g₂.2.symm⟩
      · exact hr.body_inj _ _ _ _ _ _ h₁ h₂ e
    · intro i hi
      obtain ⟨c, hc, e⟩ := hr.rec_body i hi
      rw [put_bodies]
      split
      · rename_i g
        rw [g.1, g.2, hb] at hc; cases hc
        exact ⟨_, rfl, hu.trans e⟩
      · exact ⟨c, hc, e⟩
  · refine later_of hr (Nat.le_refl _) (fun _ => Nat.le_refl _) (fun _ => Nat.le_refl _) (fun i hi _ => ⟨i, hi, rfl, rfl, rfl, rfl⟩) (fun i hi _ => ⟨i, hi, rfl, rfl⟩) ?_ ?_
    · intro m' f' c hc _
      rw [put_bodies]
      split
      · rename_i g; rw [g.1, g.2, hb] at hc; cases hc; exact ⟨_, rfl, hu⟩
      · exact ⟨c, hc, rfl⟩
    · intro m' f' c hc _
      rw [put_bodies] at hc
      split at hc
      · rename_i g; cases hc; rw [g.1, g.2]; exact ⟨b, hb, hu.symm, rfl⟩
      · exact ⟨c, hc, rfl, rfl⟩

theorem methodOf_some {w : World A V} {s : Mocks A V} (hr : Rel w s) {m f b} (hb : w.bodies m f = some b) : s.methodOf m f = b.meth := by
  simp [Mocks.methodOf, hr.methods, hb]

/-- A method becomes known. -/
theorem step_known {w : World A V} {s : Mocks A V} (hr : Rel w s) (m f : Nat) :
    Rel (w.known m f).2 (s.put m f (s.methodOf m f)) ∧ Later w s (w.known m f).2 (s.put m f (s.methodOf m f)) ∧
      (w.known m f).2.bodies m f = some (w.known m f).1 ∧ (w.known m f).1.meth = s.methodOf m f ∧ (w.known m f).2.recs = w.recs := by
  cases hb : w.bodies m f with
  | some b =>
    have hk : w.known m f = (b, w) := by simp [World.known, hb]
    rw [hk]
    have hput : w.put m f b = w := by
      have : (fun m' f' => if m' = m ∧ f' = f then some b else w.bodies m' f') = w.bodies := by
        funext m' f'; split
        · rename_i g; rw [g.1, g.2, hb]
        · rfl
      show { w with bodies := _ } = w
      rw [this]
    obtain ⟨h₁, h₂⟩ := step_put hr hb rfl (methodOf_some hr hb) (b' := b)
    rw [hput] at h₁ h₂
    exact ⟨h₁, h₂, hb, (methodOf_some hr hb).symm, rfl⟩
  | none =>
    have hk : w.known m f = (⟨w.next, .compiler m f, []⟩, { w.put m f ⟨w.next, .compiler m f, []⟩ with next := w.next + 1 }) := by simp [World.known, hb]
    have hm : s.methodOf m f = ⟨.compiler m f, []⟩ := by simp [Mocks.methodOf, hr.methods, hb]
    rw [hk, hm]
    refine ⟨?_, ?_, put_same _ _ _ _, rfl, rfl⟩
    · refine ⟨?_, hr.recs, hr.ended, hr.events, hr.printed, ?_, ?_, ?_, hr.rec_uniq, ?_⟩
      · intro m' f'
        simp only [Mocks.put, World.put]
        split
        · rfl
        · exact hr.methods m' f'
      · intro m' f' c hc
        replace hc : (if m' = m ∧ f' = f then _ else w.bodies m' f') = some c := hc
        show c.uid < w.next + 1
        split at hc
        · cases hc; exact Nat.lt_succ_self _
        · exact Nat.lt_succ_of_lt (hr.body_lt _ _ _ hc)
      · intro m₁ f₁ c₁ m₂ f₂ c₂ h₁ h₂ e
        replace h₁ : (if m₁ = m ∧ f₁ = f then _ else w.bodies m₁ f₁) = some c₁ := h₁
        replace h₂ : (if m₂ = m ∧ f₂ = f then _ else w.bodies m₂ f₂) = some c₂ := h₂
        split at h₁ <;> split at h₂
        · rename_i g₁ g₂; exact ⟨g₁.1.trans g₂.1.symm, g₁.2.trans g₂.2.symm⟩
        · cases h₁; exact absurd e.symm (Nat.ne_of_lt (hr.body_lt _ _ _ h₂))
        · cases h₂; exact absurd e (Nat.ne_of_lt (hr.body_lt _ _ _ h₁))
        · exact hr.body_inj _ _ _ _ _ _ h₁ h₂ e
      · exact fun i hi => Nat.lt_succ_of_lt (hr.rec_lt i hi)
      · intro i hi
        obtain ⟨c, hc, e⟩ := hr.rec_body i hi
        refine ⟨c, ?_, e⟩
        show (if i.mock = m ∧ i.method = f then _ else w.bodies i.mock i.method) = some c
        split
        · rename_i g; rw [g.1, g.2, hb] at hc; cases hc
        · exact hc
    · refine later_of hr (Nat.le_succ _) (fun _ => Nat.le_refl _) (fun _ => Nat.le_refl _) (fun i hi _ => ⟨i, hi, rfl, rfl, rfl, rfl⟩) (fun i hi _ => ⟨i, hi, rfl, rfl⟩) ?_ ?_
      · intro m' f' c hc _
        refine ⟨c, ?_, rfl⟩
        show (if m' = m ∧ f' = f then _ else w.bodies m' f') = some c
        split
        · rename_i g; rw [g.1, g.2, hb] at hc; cases hc
        · exact hc
      · intro m' f' c hc hlt
        replace hc : (if m' = m ∧ f' = f then _ else w.bodies m' f') = some c := hc
        split at hc
        · cases hc; exact absurd hlt (Nat.lt_irrefl _)
        · exact ⟨c, hc, rfl, rfl⟩

theorem put_put (s : Mocks A V) (m f : Nat) (d d' : Method A V) : (s.put m f d).put m f d' = s.put m f d' := by
  simp only [Mocks.put]
  congr 1
  funext m' f'
  split <;> rfl

/-- A method is named. -/
theorem step_named {w : World A V} {s : Mocks A V} (hr : Rel w s) (m f n : Nat) :
    Rel (w.named m f n).2 (s.put m f { s.methodOf m f with name := .given n }) ∧ Later w s (w.named m f n).2 (s.put m f { s.methodOf m f with name := .given n }) ∧
      (w.named m f n).2.bodies m f = some (w.named m f n).1 ∧ (w.named m f n).1.meth = { s.methodOf m f with name := .given n } ∧ (w.named m f n).2.recs = w.recs := by
  obtain ⟨h₁, h₂, h₃, h₄, h₅⟩ := step_known hr m f
  have hd : ({ s.methodOf m f with name := .given n } : Method A V) = ({ (w.known m f).1 with name := .given n } : Body A V).meth := by
    rw [← h₄]; rfl
  obtain ⟨g₁, g₂⟩ := step_put h₁ h₃ (b' := { (w.known m f).1 with name := .given n }) rfl hd
  rw [put_put] at g₁ g₂
  exact ⟨g₁, h₂.trans g₂, put_same _ _ _ _, hd.symm, h₅⟩

/-- Names of objects are used up. -/
theorem step_next {w : World A V} {s : Mocks A V} (hr : Rel w s) : Rel { w with next := w.next + 1 } s ∧ Later w s { w with next := w.next + 1 } s := by
  constructor
  · exact ⟨hr.methods, hr.recs, hr.ended, hr.events, hr.printed, fun m f b h => Nat.lt_succ_of_lt (hr.body_lt m f b h), hr.body_inj, fun i h => Nat.lt_succ_of_lt (hr.rec_lt i h), hr.rec_uniq, hr.rec_body⟩
  · exact later_of hr (Nat.le_succ _) (fun _ => Nat.le_refl _) (fun _ => Nat.le_refl _) (fun i hi _ => ⟨i, hi, rfl, rfl, rfl, rfl⟩) (fun i hi _ => ⟨i, hi, rfl, rfl⟩)
      (fun m f b hb _ => ⟨b, hb, rfl⟩) (fun m f b hb _ => ⟨b, hb, rfl, rfl⟩)

/-- A call is recorded. -/
theorem step_record {w : World A V} {s : Mocks A V} (hr : Rel w s) {m f : Nat} {b : Body A V} (hb : w.bodies m f = some b) (a : A) :
    let i : Inv A := { uid := w.next, mock := m, method := f, body := b.uid, args := a }
    Rel { w with next := w.next + 1, recs := w.recs ++ [i] } { s with recs := s.recs ++ [⟨m, f, a, false⟩] } ∧
      Later w s { w with next := w.next + 1, recs := w.recs ++ [i] } { s with recs := s.recs ++ [⟨m, f, a, false⟩] } := by
  intro i
  constructor
  · refine ⟨hr.methods, by simp [hr.recs, Inv.value, i], hr.ended, hr.events, hr.printed, fun m f b h => Nat.lt_succ_of_lt (hr.body_lt m f b h), hr.body_inj, ?_, ?_, ?_⟩
    · intro j hj
      rcases List.mem_append.1 hj with hj | hj
      · exact Nat.lt_succ_of_lt (hr.rec_lt j hj)
      · cases List.mem_singleton.1 hj; exact Nat.lt_succ_self _
    · intro j k hj hk e
      rcases List.mem_append.1 hj with hj | hj <;> rcases List.mem_append.1 hk with hk | hk
      · exact hr.rec_uniq j k hj hk e
      · cases List.mem_singleton.1 hk; exact absurd e (Nat.ne_of_lt (hr.rec_lt j hj))
      · cases List.mem_singleton.1 hj; exact absurd e.symm (Nat.ne_of_lt (hr.rec_lt k hk))
      · rw [List.mem_singleton.1 hj, List.mem_singleton.1 hk]
    · intro j hj
      rcases List.mem_append.1 hj with hj | hj
      · exact hr.rec_body j hj
      · cases List.mem_singleton.1 hj; exact ⟨b, hb, rfl⟩
  · refine later_of hr (Nat.le_succ _) (fun _ => Nat.le_refl _) (fun _ => Nat.le_refl _) (fun i hi _ => ⟨i, List.mem_append_left _ hi, rfl, rfl, rfl, rfl⟩) ?_
      (fun m f b hb _ => ⟨b, hb, rfl⟩) (fun m f b hb _ => ⟨b, hb, rfl, rfl⟩)
    intro j hj hlt
    rcases List.mem_append.1 hj with hj | hj
    · exact ⟨j, hj, rfl, rfl⟩
    · cases List.mem_singleton.1 hj; exact absurd hlt (Nat.lt_irrefl _)

/-- Calls are marked. -/
theorem step_mark {w : World A V} {s : Mocks A V} (hr : Rel w s) (p : Inv A → Bool) (q : Rec A → Bool) (hpq : ∀ i, i ∈ w.recs → q i.value = p i) :
    Rel { w with recs := w.recs.map fun i => if p i then { i with verified := true } else i } { s with recs := s.recs.map fun r => if q r then { r with verified := true } else r } ∧
      Later w s { w with recs := w.recs.map fun i => if p i then { i with verified := true } else i } { s with recs := s.recs.map fun r => if q r then { r with verified := true } else r } := by
  have hsame : ∀ i : Inv A, (if p i then { i with verified := true } else i).uid = i.uid ∧ (if p i then { i with verified := true } else i).mock = i.mock ∧
      (if p i then { i with verified := true } else i).method = i.method ∧ (if p i then { i with verified := true } else i).args = i.args ∧
      (if p i then { i with verified := true } else i).body = i.body := by intro i; split <;> exact ⟨rfl, rfl, rfl, rfl, rfl⟩
  constructor
  · refine ⟨hr.methods, ?_, hr.ended, hr.events, hr.printed, hr.body_lt, hr.body_inj, ?_, ?_, ?_⟩
    · show s.recs.map _ = (w.recs.map _).map Inv.value
      rw [hr.recs, List.map_map, List.map_map]
      apply List.map_congr_left
      intro i hi
      simp only [Function.comp, hpq i hi]
      split <;> rfl
    · intro j hj
      obtain ⟨i, hi, rfl⟩ := List.mem_map.1 hj
      rw [(hsame i).1]; exact hr.rec_lt i hi
    · intro j k hj hk e
      obtain ⟨i, hi, rfl⟩ := List.mem_map.1 hj
      obtain ⟨i', hi', rfl⟩ := List.mem_map.1 hk
      rw [(hsame i).1, (hsame i').1] at e
      rw [hr.rec_uniq i i' hi hi' e]
    · intro j hj
      obtain ⟨i, hi, rfl⟩ := List.mem_map.1 hj
      rw [(hsame i).2.1, (hsame i).2.2.1, (hsame i).2.2.2.2]
      exact hr.rec_body i hi
  · refine later_of hr (Nat.le_refl _) (fun _ => Nat.le_refl _) (fun _ => Nat.le_refl _) ?_ ?_ (fun m f b hb _ => ⟨b, hb, rfl⟩) (fun m f b hb _ => ⟨b, hb, rfl, rfl⟩)
    · intro i hi _
      exact ⟨_, List.mem_map.2 ⟨i, hi, rfl⟩, (hsame i).1, (hsame i).2.1, (hsame i).2.2.1, (hsame i).2.2.2.1⟩
    · intro j hj _
      obtain ⟨i, hi, rfl⟩ := List.mem_map.1 hj
      exact ⟨i, hi, (hsame i).1.symm, rfl⟩

theorem bump_same (f : Nat → Nat) (m : Nat) : bump f m m = f m + 1 := by simp [bump]
theorem bump_other (f : Nat → Nat) {m m' : Nat} (h : m' ≠ m) : bump f m m' = f m' := by simp [bump, h]
theorem bump_le (f : Nat → Nat) (m m' : Nat) : f m' ≤ bump f m m' := by
  unfold bump; split
  · exact Nat.le_succ _
  · exact Nat.le_refl _

theorem filter_rec (p : Inv A → Bool) (q : Rec A → Bool) (l : List (Inv A)) (h : ∀ i, i ∈ l → q i.value = p i) : (l.map Inv.value).filter q = (l.filter p).map Inv.value := by
  induction l with
  | nil => rfl
  | cons i l ih =>
    simp only [List.map_cons, List.filter_cons, h i (List.mem_cons_self ..)]
    rw [ih fun j hj => h j (List.mem_cons_of_mem _ hj)]
    split <;> rfl

/-- The history is deleted. -/
theorem step_clear {w : World A V} {s : Mocks A V} (hr : Rel w s) (m : Nat) : Rel (w.clear m) (s.clear m) ∧ Later w s (w.clear m) (s.clear m) := by
  constructor
  · refine ⟨hr.methods, ?_, hr.ended, hr.events, hr.printed, hr.body_lt, hr.body_inj, fun i hi => hr.rec_lt i (List.mem_filter.1 hi).1,
      fun i j hi hj => hr.rec_uniq i j (List.mem_filter.1 hi).1 (List.mem_filter.1 hj).1, fun i hi => hr.rec_body i (List.mem_filter.1 hi).1⟩
    show s.recs.filter _ = (w.recs.filter _).map Inv.value
    rw [hr.recs]
    exact filter_rec _ _ _ fun i _ => rfl
  · refine later_of hr (Nat.le_refl _) (bump_le _ _) (fun _ => Nat.le_refl _) ?_ ?_ (fun m f b hb _ => ⟨b, hb, rfl⟩) (fun m f b hb _ => ⟨b, hb, rfl, rfl⟩)
    · intro i hi e
      refine ⟨i, List.mem_filter.2 ⟨hi, ?_⟩, rfl, rfl, rfl, rfl⟩
      have : i.mock ≠ m := by
        intro h
        replace e : bump s.deletions m i.mock = s.deletions i.mock := e
        rw [h, bump_same] at e
        exact Nat.succ_ne_self _ e
      simpa using this
    · intro i hi _
      obtain ⟨hi, hm⟩ := List.mem_filter.1 hi
      exact ⟨i, hi, rfl, bump_other _ (by simpa using hm)⟩

/-- The bodies are deleted, too. -/
theorem step_reset {w : World A V} {s : Mocks A V} (hr : Rel w s) (m : Nat) : Rel (w.reset m) (s.reset m) ∧ Later w s (w.reset m) (s.reset m) := by
  obtain ⟨h₁, h₂⟩ := step_clear hr m
  have hmem : ∀ m' f' b, (w.reset m).bodies m' f' = some b → m' ≠ m ∧ w.bodies m' f' = some b := by
    intro m' f' b hb
    replace hb : (if m' = m then none else w.bodies m' f') = some b := hb
    split at hb
    · cases hb
    · rename_i h; exact ⟨h, hb⟩
  have hof : ∀ m' f' b, m' ≠ m → w.bodies m' f' = some b → (w.reset m).bodies m' f' = some b := by
    intro m' f' b h hb
    show (if m' = m then none else w.bodies m' f') = some b
    rw [if_neg h]; exact hb
  constructor
  · refine ⟨?_, h₁.recs, hr.ended, hr.events, hr.printed, fun m' f' b hb => hr.body_lt _ _ _ (hmem _ _ _ hb).2,
      fun m₁ f₁ b₁ m₂ f₂ b₂ g₁ g₂ => hr.body_inj _ _ _ _ _ _ (hmem _ _ _ g₁).2 (hmem _ _ _ g₂).2, h₁.rec_lt, h₁.rec_uniq, ?_⟩
    · intro m' f'
      show (if m' = m then none else s.methods m' f') = (if m' = m then none else w.bodies m' f').map Body.meth
      split
      · rfl
      · exact hr.methods m' f'
    · intro i hi
      obtain ⟨b, hb, e⟩ := h₁.rec_body i hi
      have : i.mock ≠ m := by simpa using (List.mem_filter.1 hi).2
      exact ⟨b, hof _ _ _ this hb, e⟩
  · refine later_of hr (Nat.le_refl _) (bump_le _ _) (bump_le _ _) ?_ ?_ ?_ ?_
    · intro i hi e
      refine ⟨i, List.mem_filter.2 ⟨hi, ?_⟩, rfl, rfl, rfl, rfl⟩
      have : i.mock ≠ m := by
        intro h
        replace e : bump s.deletions m i.mock = s.deletions i.mock := e
        rw [h, bump_same] at e
        exact Nat.succ_ne_self _ e
      simpa using this
    · intro i hi _
      obtain ⟨hi, hm⟩ := List.mem_filter.1 hi
      exact ⟨i, hi, rfl, bump_other _ (by simpa using hm)⟩
    · intro m' f' b hb e
      have : m' ≠ m := by
        intro h
        replace e : bump s.resets m m' = s.resets m' := e
        rw [h, bump_same] at e
        exact Nat.succ_ne_self _ e
      exact ⟨b, hof _ _ _ this hb, rfl⟩
    · intro m' f' b hb _
      obtain ⟨h, hb⟩ := hmem _ _ _ hb
      exact ⟨b, hb, rfl, bump_other _ h⟩

theorem step_destroy {w : World A V} {s : Mocks A V} (hr : Rel w s) (m : Nat) : Rel (w.destroy m) (s.destroy m) ∧ Later w s (w.destroy m) (s.destroy m) := by
  obtain ⟨h₁, h₂⟩ := step_reset hr m
  refine ⟨⟨h₁.methods, h₁.recs, ?_, h₁.events, h₁.printed, h₁.body_lt, h₁.body_inj, h₁.rec_lt, h₁.rec_uniq, h₁.rec_body⟩, ⟨?_, ?_⟩⟩
  · show (fun m' => if m' = m then true else s.ended m') = fun m' => if m' = m then true else w.ended m'
    rw [hr.ended]
  · intro p c H; have := h₂.ptr p c H; exact ⟨this.lt, this.le, this.here, this.gone⟩
  · intro m' f b r H; have := h₂.held m' f b r H; exact ⟨this.lt, this.le, this.here, this.gone⟩

theorem step_print {w : World A V} {s : Mocks A V} (hr : Rel w s) (r : Report A) :
    Rel { w with printed := w.printed ++ [r] } { s with printed := s.printed ++ [r] } ∧ Later w s { w with printed := w.printed ++ [r] } { s with printed := s.printed ++ [r] } := by
  refine ⟨⟨hr.methods, hr.recs, hr.ended, hr.events, by rw [hr.printed], hr.body_lt, hr.body_inj, hr.rec_lt, hr.rec_uniq, hr.rec_body⟩, ⟨?_, ?_⟩⟩
  · intro p c H; exact ⟨H.lt, H.le, H.here, H.gone⟩
  · intro m' f b r H; exact ⟨H.lt, H.le, H.here, H.gone⟩

theorem step_event {w : World A V} {s : Mocks A V} (hr : Rel w s) :
    Rel { w with events := w.events + 1 } { s with events := s.events + 1 } ∧ Later w s { w with events := w.events + 1 } { s with events := s.events + 1 } := by
  refine ⟨⟨hr.methods, hr.recs, hr.ended, by rw [hr.events], hr.printed, hr.body_lt, hr.body_inj, hr.rec_lt, hr.rec_uniq, hr.rec_body⟩, ⟨?_, ?_⟩⟩
  · intro p c H; exact ⟨H.lt, H.le, H.here, H.gone⟩
  · intro m' f b r H; exact ⟨H.lt, H.le, H.here, H.gone⟩

/-! ## Results -/

/-- The same result, on mocks that correspond, later than `w`, `s`. -/
inductive Same (w : World A V) (s : Mocks A V) {α : Type} : R (α × World A V) → R (α × Mocks A V) → Prop where
  | done {a w' s'} (h : Rel w' s') (l : Later w s w' s') : Same w s (.done (a, w')) (.done (a, s'))
  | ub : Same w s .ub .ub
  | oof : Same w s .oof .oof

theorem Same.later {w s w' s'} (l : Later (A := A) (V := V) w s w' s') {α} {x : R (α × World A V)} {y} (h : Same w' s' x y) : Same w s x y := by
  cases h with
  | done h l' => exact .done h (l.trans l')
  | ub => exact .ub
  | oof => exact .oof

theorem line_same {w : World A V} {s : Mocks A V} (hr : Rel w s) {p c} (hp : Ptr w s p c) : w.follow p = R.ofOption (s.line c) := by
  unfold World.follow Mocks.line
  by_cases e : s.deletions c.mock = c.deletions
  · obtain ⟨i, hi, hu, hm, hf, ha⟩ := hp.here e
    have hfind : w.recs.find? (fun i => i.uid == p) = some i := by
      cases hq : w.recs.find? (fun i => i.uid == p) with
      | none => rw [List.find?_eq_none] at hq; exact absurd (by simp [hu]) (hq i hi)
      | some j =>
        have hj := List.mem_of_find?_eq_some hq
        have hju := List.find?_some hq
        rw [hr.rec_uniq j i hj hi (by simpa [hu] using hju)]
    obtain ⟨b, hb, hbu⟩ := hr.rec_body i hi
    rw [hfind, if_pos e]
    simp only [World.line, hb, hbu, if_true, Mocks.nameOf, hr.methods, ← hm, ← hf, ha, Option.map_some, R.ofOption, Body.meth]
  · rw [if_neg e]
    have : w.recs.find? (fun i => i.uid == p) = none := by
      rw [List.find?_eq_none]; intro i hi; simpa using hp.gone e i hi
    rw [this]; rfl

theorem lines_same {w : World A V} {s : Mocks A V} (hr : Rel w s) {ps cs} (hp : Ptrs w s ps cs) : w.followAll ps = R.ofOption (s.lines cs) := by
  induction hp with
  | nil => rfl
  | cons h _ ih =>
    rename_i p c ps cs _
    simp only [World.followAll, Mocks.lines, line_same hr h, ih]
    cases s.line c <;> cases s.lines cs <;> rfl

theorem format_same {w : World A V} {s : Mocks A V} (hr : Rel w s) {e h} (he : Ev w s e h) : Same w s (w.format e) (s.report h) := by
  cases he with
  | unmocked => exact .done hr (.refl _ _)
  | unexpected H =>
    rename_i i r
    simp only [World.format, World.line, Mocks.report, Mocks.nameOf, hr.methods]
    cases hb : w.bodies i.mock i.method with
    | none => exact .ub
    | some b =>
      by_cases e : s.resets i.mock = r
      · obtain ⟨b', hb', hu⟩ := H.here e
        rw [hb] at hb'; cases hb'
        simp only [hu, if_true, R.bind_done, Option.map_some, e]
        exact .done hr (.refl _ _)
      · simp only [H.gone e b hb, if_false, R.bind_ub, Option.map_some, e]
        exact .ub
  | failed H =>
    rename_i m f c t ps cs
    simp only [World.format, Mocks.report, hr.ended]
    split
    · exact .ub
    · obtain ⟨h₁, h₂, h₃, h₄, h₅⟩ := step_known hr m f
      rw [lines_same h₁ (h₂.ptrs H)]
      cases (s.put m f (s.methodOf m f)).lines cs with
      | none => exact .ub
      | some ls =>
        have : (w.known m f).1.name = (s.methodOf m f).name := by rw [← h₄]; rfl
        simp only [R.ofOption_some, R.bind_done, this]
        exact .done h₁ h₂
  | noMore H =>
    rename_i t ps cs
    simp only [World.format, Mocks.report, lines_same hr H]
    cases s.lines cs with
    | none => exact .ub
    | some ls => exact .done hr (.refl _ _)

/-- How events are handled corresponds. -/
def SameHandle (c : Event A → World A V → R (Out A X × World A V)) (d : Happening A → Mocks A V → R (Out A X × Mocks A V)) : Prop :=
  ∀ w s e h, Rel w s → Ev w s e h → Same w s (c e w) (d h s)

theorem unexpected_same {hc : Event A → World A V → R (Out A X × World A V)} {hd} (H : SameHandle hc hd) {w s e h} (hr : Rel w s) (he : Ev w s e h) :
    Same w s (Inside.unexpected hc e w) (Spec.unexpected hd h s) := by
  unfold Inside.unexpected Spec.unexpected
  have := H w s e h hr he
  generalize hc e w = x at this
  generalize hd h s = y at this
  cases this with
  | ub => exact .ub
  | oof => exact .oof
  | done h₁ l =>
    rename_i o w' s'
    cases o with
    | returned =>
      have := format_same h₁ (l.ev he)
      simp only [R.bind_done]
      generalize w'.format e = x at this
      generalize s'.report h = y at this
      cases this with
      | ub => exact .ub
      | oof => exact .oof
      | done h₂ l' => exact .done h₂ (l.trans l')
    | thrown x => exact .done h₁ l
    | aborted => exact .done h₁ l

theorem held_now {w : World A V} {s : Mocks A V} (hr : Rel w s) {m f b} (hb : w.bodies m f = some b) : Held w s m f b.uid (s.resets m) :=
  ⟨hr.body_lt _ _ _ hb, Nat.le_refl _, fun _ => ⟨b, hb, rfl⟩, fun h => absurd rfl h⟩

theorem call_same {hc : Event A → World A V → R (Out A X × World A V)} {hd} (H : SameHandle hc hd) {w s} (hr : Rel w s) (m f : Nat) (a : A) :
    Same w s (Inside.callMethod hc m f a w) (Spec.callMethod hd m f a s) := by
  unfold Inside.callMethod Spec.callMethod
  rw [hr.ended, hr.methods]
  split
  · exact .ub
  · cases hb : w.bodies m f with
    | none =>
      obtain ⟨h₁, l₁⟩ := step_next hr
      exact (unexpected_same H h₁ .unmocked).later l₁
    | some b =>
      simp only [Option.map_some, Body.meth, serve_eq]
      cases hu : useNewest a b.stubs with
      | none =>
        obtain ⟨h₁, l₁⟩ := step_next hr
        exact (unexpected_same H h₁ (.unexpected (i := { uid := w.next, mock := m, method := f, body := b.uid, args := a }) (held_now h₁ (b := b) hb))).later l₁
      | some vs =>
        obtain ⟨v, stubs⟩ := vs
        obtain ⟨h₁, l₁⟩ := step_record hr hb a
        have hd' : ({ name := b.name, stubs := stubs } : Method A V) = ({ b with stubs := stubs } : Body A V).meth := rfl
        obtain ⟨h₂, l₂⟩ := step_put h₁ (m := m) (f := f) (b := b) hb (b' := { b with stubs := stubs }) rfl hd'
        cases v with
        | some v => exact .done h₂ (l₁.trans l₂)
        | none =>
          refine (unexpected_same H h₂ ?_).later (l₁.trans l₂)
          exact .unexpected (i := { uid := w.next, mock := m, method := f, body := b.uid, args := a }) (held_now h₂ (b := { b with stubs := stubs }) (put_same _ _ _ _))

theorem ptr_now {w : World A V} {s : Mocks A V} (hr : Rel w s) {i} (hi : i ∈ w.recs) : Ptr w s i.uid (s.show i.value) :=
  ⟨hr.rec_lt i hi, Nat.le_refl _, fun _ => ⟨i, hi, rfl, rfl, rfl, rfl⟩, fun h => absurd rfl h⟩

theorem ptrs_now {w : World A V} {s : Mocks A V} (hr : Rel w s) (l : List (Inv A)) (hl : ∀ i, i ∈ l → i ∈ w.recs) : Ptrs w s (l.map Inv.uid) ((l.map Inv.value).map s.show) := by
  induction l with
  | nil => exact .nil
  | cons i l ih => exact .cons (ptr_now hr (hl i (List.mem_cons_self ..))) (ih fun j hj => hl j (List.mem_cons_of_mem _ hj))

theorem verify_same {hc : Event A → World A V → R (Out A X × World A V)} {hd} (H : SameHandle hc hd) {w s} (hr : Rel w s) (m f n : Nat) (ma : A → Bool) (ok : Nat → Bool) :
    Same w s (Inside.verifyMethod hc m f n ma ok w) (Spec.verifyMethod hd m f n ma ok s) := by
  unfold Inside.verifyMethod Spec.verifyMethod
  rw [hr.ended]
  split
  · exact .ub
  · obtain ⟨h₁, l₁, hb, hm, hrec⟩ := step_named hr m f n
    generalize w.named m f n = bw at *
    obtain ⟨b, w'⟩ := bw
    simp only at h₁ l₁ hb hm hrec ⊢
    generalize s.put m f _ = s' at *
    have hit : ∀ i, i ∈ w'.recs → (fun r : Rec A => r.mock == m && r.method == f && ma r.args) i.value = (fun i : Inv A => i.mock == m && i.body == b.uid && ma i.args) i := by
      intro i hi
      obtain ⟨b', hb', hu⟩ := h₁.rec_body i hi
      simp only [Inv.value]
      by_cases hm : i.mock = m
      · by_cases hf : i.method = f
        · rw [hm, hf, hb] at hb'; cases hb'
          simp [hm, hf, hu]
        · have : i.body ≠ b.uid := by
            intro e
            exact hf (h₁.body_inj _ _ _ _ _ _ hb' hb (hu.trans e)).2
          rw [hm, beq_eq_false_iff_ne.2 hf, beq_eq_false_iff_ne.2 this]
      · rw [beq_eq_false_iff_ne.2 hm]; rfl
    have hcount : (s'.recs.filter fun r => r.mock == m && r.method == f && ma r.args) = (w'.recs.filter fun i => i.mock == m && i.body == b.uid && ma i.args).map Inv.value := by
      rw [h₁.recs]; exact filter_rec _ _ _ hit
    rw [hcount, List.length_map]
    split
    · obtain ⟨h₂, l₂⟩ := step_mark h₁ (fun i : Inv A => i.mock == m && i.body == b.uid && ma i.args) (fun r : Rec A => r.mock == m && r.method == f && ma r.args) hit
      exact .done h₂ (l₁.trans l₂)
    · have hall : (s'.recs.filter fun r => r.mock == m) = (w'.recs.filter fun i => i.mock == m).map Inv.value := by
        rw [h₁.recs]; exact filter_rec _ _ _ fun _ _ => rfl
      rw [hall, List.length_map, ← List.map_take]
      refine (H _ _ _ _ h₁ (.failed (ptrs_now h₁ _ ?_))).later l₁
      exact fun i hi => (List.mem_filter.1 (List.mem_of_mem_take hi)).1

theorem verifyRest_same {hc : Event A → World A V → R (Out A X × World A V)} {hd} (H : SameHandle hc hd) {w s} (hr : Rel w s) (m : Nat) :
    Same w s (Inside.verifyRest hc m w) (Spec.verifyRest hd m s) := by
  unfold Inside.verifyRest Spec.verifyRest
  rw [hr.ended]
  split
  · exact .ub
  · have hall : (s.recs.filter fun r => r.mock == m && !r.verified) = (w.recs.filter fun i => i.mock == m && !i.verified).map Inv.value := by
      rw [hr.recs]; exact filter_rec _ _ _ fun _ _ => rfl
    rw [hall]
    simp only [List.isEmpty_map, List.length_map, ← List.map_take]
    split
    · exact .done hr (.refl _ _)
    · refine H _ _ _ _ hr (.noMore (ptrs_now hr _ ?_))
      exact fun i hi => (List.mem_filter.1 (List.mem_of_mem_take hi)).1

/-- The event a handler is called with. -/
inductive EvO (w : World A V) (s : Mocks A V) : Option (Event A) → Option (Happening A) → Prop where
  | none : EvO w s none none
  | some {e h} (H : Ev w s e h) : EvO w s (some e) (some h)

theorem EvO.later {w s w' s'} (l : Later (A := A) (V := V) w s w' s') {e h} (H : EvO w s e h) : EvO w' s' e h := by
  cases H with
  | none => exact .none
  | some H => exact .some (l.ev H)

theorem run_same {hc : Event A → World A V → R (Out A X × World A V)} {hd} (H : SameHandle hc hd) (code : Code A V X) : ∀ {w s} (_ : Rel w s) {e h} (_ : EvO w s e h),
    Same w s (Inside.run hc e code w) (Spec.run hd h code s) := by
  induction code with
  | done => intro w s hr e h _; exact .done hr (.refl _ _)
  | throw x => intro w s hr e h _; exact .done hr (.refl _ _)
  | format k ih =>
    intro w s hr e h he
    cases he with
    | none => exact ih _ hr .none
    | some he =>
      rename_i e h
      simp only [Inside.run, Spec.run]
      have := format_same hr he
      generalize w.format e = x at this
      generalize s.report h = y at this
      cases this with
      | ub => exact .ub
      | oof => exact .oof
      | done h₂ l => exact (ih _ h₂ (.some (l.ev he))).later l
  | print r k ih =>
    intro w s hr e h he
    obtain ⟨h₁, l⟩ := step_print hr r
    exact (ih h₁ (he.later l)).later l
  | call m f a k ih =>
    intro w s hr e h he
    simp only [Inside.run, Spec.run]
    have := call_same H hr m f a
    generalize Inside.callMethod hc m f a w = x at this
    generalize Spec.callMethod hd m f a s = y at this
    cases this with
    | ub => exact .ub
    | oof => exact .oof
    | done h₂ l =>
      rename_i o w' s'
      cases o with
      | value v => exact (ih _ h₂ (he.later l)).later l
      | thrown x => exact (ih _ h₂ (he.later l)).later l
      | aborted => exact .done h₂ l
  | stub m f n st k ih =>
    intro w s hr e h he
    simp only [Inside.run, Spec.run, hr.ended]
    split
    · exact .ub
    · obtain ⟨h₁, l₁, hb, hm, _⟩ := step_named hr m f n
      have hd' : (⟨.given n, st :: (s.methodOf m f).stubs⟩ : Method A V) = ({ (w.named m f n).1 with stubs := st :: (w.named m f n).1.stubs } : Body A V).meth := by
        have h₁ : (w.named m f n).1.name = .given n := congrArg Method.name hm
        have h₂ : (w.named m f n).1.stubs = (s.methodOf m f).stubs := congrArg Method.stubs hm
        simp only [Body.meth, h₁, h₂]
      obtain ⟨h₂, l₂⟩ := step_put h₁ hb (b' := { (w.named m f n).1 with stubs := st :: (w.named m f n).1.stubs }) rfl hd'
      rw [put_put] at h₂ l₂
      exact (ih h₂ (he.later (l₁.trans l₂))).later (l₁.trans l₂)
  | verify m f n ma ok k ih =>
    intro w s hr e h he
    simp only [Inside.run, Spec.run]
    have := verify_same H hr m f n ma ok
    generalize Inside.verifyMethod hc m f n ma ok w = x at this
    generalize Spec.verifyMethod hd m f n ma ok s = y at this
    cases this with
    | ub => exact .ub
    | oof => exact .oof
    | done h₂ l =>
      rename_i o w' s'
      cases o with
      | returned => exact (ih _ h₂ (he.later l)).later l
      | thrown x => exact (ih _ h₂ (he.later l)).later l
      | aborted => exact .done h₂ l
  | verifyNoOther m k ih =>
    intro w s hr e h he
    simp only [Inside.run, Spec.run]
    have := verifyRest_same H hr m
    generalize Inside.verifyRest hc m w = x at this
    generalize Spec.verifyRest hd m s = y at this
    cases this with
    | ub => exact .ub
    | oof => exact .oof
    | done h₂ l =>
      rename_i o w' s'
      cases o with
      | returned => exact (ih _ h₂ (he.later l)).later l
      | thrown x => exact (ih _ h₂ (he.later l)).later l
      | aborted => exact .done h₂ l
  | clear m k ih =>
    intro w s hr e h he
    simp only [Inside.run, Spec.run, hr.ended]
    split
    · exact .ub
    · obtain ⟨h₁, l⟩ := step_clear hr m
      exact (ih h₁ (he.later l)).later l
  | reset m k ih =>
    intro w s hr e h he
    simp only [Inside.run, Spec.run, hr.ended]
    split
    · exact .ub
    · obtain ⟨h₁, l⟩ := step_reset hr m
      exact (ih h₁ (he.later l)).later l
  | destroy m k ih =>
    intro w s hr e h he
    simp only [Inside.run, Spec.run, hr.ended]
    split
    · exact .ub
    · obtain ⟨h₁, l⟩ := step_destroy hr m
      exact (ih h₁ (he.later l)).later l

theorem tellAll_same {tc : Nat → World A V → R (Out A X × World A V)} {td} {e : Event A} {d : Happening A} (H : ∀ l w s, Rel w s → Ev w s e d → Same w s (tc l w) (td l s)) (ls : List Nat) :
    ∀ {w s} (_ : Rel w s) (_ : Ev w s e d), Same w s (tellAll tc ls w) (inTurn td ls s) := by
  induction ls with
  | nil => exact fun hr _ => .done hr (.refl _ _)
  | cons l ls ih =>
    intro w s hr he
    simp only [tellAll, inTurn]
    have := H l w s hr he
    generalize tc l w = x at this
    generalize td l s = y at this
    cases this with
    | ub => exact .ub
    | oof => exact .oof
    | done h₂ l' =>
      rename_i o w' s'
      cases o with
      | returned => exact (ih h₂ (l'.ev he)).later l'
      | thrown x => exact .done h₂ l'
      | aborted => exact .done h₂ l'

theorem stops_eq (c : Config A V X) (k : Kind) : c.stops k = (c.asserting && (k = .unmocked || k = .unmatched)) := by
  cases k <;> simp [Config.stops]

theorem handle_same (c : Config A V X) (fuel : Nat) : SameHandle (handle c fuel) (deliver c fuel) := by
  induction fuel with
  | zero => exact fun w s e h _ _ => .oof
  | succ n ih =>
    intro w s e d hr he
    simp only [handle, deliver, hr.events, he.kind, stops_eq]
    have ht : ∀ l w' s', Rel w' s' → Ev w' s' e d → Same w' s' (Inside.run (handle c n) (some e) (c.react l d.kind w.events) w') (Spec.run (deliver c n) (some d) (c.react l d.kind w.events) s') :=
      fun l w' s' hr' he' => run_same ih _ hr' (.some he')
    obtain ⟨h₁, l₁⟩ := step_event hr
    have := tellAll_same ht c.listeners h₁ (l₁.ev he)
    rw [hr.events] at this l₁
    generalize tellAll _ _ _ = x at this
    generalize inTurn _ _ _ = y at this
    cases this with
    | ub => exact .ub
    | oof => exact .oof
    | done h₂ l' =>
      rename_i o w' s'
      cases o with
      | returned =>
        simp only [R.bind_done]
        split
        · exact .done h₂ (l₁.trans l')
        · exact (ht c.adapter w' s' h₂ ((l₁.trans l').ev he)).later (l₁.trans l')
      | thrown x => exact .done h₂ (l₁.trans l')
      | aborted => exact .done h₂ (l₁.trans l')

theorem fresh_rel : Rel ({} : World A V) ({} : Mocks A V) :=
  ⟨fun _ _ => rfl, rfl, rfl, rfl, rfl, fun _ _ _ h => (nomatch h), fun _ _ _ _ _ _ h => (nomatch h), fun _ h => (nomatch h), fun _ _ h => (nomatch h), fun _ h => (nomatch h)⟩

theorem test_same (c : Config A V X) (fuel : Nat) (code : Code A V X) {w : World A V} {s : Mocks A V} (hr : Rel w s) : Same w s (test c fuel code w) (Spec.test c fuel code s) :=
  run_same (handle_same c fuel) code hr .none

end FakeIt.Inside
