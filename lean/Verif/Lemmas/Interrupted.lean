import Verif.Spec.Interrupted
import Verif.Props.Throwing
import Verif.Lemmas.Independent
import Verif.Lemmas.RefineTotal
import Verif.Lemmas.RefineRun
/-!
# Calls that exceptions interrupt: lemmas
-/
namespace FakeIt.Spec.Interrupted
open FakeIt.Throwing (Kind St Call)
open FakeIt.Spec.Throwing (chosen advance Untouched Recorded)

variable {V E X : Type} {P : Prog V E} {d : Doing V E}

/-! ## Lists -/

theorem chosen_find {α : Type} (p : α → Bool) (l : List α) : ∀ pre : List α,
    (∀ x, l.find? p = some x → ∃ j, chosen (fun h => ((pre ++ l)[h]?).any p) l.length pre.length = some (pre.length + j) ∧ l[j]? = some x) ∧
    (l.find? p = none → chosen (fun h => ((pre ++ l)[h]?).any p) l.length pre.length = none) := by
  induction l with
  | nil => intro pre; exact ⟨by simp, fun _ => rfl⟩
  | cons a l ih =>
    intro pre
    have hat : ((pre ++ a :: l)[pre.length]?).any p = p a := by simp
    have hih := ih (pre ++ [a])
    simp only [List.append_assoc, List.singleton_append, List.length_append, List.length_singleton] at hih
    cases hp : p a with
    | true =>
      refine ⟨fun x hx => ⟨0, ?_, ?_⟩, fun h => ?_⟩
      · simp only [chosen, List.length_cons, hat, hp, if_true, Nat.add_zero]
      · simpa [hp] using hx
      · simp [hp] at h
    | false =>
      refine ⟨fun x hx => ?_, fun h => ?_⟩
      · rw [List.find?_cons, hp] at hx
        obtain ⟨j, h1, h2⟩ := hih.1 x hx
        refine ⟨j + 1, ?_, by simpa using h2⟩
        simp only [chosen, List.length_cons, hat, hp, Bool.false_eq_true, if_false]
        rw [h1]
        congr 1
        omega
      · rw [List.find?_cons, hp] at h
        simp only [chosen, List.length_cons, hat, hp, Bool.false_eq_true, if_false]
        exact hih.2 h

theorem map_name {l : List (Stub V E)} (hn : (l.map Stub.name).Nodup) {j : Nat} {x : Stub V E} (hj : l[j]? = some x) (f : Stub V E → Stub V E) :
    (l.map fun y => if y.name = x.name then f y else y) = l.modify j f := by
  apply List.ext_getElem?
  intro i
  rw [List.getElem?_map, List.getElem?_modify]
  cases hi : l[i]? with
  | none => simp
  | some y =>
    simp only [Option.map_some]
    by_cases hij : j = i
    · subst hij
      rw [hj] at hi
      cases hi
      simp
    · have : y.name ≠ x.name := by
        intro he
        apply hij
        have h1 : (l.map Stub.name)[i]? = some y.name := by simp [hi]
        have h2 : (l.map Stub.name)[j]? = some y.name := by simp [hj, he]
        exact (List.getElem?_inj (by simpa using (List.getElem?_eq_some_iff.1 hj).1) hn).1 (h2.trans h1.symm)
      simp [this, hij]

theorem advance_map {l : List (Act V E)} (h : WritableActs l) : advance (l.map (actOf d)) = (rest l).map (actOf d) := by
  cases l with
  | nil => rfl
  | cons a l =>
    cases a with
    | rep n f =>
      have hn : 1 ≤ n := h (Act.rep n f) (by simp)
      simp only [List.map_cons, actOf, timesOf, advance, rest]
      by_cases h1 : n = 1
      · subst h1; simp
      · rw [if_neg h1, if_neg (by omega)]; rfl
    | _ => rfl

theorem modify_map {l : List (Stub V E)} {j : Nat} {x : Stub V E} (hj : l[j]? = some x) (hx : WritableActs x.script) :
    ((l.map fun x => x.script.map (actOf d)).modify j advance) = (l.modify j fun x => { x with script := rest x.script }).map fun x => x.script.map (actOf d) := by
  apply List.ext_getElem?
  intro i
  rw [List.getElem?_modify, List.getElem?_map, List.getElem?_map, List.getElem?_modify]
  by_cases hij : j = i
  · subst hij
    simp [hj, advance_map hx]
  · simp [hij]

/-! ## The abstract mock -/

/-- A method whose stubbings are in order. -/
structure Ready (P : Prog V E) (s : AState V E) (m off : Nat) (k : AMock V E) (l : List (Stub V E)) : Prop where
  mock : s.mocks[m]? = some k
  stubs : k.stubs off = some l
  names : (l.map Stub.name).Nodup
  acts : ∀ x ∈ l, WritableActs x.script

theorem ready_of_rel {nm : MockId → Nat → Nat} {s : AState V E} {w : World V E} (hP : P.Named nm) (hw : Reach P nm w) (hR : Rel P s w) {m off : Nat} {k : AMock V E} {l : List (Stub V E)} (hk : s.mocks[m]? = some k) (hl : k.stubs off = some l) :
    Ready P s m off k l := by
  obtain ⟨k', hk', MR⟩ := hR.mocks.get hk
  have hB := MR.body off
  rw [hl] at hB
  cases hb : k'.body? off with
  | none => rw [hb] at hB; exact hB.elim
  | some b =>
    rw [hb] at hB
    have hB' : All2 StubRel b.handlers.reverse l := hB
    have hnd := (hw.wf hP).inv2.nodup (m := m) (off := off) (b := b) (by simp [World.body?, hk', hb])
    refine ⟨hk, hl, ?_, ?_⟩
    · have he : ∀ {hs : List (Handler V E)} {l : List (Stub V E)}, All2 StubRel hs l → hs.map (·.addr) = l.map fun x => x.name + 1 := by
        intro hs l h
        induction h with
        | nil => rfl
        | cons h _ ih => simp only [List.map_cons, ih, h.addr, h.name]
      have h1 : (b.handlers.reverse.map (·.addr)).Nodup := by
        rw [List.map_reverse]
        exact (List.reverse_perm _).nodup_iff.2 hnd
      rw [he hB'] at h1
      have h2 : ((l.map Stub.name).map (· + 1)).Nodup := by simpa [List.map_map, Function.comp_def] using h1
      exact List.Pairwise.of_map (· + 1) (fun a b h => by omega) h2
    · have he : ∀ {hs : List (Handler V E)} {l : List (Stub V E)}, All2 StubRel hs l → ∀ x ∈ l, WritableActs x.script := by
        intro hs l h
        induction h with
        | nil => intro x hx; cases hx
        | cons h _ ih =>
          intro x hx
          rcases List.mem_cons.1 hx with rfl | hx
          · exact h.writable
          · exact ih x hx
      exact he hB'

theorem values_val (heap : Addr → V) (vs : List V) : valuesOf heap (vs.map Arg.val) = vs := by
  simp [valuesOf, List.map_map, Function.comp_def]

/-- The stubbings after one was used. -/
def used (l : List (Stub V E)) (j : Nat) : List (Stub V E) := l.modify j fun x => { x with script := rest x.script }

theorem used_kinds (l : List (Stub V E)) (j : Nat) : (used l j).map Stub.kind = l.map Stub.kind := by
  apply List.ext_getElem?
  intro i
  simp only [used, List.getElem?_map, List.getElem?_modify]
  cases l[i]? with
  | none => rfl
  | some x => by_cases h : j = i <;> simp [h]

theorem used_names (l : List (Stub V E)) (j : Nat) : (used l j).map Stub.name = l.map Stub.name := by
  apply List.ext_getElem?
  intro i
  simp only [used, List.getElem?_map, List.getElem?_modify]
  cases l[i]? with
  | none => rfl
  | some x => by_cases h : j = i <;> simp [h]

theorem callOf_kinds {l l' : List (Stub V E)} (h : l'.map Stub.kind = l.map Stub.kind) (copied : List Nat) (vs : List V) : callOf l' copied vs = callOf l copied vs := by
  unfold callOf
  congr 1
  funext i
  have := congrArg (·[i]?) h
  simp only [List.getElem?_map] at this
  cases h1 : l[i]? with
  | none => rw [h1] at this; cases h2 : l'[i]? with
    | none => rfl
    | some y => rw [h2] at this; cases this
  | some x => rw [h1] at this; cases h2 : l'[i]? with
    | none => rw [h2] at this; cases this
    | some y => rw [h2] at this; simp at this; simp [this]

theorem used_acts {l : List (Stub V E)} (h : ∀ x ∈ l, WritableActs x.script) (j : Nat) : ∀ x ∈ used l j, WritableActs x.script := by
  intro x hx
  obtain ⟨i, hi⟩ := List.mem_iff_getElem?.1 hx
  rw [used, List.getElem?_modify] at hi
  cases h1 : l[i]? with
  | none => rw [h1] at hi; cases hi
  | some y =>
    rw [h1] at hi
    have hy := h y (List.mem_of_getElem? h1)
    by_cases hij : j = i
    · simp [hij] at hi
      subst hi
      rw [rest_eq hy]
      exact writable_next hy
    · simp [hij] at hi
      exact hi ▸ hy

/-- What a call makes of a method. -/
structure Served (P : Prog V E) (s s' : AState V E) (m off : Nat) (k : AMock V E) (l : List (Stub V E)) (vs : List V) : Prop where
  nobody : l.find? (fun x => accepts x.kind vs) = none → Ready P s' m off k l ∧ callsTo s' m off = callsTo s m off ∧ ∃ r, s'.log = s.log ++ [.unexpected .unmatched r]
  someone : ∀ (j : Nat) x, l.find? (fun x => accepts x.kind vs) = some x → l[j]? = some x →
    ∃ k', Ready P s' m off k' (used l j) ∧ k'.cls = k.cls ∧ k'.alive = k.alive ∧ k'.spied = k.spied ∧ (callsTo s' m off).length = (callsTo s m off).length + 1 ∧
      (x.script = [] → ∃ r, s'.log = s.log ++ [.unexpected .unmatched r])

theorem call_total (hP : P.Plain) {s : AState V E} {m off : Nat} {k : AMock V E} {l : List (Stub V E)} (h : Ready P s m off k l) (hc : Callable P k off) (vs : List V) :
    ∃ o s', aCall P s m off (vs.map .val) = some (o, s') := by
  have harr : arrives (P.cls k.cls) k off (vs.map .val) = (off, vs.map .val) := by
    unfold arrives
    split
    · rfl
    · rename_i dd hd
      rw [if_neg fun hh => hc.2.2.1 dd hd hh.1]
  simp only [aCall, h.mock, if_pos (And.intro hc.1 hc.2.1), harr, h.stubs]
  unfold Spec.serve
  dsimp only
  cases hf : l.find? fun st => accepts st.kind (valuesOf s.heap (vs.map .val)) with
  | none => exact ⟨_, _, rfl⟩
  | some st =>
    dsimp only
    cases hp : perform P (P.cls k.cls) k.spied off (vs.map .val) { s with made := s.made + 1 } st.script with
    | some x =>
      obtain ⟨o, as, s2⟩ := x
      simp only [Option.bind_eq_bind, Option.bind_some]
      cases o <;> exact ⟨_, _, rfl⟩
    | none =>
      exact (hc.2.2.2 (perform_none hP (h.acts st (List.mem_of_find?_eq_some hf)) hp).2).elim

theorem call_served {s s' : AState V E} {m off : Nat} {k : AMock V E} {l : List (Stub V E)} (h : Ready P s m off k l) (hc : Callable P k off) {vs : List V} {o : Outcome V E} (ha : aCall P s m off (vs.map .val) = some (o, s')) :
    Served P s s' m off k l vs := by
  have harr : arrives (P.cls k.cls) k off (vs.map .val) = (off, vs.map .val) := by
    unfold arrives
    split
    · rfl
    · rename_i dd hd
      rw [if_neg fun hh => hc.2.2.1 dd hd hh.1]
  simp only [aCall, h.mock, if_pos (And.intro hc.1 hc.2.1), harr, h.stubs] at ha
  unfold Spec.serve at ha
  dsimp only at ha
  rw [values_val] at ha
  constructor
  · intro hf
    rw [hf] at ha
    cases ha
    exact ⟨⟨h.mock, h.stubs, h.names, h.acts⟩, rfl, _, rfl⟩
  · intro j x hf hj
    rw [hf] at ha
    simp only [Option.bind_eq_bind, Option.bind_eq_some_iff] at ha
    obtain ⟨⟨o1, as, s2⟩, h1, h2⟩ := ha
    obtain ⟨e1, e2, -⟩ := FakeIt.Independent.perform_keeps h1
    dsimp only at h2 e1 e2
    have hR : ∀ t : AState V E, t.mocks = s2.mocks.modify m (fun k => k.onStubs off fun l => l.map fun y => if y.name = x.name then { y with script := rest y.script } else y) →
        t.calls = s2.calls ++ [⟨some (m, off), s.made + 1, as, some x.name, false⟩] →
        ∃ k', Ready P t m off k' (used l j) ∧ k'.cls = k.cls ∧ k'.alive = k.alive ∧ k'.spied = k.spied ∧ (callsTo t m off).length = (callsTo s m off).length + 1 := by
      intro t ht1 ht2
      refine ⟨k.onStubs off fun l => l.map fun y => if y.name = x.name then { y with script := rest y.script } else y, ⟨?_, ?_, ?_, used_acts h.acts j⟩, rfl, rfl, rfl, ?_⟩
      · rw [ht1, e1, List.getElem?_modify]
        simp [h.mock]
      · simp only [AMock.onStubs, if_true, h.stubs, Option.map_some]
        rw [map_name h.names hj]
        rfl
      · rw [used_names]
        exact h.names
      · simp [callsTo, ht2, e2, List.filter_append]
    have hnil : x.script = [] → o1 = .noMore ∧ s2.log = s.log := by
      intro hx
      rw [hx] at h1
      cases h1
      exact ⟨rfl, rfl⟩
    split at h2
    · obtain ⟨k', a, b, c, e, f⟩ := hR s' (by cases h2; rfl) (by cases h2; rfl)
      cases h2
      refine ⟨k', ⟨a.mock, a.stubs, a.names, a.acts⟩, b, c, e, f, fun hx => ?_⟩
      simp only [(hnil hx).2]
      exact ⟨_, rfl⟩
    · obtain ⟨k', a, b, c, e, f⟩ := hR s' (by cases h2; rfl) (by cases h2; rfl)
      refine ⟨k', a, b, c, e, f, fun hx => ?_⟩
      exact absurd (hnil hx).1 (by assumption)

end FakeIt.Spec.Interrupted
