import Verif.Lemmas.MatchAnalysis
import Verif.Spec.AbstractMock
/-!
# The search of `MatchAnalysis` on indices and the search of the abstract mock on lists are the same; lists related element by element
-/
namespace FakeIt
open Spec
namespace MatchAnalysis
variable {L I : Type} {mt : L → I → Bool}

theorem takeBlock_some {e : List L} {cs : List I} {r : List I × List I} (h : takeBlock mt e cs = some r) :
    r = (cs.take e.length, cs.drop e.length) ∧ e.length ≤ cs.length := by
  induction e generalizing cs r with
  | nil => simp [takeBlock] at h; subst h; simp
  | cons l e ih =>
    cases cs with
    | nil => simp [takeBlock] at h
    | cons c cs =>
      simp only [takeBlock] at h
      split at h
      · obtain ⟨x, hx, rfl⟩ := Option.map_eq_some_iff.1 h
        obtain ⟨rfl, hl⟩ := ih hx
        exact ⟨by simp, by simp; omega⟩
      · cases h

theorem takeBlock_short {e : List L} {cs : List I} (h : cs.length < e.length) : takeBlock mt e cs = none := by
  cases hr : takeBlock mt e cs with
  | none => rfl
  | some r => have := (takeBlock_some hr).2; omega

theorem findBlock_short {e : List L} {cs : List I} (h : cs.length < e.length) : findBlock mt e cs = none := by
  induction cs with
  | nil => simp only [findBlock]; exact takeBlock_short h
  | cons c cs ih =>
    simp only [findBlock, takeBlock_short h]
    exact ih (by simp at h; omega)

theorem findBlock_take {e : List L} {cs : List I} {r : List I × List I} (h : takeBlock mt e cs = some r) : findBlock mt e cs = some r := by
  cases cs with
  | nil => exact h
  | cons c cs => simp only [findBlock, h]

theorem isMatchFrom_take (actual : List I) (start : Nat) (es : List L) : ∀ j, start + j + es.length ≤ actual.length →
    isMatchFrom mt actual start j es = .done (takeBlock mt es (actual.drop (start + j))).isSome := by
  induction es with
  | nil => intro j _; simp [isMatchFrom, takeBlock]
  | cons e es ih =>
    intro j hb
    simp only [List.length_cons] at hb
    have hlt : start + j < actual.length := by omega
    simp only [isMatchFrom, List.getElem?_eq_getElem hlt]
    rw [List.drop_eq_getElem_cons hlt]
    simp only [takeBlock]
    by_cases hm : mt e actual[start + j] = true
    · rw [if_pos hm, if_pos hm, ih (j + 1) (by omega)]
      simp [Nat.add_assoc]
    · rw [if_neg hm, if_neg hm]; rfl

theorem scan_find (actual : List I) (e : List L) (he : 0 < e.length) (n i : Nat)
    (hn : n = 0 ∧ actual.length < i + e.length ∨ i + n + e.length = actual.length + 1) :
    ∃ r, scan mt actual e n i = .done r ∧ (∀ j, r = some j → i ≤ j ∧ j + e.length ≤ actual.length) ∧
      findBlock mt e (actual.drop i) = r.map fun j => ((actual.drop j).take e.length, actual.drop (j + e.length)) := by
  induction n generalizing i with
  | zero =>
    refine ⟨none, rfl, by simp, ?_⟩
    rw [findBlock_short (by simp; omega)]; rfl
  | succ n ih =>
    have hle : i + e.length ≤ actual.length := by omega
    simp only [scan, isMatch, isMatchFrom_take (mt := mt) actual i e 0 (by simpa using hle), R.bind_done, Nat.add_zero]
    cases ht : takeBlock mt e (actual.drop i) with
    | some r =>
      refine ⟨some i, by simp, by simp [hle], ?_⟩
      rw [findBlock_take ht, (takeBlock_some ht).1]; simp
    | none =>
      have hlt : i < actual.length := by omega
      obtain ⟨r, h1, h2, h3⟩ := ih (i + 1) (by omega)
      refine ⟨r, by simpa using h1, fun j hj => ⟨by have := (h2 j hj).1; omega, (h2 j hj).2⟩, ?_⟩
      rw [← h3, List.drop_eq_getElem_cons hlt]
      rw [List.drop_eq_getElem_cons hlt] at ht
      simp only [findBlock, ht]

theorem findNext1_find (actual : List I) (e : List L) (he : 0 < e.length) (start : Nat) :
    ∃ r, findNext1 mt actual e start = .done r ∧ (∀ j, r = some j → start ≤ j ∧ j + e.length ≤ actual.length) ∧
      findBlock mt e (actual.drop start) = r.map fun j => ((actual.drop j).take e.length, actual.drop (j + e.length)) := by
  apply scan_find _ _ he
  omega

theorem findNextP_find (actual : List I) (pat : List (Seq L)) (hne : ∀ s ∈ pat, s.expected ≠ []) : ∀ (start : Nat) (matched : List I),
    ∃ r, findNextP mt actual pat start matched = .done (r, matched ++ (findPattern mt (pat.map Seq.expected) (actual.drop start)).1) ∧
      (findPattern mt (pat.map Seq.expected) (actual.drop start)).2 = r.map (actual.drop ·) ∧
      (∀ stop, r = some stop → start + (pat.map Seq.size).sum ≤ stop ∧ (start ≤ actual.length → stop ≤ actual.length)) := by
  induction pat with
  | nil => intro start matched; exact ⟨some start, by simp [findNextP, findPattern], by simp [findPattern], by simp⟩
  | cons s pat ih =>
    intro start matched
    obtain ⟨r, h1, h2, h3⟩ := findNext1_find (mt := mt) actual s.expected (List.length_pos_iff.2 (hne s (by simp))) start
    simp only [findNextP, h1, R.bind_done, List.map_cons, findPattern, h3]
    cases r with
    | none => exact ⟨none, by simp, by simp, by simp⟩
    | some j =>
      have hj := h2 j rfl
      rw [Seq.length_expected] at hj
      simp only [collect_eq actual j s.size hj.2, R.bind_done, Option.map_some, Seq.length_expected]
      obtain ⟨r', g1, g2, g3⟩ := ih (fun x hx => hne x (by simp [hx])) (j + s.size) (matched ++ (actual.drop j).take s.size)
      refine ⟨r', by rw [g1]; simp, g2, fun stop hs => ?_⟩
      obtain ⟨a, b⟩ := g3 stop hs
      refine ⟨?_, fun _ => b hj.2⟩
      simp only [List.sum_cons]; omega

theorem countLoop_find (actual : List I) (pat : List (Seq L)) (hne : ∀ s ∈ pat, s.expected ≠ []) (hpos : 0 < (pat.map Seq.size).sum) : ∀ (fuel start count : Nat) (matched : List I),
    start ≤ actual.length → actual.length < start + fuel →
    countLoop mt actual pat fuel start count matched =
      .done (count + (findAll mt (pat.map Seq.expected) fuel (actual.drop start)).1, matched ++ (findAll mt (pat.map Seq.expected) fuel (actual.drop start)).2) := by
  intro fuel
  induction fuel with
  | zero => intro start count matched h1 h2; omega
  | succ fuel ih =>
    intro start count matched h1 h2
    obtain ⟨r, g1, g2, g3⟩ := findNextP_find (mt := mt) actual pat hne start matched
    simp only [countLoop, g1, R.bind_done, findAll]
    cases hf : findPattern mt (pat.map Seq.expected) (actual.drop start) with
    | mk taken o =>
      rw [hf] at g2
      simp only at g2
      subst g2
      cases r with
      | none => simp
      | some stop =>
        obtain ⟨a, b⟩ := g3 stop rfl
        simp only [Option.map_some]
        rw [ih stop (count + 1) _ (b h1) (by omega)]
        simp [List.append_assoc]; omega

/-- The search of the library is the search of the abstract mock. -/
theorem countMatches_find (actual : List I) (pat : List (Seq L)) (hne : ∀ s ∈ pat, s.expected ≠ []) (hp : pat ≠ []) :
    countMatches mt actual pat = .done (findAll mt (pat.map Seq.expected) (actual.length + 1) actual) := by
  unfold countMatches
  have hpos : 0 < (pat.map Seq.size).sum := by
    cases pat with
    | nil => exact absurd rfl hp
    | cons s pat =>
      have := List.length_pos_iff.2 (hne s (by simp))
      rw [Seq.length_expected] at this
      simp only [List.map_cons, List.sum_cons]; omega
  rw [countLoop_find actual pat hne hpos _ _ _ _ (by omega) (by omega)]
  simp

end MatchAnalysis

/-! ## Lists related element by element -/

/-- Same length, and elements at the same position are related. -/
inductive All2 {α β : Type} (R : α → β → Prop) : List α → List β → Prop where
  | nil : All2 R [] []
  | cons {a b l l'} : R a b → All2 R l l' → All2 R (a :: l) (b :: l')

namespace All2
variable {α β : Type} {R S : α → β → Prop}

theorem mono (h : ∀ a b, R a b → S a b) {l l'} (hl : All2 R l l') : All2 S l l' := by
  induction hl with
  | nil => exact .nil
  | cons h1 _ ih => exact .cons (h _ _ h1) ih

theorem length {l l'} (h : All2 R l l') : l.length = l'.length := by
  induction h with
  | nil => rfl
  | cons _ _ ih => simp [ih]

theorem append {l l' k k'} (h : All2 R l l') (hk : All2 R k k') : All2 R (l ++ k) (l' ++ k') := by
  induction h with
  | nil => exact hk
  | cons h1 _ ih => exact .cons h1 ih

theorem map {γ δ : Type} {T : γ → δ → Prop} {f : α → γ} {g : β → δ} (hf : ∀ a b, R a b → T (f a) (g b)) {l l'} (h : All2 R l l') :
    All2 T (l.map f) (l'.map g) := by
  induction h with
  | nil => exact .nil
  | cons h1 _ ih => exact .cons (hf _ _ h1) ih

theorem map_eq {γ : Type} {f : α → γ} {g : β → γ} (hf : ∀ a b, R a b → f a = g b) {l l'} (h : All2 R l l') : l.map f = l'.map g := by
  induction h with
  | nil => rfl
  | cons h1 _ ih => simp [ih, hf _ _ h1]

theorem filter {p : α → Bool} {q : β → Bool} (hp : ∀ a b, R a b → p a = q b) {l l'} (h : All2 R l l') : All2 R (l.filter p) (l'.filter q) := by
  induction h with
  | nil => exact .nil
  | @cons a b _ _ h1 _ ih =>
    rw [List.filter_cons, List.filter_cons, hp a b h1]
    split
    · exact .cons h1 ih
    · exact ih

theorem left {l l'} (h : All2 R l l') {a} (ha : a ∈ l) : ∃ b ∈ l', R a b := by
  induction h with
  | nil => cases ha
  | cons h1 _ ih =>
    rcases List.mem_cons.1 ha with rfl | ha
    · exact ⟨_, by simp, h1⟩
    · obtain ⟨b, hb, hr⟩ := ih ha; exact ⟨b, by simp [hb], hr⟩

theorem right {l l'} (h : All2 R l l') {b} (hb : b ∈ l') : ∃ a ∈ l, R a b := by
  induction h with
  | nil => cases hb
  | cons h1 _ ih =>
    rcases List.mem_cons.1 hb with rfl | hb
    · exact ⟨_, by simp, h1⟩
    · obtain ⟨a, ha, hr⟩ := ih hb; exact ⟨a, by simp [ha], hr⟩

/-- The relation may use membership. -/
theorem withMem {l l'} (h : All2 R l l') : All2 (fun a b => R a b ∧ a ∈ l ∧ b ∈ l') l l' := by
  induction h with
  | nil => exact .nil
  | cons h1 _ ih => exact .cons ⟨h1, by simp, by simp⟩ (ih.mono fun a b h => ⟨h.1, by simp [h.2.1], by simp [h.2.2]⟩)

/-- Two lists sorted by corresponding keys whose elements correspond are related element by element. -/
theorem of_sorted {f : α → Nat} {g : β → Nat} (hfg : ∀ a b, R a b → f a = g b) : ∀ {l : List α} {l' : List β},
    (l.Pairwise fun a b => f a < f b) → (l'.Pairwise fun a b => g a < g b) → (∀ a ∈ l, ∃ b ∈ l', R a b) → (∀ b ∈ l', ∃ a ∈ l, R a b) → All2 R l l' := by
  intro l
  induction l with
  | nil =>
    intro l' _ _ _ h
    cases l' with
    | nil => exact .nil
    | cons b l' => obtain ⟨a, ha, -⟩ := h b (by simp); cases ha
  | cons a l ih =>
    intro l' hs hs' h1 h2
    cases l' with
    | nil => obtain ⟨b, hb, -⟩ := h1 a (by simp); cases hb
    | cons b l' =>
      rw [List.pairwise_cons] at hs hs'
      have hab : f a = g b := by
        obtain ⟨b', hb', hr⟩ := h1 a (by simp)
        obtain ⟨a', ha', hr'⟩ := h2 b (by simp)
        have e1 := hfg _ _ hr
        have e2 := hfg _ _ hr'
        have l1 : g b ≤ g b' := by
          rcases List.mem_cons.1 hb' with rfl | hb'
          · exact Nat.le_refl _
          · exact Nat.le_of_lt (hs'.1 _ hb')
        have l2 : f a ≤ f a' := by
          rcases List.mem_cons.1 ha' with rfl | ha'
          · exact Nat.le_refl _
          · exact Nat.le_of_lt (hs.1 _ ha')
        omega
      refine .cons ?_ (ih hs.2 hs'.2 ?_ ?_)
      · obtain ⟨b', hb', hr⟩ := h1 a (by simp)
        rcases List.mem_cons.1 hb' with rfl | hb'
        · exact hr
        · have := hs'.1 _ hb'
          have := hfg _ _ hr
          omega
      · intro x hx
        obtain ⟨b', hb', hr⟩ := h1 x (by simp [hx])
        rcases List.mem_cons.1 hb' with rfl | hb'
        · have := hs.1 _ hx
          have := hfg _ _ hr
          omega
        · exact ⟨b', hb', hr⟩
      · intro y hy
        obtain ⟨a', ha', hr⟩ := h2 y (by simp [hy])
        rcases List.mem_cons.1 ha' with rfl | ha'
        · have := hs'.1 _ hy
          have := hfg _ _ hr
          omega
        · exact ⟨a', ha', hr⟩

/-- Related options. -/
def Opt {α β : Type} (R : α → β → Prop) : Option α → Option β → Prop
  | none, none => True
  | some a, some b => R a b
  | _, _ => False

theorem find? {p : α → Bool} {q : β → Bool} (hp : ∀ a b, R a b → p a = q b) {l l'} (h : All2 R l l') : Opt R (l.find? p) (l'.find? q) := by
  induction h with
  | nil => trivial
  | @cons a b _ _ h1 _ ih =>
    rw [List.find?_cons, List.find?_cons, hp a b h1]
    split
    · exact h1
    · exact ih

end All2

section Transport
variable {L α β : Type} {R : α → β → Prop} {mt : L → α → Bool} {mt' : L → β → Bool}

theorem takeBlock_all2 (h : ∀ a b, R a b → ∀ l, mt l a = mt' l b) (e : List L) {cs ds} (hc : All2 R cs ds) :
    All2.Opt (fun r r' => All2 R r.1 r'.1 ∧ All2 R r.2 r'.2) (takeBlock mt e cs) (takeBlock mt' e ds) := by
  induction e generalizing cs ds with
  | nil => exact ⟨.nil, hc⟩
  | cons l e ih =>
    cases hc with
    | nil => trivial
    | @cons c d cs ds hcd hcs =>
      simp only [takeBlock, h c d hcd l]
      split
      · have := ih hcs
        cases hx : takeBlock mt e cs <;> cases hy : takeBlock mt' e ds <;> rw [hx, hy] at this
        · trivial
        · exact this.elim
        · exact this.elim
        · exact ⟨.cons hcd this.1, this.2⟩
      · trivial

theorem findBlock_all2 (h : ∀ a b, R a b → ∀ l, mt l a = mt' l b) (e : List L) {cs ds} (hc : All2 R cs ds) :
    All2.Opt (fun r r' => All2 R r.1 r'.1 ∧ All2 R r.2 r'.2) (findBlock mt e cs) (findBlock mt' e ds) := by
  induction hc with
  | nil => exact takeBlock_all2 h e .nil
  | @cons c d cs ds hcd hcs ih =>
    have := takeBlock_all2 h e (All2.cons hcd hcs)
    simp only [findBlock]
    cases hx : takeBlock mt e (c :: cs) <;> cases hy : takeBlock mt' e (d :: ds) <;> rw [hx, hy] at this
    · exact ih
    · exact this.elim
    · exact this.elim
    · exact this

theorem findPattern_all2 (h : ∀ a b, R a b → ∀ l, mt l a = mt' l b) (pat : List (List L)) {cs ds} (hc : All2 R cs ds) :
    All2 R (findPattern mt pat cs).1 (findPattern mt' pat ds).1 ∧ All2.Opt (All2 R) (findPattern mt pat cs).2 (findPattern mt' pat ds).2 := by
  induction pat generalizing cs ds with
  | nil => exact ⟨.nil, hc⟩
  | cons e pat ih =>
    have := findBlock_all2 h e hc
    simp only [findPattern]
    cases hx : findBlock mt e cs <;> cases hy : findBlock mt' e ds <;> rw [hx, hy] at this
    · exact ⟨.nil, trivial⟩
    · exact this.elim
    · exact this.elim
    · exact ⟨this.1.append (ih this.2).1, (ih this.2).2⟩

/-- Corresponding lists give the same count and corresponding calls. -/
theorem findAll_all2 (h : ∀ a b, R a b → ∀ l, mt l a = mt' l b) (pat : List (List L)) (fuel : Nat) {cs ds} (hc : All2 R cs ds) :
    (findAll mt pat fuel cs).1 = (findAll mt' pat fuel ds).1 ∧ All2 R (findAll mt pat fuel cs).2 (findAll mt' pat fuel ds).2 := by
  induction fuel generalizing cs ds with
  | zero => exact ⟨rfl, .nil⟩
  | succ fuel ih =>
    have := findPattern_all2 h pat hc
    simp only [findAll]
    cases hx : findPattern mt pat cs with
    | mk t o =>
      cases hy : findPattern mt' pat ds with
      | mk t' o' =>
        rw [hx, hy] at this
        cases o <;> cases o'
        · exact ⟨rfl, this.1⟩
        · exact this.2.elim
        · exact this.2.elim
        · exact ⟨by simp [(ih this.2).1], this.1.append (ih this.2).2⟩

end Transport
end FakeIt
