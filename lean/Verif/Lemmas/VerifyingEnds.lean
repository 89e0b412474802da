import Verif.Model.Verifying
import Verif.Lemmas.MatchAnalysis
/-!
# Lemmas for C79: verifications end
-/
namespace FakeIt.Verifying

variable {V : Type}

/-- The code ends, and its value (if it has one) is as said. -/
def Ends {α : Type} (x : M V α) (Q : α → Prop) : Prop := ∀ s, x s ≠ .oof ∧ ∀ s' a, x s = .done (s', .val a) → Q a

theorem Ends.bind {α β : Type} {x : M V α} {f : α → M V β} {Q : α → Prop} {Q' : β → Prop} (hx : Ends x Q) (hf : ∀ a, Q a → Ends (f a) Q') : Ends (x >>= f) Q' := by
  intro s
  show M.bind x f s ≠ .oof ∧ ∀ s' a, M.bind x f s = _ → _
  have h := hx s
  unfold M.bind
  split
  · next s1 a he => exact hf a (h.2 _ _ he) s1
  · exact ⟨by simp, by simp⟩
  · exact ⟨by simp, by simp⟩
  · next he => exact absurd he h.1

theorem Ends.pure {α : Type} {a : α} {Q : α → Prop} (h : Q a) : Ends (V := V) (pure a) Q := by
  intro s
  refine ⟨(by intro hh; cases hh), fun s' b hb => ?_⟩
  cases hb
  exact h

theorem Ends.weaken {α : Type} {x : M V α} {Q Q' : α → Prop} (h : Ends x Q) (hQ : ∀ a, Q a → Q' a) : Ends x Q' := fun s => ⟨(h s).1, fun s' a ha => hQ a ((h s).2 s' a ha)⟩

theorem fetch_oof (s : St V) (a : Nat) : s.fetch a ≠ .oof := by
  unfold St.fetch
  split
  · split <;> simp
  · simp

theorem record_ends (a : Nat) : Ends (V := V) (record a) fun _ => True := by
  intro s
  refine ⟨?_, fun _ _ _ => trivial⟩
  unfold record
  have := fetch_oof s a
  split <;> simp_all

theorem exec_ends (held : Option Nat) (a : Nat) (c : Code V) : Ends (exec held a c) fun _ => True := by
  induction c with
  | answer b => exact fun s => ⟨by simp [exec], fun _ _ _ => trivial⟩
  | throw e => exact fun s => ⟨by simp [exec], fun _ _ _ => trivial⟩
  | look k ih =>
    intro s
    refine ⟨?_, fun _ _ _ => trivial⟩
    simp only [exec]
    have := fetch_oof s a
    split
    · exact (ih _ _).1
    · simp
    · next h => exact absurd h this
  | assign v k ih =>
    intro s
    refine ⟨?_, fun _ _ _ => trivial⟩
    simp only [exec]
    have := fetch_oof s a
    split
    · exact (ih _).1
    · simp
    · next h => exact absurd h this
  | call m v k ih =>
    intro s
    refine ⟨?_, fun _ _ _ => trivial⟩
    simp only [exec]
    have : s.call m v ≠ .oof := by unfold St.call; split <;> simp
    split
    · exact (ih _).1
    · simp
    · next h => exact absurd h this
  | clear k ih =>
    intro s
    refine ⟨?_, fun _ _ _ => trivial⟩
    simp only [exec]
    exact (ih _).1

theorem note_ends (q : Ask) : Ends (V := V) (note q) fun _ => True := fun s => ⟨by simp [note], fun _ _ _ => trivial⟩

theorem ask_ends (P : Nat → Code V) (l : Leaf) (a : Nat) : Ends (ask P l a) fun _ => True := by
  unfold ask
  refine (record_ends a).bind fun r _ => ?_
  split
  · exact (note_ends _).bind fun _ _ => exec_ends _ _ _
  · exact .pure trivial

theorem unmodified_ends (m ver : Nat) : Ends (V := V) (unmodified m ver) fun _ => True := by
  intro s
  refine ⟨?_, fun _ _ _ => trivial⟩
  unfold unmodified
  split
  · split <;> simp
  · simp

theorem scan_ends (P : Nat → Code V) (l : Leaf) (ver : Nat) (as into : List Nat) : Ends (scan P l ver as into) fun _ => True := by
  induction as generalizing into with
  | nil => exact .pure trivial
  | cons a as ih => exact (note_ends _).bind fun _ _ => (exec_ends _ _ _).bind fun _ _ => (unmodified_ends _ _).bind fun _ _ => ih _

theorem vec_ends (m : Nat) : Ends (V := V) (vec m) fun _ => True := by
  intro s
  refine ⟨?_, fun _ _ _ => trivial⟩
  unfold vec
  split <;> simp

theorem selectUnverified_ends (as : List Nat) : Ends (V := V) (selectUnverified as) fun _ => True := by
  induction as with
  | nil => exact .pure trivial
  | cons a as ih => exact (record_ends a).bind fun _ _ => ih.bind fun _ _ => .pure trivial

theorem collect_ends (P : Nat → Code V) (src : Src) (into : List Nat) : Ends (collect P src into) fun _ => True := by
  induction src generalizing into with
  | mock => exact fun s => ⟨by simp [collect], fun _ _ _ => trivial⟩
  | method l => exact (vec_ends _).bind fun _ _ => scan_ends _ _ _ _ _
  | unverified src ih => exact (ih []).bind fun _ _ => (selectUnverified_ends _).bind fun _ _ => .pure trivial
  | both s t ihs iht => exact (ihs into).bind fun _ _ => iht _

theorem isMatchFrom_ends (P : Nat → Code V) (actual : List Nat) (start j : Nat) (es : List Leaf) : Ends (isMatchFrom P actual start j es) fun _ => True := by
  induction es generalizing j with
  | nil => exact .pure trivial
  | cons e es ih =>
    unfold isMatchFrom
    split
    · exact fun s => ⟨by simp [M.ub], fun _ _ _ => trivial⟩
    · refine (ask_ends _ _ _).bind fun b _ => ?_
      split
      · exact ih _
      · exact .pure trivial

theorem search_ends (P : Nat → Code V) (actual : List Nat) (es : List Leaf) (n i : Nat) : Ends (search P actual es n i) fun o => ∀ x, o = some x → i ≤ x ∧ x < i + n := by
  induction n generalizing i with
  | zero => exact .pure (by simp)
  | succ n ih =>
    refine (isMatchFrom_ends _ _ _ _ _).bind fun b _ => ?_
    split
    · exact .pure fun x hx => by cases hx; omega
    · exact (ih (i + 1)).weaken fun o ho x hx => by have := ho x hx; omega

theorem findNext1_ends (P : Nat → Code V) (actual : List Nat) (es : List Leaf) (start : Nat) : Ends (findNext1 P actual es start) fun o => ∀ x, o = some x → start ≤ x ∧ x + es.length ≤ actual.length :=
  (search_ends _ _ _ _ _).weaken fun o ho x hx => by have := ho x hx; omega

theorem collect_oof {I : Type} (actual : List I) (start len : Nat) : MatchAnalysis.collect actual start len ≠ .oof := by
  induction len generalizing start with
  | zero => simp [MatchAnalysis.collect]
  | succ len ih =>
    unfold MatchAnalysis.collect
    split
    · simp
    · have := ih (start + 1)
      cases h : MatchAnalysis.collect actual (start + 1) len with
      | done l => intro hh; cases hh
      | ub => intro hh; cases hh
      | oof => exact absurd h this

theorem collectMatched_ends (actual : List Nat) (start len : Nat) : Ends (V := V) (collectMatched actual start len) fun _ => True := by
  intro s
  refine ⟨?_, fun _ _ _ => trivial⟩
  unfold collectMatched
  have := collect_oof actual start len
  split <;> simp_all

theorem findNextP_ends (P : Nat → Code V) (actual : List Nat) (ps : List (Seq Leaf)) (start : Nat) (matched : List Nat) :
    Ends (findNextP P actual ps start matched) fun r => ∀ x, r.1 = some x → start + (ps.map Seq.size).sum ≤ x ∧ (ps ≠ [] → x ≤ actual.length) := by
  induction ps generalizing start matched with
  | nil => exact .pure fun x hx => by cases hx; simp
  | cons p ps ih =>
    refine (findNext1_ends _ _ _ _).bind fun o ho => ?_
    cases o with
    | none => exact .pure fun x hx => by cases hx
    | some i =>
      have h1 := ho i rfl
      rw [Seq.length_expected] at h1
      refine (collectMatched_ends _ _ _).bind fun c _ => ?_
      cases ps with
      | nil => exact .pure fun x hx => by cases hx; simp; omega
      | cons q qs =>
        refine (ih _ _).weaken fun r hr x hx => ?_
        have h2 := hr x hx
        refine ⟨?_, fun _ => h2.2 (by simp)⟩
        have := h2.1
        simp only [List.map_cons, List.sum_cons] at this ⊢
        omega

theorem countLoop_ends (P : Nat → Code V) (actual : List Nat) {ps : List (Seq Leaf)} (hne : ps ≠ []) (hpos : 0 < (ps.map Seq.size).sum) :
    ∀ (fuel start count : Nat) (matched : List Nat), start ≤ actual.length → actual.length < start + fuel → Ends (countLoop P actual ps fuel start count matched) fun _ => True := by
  intro fuel
  induction fuel with
  | zero => intro start count matched h1 h2; omega
  | succ fuel ih =>
    intro start count matched h1 h2
    refine (findNextP_ends _ _ _ _ _).bind fun r hr => ?_
    obtain ⟨o, m⟩ := r
    cases o with
    | none => exact .pure trivial
    | some e =>
      have h3 := hr e rfl
      exact ih e (count + 1) m (h3.2 hne) (by omega)

theorem mark_ends (as : List Nat) : Ends (V := V) (mark as) fun _ => True := by
  induction as with
  | nil => exact .pure trivial
  | cons a as ih =>
    refine (record_ends a).bind fun r _ => ?_
    refine Ends.bind (Q := fun _ => True) (fun s => ⟨by simp, fun _ _ _ => trivial⟩) fun _ _ => ih

theorem format_ends (as : List Nat) : Ends (V := V) (format as) fun _ => True := by
  induction as with
  | nil => exact .pure trivial
  | cons a as ih => exact (record_ends a).bind fun _ _ => ih.bind fun _ _ => .pure trivial

end FakeIt.Verifying
