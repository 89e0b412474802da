import Verif.Model.MatchAnalysis
import Verif.Spec.Occurrence
namespace FakeIt
open Spec
namespace Seq
variable {L : Type}

theorem length_flatten_replicate {α : Type} (n : Nat) (l : List α) :
    (List.replicate n l).flatten.length = l.length * n := by
  induction n with
  | zero => simp
  | succ n ih => simp [List.replicate_succ, ih, Nat.mul_succ, Nat.add_comm]

theorem length_expected (s : Seq L) : s.expected.length = s.size := by
  induction s with
  | leaf => rfl
  | cat s1 s2 h1 h2 => simp [expected, size, h1, h2]
  | rep s n h => simp only [expected, size, length_flatten_replicate, h]

end Seq

namespace MatchAnalysis
variable {L I : Type} {mt : L → I → Bool}

theorem blockAt_nil (actual : List I) (i : Nat) : BlockAt (mt · ·) actual [] i := by
  intro j l h; simp at h

theorem blockAt_cons {actual : List I} {e : L} {es : List L} {i : Nat} :
    BlockAt (mt · ·) actual (e :: es) i ↔ (∃ a, actual[i]? = some a ∧ mt e a = true) ∧ BlockAt (mt · ·) actual es (i + 1) := by
  constructor
  · intro h
    refine ⟨by simpa using h 0 e rfl, ?_⟩
    intro j l hj
    have := h (j + 1) l (by simpa using hj)
    rwa [show i + (j + 1) = i + 1 + j by omega] at this
  · rintro ⟨h0, h1⟩ j l hj
    cases j with
    | zero => simp at hj; subst hj; simpa using h0
    | succ j =>
      have := h1 j l (by simpa using hj)
      rwa [show i + (j + 1) = i + 1 + j by omega]

theorem blockAt_bound {actual : List I} {e : List L} {i : Nat} (h : BlockAt (mt · ·) actual e i) (he : e ≠ []) :
    i + e.length ≤ actual.length := by
  have hlen : 0 < e.length := List.length_pos_iff.2 he
  obtain ⟨a, ha, -⟩ := h (e.length - 1) (e[e.length - 1]'(by omega)) (by simp)
  have := (List.getElem?_eq_some_iff.1 ha).1
  omega

theorem isMatchFrom_spec (actual : List I) (start j : Nat) (es : List L)
    (hb : start + j + es.length ≤ actual.length) :
    ∃ b, isMatchFrom mt actual start j es = .done b ∧ (b = true ↔ BlockAt (mt · ·) actual es (start + j)) := by
  induction es generalizing j with
  | nil => exact ⟨true, rfl, by simp [blockAt_nil]⟩
  | cons e es ih =>
    simp only [List.length_cons] at hb
    have hlt : start + j < actual.length := by omega
    simp only [isMatchFrom, List.getElem?_eq_getElem hlt]
    obtain ⟨b, hb1, hb2⟩ := ih (j + 1) (by omega)
    by_cases hm : mt e actual[start + j] = true
    · rw [if_pos hm]
      refine ⟨b, hb1, ?_⟩
      rw [hb2, blockAt_cons, show start + (j + 1) = start + j + 1 by omega]
      simp [List.getElem?_eq_getElem hlt, hm]
    · rw [if_neg hm]
      refine ⟨false, rfl, ?_⟩
      simp [blockAt_cons, List.getElem?_eq_getElem hlt, hm]

/-- What a search result means: the least index at or after `start` where the block is found. -/
def FindSpec (mt : L → I → Bool) (actual : List I) (e : List L) (start : Nat) (r : Option Nat) : Prop :=
  match r with
  | some i => start ≤ i ∧ BlockAt (mt · ·) actual e i ∧ i + e.length ≤ actual.length ∧
      ∀ i', start ≤ i' → i' < i → ¬ BlockAt (mt · ·) actual e i'
  | none => ∀ i', start ≤ i' → i' + e.length ≤ actual.length → ¬ BlockAt (mt · ·) actual e i'

theorem scan_spec (actual : List I) (e : List L) (n i : Nat)
    (hn : n = 0 ∧ actual.length < i + e.length ∨ i + n + e.length = actual.length + 1) :
    ∃ r, scan mt actual e n i = .done r ∧ FindSpec mt actual e i r := by
  induction n generalizing i with
  | zero =>
    refine ⟨none, rfl, ?_⟩
    intro i' h1 h2
    omega
  | succ n ih =>
    have hle : i + e.length ≤ actual.length := by omega
    obtain ⟨b, hb1, hb2⟩ := isMatchFrom_spec (mt := mt) actual i 0 e (by simpa using hle)
    simp only [scan, isMatch, hb1, R.bind_done]
    cases b with
    | true =>
      refine ⟨some i, by simp, Nat.le_refl _, by simpa using hb2, hle, ?_⟩
      intro i' h1 h2; omega
    | false =>
      have hno : ¬ BlockAt (mt · ·) actual e i := by
        intro h; exact absurd (hb2.2 (by simpa using h)) (by simp)
      obtain ⟨r, hr1, hr2⟩ := ih (i + 1) (by omega)
      refine ⟨r, by simpa using hr1, ?_⟩
      cases r with
      | none =>
        intro i' h1 h2
        by_cases hi : i' = i
        · subst hi; exact hno
        · exact hr2 i' (by omega) h2
      | some x =>
        obtain ⟨g1, g2, g3, g4⟩ := hr2
        refine ⟨by omega, g2, g3, ?_⟩
        intro i' h1 h2
        by_cases hi : i' = i
        · subst hi; exact hno
        · exact g4 i' (by omega) h2

theorem findNext1_spec (actual : List I) (e : List L) (start : Nat) :
    ∃ r, findNext1 mt actual e start = .done r ∧ FindSpec mt actual e start r := by
  apply scan_spec
  omega

theorem collect_eq (actual : List I) (start len : Nat) (h : start + len ≤ actual.length) :
    collect actual start len = .done ((actual.drop start).take len) := by
  induction len generalizing start with
  | zero => simp [collect]
  | succ len ih =>
    have hlt : start < actual.length := by omega
    rw [collect, List.getElem?_eq_getElem hlt]
    simp only [ih (start + 1) (by omega), R.bind_done]
    rw [List.drop_eq_getElem_cons hlt, List.take_succ_cons]

/-- The elements at the given indices. -/
def AtIdx (actual : List I) (idx : List Nat) (m : List I) : Prop := m.map some = idx.map (fun i => actual[i]?)

theorem atIdx_append {actual : List I} {idx idx' : List Nat} {m m' : List I} (h : AtIdx actual idx m) (h' : AtIdx actual idx' m') :
    AtIdx actual (idx ++ idx') (m ++ m') := by
  simp [AtIdx] at *; simp [h, h']

theorem atIdx_block (actual : List I) (i n : Nat) (h : i + n ≤ actual.length) :
    AtIdx actual (List.range' i n) ((actual.drop i).take n) := by
  induction n generalizing i with
  | zero => simp [AtIdx]
  | succ n ih =>
    have hlt : i < actual.length := by omega
    have := ih (i + 1) (by omega)
    simp only [AtIdx] at *
    rw [List.drop_eq_getElem_cons hlt, List.take_succ_cons, List.map_cons, this, List.range'_succ]
    simp [hlt]

/-- `findNextP` never has undefined behaviour and finds the pattern with the least end, if at all. -/
theorem findNextP_spec (actual : List I) (ps : List (Seq L)) (start : Nat) (matched : List I)
    (hs : ∀ s ∈ ps, s.expected ≠ []) (hstart : start ≤ actual.length) :
    ∃ r m idx, findNextP mt actual ps start matched = .done (r, matched ++ m) ∧ AtIdx actual idx m ∧
      match r with
      | some stop => PatAt (mt · ·) actual (ps.map Seq.expected) start stop idx ∧ stop ≤ actual.length ∧
          start + ps.length ≤ stop ∧
          ∀ s' stop' idx', start ≤ s' → PatAt (mt · ·) actual (ps.map Seq.expected) s' stop' idx' → stop ≤ stop'
      | none => (∃ pre rest stop, ps = pre ++ rest ∧ rest ≠ [] ∧ PatAt (mt · ·) actual (pre.map Seq.expected) start stop idx) ∧
          ∀ s' stop' idx', start ≤ s' → ¬ PatAt (mt · ·) actual (ps.map Seq.expected) s' stop' idx' := by
  induction ps generalizing start matched with
  | nil =>
    refine ⟨some start, [], [], by simp [findNextP], by simp [AtIdx], PatAt.nil _, hstart, by simp, ?_⟩
    intro s' stop' idx' h1 h2
    cases h2; omega
  | cons s ps ih =>
    have hne : s.expected ≠ [] := hs s (by simp)
    obtain ⟨r, hr1, hr2⟩ := findNext1_spec (mt := mt) actual s.expected start
    cases r with
    | none =>
      refine ⟨none, [], [], by simp [findNextP, hr1], by simp [AtIdx],
        ⟨[], s :: ps, start, by simp, by simp, PatAt.nil _⟩, ?_⟩
      intro s' stop' idx' h1 h2
      simp only [List.map_cons] at h2
      cases h2 with
      | cons hle hb _ =>
        exact hr2 _ (by omega) (blockAt_bound hb hne) hb
    | some i =>
      obtain ⟨g1, g2, g3, g4⟩ := hr2
      have hl := s.length_expected
      obtain ⟨r, m, idx, h1, hidx, h2⟩ := ih (i + s.size) (matched ++ (actual.drop i).take s.size)
        (fun s hs' => hs s (by simp [hs'])) (by omega)
      refine ⟨r, (actual.drop i).take s.size ++ m, List.range' i s.size ++ idx, ?_,
        atIdx_append (atIdx_block _ _ _ (by omega)) hidx, ?_⟩
      · simp [findNextP, hr1, collect_eq actual i s.size (by omega), h1, List.append_assoc]
      · cases r with
        | none =>
          obtain ⟨⟨pre, rest, stop, e1, e2, e3⟩, h2⟩ := h2
          refine ⟨⟨s :: pre, rest, stop, by simp [e1], e2, ?_⟩, ?_⟩
          · simp only [List.map_cons]
            rw [← hl] at e3 ⊢
            exact PatAt.cons g1 g2 e3
          intro s' stop' idx' hs' hp
          simp only [List.map_cons] at hp
          cases hp with
          | @cons _ _ _ i' _ _ hle hb hp' =>
            have : i ≤ i' := by
              by_cases h : i' < i
              · exact absurd hb (g4 i' (by omega) h)
              · omega
            exact h2 _ _ _ (by omega) hp'
        | some stop =>
          obtain ⟨k1, k2, k3, k4⟩ := h2
          have hpos : 0 < s.expected.length := List.length_pos_iff.2 hne
          refine ⟨?_, k2, by simp; omega, ?_⟩
          · simp only [List.map_cons]
            rw [← hl] at k1 ⊢
            exact PatAt.cons g1 g2 k1
          intro s' stop' idx' hs' hp
          simp only [List.map_cons] at hp
          cases hp with
          | @cons _ _ _ i' _ _ hle hb hp' =>
            have : i ≤ i' := by
              by_cases h : i' < i
              · exact absurd hb (g4 i' (by omega) h)
              · omega
            exact k4 _ _ _ (by omega) hp'

theorem countLoop_spec (actual : List I) (ps : List (Seq L)) (hs : ∀ s ∈ ps, s.expected ≠ []) (hp : ps ≠ [])
    (fuel start count : Nat) (matched : List I) (hstart : start ≤ actual.length)
    (hf : actual.length - start + 1 ≤ fuel) :
    ∃ c m mt' idx idx' stop, countLoop mt actual ps fuel start count matched = .done (count + c, matched ++ (m ++ mt')) ∧
      Occurs (mt · ·) actual (ps.map Seq.expected) c start stop idx ∧ AtIdx actual idx m ∧
      (∀ k s' stop' idx', start ≤ s' → Occurs (mt · ·) actual (ps.map Seq.expected) k s' stop' idx' → k ≤ c) ∧
      AtIdx actual idx' mt' ∧
      (∃ pre rest stop', ps = pre ++ rest ∧ rest ≠ [] ∧ PatAt (mt · ·) actual (pre.map Seq.expected) stop stop' idx') := by
  induction fuel generalizing start count matched with
  | zero => omega
  | succ fuel ih =>
    obtain ⟨r, m, idx, h1, hidx, h2⟩ := findNextP_spec (mt := mt) actual ps start matched hs hstart
    have hpl : 0 < ps.length := List.length_pos_iff.2 hp
    cases r with
    | none =>
      refine ⟨0, [], m, [], idx, start, by simp [countLoop, h1], Occurs.zero _, by simp [AtIdx], ?_, hidx, h2.1⟩
      intro k s' stop' idx' hs' hd
      cases hd with
      | zero => omega
      | succ hpat _ => exact absurd hpat (h2.2 _ _ _ hs')
    | some mid =>
      obtain ⟨k1, k2, k3, k4⟩ := h2
      obtain ⟨c, m', mt', ix, ix', stop, g1, g2, g3, g4, g5, g6⟩ := ih mid (count + 1) (matched ++ m) k2 (by omega)
      refine ⟨c + 1, m ++ m', mt', idx ++ ix, ix', stop, ?_, Occurs.succ k1 g2, atIdx_append hidx g3, ?_, g5, g6⟩
      · simp [countLoop, h1, g1, List.append_assoc]; omega
      · intro k s' stop' idx' hs' hd
        cases hd with
        | zero => omega
        | succ hpat hrest =>
          have := k4 _ _ _ hs' hpat
          have := g4 _ _ _ _ this hrest
          omega

/-- Enough fuel is enough: any bound above the length gives the same answer. -/
theorem countLoop_fuel (actual : List I) (ps : List (Seq L)) (hs : ∀ s ∈ ps, s.expected ≠ []) (hp : ps ≠ [])
    (fuel fuel' start count : Nat) (matched : List I) (hstart : start ≤ actual.length)
    (hf : actual.length - start + 1 ≤ fuel) (hf' : fuel ≤ fuel') :
    countLoop mt actual ps fuel' start count matched = countLoop mt actual ps fuel start count matched := by
  induction fuel generalizing fuel' start count matched with
  | zero => omega
  | succ fuel ih =>
    obtain ⟨fuel', rfl⟩ : ∃ f, fuel' = f + 1 := ⟨fuel' - 1, by omega⟩
    obtain ⟨r, m, idx, h1, hidx, h2⟩ := findNextP_spec (mt := mt) actual ps start matched hs hstart
    have hpl : 0 < ps.length := List.length_pos_iff.2 hp
    cases r with
    | none => simp [countLoop, h1]
    | some stop =>
      obtain ⟨k1, k2, k3, k4⟩ := h2
      simp only [countLoop, h1, R.bind_done]
      exact ih fuel' stop _ _ k2 (by omega) (by omega)

/-- The analysis depends on the sequences only through their expansions. -/
theorem findNextP_congr (actual : List I) (ps qs : List (Seq L)) (h : ps.map Seq.expected = qs.map Seq.expected)
    (start : Nat) (matched : List I) : findNextP mt actual ps start matched = findNextP mt actual qs start matched := by
  induction ps generalizing qs start matched with
  | nil => cases qs with
    | nil => rfl
    | cons => simp at h
  | cons s ps ih => cases qs with
    | nil => simp at h
    | cons q qs =>
      simp only [List.map_cons, List.cons.injEq] at h
      have hsz : s.size = q.size := by rw [← s.length_expected, ← q.length_expected, h.1]
      simp only [findNextP, h.1, hsz]
      congr 1; funext r
      cases r with
      | none => rfl
      | some i => simp only [ih qs h.2]

theorem countLoop_congr (actual : List I) (ps qs : List (Seq L)) (h : ps.map Seq.expected = qs.map Seq.expected)
    (fuel start count : Nat) (matched : List I) :
    countLoop mt actual ps fuel start count matched = countLoop mt actual qs fuel start count matched := by
  induction fuel generalizing start count matched with
  | zero => rfl
  | succ fuel ih =>
    simp only [countLoop, findNextP_congr actual ps qs h, ih]

theorem countMatches_congr (actual : List I) (ps qs : List (Seq L)) (h : ps.map Seq.expected = qs.map Seq.expected) :
    countMatches mt actual ps = countMatches mt actual qs := countLoop_congr actual ps qs h _ _ _ _

/-- The answer for a writable pattern. -/
theorem countMatches_spec (actual : List I) (ps : List (Seq L)) (hs : ∀ s ∈ ps, s.expected ≠ []) (hp : ps ≠ []) :
    ∃ c m mt' idx idx' stop, countMatches mt actual ps = .done (c, m ++ mt') ∧
      Occurs (mt · ·) actual (ps.map Seq.expected) c 0 stop idx ∧ AtIdx actual idx m ∧
      (∀ k stop' idx', Occurs (mt · ·) actual (ps.map Seq.expected) k 0 stop' idx' → k ≤ c) ∧
      AtIdx actual idx' mt' ∧
      (∃ pre rest stop', ps = pre ++ rest ∧ rest ≠ [] ∧ PatAt (mt · ·) actual (pre.map Seq.expected) stop stop' idx') := by
  obtain ⟨c, m, mt', idx, idx', stop, h1, h2, h3, h4, h5, h6⟩ :=
    countLoop_spec (mt := mt) actual ps hs hp (actual.length + 1) 0 0 [] (by omega) (by omega)
  refine ⟨c, m, mt', idx, idx', stop, ?_, h2, h3, ?_, h5, h6⟩
  · simpa [countMatches] using h1
  · intro k stop' idx' h; exact h4 k 0 stop' idx' (by omega) h

end MatchAnalysis
end FakeIt
