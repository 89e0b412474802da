import Verif.Lemmas.SingleMatch
/-!
# C14, C15, C16, C17: the match analysis
-/
namespace FakeIt
open Spec
variable {L I : Type}

/-- C14. For every pattern a user can write and every history the analysis terminates and never reads out of bounds
(`done`: neither `ub` nor `oof`), and this does not depend on the loop bound the model uses: every larger bound gives the same result. -/
theorem C14_analysis_terminates_in_bounds (mt : L → I → Bool) (actual : List I) (pat : List (Seq L)) (h : WritablePattern pat) :
    ∃ count matched, MatchAnalysis.countMatches mt actual pat = .done (count, matched) ∧
      ∀ bound, actual.length < bound → MatchAnalysis.countLoop mt actual pat bound 0 0 [] = .done (count, matched) := by
  have hs : ∀ s ∈ pat, s.expected ≠ [] := fun s hs => (h.2 s hs).expected_ne_nil
  obtain ⟨c, m, m', _, _, _, h1, -⟩ := MatchAnalysis.countMatches_spec (mt := mt) actual pat hs h.1
  refine ⟨c, m ++ m', h1, fun bound hb => ?_⟩
  rw [← h1]
  exact MatchAnalysis.countLoop_fuel actual pat hs h.1 _ _ _ _ _ (by omega) (by omega) (by omega)

/-- The pattern `Verify(a + b * 2, c)` is writable. -/
example : WritablePattern [Seq.cat (Seq.leaf 1) (Seq.rep (Seq.leaf 2) 2), Seq.leaf (3 : Nat)] := by
  refine ⟨by simp, ?_⟩
  intro s hs
  simp at hs
  rcases hs with rfl | rfl
  · exact .plus (.method 1) (.star (n := 2) (.method 2) rfl)
  · exact .method 3

/-- C14, the hypothesis is needed: with an empty expansion (which `operator*` forbids) the loop never ends. -/
theorem C14_empty_sequence_would_diverge (mt : L → I → Bool) (actual : List I) (l : L) (bound : Nat) :
    MatchAnalysis.countLoop mt actual [Seq.rep (.leaf l) 0] bound 0 0 [] = .oof := by
  suffices ∀ bound count, MatchAnalysis.countLoop mt actual [Seq.rep (.leaf l) 0] bound 0 count [] = .oof from this bound 0
  intro bound
  induction bound with
  | zero => intro; rfl
  | succ n ih =>
    intro count
    have : MatchAnalysis.findNext1 mt actual ([] : List L) 0 = .done (some 0) := by
      obtain ⟨k, hk⟩ : ∃ k, ((actual.length : Int) - (([] : List L).length : Int) + 1 - ((0 : Nat) : Int)).toNat = k + 1 :=
        ⟨actual.length, by simp only [List.length_nil]; omega⟩
      rw [MatchAnalysis.findNext1, hk]
      simp [MatchAnalysis.scan, MatchAnalysis.isMatch, MatchAnalysis.isMatchFrom]
    simp [MatchAnalysis.countLoop, MatchAnalysis.findNextP, Seq.expected, Seq.size, this, MatchAnalysis.collect, ih]

/-- C15. The reported count is the maximum number of disjoint in-order occurrences of the whole pattern. -/
theorem C15_count_is_maximum (mt : L → I → Bool) (actual : List I) (pat : List (Seq L)) (h : WritablePattern pat) :
    ∃ count matched, MatchAnalysis.countMatches mt actual pat = .done (count, matched) ∧
      IsMaxCount (mt · ·) actual (pat.map Seq.expected) count := by
  have hs : ∀ s ∈ pat, s.expected ≠ [] := fun s hs => (h.2 s hs).expected_ne_nil
  obtain ⟨c, m, m', idx, _, stop, h1, h2, -, h4, -⟩ := MatchAnalysis.countMatches_spec (mt := mt) actual pat hs h.1
  exact ⟨c, m ++ m', h1, ⟨stop, idx, h2⟩, h4⟩

/-- Non-trivial case for C15: pattern `(a+b, a)` in `a b c a a b a`; two disjoint occurrences (indices 0,1,3 and 4,5,6). -/
example : MatchAnalysis.countMatches (fun (l i : Nat) => l == i) [1, 2, 3, 1, 1, 2, 1]
    [Seq.cat (.leaf 1) (.leaf 2), .leaf 1] = .done (2, [1, 2, 1, 1, 2, 1]) := by decide

/-- C16. For a pattern of one method expression the count is the number of accepted invocations of the history
(and exactly these are matched). -/
theorem C16_single_method_count (mt : L → I → Bool) (actual : List I) (l : L) :
    MatchAnalysis.countMatches mt actual [.leaf l] = .done (actual.countP (mt l), actual.filter (mt l)) := by
  rw [MatchAnalysis.countMatches, MatchAnalysis.countLoop_single actual l _ _ _ _ (by omega) (by omega)]
  simp [List.countP_eq_length_filter]

/-- Non-trivial case for C16. -/
example : MatchAnalysis.countMatches (fun (l i : Nat) => decide (l ≤ i)) [1, 5, 2, 7] [.leaf 3] = .done (2, [5, 7]) := by decide

/-! ## C17: sequence algebra -/

/-- Two sequence expressions are interchangeable: wherever one stands inside a pattern (`ctx` builds the pattern around it from
`+`, `*` and the list of sequences), the analysis yields the same count and the same matched invocations, on every history. -/
inductive SeqCtx (L : Type) where
  | hole
  | catL (c : SeqCtx L) (s : Seq L)
  | catR (s : Seq L) (c : SeqCtx L)
  | rep (c : SeqCtx L) (n : Int)

/-- Put an expression into the hole. -/
def SeqCtx.plug : SeqCtx L → Seq L → Seq L
  | .hole, x => x
  | .catL c s, x => .opPlus (c.plug x) s
  | .catR s c, x => .opPlus s (c.plug x)
  | .rep c n, x => .rep (c.plug x) n

/-- Same count, same matched invocations, in every context, history and for every meaning of the method expressions. -/
def Interchangeable (s t : Seq L) : Prop :=
  ∀ (I : Type) (mt : L → I → Bool) (actual : List I) (pre post : List (Seq L)) (ctx : SeqCtx L),
    MatchAnalysis.countMatches mt actual (pre ++ ctx.plug s :: post) =
      MatchAnalysis.countMatches mt actual (pre ++ ctx.plug t :: post)

theorem SeqCtx.plug_expected (c : SeqCtx L) {s t : Seq L} (h : s.expected = t.expected) :
    (c.plug s).expected = (c.plug t).expected := by
  induction c with
  | hole => exact h
  | catL c s ih => simp [SeqCtx.plug, Seq.opPlus, Seq.expected, ih]
  | catR s c ih => simp [SeqCtx.plug, Seq.opPlus, Seq.expected, ih]
  | rep c n ih => simp [SeqCtx.plug, Seq.expected, ih]

theorem interchangeable_of_expected {s t : Seq L} (h : s.expected = t.expected) : Interchangeable s t := by
  intro I mt actual pre post ctx
  apply MatchAnalysis.countMatches_congr
  simp [ctx.plug_expected h]

/-- C17 (a+b)+c ~ a+(b+c). -/
theorem C17_plus_assoc (a b c : Seq L) : Interchangeable ((a.opPlus b).opPlus c) (a.opPlus (b.opPlus c)) :=
  interchangeable_of_expected (by simp [Seq.opPlus, Seq.expected])

/-- C17 s*1 ~ s. -/
theorem C17_star_one (s r : Seq L) (h : s.opStar 1 = some r) : Interchangeable r s := by
  simp [Seq.opStar] at h
  subst h
  exact interchangeable_of_expected (by simp [Seq.expected])

theorem flatten_replicate_mul {α : Type} (l : List α) (n m : Nat) :
    (List.replicate m (List.replicate n l).flatten).flatten = (List.replicate (n * m) l).flatten := by
  induction m with
  | zero => simp
  | succ m ih => rw [List.replicate_succ, List.flatten_cons, ih, Nat.mul_succ, Nat.add_comm, ← List.replicate_append_replicate, List.flatten_append]

/-- C17 (s*n)*m ~ s*(n*m). -/
theorem C17_star_star (s r1 r2 r : Seq L) (n m : Int) (h1 : s.opStar n = some r1) (h2 : r1.opStar m = some r2)
    (h : s.opStar (n * m) = some r) : Interchangeable r2 r := by
  simp [Seq.opStar] at h1 h2 h
  obtain ⟨hn, rfl⟩ := h1
  obtain ⟨hm, rfl⟩ := h2
  obtain ⟨-, rfl⟩ := h
  apply interchangeable_of_expected
  simp only [Seq.expected]
  rw [flatten_replicate_mul, Int.toNat_mul (by omega) (by omega)]

/-- C17 s*(n+m) ~ s*n + s*m. -/
theorem C17_star_add (s r1 r2 r : Seq L) (n m : Int) (h1 : s.opStar n = some r1) (h2 : s.opStar m = some r2)
    (h : s.opStar (n + m) = some r) : Interchangeable r (r1.opPlus r2) := by
  simp [Seq.opStar] at h1 h2 h
  obtain ⟨hn, rfl⟩ := h1
  obtain ⟨hm, rfl⟩ := h2
  obtain ⟨-, rfl⟩ := h
  apply interchangeable_of_expected
  simp only [Seq.opPlus, Seq.expected]
  rw [Int.toNat_add (by omega) (by omega), ← List.replicate_append_replicate, List.flatten_append]

/-- C17 declared size = length of the expansion. -/
theorem C17_size (s : Seq L) : s.size = s.expected.length := s.length_expected.symm

/-- Cases meeting the hypotheses of C17. -/
example : (Seq.leaf 7).opStar 2 = some (Seq.rep (Seq.leaf 7) 2) ∧ (Seq.rep (Seq.leaf 7) 2).opStar 3 = some (.rep (.rep (.leaf 7) 2) 3) ∧
    (Seq.leaf 7).opStar (2 * 3) = some (.rep (.leaf 7) 6) ∧ (Seq.rep (Seq.rep (Seq.leaf 7) 2) 3).expected = [7, 7, 7, 7, 7, 7] := by decide

end FakeIt
