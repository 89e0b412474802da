import Verif.Lemmas.MatchAnalysis
import Verif.Spec.Writable
namespace FakeIt
open Spec
variable {L I : Type} {mt : L → I → Bool}

theorem Spec.Writable.expected_ne_nil {s : Seq L} (h : Writable s) : s.expected ≠ [] := by
  induction h with
  | method l => simp [Seq.expected]
  | plus h1 h2 i1 i2 => simp [Seq.opPlus, Seq.expected, i1]
  | @star s r n h1 h2 ih =>
    simp only [Seq.opStar] at h2
    split at h2
    · simp at h2
    · simp only [Option.some.injEq] at h2
      subst h2
      simp only [Seq.expected]
      obtain ⟨k, hk⟩ : ∃ k, n.toNat = k + 1 := ⟨n.toNat - 1, by omega⟩
      rw [hk, List.replicate_succ]
      simp [ih]

namespace MatchAnalysis

theorem blockAt_single {actual : List I} {l : L} {i : Nat} (h : i < actual.length) :
    BlockAt (mt · ·) actual [l] i ↔ mt l actual[i] = true := by
  rw [blockAt_cons]
  simp [blockAt_nil, List.getElem?_eq_getElem h]

theorem filter_none (actual : List I) (l : L) (start n : Nat) (hn : n = actual.length - start)
    (h : ∀ i', start ≤ i' → i' + 1 ≤ actual.length → ¬ BlockAt (mt · ·) actual [l] i') :
    (actual.drop start).filter (mt l) = [] := by
  induction n generalizing start with
  | zero => rw [List.drop_of_length_le (by omega)]; rfl
  | succ n ih =>
    have hlt : start < actual.length := by omega
    have h0 := h start (Nat.le_refl _) (by omega)
    rw [blockAt_single hlt] at h0
    rw [List.drop_eq_getElem_cons hlt, List.filter_cons_of_neg h0]
    exact ih (start + 1) (by omega) (fun i' h1 h2 => h i' (by omega) h2)

theorem filter_some (actual : List I) (l : L) (start i n : Nat) (hn : n = i - start) (hi : start ≤ i) (hlt : i < actual.length)
    (hb : BlockAt (mt · ·) actual [l] i)
    (h : ∀ i', start ≤ i' → i' < i → ¬ BlockAt (mt · ·) actual [l] i') :
    (actual.drop start).filter (mt l) = actual[i] :: (actual.drop (i + 1)).filter (mt l) := by
  induction n generalizing start with
  | zero =>
    have : start = i := by omega
    subst this
    rw [blockAt_single hlt] at hb
    rw [List.drop_eq_getElem_cons hlt, List.filter_cons_of_pos hb]
  | succ n ih =>
    have hlt' : start < actual.length := by omega
    have h0 := h start (Nat.le_refl _) (by omega)
    rw [blockAt_single hlt'] at h0
    rw [List.drop_eq_getElem_cons hlt', List.filter_cons_of_neg h0]
    exact ih (start + 1) (by omega) (by omega) (fun i' h1 h2 => h i' (by omega) h2)

theorem countLoop_single (actual : List I) (l : L) (fuel start count : Nat) (matched : List I)
    (hstart : start ≤ actual.length) (hf : actual.length - start + 1 ≤ fuel) :
    countLoop mt actual [Seq.leaf l] fuel start count matched =
      .done (count + ((actual.drop start).filter (mt l)).length, matched ++ (actual.drop start).filter (mt l)) := by
  induction fuel generalizing start count matched with
  | zero => omega
  | succ fuel ih =>
    obtain ⟨r, hr1, hr2⟩ := findNext1_spec (mt := mt) actual [l] start
    cases r with
    | none =>
      have := filter_none actual l start _ rfl (by simpa [FindSpec] using hr2)
      simp [countLoop, findNextP, Seq.expected, hr1, this]
    | some i =>
      obtain ⟨g1, g2, g3, g4⟩ := hr2
      simp only [List.length_singleton] at g3
      have hlt : i < actual.length := by omega
      rw [filter_some actual l start i _ rfl g1 hlt g2 g4]
      simp only [countLoop, findNextP, Seq.expected, hr1, R.bind_done, Seq.size,
        collect_eq actual i 1 (by omega)]
      rw [ih (i + 1) _ _ (by omega) (by omega)]
      have hd : List.take 1 (actual.drop i) = [actual[i]] := by rw [List.drop_eq_getElem_cons hlt]; rfl
      rw [hd]
      simp only [List.length_cons, List.append_assoc, List.singleton_append]
      rw [show count + 1 + ((actual.drop (i + 1)).filter (mt l)).length =
        count + (((actual.drop (i + 1)).filter (mt l)).length + 1) by omega]

end MatchAnalysis
end FakeIt
