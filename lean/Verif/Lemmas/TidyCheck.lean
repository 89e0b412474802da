import Verif.Lemmas.SingleHeader
/-!
# A check for tidy trees of files
-/
namespace FakeIt.SingleHeader
open Spec

/-- Files given by a list. -/
def filesOf (t : List (Path × List Line)) : Files := fun p => (t.find? fun e => e.1 = p).map Prod.snd

/-- The include lines of a file with the lines before them. -/
def includesOf : List Line → List Line → List (List Line × Spelling)
  | _, [] => []
  | pre, .incl h :: ls => (pre, h) :: includesOf (pre ++ [.incl h]) ls
  | pre, l :: ls => includesOf (pre ++ [l]) ls

theorem mem_includesOf {x : Spelling} {a c : List Line} : ∀ {ls pre : List Line}, ls = a ++ .incl x :: c → (pre ++ a, x) ∈ includesOf pre ls := by
  induction a with
  | nil => intro ls pre h; subst h; simp [includesOf]
  | cons l a ih =>
    intro ls pre h
    subst h
    have := ih (ls := a ++ .incl x :: c) (pre := pre ++ [l]) rfl
    have e : pre ++ [l] ++ a = pre ++ l :: a := by simp
    rw [e] at this
    cases l <;> simp [includesOf, this]

/-- `#pragma once` in front. -/
def guardedB : List Line → Bool
  | .once :: _ => true
  | .comment _ :: ls => guardedB ls
  | _ => false

theorem guarded_of_guardedB : ∀ {ls : List Line}, guardedB ls = true → Guarded ls
  | .once :: ls, _ => ⟨[], ls, rfl, by simp⟩
  | .comment t :: ls, h => by
    obtain ⟨pre, rest, e, hp⟩ := guarded_of_guardedB (ls := ls) h
    refine ⟨.comment t :: pre, rest, by rw [e]; rfl, ?_⟩
    intro l hl
    rcases List.mem_cons.mp hl with rfl | hl
    · exact ⟨t, rfl⟩
    · exact hp l hl
  | [], h => by simp [guardedB] at h
  | .incl _ :: _, h => by simp [guardedB] at h
  | .ifdef _ :: _, h => by simp [guardedB] at h
  | .els :: _, h => by simp [guardedB] at h
  | .endif :: _, h => by simp [guardedB] at h
  | .text _ :: _, h => by simp [guardedB] at h

/-- All include lines with their files. -/
def allIncludes (t : List (Path × List Line)) : List (Path × List Line × Spelling) :=
  t.flatMap fun e => (includesOf [] e.2).map fun i => (e.1, i.1, i.2)

/-- The conditions of `Tidy` for files given by a list. -/
def tidyB (t : List (Path × List Line)) (cfg : String) (dirs : List Path) (env : String → Bool) (root : Path) (off : List Path) : Bool :=
  let fs := filesOf t
  let is := allIncludes t
  t.any (fun e => e.1 = root) && !(off.contains root) &&
  is.all (fun i =>
    match locate fs cfg i.2.2 with
    | none => false
    | some g =>
      (resolve fs dirs i.1 i.2.2 = some g) && (g ≠ root) &&
      is.all (fun j => locate fs cfg j.2.2 ≠ some g || j.2.2 = i.2.2) &&
      (((fs g).map guardedB = some true) || is.all (fun j => j.2.2 ≠ i.2.2 || (j.1 = i.1 && j.2.1 = i.2.1))) &&
      (match stackAfter env [] i.2.1 with
       | none => true
       | some s => off.contains g == (off.contains i.1 || !decide (Active s)))) &&
  t.all (fun e => stackAfter env [] e.2 = some [])

theorem filesOf_some {t : List (Path × List Line)} {p : Path} {ls : List Line} (h : filesOf t p = some ls) : (p, ls) ∈ t := by
  simp only [filesOf, Option.map_eq_some_iff] at h
  obtain ⟨e, he, rfl⟩ := h
  have h₁ := List.find?_some he
  have h₂ := List.mem_of_find?_eq_some he
  simp at h₁
  subst h₁
  exact h₂

theorem mem_allIncludes {t : List (Path × List Line)} {f : Path} {pre post : List Line} {h : Spelling}
    (hf : filesOf t f = some (pre ++ .incl h :: post)) : (f, pre, h) ∈ allIncludes t := by
  simp only [allIncludes, List.mem_flatMap, List.mem_map]
  refine ⟨_, filesOf_some hf, (pre, h), ?_, rfl⟩
  simpa using mem_includesOf (pre := []) (ls := pre ++ .incl h :: post) rfl

theorem tidy_of_tidyB {t : List (Path × List Line)} {cfg : String} {dirs : List Path} {env : String → Bool} {root : Path} {off : List Path}
    (hc : tidyB t cfg dirs env root off = true) :
    Tidy (filesOf t) cfg dirs env root (fun p => (filesOf t p).isSome) (fun p => p ∈ off) := by
  simp only [tidyB, Bool.and_eq_true, List.any_eq_true, decide_eq_true_eq, Bool.not_eq_true', List.all_eq_true] at hc
  obtain ⟨⟨⟨⟨e₀, he₀, hroot⟩, hroff⟩, his⟩, hcl⟩ := hc
  have key : ∀ f pre post h, filesOf t f = some (pre ++ .incl h :: post) → ∃ g, locate (filesOf t) cfg h = some g ∧
      resolve (filesOf t) dirs f h = some g ∧ g ≠ root ∧
      (∀ f' pre' h', (f', pre', h') ∈ allIncludes t → locate (filesOf t) cfg h' = some g → h' = h) ∧
      ((filesOf t g).map guardedB = some true ∨ ∀ f' pre', (f', pre', h) ∈ allIncludes t → f' = f ∧ pre' = pre) ∧
      (∀ s, stackAfter env [] pre = some s → (g ∈ off ↔ f ∈ off ∨ ¬ Active s)) := by
    intro f pre post h hf
    have hi := mem_allIncludes hf
    have := his _ hi
    cases hg : locate (filesOf t) cfg h with
    | none => simp [hg] at this
    | some g =>
      simp only [hg, Bool.and_eq_true, decide_eq_true_eq, List.all_eq_true, Bool.or_eq_true] at this
      obtain ⟨⟨⟨⟨h₁, h₂⟩, h₃⟩, h₄⟩, h₅⟩ := this
      refine ⟨g, rfl, h₁, h₂, ?_, ?_, ?_⟩
      · intro f' pre' h' hm hl
        rcases h₃ _ hm with q | q
        · exact absurd hl q
        · exact q
      · refine h₄.imp_right fun q f' pre' hm => ?_
        rcases q _ hm with q | q
        · exact absurd rfl q
        · exact q
      · intro s hs
        simp only [hs, beq_iff_eq] at h₅
        have h₆ : (off.contains g = true) ↔ (off.contains f || !decide (Active s)) = true := by rw [h₅]
        simpa using h₆
  have keym : ∀ f ls h, filesOf t f = some ls → .incl h ∈ ls → ∃ pre post, filesOf t f = some (pre ++ .incl h :: post) := by
    intro f ls h hf hi
    obtain ⟨a, c, e⟩ := mem_split hi
    exact ⟨a, c, by rw [hf, e]⟩
  refine ⟨⟨?_, ?_⟩, ?_, ?_, ?_, ?_, ?_, ?_⟩
  · simp only [filesOf, Option.isSome_map]
    rw [List.find?_isSome]
    exact ⟨e₀, he₀, by simpa using hroot⟩
  · simpa using hroff
  · intro f ls h _ hf hi
    obtain ⟨pre, post, hf'⟩ := keym f ls h hf hi
    obtain ⟨g, h₁, h₂, -⟩ := key f pre post h hf'
    obtain ⟨gs, hgs⟩ := locate_some h₁
    exact ⟨g, by simp [hgs], by simp [hgs], h₁, h₂⟩
  · intro f f' ls ls' h h' _ _ hf hf' hi hi' he
    obtain ⟨pre, post, hq⟩ := keym f ls h hf hi
    obtain ⟨pre', post', hq'⟩ := keym f' ls' h' hf' hi'
    obtain ⟨g, h₁, -, -, h₂, -⟩ := key f' pre' post' h' hq'
    exact h₂ f pre h (mem_allIncludes hq) (he.trans h₁)
  · intro f ls h _ hf hi
    obtain ⟨pre, post, hq⟩ := keym f ls h hf hi
    obtain ⟨g, h₁, -, h₂, -⟩ := key f pre post h hq
    rw [h₁]
    simpa using h₂
  · intro f ls _ hf
    exact hcl _ (filesOf_some hf)
  · intro f f' pre post pre' post' h g gs _ _ hf hf' hg hgs hun
    obtain ⟨g', h₁, -, -, -, h₂, -⟩ := key f' pre' post' h hf'
    have : g' = g := Option.some.inj (h₁.symm.trans hg)
    subst this
    rcases h₂ with h₂ | h₂
    · rw [hgs] at h₂
      exact absurd (guarded_of_guardedB (by simpa using h₂)) hun
    · exact h₂ f pre (mem_allIncludes hf)
  · intro f pre post h g s _ hf hg hs
    obtain ⟨g', h₁, -, -, -, -, h₂⟩ := key f pre post h hf
    have : g' = g := Option.some.inj (h₁.symm.trans hg)
    subst this
    exact h₂ s hs

end FakeIt.SingleHeader
