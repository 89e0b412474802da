import Verif.Lemmas.TidyCheck
/-!
# C60: the single header files
-/
namespace FakeIt
open SingleHeader Spec

/-- **C60** (partial). Putting the generated file in front of a compiler amounts to putting the source files in front of it: the program text is the same, line
by line, under all conditions and wherever the generated file is kept. The files have to be tidy: each of them is known under one spelling, by the generator and
the compiler alike; nothing includes the first; files without `#pragma once` are included by one line only; and no file is included both from places that are
compiled and from places that are not. The repository is not entirely tidy, see the counterexamples below. -/
theorem C60_single_header_is_the_same_program_partial {fs : Files} {cfg : String} {dirs : List Path} {env : String → Bool} {root : Path}
    {part off : Path → Prop} (ht : Tidy fs cfg dirs env root part off) (hr : locate fs cfg ["fakeit.hpp"] = some root) {n : Nat} {header : List Line}
    (hg : singleHeader fs cfg n = some header) :
    ∃ text, program fs env dirs n root = some text ∧
      ∀ (fs' : Files) (dirs' : List Path) (p : Path) (k : Nat), fs' p = some header → program fs' env dirs' (k + 1) p = some text := by
  simp only [singleHeader] at hg
  cases hp : parseFile fs cfg n [] rootName with
  | none => simp [hp] at hg
  | some r =>
    obtain ⟨o, d⟩ := r
    simp only [hp, Option.bind_eq_bind, Option.bind_some, Option.some.injEq] at hg
    obtain ⟨ls, hls⟩ := locate_some hr
    obtain ⟨m, o₂, rfl, e, rfl⟩ := parseFile_some (h := rootName) hr hls hp
    have ha : Agree fs cfg part off [] [] := ⟨by simp, by simp⟩
    obtain ⟨v', t, e₁, e₂, -⟩ := sim ht m [] root [] ls o₂ d [] [] [] [] ht.root_part.1 ht.root_part.2 (by simpa using hls) active_nil rfl (by intro h hh; simp at hh)
      (.inl rfl) (by intro h g gs hh; simp at hh) ha e
    refine ⟨t, ?_, ?_⟩
    · simp only [List.nil_append] at e₁
      simp [program, preFile, hls, e₁]
    · intro fs' dirs' p k hfs
      have hfl := e₂ fs' dirs' (preFile fs' env dirs' k) p [p] []
      simp only [List.nil_append] at hfl
      subst hg
      have hfm : (Out.mark rootName :: o₂).filterMap finishLine = o₂.filterMap finishLine := rfl
      simp [program, preFile, hfs, preLines, stackStep, active_nil, hfm, hfl]

/-- The headers that are included, directly or not, by the file of header `r`. -/
inductive Spec.Included (fs : Files) (cfg : String) (r : Spelling) : Spelling → Prop where
  | here {f : Path} {ls : List Line} {h : Spelling} : locate fs cfg r = some f → fs f = some ls → .incl h ∈ ls → Included fs cfg r h
  | step {h : Spelling} {f : Path} {ls : List Line} {h' : Spelling} : Included fs cfg r h → locate fs cfg h = some f → fs f = some ls → .incl h' ∈ ls →
      Included fs cfg r h'

/-- **C60**. In whatever way the files include each other, each header is written exactly once if it is included somewhere and there is a file for it, and is not
written otherwise. A header is what is spelled the same. -/
theorem C60_every_header_is_written_once {fs : Files} {cfg : String} {n : Nat} {o : List Out} {done : List Spelling}
    (hg : parseFile fs cfg n [] ["fakeit.hpp"] = some (o, done)) (h : Spelling) (hne : h ≠ ["fakeit.hpp"]) :
    (Included fs cfg ["fakeit.hpp"] h ∧ (locate fs cfg h).isSome → o.count (.mark h) = 1) ∧
    (¬ (Included fs cfg ["fakeit.hpp"] h ∧ (locate fs cfg h).isSome) → o.count (.mark h) = 0) := by
  cases hr : locate fs cfg ["fakeit.hpp"] with
  | none =>
    have hno : ¬ Included fs cfg ["fakeit.hpp"] h := by
      intro q
      induction q with
      | here a => rw [hr] at a; cases a
      | step _ _ _ _ ih =>
        rename_i h₁ _ _ _ _ _ _ _
        by_cases hh : h₁ = ["fakeit.hpp"]
        · subst hh
          simp_all
        · exact ih hh
    cases n with
    | zero => simp [parseFile] at hg
    | succ m =>
      simp [parseFile, hr] at hg
      obtain ⟨rfl, rfl⟩ := hg
      exact ⟨fun q => absurd q.1 hno, fun _ => rfl⟩
  | some root =>
    obtain ⟨ls, hls⟩ := locate_some hr
    obtain ⟨m, o₂, rfl, e, rfl⟩ := parseFile_some hr hls hg
    obtain ⟨-, b, c, d, f⟩ := marks m [] ls o₂ done e
    have hne' : (Out.mark ["fakeit.hpp"] == Out.mark h) = false := by simp [Ne.symm hne]
    have hcount : (Out.mark ["fakeit.hpp"] :: o₂).count (.mark h) = o₂.count (.mark h) := by
      rw [List.count_cons, hne']
      simp
    have hin : Included fs cfg ["fakeit.hpp"] h → h ∈ done := by
      intro q
      clear hne hne' hcount
      induction q with
      | here a₁ a₂ a₃ =>
        rw [hr] at a₁
        cases a₁
        rw [hls] at a₂
        cases a₂
        exact b _ a₃
      | step _ a₁ a₂ a₃ ih =>
        rcases c _ ih with q | q
        · simp at q
        · exact q _ _ _ a₁ a₂ a₃
    have hout : h ∈ done → Included fs cfg ["fakeit.hpp"] h := by
      intro q
      rcases d (Included fs cfg ["fakeit.hpp"]) (fun x hx => .here hr hls hx) (fun x g gs y q₁ q₂ q₃ q₄ => .step q₁ q₂ q₃ q₄) h q with q | q
      · simp at q
      · exact q
    rw [hcount, f h]
    constructor
    · rintro ⟨q₁, q₂⟩
      rw [if_pos ⟨hin q₁, by simp, q₂⟩]
    · intro q
      rw [if_neg]
      rintro ⟨q₁, -, q₂⟩
      exact q ⟨hout q₁, q₂⟩

/-- **C60**. The generator comes to an end in whatever way the files include each other, in circles for example: the recursion is no deeper than there are
spellings in the include lines. -/
theorem C60_generator_comes_to_an_end {fs : Files} (cfg : String) {names : List Spelling} (hn : ∀ f ls h, fs f = some ls → .incl h ∈ ls → h ∈ names) :
    ∃ header, singleHeader fs cfg (names.length + 1) = some header := by
  have hle : (names.filter (· ∉ ([] : List Spelling))).length ≤ names.length := List.length_filter_le _ _
  cases hr : locate fs cfg rootName with
  | none => exact ⟨_, by simp [singleHeader, parseFile, hr]; rfl⟩
  | some root =>
    obtain ⟨ls, hls⟩ := locate_some hr
    obtain ⟨o, d, e, -⟩ := terminates (cfg := cfg) hn names.length [] ls hle (fun h q => hn root ls h hls q)
    exact ⟨_, by simp [singleHeader, parseFile, hr, hls, e]; rfl⟩

namespace Demo

/-- Headers in the manner of the library's: `fakeit/Mock.hpp` is included twice, `mockutils/VirtualTable.hpp` chooses between two files of which one has no
`#pragma once`. -/
def tidyTree : List (Path × List Line) :=
  [(["config", "gtest", "fakeit.hpp"], [.ifdef "first", .incl ["fakeit_instance.hpp"], .incl ["fakeit", "Mock.hpp"], .endif]),
   (["config", "gtest", "fakeit_instance.hpp"], [.once, .incl ["fakeit", "Mock.hpp"], .text "Fakeit"]),
   (["include", "fakeit", "Mock.hpp"], [.comment "Mock.hpp", .once, .incl ["mockutils", "VirtualTable.hpp"], .text "Mock"]),
   (["include", "mockutils", "VirtualTable.hpp"],
     [.once, .ifdef "_MSC_VER", .incl ["mockutils", "mscpp", "VirtualTable.hpp"], .els, .incl ["mockutils", "gcc", "VirtualTable.hpp"], .endif, .text "VT"]),
   (["include", "mockutils", "mscpp", "VirtualTable.hpp"], [.once, .text "mscpp"]),
   (["include", "mockutils", "gcc", "VirtualTable.hpp"], [.text "gcc"])]

/-- The include path of the README. -/
def gtestPath : List Path := [["include"], ["config", "gtest"]]

/-- GCC. -/
def gcc : String → Bool := fun c => c = "first"

/-- MSVC. -/
def msvc : String → Bool := fun c => c = "first" ∨ c = "_MSC_VER"

theorem tidyTree_gcc : tidyB tidyTree "gtest" gtestPath gcc ["config", "gtest", "fakeit.hpp"] [["include", "mockutils", "mscpp", "VirtualTable.hpp"]] = true := by
  decide +kernel

theorem tidyTree_msvc : tidyB tidyTree "gtest" gtestPath msvc ["config", "gtest", "fakeit.hpp"] [["include", "mockutils", "gcc", "VirtualTable.hpp"]] = true := by
  decide +kernel

/-- The generated header, and what both compilers make of it. -/
example : ∃ header, singleHeader (filesOf tidyTree) "gtest" 5 = some header ∧
    header = [.once, .comment "FakeIt - A Simplified C++ Mocking Framework", .ifdef "first", .ifdef "_MSC_VER", .text "mscpp", .els, .text "gcc", .endif, .text "VT",
      .text "Mock", .text "Fakeit", .endif] ∧
    program (filesOf [(["fakeit.hpp"], header)]) gcc [] 1 ["fakeit.hpp"] = some ["gcc", "VT", "Mock", "Fakeit"] ∧
    program (filesOf [(["fakeit.hpp"], header)]) msvc [] 1 ["fakeit.hpp"] = some ["mscpp", "VT", "Mock", "Fakeit"] :=
  ⟨_, by decide +kernel, rfl, by decide +kernel, by decide +kernel⟩

/-- The theorem at work: what GCC makes of the generated header is what it makes of the sources. -/
example : ∃ text, program (filesOf tidyTree) gcc gtestPath 5 ["config", "gtest", "fakeit.hpp"] = some text ∧ text = ["gcc", "VT", "Mock", "Fakeit"] := by
  obtain ⟨t, h₁, -⟩ := C60_single_header_is_the_same_program_partial (tidy_of_tidyB tidyTree_gcc) (n := 5) (by decide +kernel) (header :=
    [.once, .comment "FakeIt - A Simplified C++ Mocking Framework", .ifdef "first", .ifdef "_MSC_VER", .text "mscpp", .els, .text "gcc", .endif, .text "VT",
      .text "Mock", .text "Fakeit", .endif]) (by decide +kernel)
  have h₂ : program (filesOf tidyTree) gcc gtestPath 5 ["config", "gtest", "fakeit.hpp"] = some ["gcc", "VT", "Mock", "Fakeit"] := by decide +kernel
  exact ⟨t, h₁, Option.some.inj (h₁.symm.trans h₂)⟩

/-- `fakeit/Mock.hpp` is included from two places and written once. -/
example : (parseFile (filesOf tidyTree) "gtest" 5 [] ["fakeit.hpp"]).map (fun r => r.1.count (.mark ["fakeit", "Mock.hpp"])) = some 1 ∧
    Included (filesOf tidyTree) "gtest" ["fakeit.hpp"] ["fakeit", "Mock.hpp"] :=
  ⟨by decide +kernel,
    .step (f := ["config", "gtest", "fakeit_instance.hpp"]) (h := ["fakeit_instance.hpp"])
      (.here (f := ["config", "gtest", "fakeit.hpp"]) (by decide +kernel) (by decide +kernel)
        (by simp : Line.incl ["fakeit_instance.hpp"] ∈ [.ifdef "first", .incl ["fakeit_instance.hpp"], .incl ["fakeit", "Mock.hpp"], .endif]))
      (by decide +kernel) (by decide +kernel)
      (by simp : Line.incl ["fakeit", "Mock.hpp"] ∈ [.once, .incl ["fakeit", "Mock.hpp"], .text "Fakeit"])⟩

/-- Two files that include each other. -/
def circle : List (Path × List Line) :=
  [(["include", "fakeit.hpp"], [.once, .incl ["a.hpp"], .text "f"]), (["include", "a.hpp"], [.once, .incl ["fakeit.hpp"], .text "a"])]

/-- The generator comes to an end, though it writes the first file once more. -/
example : singleHeader (filesOf circle) "gtest" 3 = some [.once, .comment "FakeIt - A Simplified C++ Mocking Framework", .text "f", .text "a", .text "f"] := by
  decide +kernel

end Demo

/-- **C60** (negation). A file that is included under two spellings is written twice, while a compiler reads it once. This is what becomes of
`mockutils/Macros.hpp` in the single header for TpUnit: config/tpunit/TpUnitFakeit.hpp 5 includes it as `mockutils//Macros.hpp`. -/
theorem C60_two_spellings_are_written_twice : ∃ (t : List (Path × List Line)) (header : List Line),
    singleHeader (filesOf t) "tpunit" 5 = some header ∧
    program (filesOf t) (fun _ => false) [["include"], ["config", "tpunit"]] 5 ["config", "tpunit", "fakeit.hpp"] = some ["Macros", "TpUnitFakeit", "fakeit_root"] ∧
    program (filesOf [(["fakeit.hpp"], header)]) (fun _ => false) [] 1 ["fakeit.hpp"] = some ["Macros", "TpUnitFakeit", "Macros", "fakeit_root"] :=
  ⟨[(["config", "tpunit", "fakeit.hpp"], [.once, .incl ["TpUnitFakeit.hpp"], .incl ["fakeit", "fakeit_root.hpp"]]),
    (["config", "tpunit", "TpUnitFakeit.hpp"], [.once, .incl ["mockutils", "", "Macros.hpp"], .text "TpUnitFakeit"]),
    (["include", "fakeit", "fakeit_root.hpp"], [.once, .incl ["mockutils", "Macros.hpp"], .text "fakeit_root"]),
    (["include", "mockutils", "Macros.hpp"], [.once, .text "Macros"])],
    [.once, .comment "FakeIt - A Simplified C++ Mocking Framework", .text "Macros", .text "TpUnitFakeit", .text "Macros", .text "fakeit_root"],
    by decide +kernel, by decide +kernel, by decide +kernel⟩

/-- **C60** (negation). A header that is included by its bare name from a file in the same directory is found by a compiler but not by the generator, which drops
it without a message. include/fakeit/WhenFunctor.hpp 17 includes `fakeit/Xaction.hpp` in this way; the single headers only work because other headers include it,
by its full name, before. -/
theorem C60_bare_names_are_dropped : ∃ (t : List (Path × List Line)) (header : List Line),
    singleHeader (filesOf t) "gtest" 5 = some header ∧
    program (filesOf t) (fun _ => false) [["include"], ["config", "gtest"]] 5 ["config", "gtest", "fakeit.hpp"] = some ["Xaction", "WhenFunctor"] ∧
    program (filesOf [(["fakeit.hpp"], header)]) (fun _ => false) [] 1 ["fakeit.hpp"] = some ["WhenFunctor"] :=
  ⟨[(["config", "gtest", "fakeit.hpp"], [.once, .incl ["fakeit", "WhenFunctor.hpp"]]),
    (["include", "fakeit", "WhenFunctor.hpp"], [.once, .incl ["Xaction.hpp"], .text "WhenFunctor"]),
    (["include", "fakeit", "Xaction.hpp"], [.once, .text "Xaction"])],
    [.once, .comment "FakeIt - A Simplified C++ Mocking Framework", .text "WhenFunctor"], by decide +kernel, by decide +kernel, by decide +kernel⟩

/-- **C60** (negation). A header that is included under a condition first and unconditionally afterwards is only written under the condition. -/
theorem C60_conditional_includes_get_lost : ∃ (t : List (Path × List Line)) (header : List Line),
    singleHeader (filesOf t) "gtest" 5 = some header ∧
    program (filesOf t) (fun _ => false) [["include"], ["config", "gtest"]] 5 ["config", "gtest", "fakeit.hpp"] = some ["utils", "fakeit"] ∧
    program (filesOf [(["fakeit.hpp"], header)]) (fun _ => false) [] 1 ["fakeit.hpp"] = some ["fakeit"] :=
  ⟨[(["config", "gtest", "fakeit.hpp"], [.once, .ifdef "_MSC_VER", .incl ["utils.hpp"], .endif, .incl ["utils.hpp"], .text "fakeit"]),
    (["include", "utils.hpp"], [.once, .text "utils"])],
    [.once, .comment "FakeIt - A Simplified C++ Mocking Framework", .ifdef "_MSC_VER", .text "utils", .endif, .text "fakeit"],
    by decide +kernel, by decide +kernel, by decide +kernel⟩

end FakeIt
