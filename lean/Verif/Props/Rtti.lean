import Verif.Model.Rtti
/-!
# C78: dynamic types of fake objects
-/
namespace FakeIt.Rtti

namespace Spec

/-- The classes form chains: the bases of a base are the bases behind it; no class is its own base; no repetitions. -/
structure Chains (h : Classes) : Prop where
  tail : ∀ c l b r, h c = l ++ b :: r → h b = r
  nodup : ∀ c, (c :: h c).Nodup

/-- What C++ says about an object of class `c`: its type, and casts to any of its bases and itself. -/
def castTo (h : Classes) (c target : Nat) : Ans := if target ∈ c :: h c then .object else .null

/-- What Microsoft's compiler makes for a class: the class and all its bases, each with the number of its own bases. -/
def compilers (h : Classes) (c : Nat) : List Desc := (c :: h c).map fun b => ⟨b, (h b).length⟩

end Spec
open Spec

theorem isBaseOf_iff {h : Classes} {b d : Nat} : isBaseOf h b d = true ↔ b ∈ d :: h d := by
  simp [isBaseOf]

/-- Each class with the number of classes behind it. -/
def descs : List Nat → List Desc
  | [] => []
  | t :: ts => ⟨t, ts.length⟩ :: descs ts

theorem addAll_eq {h : Classes} {c : Nat} : ∀ {bs : List Nat} {head : Nat} {arr out : List Desc}, addAll h c head bs arr = some out →
    out = arr.map (fun d => { d with contained := d.contained + bs.length + 1 }) ++ descs (head :: bs)
  | [], head, arr, out, h0 => by
    simp only [addAll, addOne] at h0
    split at h0
    · simp only [Option.some.injEq] at h0
      subst h0
      simp [descs]
    · simp at h0
  | b :: bs, head, arr, out, h0 => by
    simp only [addAll, addOne] at h0
    split at h0
    · split at h0
      · rename_i h1
        split at h1
        · simp only [Option.some.injEq] at h1
          subst h1
          have := addAll_eq h0
          subst this
          simp only [List.map_append, List.map_map, List.map_cons, List.map_nil, List.length_cons, List.append_assoc, List.cons_append, List.nil_append, descs]
          congr 1
          · apply List.map_congr_left
            intro d _
            simp only [Function.comp]
            congr 1
            omega
          · congr 2
            omega
        · simp at h1
      · simp at h0
    · simp at h0

theorem descs_types : ∀ (l : List Nat), (descs l).map Desc.type = l
  | [] => rfl
  | _ :: ts => by simp [descs, descs_types ts]

/-- The entries are the classes given, in their order. -/
theorem hierarchy_types {h : Classes} {c : Nat} {bs : List Nat} {arr : List Desc} (h0 : hierarchy h c bs = some arr) : arr.map Desc.type = c :: bs := by
  have := addAll_eq h0
  subst this
  simp only [List.map_nil, List.nil_append]
  exact descs_types _

theorem addAll_complete {h : Classes} (hc : Chains h) {c : Nat} : ∀ {bs : List Nat} {head : Nat} {arr : List Desc}, h head = bs → (∀ b ∈ head :: bs, b ∈ c :: h c) →
    ∃ out, addAll h c head bs arr = some out
  | [], head, arr, _, hm => by
    simp only [addAll, addOne]
    rw [if_pos (isBaseOf_iff.2 (hm head (List.mem_cons_self ..)))]
    exact ⟨_, rfl⟩
  | b :: bs, head, arr, hh, hm => by
    simp only [addAll, addOne]
    rw [if_pos (isBaseOf_iff.2 (by rw [hh]; simp)), if_pos (isBaseOf_iff.2 (hm head (List.mem_cons_self ..)))]
    exact addAll_complete hc (hc.tail head [] b bs (by simpa using hh)) fun x hx => hm x (List.mem_cons_of_mem _ hx)

theorem chain_lengths {h : Classes} (hc : Chains h) : ∀ {bs : List Nat} {head : Nat}, h head = bs → descs (head :: bs) = (head :: bs).map fun b => ⟨b, (h b).length⟩
  | [], head, hh => by simp [hh, descs]
  | b :: bs, head, hh => by
    have ih := chain_lengths hc (bs := bs) (head := b) (hc.tail head [] b bs (by simpa using hh))
    rw [List.map_cons, ← ih]
    simp [descs, hh]

/-- For `Mock<C, baseclasses...>` with all bases of `C`, in their order, the description made for 32 bits is the compiler's. -/
theorem C78_full_lists_give_the_compilers_description {h : Classes} (hc : Chains h) (c : Nat) : hierarchy h c (h c) = some (compilers h c) := by
  obtain ⟨out, ho⟩ := addAll_complete hc (c := c) (bs := h c) (head := c) (arr := []) rfl fun b hb => hb
  rw [hierarchy, ho, addAll_eq ho]
  rw [List.map_nil, List.nil_append, chain_lengths hc rfl]
  rfl

/-- Three classes: 0, 1 : 0, 2 : 1. -/
def Demo.classes : Classes := fun c => match c with | 2 => [1, 0] | 1 => [0] | _ => []

theorem Demo.chains : Chains Demo.classes := by
  have hd : ∀ c, Demo.classes c = if c = 2 then [1, 0] else if c = 1 then [0] else [] := by
    intro c
    unfold Demo.classes
    split
    · rfl
    · rfl
    · rename_i h2 h1
      rw [if_neg (fun h => h2 h), if_neg (fun h => h1 h)]
  constructor
  · intro c l b r hh
    rw [hd c] at hh
    split at hh
    · match l, hh with
      | [], hh => simp only [List.nil_append, List.cons.injEq] at hh; obtain ⟨rfl, rfl⟩ := hh; rfl
      | [x], hh => simp only [List.cons_append, List.nil_append, List.cons.injEq] at hh; obtain ⟨-, rfl, rfl⟩ := hh; rfl
      | _ :: _ :: l, hh => simp at hh
    · split at hh
      · match l, hh with
        | [], hh => simp only [List.nil_append, List.cons.injEq] at hh; obtain ⟨rfl, rfl⟩ := hh; rfl
        | _ :: l, hh => simp at hh
      · simp at hh
  · intro c
    rw [hd c]
    split
    · subst_vars; decide
    · split
      · subst_vars; decide
      · simp

example : hierarchy Demo.classes 2 [1, 0] = some [⟨2, 2⟩, ⟨1, 1⟩, ⟨0, 0⟩] := C78_full_lists_give_the_compilers_description Demo.chains 2

theorem search_some {src target : Nat} : ∀ {l : List Nat} {r : List Nat} {arr : List Desc}, arr.map Desc.type = l ++ target :: r → target ∉ l → (search src target arr = true ↔ src ∈ r)
  | [], r, [], h0, _ => by simp at h0
  | [], r, d :: ds, h0, _ => by
    simp only [List.map_cons, List.nil_append, List.cons.injEq] at h0
    obtain ⟨rfl, rfl⟩ := h0
    simp [search]
  | x :: l, r, [], h0, _ => by simp at h0
  | x :: l, r, d :: ds, h0, hn => by
    simp only [List.map_cons, List.cons_append, List.cons.injEq] at h0
    obtain ⟨rfl, h0⟩ := h0
    have hne : d.type ≠ target := fun hh => hn (by rw [hh]; exact List.mem_cons_self ..)
    simp only [search, beq_iff_eq, if_neg hne]
    exact search_some h0 fun hm => hn (List.mem_cons_of_mem _ hm)

theorem search_none {src target : Nat} : ∀ {arr : List Desc}, target ∉ arr.map Desc.type → search src target arr = false
  | [], _ => rfl
  | d :: ds, hn => by
    simp only [List.map_cons, List.mem_cons, not_or] at hn
    simp only [search, beq_iff_eq, if_neg (fun hh : d.type = target => hn.1 hh.symm)]
    exact search_none hn.2

theorem search_source {src target : Nat} : ∀ {arr : List Desc}, src ∉ arr.map Desc.type → search src target arr = false
  | [], _ => rfl
  | d :: ds, hn => by
    simp only [List.map_cons, List.mem_cons, not_or] at hn
    simp only [search]
    split
    · simp only [List.any_eq_false, beq_iff_eq]
      intro e he hh
      exact hn.2 (List.mem_map.2 ⟨e, he, hh⟩)
    · exact search_source hn.2

theorem not_base_before {h : Classes} (hc : Chains h) {c src target : Nat} (hs : src ∈ c :: h c) (ht : target ∈ c :: h c) (hn : isBaseOf h target src = false) :
    ∃ l r, c :: h c = l ++ target :: r ∧ target ∉ l ∧ src ∈ r := by
  obtain ⟨l, r, hl⟩ := List.append_of_mem ht
  have hnd := hc.nodup c
  refine ⟨l, r, hl, ?_, ?_⟩
  · rw [hl] at hnd
    intro hm
    exact (List.nodup_append.1 hnd).2.2 target hm target (List.mem_cons_self ..) rfl
  · rw [hl] at hs
    rcases List.mem_append.1 hs with hs | hs
    · exfalso
      have hb : target ∈ src :: h src := by
        obtain ⟨l1, l2, rfl⟩ := List.append_of_mem hs
        cases l1 with
        | nil =>
          simp only [List.nil_append, List.cons_append, List.cons.injEq] at hl
          obtain ⟨rfl, hl⟩ := hl
          rw [hl]; simp
        | cons x l1 =>
          simp only [List.cons_append, List.append_assoc, List.cons.injEq] at hl
          rw [hc.tail c l1 src (l2 ++ target :: r) hl.2]
          simp
      rw [isBaseOf_iff.2 hb] at hn
      simp at hn
    · rcases List.mem_cons.1 hs with rfl | hs
      · simp [isBaseOf] at hn
      · exact hs

/-- The claim for `typeid` and casts within the class's own bases. What is missing: 64 bits, incomplete lists of bases, both for Microsoft's compiler. For GCC any list, also none, will do. -/
theorem C78_casts_as_for_a_real_object_partial {t : Target} {h : Classes} (hc : Chains h) {c : Nat} {bases : List Nat} {info : Info} (hb : build t h c bases = some info)
    (hok : t = .itanium ∨ t = .msvc32 ∧ bases = h c) :
    typeId info = .type c ∧ ∀ src target, src ∈ c :: h c → dynamicCast h info src target = castTo h c target := by
  have up : ∀ {src target : Nat}, src ∈ c :: h c → isBaseOf h target src = true → castTo h c target = .object := by
    intro src target hs hu
    rw [isBaseOf_iff] at hu
    rw [castTo, if_pos]
    rcases List.mem_cons.1 hs with heq | hs
    · rw [heq] at hu
      exact hu
    · obtain ⟨l, r, hl⟩ := List.append_of_mem hs
      rw [hc.tail c l src r hl] at hu
      rw [hl]
      simp only [List.mem_cons, List.mem_append] at hu ⊢
      rcases hu with hu | hu
      · exact .inr (.inr (.inl hu))
      · exact .inr (.inr (.inr hu))
  rcases hok with rfl | ⟨rfl, rfl⟩
  · simp only [build, Option.some.injEq] at hb
    subst hb
    refine ⟨rfl, fun src target hs => ?_⟩
    unfold dynamicCast
    split
    · rename_i hb
      rw [up hs hb]
    · simp only [isBaseOf_iff]
      rfl
  · simp only [build, C78_full_lists_give_the_compilers_description hc, Option.map_some, Option.some.injEq] at hb
    subst hb
    refine ⟨rfl, fun src target hs => ?_⟩
    unfold dynamicCast
    split
    · rename_i hb
      rw [up hs hb]
    · rename_i hn
      simp only [Bool.not_eq_true] at hn
      have hty : (compilers h c).map Desc.type = c :: h c := by
        simp [compilers, Function.comp_def]
      dsimp only
      by_cases ht : target ∈ c :: h c
      · obtain ⟨l, r, hl, hl1, hl2⟩ := not_base_before hc hs ht hn
        rw [castTo, if_pos ht, if_pos ((search_some (hty.trans hl) hl1).2 hl2)]
      · rw [castTo, if_neg ht, search_none (by rw [hty]; exact ht)]
        rfl

example : dynamicCast Demo.classes (.locator 2 [⟨2, 2⟩, ⟨1, 1⟩, ⟨0, 0⟩]) 0 1 = .object := by decide
example : build .msvc32 Demo.classes 2 [1, 0] = some (.locator 2 [⟨2, 2⟩, ⟨1, 1⟩, ⟨0, 0⟩]) := by decide

/-- The claim fails for 32 bits if a base is left out: casts from a base that is not listed, and casts to one, give null although the object is of that class. -/
theorem C78_unlisted_bases_cannot_be_cast {h : Classes} {c : Nat} {bases : List Nat} {info : Info} (hb : build .msvc32 h c bases = some info) {src target : Nat}
    (hn : isBaseOf h target src = false) (hu : src ∉ c :: bases ∨ target ∉ c :: bases) : dynamicCast h info src target = .null := by
  simp only [build, Option.map_eq_some_iff] at hb
  obtain ⟨arr, ha, rfl⟩ := hb
  have hty := hierarchy_types ha
  unfold dynamicCast
  rw [if_neg (by simp [hn])]
  rcases hu with hu | hu
  · simp [search_source (by rw [hty]; exact hu)]
  · simp [search_none (by rw [hty]; exact hu)]

/-- `Mock<A>` for `A : Left : TopLeft`; `Mock<A, TopLeft>`: both compile. -/
example : build .msvc32 Demo.classes 2 [] = some (.locator 2 [⟨2, 0⟩]) ∧ dynamicCast Demo.classes (.locator 2 [⟨2, 0⟩]) 1 2 = .null ∧ Spec.castTo Demo.classes 2 2 = .object := by decide
example : build .msvc32 Demo.classes 2 [0] = some (.locator 2 [⟨2, 1⟩, ⟨0, 0⟩]) ∧ dynamicCast Demo.classes (.locator 2 [⟨2, 1⟩, ⟨0, 0⟩]) 0 1 = .null ∧
    dynamicCast Demo.classes (.locator 2 [⟨2, 1⟩, ⟨0, 0⟩]) 0 2 = .object := by decide

/-- For 64 bits nothing that needs information works. -/
theorem C78_no_information_for_64_bits (h : Classes) (c : Nat) (bases : List Nat) :
    ∃ info, build .msvc64 h c bases = some info ∧ typeId info = .failed ∧ ∀ src target, isBaseOf h target src = false → dynamicCast h info src target = .failed :=
  ⟨.zeros, rfl, rfl, fun _ _ hn => by simp [dynamicCast, hn]⟩

/-- Which lists compile (32 bits): those in which each class is a base of the one before (or the same), whether or not some are left out. -/
theorem C78_which_lists_compile {h : Classes} (hc : Chains h) (c : Nat) (bases : List Nat) :
    (build .msvc32 h c bases).isSome = true ↔ ∀ l b d r, c :: bases = l ++ b :: d :: r → isBaseOf h d b = true := by
  have trans : ∀ {a b d : Nat}, isBaseOf h b a = true → isBaseOf h d b = true → isBaseOf h d a = true := by
    intro a b d h1 h2
    rw [isBaseOf_iff] at *
    rcases List.mem_cons.1 h1 with rfl | h1
    · exact h2
    · obtain ⟨l, r, hl⟩ := List.append_of_mem h1
      rw [hc.tail a l b r hl] at h2
      rw [hl]
      simp only [List.mem_cons, List.mem_append] at h2 ⊢
      rcases h2 with h2 | h2
      · exact .inr (.inr (.inl h2))
      · exact .inr (.inr (.inr h2))
  have key : ∀ (bs : List Nat) (head : Nat) (arr : List Desc), isBaseOf h head c = true →
      ((addAll h c head bs arr).isSome = true ↔ ∀ l b d r, head :: bs = l ++ b :: d :: r → isBaseOf h d b = true) := by
    intro bs
    induction bs with
    | nil =>
      intro head arr hh
      simp only [addAll, addOne, hh, if_true, Option.isSome_some, true_iff]
      intro l b d r hl
      cases l with
      | nil => simp at hl
      | cons x l => cases l <;> simp at hl
    | cons b bs ih =>
      intro head arr hh
      simp only [addAll, addOne, hh, if_true]
      by_cases hb : isBaseOf h b head = true
      · simp only [hb, if_true]
        rw [ih b _ (trans hh hb)]
        constructor
        · intro hall l x d r hl
          cases l with
          | nil =>
            simp only [List.nil_append, List.cons.injEq] at hl
            obtain ⟨rfl, rfl, -⟩ := hl
            exact hb
          | cons y l =>
            simp only [List.cons_append, List.cons.injEq] at hl
            exact hall l x d r hl.2
        · intro hall l x d r hl
          exact hall (head :: l) x d r (by rw [hl]; rfl)
      · simp only [hb]
        simp only [Bool.false_eq_true, if_false, Option.isSome_none, false_iff]
        intro hall
        exact hb (hall [] head b bs rfl)
  simp only [build, Option.isSome_map, hierarchy]
  exact key bases c [] (by simp [isBaseOf])

example : (build .msvc32 Demo.classes 2 [0, 1]).isSome = false := by decide

end FakeIt.Rtti
