import Verif.Model.Layout
/-!
# C52 (method offsets) and C53 (the layout check)
-/
namespace FakeIt

/-! ## Specification -/

/-- `d` is `c` or one of its direct or indirect bases. -/
inductive Spec.InHierarchy : CppClass → CppClass → Prop where
  | refl (c : CppClass) : InHierarchy c c
  | base {c b d : CppClass} : b ∈ c.bases → InHierarchy b d → InHierarchy c d

open Spec

/-! ## C53 -/

/-- **C53.** The layout check accepts exactly the hierarchies in which every class has at most one direct base. -/
theorem C53_accepts_iff_single_inheritance (c : CppClass) :
    isSimpleInheritanceLayout c = true ↔ ∀ d, InHierarchy c d → d.bases.length ≤ 1 := by
  match c with
  | .mk ds [] =>
    refine ⟨fun _ d hd => ?_, fun _ => by simp [isSimpleInheritanceLayout, CppClass.bases, hasOneBase]⟩
    cases hd with
    | refl => simp [CppClass.bases]
    | base hb _ => simp [CppClass.bases] at hb
  | .mk ds [b] =>
    have ih := C53_accepts_iff_single_inheritance b
    have he : isSimpleInheritanceLayout (.mk ds [b]) = isSimpleInheritanceLayout b := by
      cases b with
      | mk db bb => simp [isSimpleInheritanceLayout, CppClass.bases, hasOneBase]
    rw [he, ih]
    refine ⟨fun h d hd => ?_, fun h d hd => h d (.base (by simp [CppClass.bases]) hd)⟩
    cases hd with
    | refl => simp [CppClass.bases]
    | base hb h2 =>
      simp only [CppClass.bases, List.mem_singleton] at hb
      subst hb
      exact h d h2
  | .mk ds (b1 :: b2 :: bs) =>
    refine ⟨fun h => ?_, fun h => ?_⟩
    · simp [isSimpleInheritanceLayout, CppClass.bases, hasOneBase] at h
    · have := h _ (.refl _)
      simp [CppClass.bases] at this

/-! ## C52 -/

private theorem probes_eq : probes = List.range 1001 := by decide +kernel

private theorem callProbe_eq (k : Nat) : callProbe k = if k ≤ 1000 then .done k else .ub := by
  rw [callProbe, probes_eq]
  by_cases h : k ≤ 1000
  · rw [if_pos h, List.getElem?_range (by omega)]; rfl
  · rw [if_neg h, List.getElem?_eq_none (by simp; omega)]; rfl

private theorem getOffset_memberPtr (abi : Abi) (k : Nat) : getOffset (memberPtr abi k) = callProbe k := by
  cases abi with
  | msvc => rfl
  | itanium =>
    simp only [memberPtr, getOffset]
    rw [if_pos ⟨trivial, by omega⟩, show (1 + 8 * k - 1) / 8 = k by omega]

/-- **C52** (partial: slots up to 1000). The slot found for a virtual method is the slot through which the compiler dispatches its calls. -/
theorem C52_slot_is_the_dispatch_slot_partial {abi : Abi} {c : CppClass} {f k : Nat} (hk : c.slot abi (.method f) = some k) (h : k ≤ 1000) :
    ∃ p, c.pointerTo abi f = some p ∧ getOffset p = .done k := by
  refine ⟨memberPtr abi k, by rw [CppClass.pointerTo, hk]; rfl, ?_⟩
  rw [getOffset_memberPtr, callProbe_eq, if_pos h]

/-- **C52.** Beyond slot 1000 probing is undefined behaviour. -/
theorem C52_slots_beyond_the_probes {abi : Abi} {c : CppClass} {f k : Nat} (hk : c.slot abi (.method f) = some k) (h : 1000 < k) :
    ∃ p, c.pointerTo abi f = some p ∧ getOffset p = .ub := by
  refine ⟨memberPtr abi k, by rw [CppClass.pointerTo, hk]; rfl, ?_⟩
  rw [getOffset_memberPtr, callProbe_eq, if_neg (by omega)]

/-- **C52.** Different methods of a class have different slots, so a stubbing never lands in another method's slot. -/
theorem C52_methods_have_their_own_slots {abi : Abi} {c : CppClass} {u v : SlotUse} {k : Nat} (hu : c.slot abi u = some k) (hv : c.slot abi v = some k) :
    u = v := by
  simp only [CppClass.slot, List.findIdx?_eq_some_iff_getElem] at hu hv
  obtain ⟨h1, h2, -⟩ := hu
  obtain ⟨_, h3, -⟩ := hv
  simp only [beq_iff_eq] at h2 h3
  rw [← h2, ← h3]

private theorem addDecls_prefix (abi : Abi) (t : List SlotUse) (ds : List (Option Nat)) : ∃ e, addDecls abi t ds = t ++ e := by
  induction ds generalizing t with
  | nil => exact ⟨[], by simp [addDecls]⟩
  | cons d ds ih =>
    rw [addDecls.eq_def]
    dsimp only
    split
    · exact ih t
    · obtain ⟨e, he⟩ := ih (t ++ declSlots abi d)
      exact ⟨declSlots abi d ++ e, by rw [he, List.append_assoc]⟩

private theorem slot_append {t e : List SlotUse} {u : SlotUse} {k : Nat} (h : t.findIdx? (· == u) = some k) : (t ++ e).findIdx? (· == u) = some k := by
  rw [List.findIdx?_append, h]; rfl

private theorem hier_table {abi : Abi} {c b : CppClass} (hs : isSimpleInheritanceLayout c = true) (h : InHierarchy c b) :
    ∃ e, c.table abi = b.table abi ++ e := by
  induction h with
  | refl c => exact ⟨[], by simp⟩
  | @base c b d hb hd ih =>
    cases c with
    | mk ds bs =>
      simp only [CppClass.bases] at hb
      match bs with
      | [] => cases hb
      | [b'] =>
        simp only [List.mem_singleton] at hb
        subst hb
        have hsb : isSimpleInheritanceLayout b = true := by
          cases b with
          | mk db bb => simpa [isSimpleInheritanceLayout, CppClass.bases, hasOneBase] using hs
        obtain ⟨e, he⟩ := ih hsb
        obtain ⟨e2, he2⟩ := addDecls_prefix abi (b.table abi) ds
        exact ⟨e ++ e2, by rw [CppClass.table, he2, he, List.append_assoc]⟩
      | _ :: _ :: _ => simp [isSimpleInheritanceLayout, CppClass.bases, hasOneBase] at hs

/-- **C52.** In a hierarchy the library accepts, a method has the same slot in the mocked class as in every base class through which it may be called. -/
theorem C52_slot_agrees_with_bases {abi : Abi} {c b : CppClass} {u : SlotUse} {k : Nat} (hs : isSimpleInheritanceLayout c = true)
    (hb : InHierarchy c b) (hk : b.slot abi u = some k) : c.slot abi u = some k := by
  obtain ⟨e, he⟩ := hier_table (abi := abi) hs hb
  rw [CppClass.slot, he]
  exact slot_append hk

private theorem table_method (abi : Abi) (f : Nat) (t : List SlotUse) (ds : List (Option Nat)) :
    .method f ∈ addDecls abi t ds ↔ .method f ∈ t ∨ some f ∈ ds := by
  induction ds generalizing t with
  | nil => simp [addDecls]
  | cons d ds ih =>
    rw [addDecls.eq_def]
    dsimp only
    split
    · next h =>
      rw [ih]
      cases d with
      | none => simp
      | some g =>
        simp only [declKey] at h
        constructor
        · rintro (h1 | h1)
          · exact .inl h1
          · exact .inr (by simp [h1])
        · rintro (h1 | h1)
          · exact .inl h1
          · rcases List.mem_cons.1 h1 with h1 | h1
            · cases h1; exact .inl h
            · exact .inr h1
    · rw [ih]
      cases d with
      | none => cases abi <;> simp [declSlots]
      | some g => simp [declSlots, or_assoc]

private theorem method_iff (abi : Abi) (f : Nat) (c : CppClass) (hs : isSimpleInheritanceLayout c = true) :
    .method f ∈ c.table abi ↔ ∃ b, InHierarchy c b ∧ some f ∈ b.decls := by
  match c with
  | .mk ds [] =>
    rw [CppClass.table, table_method]
    refine ⟨fun h => ⟨_, .refl _, ?_⟩, ?_⟩
    · rcases h with h | h
      · cases h
      · exact h
    · rintro ⟨b, hb, hd⟩
      cases hb with
      | refl => exact .inr hd
      | base hb _ => cases hb
  | .mk ds [b] =>
    have hsb : isSimpleInheritanceLayout b = true := by
      cases b with
      | mk db bb => simpa [isSimpleInheritanceLayout, CppClass.bases, hasOneBase] using hs
    have ih := method_iff abi f b hsb
    rw [CppClass.table, table_method, ih]
    constructor
    · rintro (⟨d, h1, h2⟩ | h)
      · exact ⟨d, .base (by simp [CppClass.bases]) h1, h2⟩
      · exact ⟨_, .refl _, h⟩
    · rintro ⟨d, h1, h2⟩
      cases h1 with
      | refl => exact .inr h2
      | base hb h1 =>
        simp only [CppClass.bases, List.mem_singleton] at hb
        subst hb
        exact .inl ⟨d, h1, h2⟩
  | .mk ds (b1 :: b2 :: bs) => simp [isSimpleInheritanceLayout, CppClass.bases, hasOneBase] at hs

private theorem slot_none {abi : Abi} {c : CppClass} {u : SlotUse} (h : u ∉ c.table abi) : c.slot abi u = none := by
  rw [CppClass.slot, List.findIdx?_eq_none_iff]
  intro x hx
  simp only [beq_eq_false_iff_ne, ne_eq]
  rintro rfl
  exact h hx

private theorem slot_lt {abi : Abi} {c : CppClass} {u : SlotUse} {k : Nat} (h : c.slot abi u = some k) : k < (c.table abi).length := by
  simp only [CppClass.slot, List.findIdx?_eq_some_iff_getElem] at h
  exact h.1

private theorem size_eq (abi : Abi) (c : CppClass) :
    getVTSize abi c = callProbe ((c.slot abi (.method endOfVt)).getD (c.table abi).length) := by
  have hslot : (CppClass.mk [some endOfVt] [c]).slot abi (.method endOfVt) =
      some ((c.slot abi (.method endOfVt)).getD (c.table abi).length) := by
    by_cases hn : SlotUse.method endOfVt ∈ c.table abi
    · have ht : (CppClass.mk [some endOfVt] [c]).table abi = c.table abi := by
        rw [CppClass.table, addDecls.eq_def]
        dsimp only
        rw [if_pos (show declKey (some endOfVt) ∈ c.table abi from hn)]
        rfl
      have he : ∃ k, c.slot abi (.method endOfVt) = some k := by
        cases hk : c.slot abi (.method endOfVt) with
        | some k => exact ⟨k, rfl⟩
        | none =>
          rw [CppClass.slot, List.findIdx?_eq_none_iff] at hk
          have := hk _ hn
          simp at this
      obtain ⟨k, hk⟩ := he
      rw [hk]
      rw [CppClass.slot] at hk ⊢
      rw [ht, hk]; rfl
    · have ht : (CppClass.mk [some endOfVt] [c]).table abi = c.table abi ++ [.method endOfVt] := by
        rw [CppClass.table, addDecls.eq_def]
        dsimp only
        rw [if_neg (show declKey (some endOfVt) ∉ c.table abi from hn)]
        rfl
      have h1 := slot_none hn
      rw [h1, CppClass.slot, ht, List.findIdx?_append, show (c.table abi).findIdx? (· == .method endOfVt) = none from h1]
      simp [List.findIdx?_cons]
  rw [getVTSize, CppClass.pointerTo, hslot]
  exact getOffset_memberPtr abi _

/-- **C52** (partial: up to 1000 slots, and no virtual method `void endOfVt()` in the hierarchy). The size found for the virtual table of a class is the
number of its slots. -/
theorem C52_table_size_partial (abi : Abi) (c : CppClass) (hs : isSimpleInheritanceLayout c = true)
    (he : ∀ b, InHierarchy c b → some endOfVt ∉ b.decls) (h : (c.table abi).length ≤ 1000) :
    getVTSize abi c = .done (c.table abi).length := by
  have hn : SlotUse.method endOfVt ∉ c.table abi := by
    rw [method_iff abi _ c hs]
    rintro ⟨b, h1, h2⟩
    exact he b h1 h2
  rw [size_eq, slot_none hn, Option.getD_none, callProbe_eq, if_pos h]

/-- **C52.** A class with more than 1000 slots cannot be mocked: measuring its table is undefined behaviour (unless it has a virtual method
`void endOfVt()`). -/
theorem C52_large_classes_are_undefined (abi : Abi) (c : CppClass) (hs : isSimpleInheritanceLayout c = true)
    (he : ∀ b, InHierarchy c b → some endOfVt ∉ b.decls) (h : 1000 < (c.table abi).length) : getVTSize abi c = .ub := by
  have hn : SlotUse.method endOfVt ∉ c.table abi := by
    rw [method_iff abi _ c hs]
    rintro ⟨b, h1, h2⟩
    exact he b h1 h2
  rw [size_eq, slot_none hn, Option.getD_none, callProbe_eq, if_neg (by omega)]

/-- **C52** (negation). A class that declares or inherits a virtual method `void endOfVt()` is measured too small: the size found is the slot of that
method, so it and the methods declared after it lie beyond the table the library makes. -/
theorem C52_endOfVt_cuts_the_table (abi : Abi) (c : CppClass) (hs : isSimpleInheritanceLayout c = true)
    (he : ∃ b, InHierarchy c b ∧ some endOfVt ∈ b.decls) (h : (c.table abi).length ≤ 1000) :
    ∃ n, getVTSize abi c = .done n ∧ c.slot abi (.method endOfVt) = some n ∧ n < (c.table abi).length := by
  have hm := (method_iff abi endOfVt c hs).2 he
  cases hk : c.slot abi (.method endOfVt) with
  | none =>
    rw [CppClass.slot, List.findIdx?_eq_none_iff] at hk
    have := hk _ hm
    simp at this
  | some k =>
    have hlt := slot_lt hk
    exact ⟨k, by rw [size_eq, hk, Option.getD_some, callProbe_eq, if_pos (by omega)], rfl, hlt⟩

private theorem table_dtor (abi : Abi) (t : List SlotUse) (ds : List (Option Nat)) :
    .dtor ∈ addDecls abi t ds ↔ .dtor ∈ t ∨ none ∈ ds := by
  induction ds generalizing t with
  | nil => simp [addDecls]
  | cons d ds ih =>
    rw [addDecls.eq_def]
    dsimp only
    split
    · next h =>
      rw [ih]
      cases d with
      | some f => simp
      | none => simp only [declKey] at h; simp [h]
    · rw [ih]
      cases d with
      | some f => simp [declSlots]
      | none => cases abi <;> simp [declSlots]

private theorem dtor_iff (abi : Abi) (c : CppClass) (hs : isSimpleInheritanceLayout c = true) :
    .dtor ∈ c.table abi ↔ ∃ b, InHierarchy c b ∧ none ∈ b.decls := by
  match c with
  | .mk ds [] =>
    rw [CppClass.table, table_dtor]
    refine ⟨fun h => ⟨_, .refl _, ?_⟩, ?_⟩
    · rcases h with h | h
      · cases h
      · exact h
    · rintro ⟨b, hb, hd⟩
      cases hb with
      | refl => exact .inr hd
      | base hb _ => cases hb
  | .mk ds [b] =>
    have hsb : isSimpleInheritanceLayout b = true := by
      cases b with
      | mk db bb => simpa [isSimpleInheritanceLayout, CppClass.bases, hasOneBase] using hs
    have ih := dtor_iff abi b hsb
    rw [CppClass.table, table_dtor, ih]
    constructor
    · rintro (⟨d, h1, h2⟩ | h)
      · exact ⟨d, .base (by simp [CppClass.bases]) h1, h2⟩
      · exact ⟨_, .refl _, h⟩
    · rintro ⟨d, h1, h2⟩
      cases h1 with
      | refl => exact .inr h2
      | base hb h1 =>
        simp only [CppClass.bases, List.mem_singleton] at hb
        subst hb
        exact .inl ⟨d, h1, h2⟩
  | .mk ds (b1 :: b2 :: bs) => simp [isSimpleInheritanceLayout, CppClass.bases, hasOneBase] at hs

/-- **C52** (partial: slots up to 1000). The slot found for the destructor is its dispatch slot; there is an error report instead exactly for classes
that neither declare nor inherit a virtual destructor. -/
theorem C52_destructor_slot_partial {abi : Abi} {c : CppClass} (hs : isSimpleInheritanceLayout c = true) (h : (c.table abi).length ≤ 1000) :
    getDestructorOffset abi c = .done (c.slot abi .dtor) ∧ (c.slot abi .dtor = none ↔ ∀ b, InHierarchy c b → none ∉ b.decls) := by
  constructor
  · rw [getDestructorOffset]
    cases hk : c.slot abi .dtor with
    | none => rfl
    | some k =>
      have hlt : k < (c.table abi).length := by
        simp only [CppClass.slot, List.findIdx?_eq_some_iff_getElem] at hk
        exact hk.1
      simp only
      rw [callProbe_eq, if_pos (by omega)]; rfl
  · rw [CppClass.slot, List.findIdx?_eq_none_iff]
    have := dtor_iff abi c hs
    constructor
    · intro hn b hb hd
      have := hn _ (this.2 ⟨b, hb, hd⟩)
      simp at this
    · intro hn x hx
      simp only [beq_eq_false_iff_ne, ne_eq]
      rintro rfl
      obtain ⟨b, hb, hd⟩ := this.1 hx
      exact hn b hb hd

private def Adj (t : List SlotUse) : Prop :=
  (.dtor ∉ t ∧ .deletingDtor ∉ t) ∨ ∃ a b, t = a ++ [.dtor, .deletingDtor] ++ b ∧ .dtor ∉ a ∧ .deletingDtor ∉ a

private theorem adj_addDecls {t : List SlotUse} (h : Adj t) (ds : List (Option Nat)) : Adj (addDecls .itanium t ds) := by
  induction ds generalizing t with
  | nil => exact h
  | cons d ds ih =>
    rw [addDecls.eq_def]
    dsimp only
    split
    · exact ih h
    · next hn =>
      apply ih
      rcases h with ⟨h1, h2⟩ | ⟨a, b, rfl, h1, h2⟩
      · cases d with
        | some f => exact .inl ⟨by simp [declSlots, h1], by simp [declSlots, h2]⟩
        | none => exact .inr ⟨t, [], by simp [declSlots], h1, h2⟩
      · exact .inr ⟨a, b ++ declSlots .itanium d, by simp, h1, h2⟩

private theorem adj_table (c : CppClass) : Adj (c.table .itanium) := by
  match c with
  | .mk ds [] => rw [CppClass.table]; exact adj_addDecls (.inl (by simp)) ds
  | .mk ds (b :: bs) => rw [CppClass.table]; exact adj_addDecls (adj_table b) ds

/-- **C52.** With gcc and clang the destructor occupies two slots, the complete one first and the deleting one next to it; the library relies on this
when it stubs the destructor. With Visual C++ there is only one. -/
theorem C52_destructor_entries_are_adjacent (c : CppClass) :
    (∀ k, c.slot .itanium .dtor = some k ↔ c.slot .itanium .deletingDtor = some (k + 1)) ∧
    c.slot .itanium .deletingDtor ≠ some 0 ∧ c.slot .msvc .deletingDtor = none := by
  have h0 : c.slot .msvc .deletingDtor = none := by
    have hadd : ∀ ds t, .deletingDtor ∉ t → .deletingDtor ∉ addDecls .msvc t ds := by
      intro ds
      induction ds with
      | nil => exact fun _ h => h
      | cons d ds ih =>
        intro t h
        rw [addDecls.eq_def]
        dsimp only
        split
        · exact ih t h
        · exact ih _ (by cases d <;> simp [declSlots, h])
    have hall : ∀ c : CppClass, .deletingDtor ∉ c.table .msvc := by
      intro c
      induction c using CppClass.table.induct with
      | case1 ds => rw [CppClass.table]; exact hadd ds [] (by simp)
      | case2 ds b bs ih => rw [CppClass.table]; exact hadd ds _ ih
    rw [CppClass.slot, List.findIdx?_eq_none_iff]
    intro x hx
    simp only [beq_eq_false_iff_ne, ne_eq]
    rintro rfl
    exact hall c hx
  rcases adj_table c with ⟨h1, h2⟩ | ⟨a, b, ht, h1, h2⟩
  · have hn : ∀ u, u ∉ c.table .itanium → c.slot .itanium u = none := by
      intro u hu
      rw [CppClass.slot, List.findIdx?_eq_none_iff]
      intro x hx
      simp only [beq_eq_false_iff_ne, ne_eq]
      rintro rfl
      exact hu hx
    rw [hn _ h1, hn _ h2]
    exact ⟨by simp, by simp, h0⟩
  · have hn : ∀ u, u ∉ a → a.findIdx? (· == u) = none := by
      intro u hu
      rw [List.findIdx?_eq_none_iff]
      intro x hx
      simp only [beq_eq_false_iff_ne, ne_eq]
      rintro rfl
      exact hu hx
    have e1 : c.slot .itanium .dtor = some a.length := by
      rw [CppClass.slot, ht, List.append_assoc, List.findIdx?_append, hn _ h1]
      simp [List.findIdx?_cons]
    have e2 : c.slot .itanium .deletingDtor = some (a.length + 1) := by
      rw [CppClass.slot, ht, List.append_assoc, List.findIdx?_append, hn _ h2]
      simp [List.findIdx?_cons, Nat.add_comm]
    rw [e1, e2]
    exact ⟨fun k => by simp, by simp, h0⟩

namespace Demo

/-- Three levels: `Base { f4; ~Base; f1 }`, `Mid : Base { f1 (override); f2 }`, `Leaf : Mid { ~Leaf; f3; f4 (override) }`. -/
def baseClass : CppClass := .mk [some 4, none, some 1] []
def midClass : CppClass := .mk [some 1, some 2] [baseClass]
def leafClass : CppClass := .mk [none, some 3, some 4] [midClass]

example : isSimpleInheritanceLayout leafClass = true := by
  simp [isSimpleInheritanceLayout, leafClass, midClass, baseClass, CppClass.bases, hasOneBase]
example : isSimpleInheritanceLayout (.mk [] [midClass, baseClass]) = false := by
  simp [isSimpleInheritanceLayout, CppClass.bases, hasOneBase]
example : leafClass.slot .itanium (.method 3) = some 5 ∧ leafClass.slot .msvc (.method 3) = some 4 := by decide +kernel
example : InHierarchy leafClass baseClass := .base (b := midClass) (by simp [leafClass, CppClass.bases]) (.base (by simp [midClass, CppClass.bases]) (.refl _))
example : leafClass.slot .itanium .dtor = some 1 ∧ leafClass.slot .itanium .deletingDtor = some 2 := by decide +kernel
example : baseClass.slot .itanium (.method 1) = some 3 := by decide +kernel
example : (leafClass.table .itanium).length = 6 ∧ (leafClass.table .itanium).length ≤ 1000 := by decide +kernel

private theorem addDecls_new (abi : Abi) (t : List SlotUse) (fs : List Nat) (hn : fs.Nodup) (ht : ∀ f ∈ fs, SlotUse.method f ∉ t) :
    (addDecls abi t (fs.map some)).length = t.length + fs.length := by
  induction fs generalizing t with
  | nil => simp [addDecls]
  | cons f fs ih =>
    obtain ⟨h1, h2⟩ := List.nodup_cons.1 hn
    simp only [List.map_cons, addDecls]
    rw [if_neg (show declKey (some f) ∉ t from ht f (by simp)), ih _ h2]
    · simp [declSlots]; omega
    · intro g hg hm
      simp only [declSlots, List.mem_append, List.mem_singleton, SlotUse.method.injEq] at hm
      rcases hm with hm | rfl
      · exact ht g (by simp [hg]) hm
      · exact h1 hg

/-- A class with 1001 virtual methods, none of them `endOfVt`. -/
example : ∃ c : CppClass, isSimpleInheritanceLayout c = true ∧ (∀ b, InHierarchy c b → some endOfVt ∉ b.decls) ∧ 1000 < (c.table .itanium).length := by
  refine ⟨.mk ((List.range' 1 1001).map some) [], by simp [isSimpleInheritanceLayout, CppClass.bases, hasOneBase], ?_, ?_⟩
  · intro b hb
    cases hb with
    | refl => simp [CppClass.decls, endOfVt]
    | base h _ => cases h
  · rw [CppClass.table, addDecls_new _ _ _ List.nodup_range' (by simp)]
    simp

/-- The classes of the first example have no method `endOfVt`. -/
example : ∀ b, InHierarchy leafClass b → some endOfVt ∉ b.decls := by
  intro b hb
  cases hb with
  | refl => decide
  | base h hb =>
    simp only [leafClass, CppClass.bases, List.mem_singleton] at h
    subst h
    cases hb with
    | refl => decide
    | base h hb =>
      simp only [midClass, CppClass.bases, List.mem_singleton] at h
      subst h
      cases hb with
      | refl => decide
      | base h _ => cases h

/-- `struct Parser { virtual void start(); virtual void endOfVt(); virtual void stop(); virtual ~Parser(); }`: five slots, measured as one. -/
def parserClass : CppClass := .mk [some 1, some endOfVt, some 2, none] []
example : isSimpleInheritanceLayout parserClass = true ∧ (∃ b, InHierarchy parserClass b ∧ some endOfVt ∈ b.decls) ∧
    (parserClass.table .itanium).length = 5 := ⟨by simp [isSimpleInheritanceLayout, parserClass, CppClass.bases, hasOneBase], ⟨_, .refl _, by decide⟩, by decide +kernel⟩
example : getVTSize .itanium parserClass = .done 1 ∧ parserClass.slot .itanium (.method 2) = some 2 := by decide +kernel

end Demo
end FakeIt
