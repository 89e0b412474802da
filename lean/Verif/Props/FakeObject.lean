import Verif.Model.FakeObject
/-!
# C63: a fake object has room for its class
-/
namespace FakeIt

namespace Spec

/-- A data member (of the class or of a base class): where the compiler puts it, its size and alignment. -/
structure Field where
  offset : Nat
  size : Nat
  align : Nat

/-- What compilers guarantee about a class with virtual functions and a single chain of bases: the pointer to the virtual table comes first, the members are
behind it and within the object at multiples of their alignment. -/
structure Laid (p : Platform) (sizeofC : Nat) (fields : List Field) : Prop where
  pointer : p.ptr ≤ sizeofC
  multiple : p.ptr ∣ sizeofC
  after : ∀ f ∈ fields, p.ptr ≤ f.offset
  within : ∀ f ∈ fields, f.offset + f.size ≤ sizeofC
  aligned : ∀ f ∈ fields, f.align ∣ f.offset

end Spec
open Spec

/-- C63: the size of the fake object is that of the class (the library's static assertion holds for every class it can be used with). -/
theorem C63_fake_object_has_the_size_of_the_class {p : Platform} (hp : 0 < p.ptr) {sizeofC : Nat} {fields : List Field} (h : Laid p sizeofC fields) :
    fakeSize p sizeofC = sizeofC ∧ sizeAssertion p sizeofC = true := by
  have h1 : fakeSize p sizeofC = sizeofC := by
    obtain ⟨k, hk⟩ := h.multiple
    have := h.pointer
    rw [fakeSize, areaSize, Nat.add_sub_cancel' this, roundUp, hk, Nat.add_sub_assoc hp, Nat.mul_add_div hp, Nat.div_eq_of_lt (Nat.sub_lt hp Nat.one_pos), Nat.add_zero,
      Nat.mul_comm]
  exact ⟨h1, by simp [sizeAssertion, h1]⟩

/-- C63: the static assertion rejects all other sizes: it holds exactly for sizes that are multiples of that of a pointer. (A packed class is not accepted: its fake object would be
larger than the class.) -/
theorem C63_other_sizes_are_rejected {p : Platform} (hp : 0 < p.ptr) {sizeofC : Nat} (h : p.ptr ≤ sizeofC) :
    (sizeAssertion p sizeofC = true ↔ p.ptr ∣ sizeofC) ∧ (sizeAssertion p sizeofC = false ↔ sizeofC < fakeSize p sizeofC) := by
  have hle : sizeofC ≤ fakeSize p sizeofC := by
    rw [fakeSize, areaSize, Nat.add_sub_cancel' h, roundUp]
    have := Nat.div_add_mod (sizeofC + p.ptr - 1) p.ptr
    have := Nat.mod_lt (sizeofC + p.ptr - 1) hp
    rw [Nat.mul_comm]
    omega
  have hiff : sizeAssertion p sizeofC = true ↔ p.ptr ∣ sizeofC := by
    constructor
    · intro ha
      simp only [sizeAssertion, beq_iff_eq] at ha
      rw [ha, fakeSize, roundUp]
      exact Nat.dvd_mul_left _ _
    · intro hd
      exact (C63_fake_object_has_the_size_of_the_class hp (fields := []) ⟨h, hd, by simp, by simp, by simp⟩).2
  refine ⟨hiff, ?_⟩
  simp only [sizeAssertion, beq_eq_false_iff_ne]
  omega

private theorem store_outside {mem : Bytes} {at_ a : Nat} {bs : List UInt8} (h : a < at_ ∨ at_ + bs.length ≤ a) : mem.store at_ bs a = mem a := by
  unfold Bytes.store
  split
  · rw [List.getElem?_eq_none (by omega)]
  · rfl

private theorem store_inside {mem : Bytes} {at_ i : Nat} {bs : List UInt8} (h : i < bs.length) : mem.store at_ bs (at_ + i) = bs[i] := by
  unfold Bytes.store
  rw [if_pos (by omega), Nat.add_sub_cancel_left, List.getElem?_eq_getElem h]

private theorem zeroed (mem : Bytes) (base : Nat) : ∀ n a, (List.range n).foldl (fun mem i => Bytes.store mem (base + i) [0]) mem a =
    if base ≤ a ∧ a < base + n then 0 else mem a
  | 0, a => by rw [if_neg (by omega)]; rfl
  | n + 1, a => by
    rw [List.range_succ, List.foldl_append, List.foldl_cons, List.foldl_nil]
    by_cases ha : a = base + n
    · subst ha
      rw [if_pos (by omega)]
      exact store_inside (i := 0) (bs := [0]) (by simp)
    · rw [store_outside (by simp only [List.length_singleton]; omega), zeroed mem base n a]
      split <;> split <;> first | rfl | omega

private theorem load_eq {mem : Bytes} {at_ n : Nat} {bs : List UInt8} (hl : bs.length = n) (h : ∀ i (hi : i < bs.length), mem (at_ + i) = bs[i]) :
    mem.load at_ n = bs := by
  refine List.ext_getElem (by simp [Bytes.load, hl]) fun i h1 h2 => ?_
  simp [Bytes.load, h i h2]

private theorem load_congr {m1 m2 : Bytes} {at_ n : Nat} (h : ∀ i, i < n → m1 (at_ + i) = m2 (at_ + i)) : m1.load at_ n = m2.load at_ n := by
  unfold Bytes.load
  exact List.map_congr_left fun i hi => h i (List.mem_range.1 hi)

/-- C63: in a new fake object every data member consists of zero bytes, whatever was in memory before, the pointer to the virtual table is the one given, and
nothing outside of the object has been written. -/
theorem C63_new_fake_object_is_zero {p : Platform} {sizeofC this : Nat} {fields : List Field} (h : Laid p sizeofC fields) {vt : List UInt8}
    (hvt : vt.length = p.ptr) (mem : Bytes) :
    (∀ f ∈ fields, (newFake p sizeofC this vt mem).load (this + f.offset) f.size = List.replicate f.size 0) ∧
    (newFake p sizeofC this vt mem).load this p.ptr = vt ∧
    ∀ a, a < this ∨ this + sizeofC ≤ a → newFake p sizeofC this vt mem a = mem a := by
  have hz : ∀ a, newFake p sizeofC this vt mem a = if this + p.ptr ≤ a ∧ a < this + p.ptr + areaSize p sizeofC then 0 else mem.store this vt a :=
    zeroed (mem.store this vt) (this + p.ptr) (areaSize p sizeofC)
  have hs : p.ptr + areaSize p sizeofC = sizeofC := Nat.add_sub_cancel' h.pointer
  refine ⟨fun f hf => load_eq (by simp) fun i hi => ?_, load_eq hvt fun i hi => ?_, fun a ha => ?_⟩
  · have h1 := h.after f hf
    have h2 := h.within f hf
    rw [List.length_replicate] at hi
    rw [hz, if_pos (by omega), List.getElem_replicate]
  · rw [hz, if_neg (by omega)]
    exact store_inside hi
  · rw [hz, if_neg (by omega)]
    exact store_outside (by omega)

/-- C63: exchanging the virtual table of an object (a fake one or a spied one) changes no data member, and writing to a data member does not change the pointer to
the virtual table. -/
theorem C63_tables_and_members_are_apart {p : Platform} {sizeofC this : Nat} {fields : List Field} (h : Laid p sizeofC fields) {f : Field} (hf : f ∈ fields)
    {vt bs : List UInt8} (hvt : vt.length = p.ptr) (hbs : bs.length = f.size) (mem : Bytes) :
    (setVirtualTable this vt mem).load (this + f.offset) f.size = mem.load (this + f.offset) f.size ∧ (setVirtualTable this vt mem).load this p.ptr = vt ∧
    (mem.store (this + f.offset) bs).load this p.ptr = mem.load this p.ptr := by
  have h1 := h.after f hf
  refine ⟨load_congr fun i _ => store_outside (by omega), load_eq hvt fun i hi => store_inside hi, load_congr fun i hi => store_outside (by omega)⟩

/-- C63: if no member wants a stricter alignment than `new` provides, every member of a fake object is aligned. -/
theorem C63_members_are_aligned_partial {p : Platform} {sizeofC this : Nat} {fields : List Field} (h : Laid p sizeofC fields)
    (ha : ∀ f ∈ fields, f.align ∣ p.newAlign) (hthis : mayAllocate p this) : ∀ f ∈ fields, f.align ∣ this + f.offset :=
  fun f hf => Nat.dvd_add (Nat.dvd_trans (ha f hf) hthis) (h.aligned f hf)

/-- C63: members with a stricter alignment than `new` provides may be misaligned in fake objects, for every class with such a member (the missing case). -/
theorem C63_overaligned_members_may_be_misaligned {p : Platform} {sizeofC : Nat} {fields : List Field} (h : Laid p sizeofC fields) {f : Field} (hf : f ∈ fields)
    (ha : ¬ f.align ∣ p.newAlign) : ∃ this, mayAllocate p this ∧ ¬ f.align ∣ this + f.offset :=
  ⟨p.newAlign, Nat.dvd_refl _, fun hd => ha ((Nat.dvd_add_iff_left (h.aligned f hf)).2 hd)⟩

namespace Demo

/-- x86-64. -/
def x64 : Platform := ⟨8, 16⟩

/-- `struct C { virtual void f(); int a; double b; char c; };` -/
def fieldsC : List Field := [⟨8, 4, 4⟩, ⟨16, 8, 8⟩, ⟨24, 1, 1⟩]

theorem laidC : Laid x64 32 fieldsC where
  pointer := by decide
  multiple := by decide
  after := by simp [fieldsC, x64]
  within := by simp [fieldsC]
  aligned := by simp [fieldsC]

/-- `struct S { virtual void f(); alignas(32) float v[8]; };` -/
theorem laidS : Laid x64 64 [⟨32, 32, 32⟩] where
  pointer := by decide
  multiple := by decide
  after := by simp [x64]
  within := by simp
  aligned := by simp

end Demo

/-- Case: a class without data members. -/
example : fakeSize Demo.x64 8 = 8 ∧ sizeAssertion Demo.x64 8 = true :=
  C63_fake_object_has_the_size_of_the_class (fields := []) (by decide) ⟨by decide, by decide, by simp, by simp, by simp⟩

/-- Case: a packed class of 13 bytes; the fake object would have 16. -/
example : sizeAssertion Demo.x64 13 = false ∧ fakeSize Demo.x64 13 = 16 :=
  ⟨(C63_other_sizes_are_rejected (p := Demo.x64) (by decide) (by decide)).2.2 (by decide), rfl⟩

/-- Case: in the fake object at 4096, in memory full of ones, `b` is zero. -/
example : (newFake Demo.x64 32 4096 [1, 2, 3, 4, 5, 6, 7, 8] fun _ => 255).load (4096 + 16) 8 = List.replicate 8 0 :=
  (C63_new_fake_object_is_zero Demo.laidC rfl _).1 ⟨16, 8, 8⟩ (by simp [Demo.fieldsC])

/-- Case. -/
example : (setVirtualTable 4096 [1, 2, 3, 4, 5, 6, 7, 8] fun _ => 255).load (4096 + 8) 4 = [255, 255, 255, 255] :=
  (C63_tables_and_members_are_apart Demo.laidC (f := ⟨8, 4, 4⟩) (by simp [Demo.fieldsC]) (bs := [0, 0, 0, 0]) rfl rfl _).1

/-- Case. -/
example : 8 ∣ 4096 + 16 :=
  C63_members_are_aligned_partial Demo.laidC (by simp [Demo.fieldsC, Demo.x64]) (this := 4096) ⟨256, rfl⟩ ⟨16, 8, 8⟩ (by simp [Demo.fieldsC])

/-- Case. -/
example : ∃ this, mayAllocate Demo.x64 this ∧ ¬ 32 ∣ this + 32 :=
  C63_overaligned_members_may_be_misaligned Demo.laidS (f := ⟨32, 32, 32⟩) (by simp) (by decide)

end FakeIt
