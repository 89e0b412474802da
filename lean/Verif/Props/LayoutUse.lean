import Verif.Props.Layout
import Verif.Lemmas.Refine
/-!
# C52: what the measured sizes mean for mocks

`Layout` measures classes, the machine works with the numbers found.  This file joins the two.
-/
namespace FakeIt

open Spec

variable {V E : Type} {P : Prog V E} {nm : MockId → Nat → Nat}

/-- The numbers the machine uses for a class are those the library measures. -/
structure Spec.Measured (abi : Abi) (c : CppClass) (d : ClassDecl V) : Prop where
  size : getVTSize abi c = .done d.size
  dtor : getDestructorOffset abi c = .done d.dtor

/-- **C52** (partial: up to 1000 slots, and no virtual method `void endOfVt()` in the hierarchy). Mentioning a virtual method of the mocked class,
and calling it, stay within the tables of a living mock. -/
theorem C52_every_method_can_be_stubbed_partial (hP : P.Named nm) {w : World V E} (hw : Reach P nm w) {m : MockId} {k : Mock V E}
    (hk : w.mock? m = some k) {abi : Abi} {c : CppClass} (hc : Measured abi c (P.cls k.cls)) (hs : isSimpleInheritanceLayout c = true)
    (he : ∀ b, InHierarchy c b → some endOfVt ∉ b.decls) (h : (c.table abi).length ≤ 1000)
    {f off : Nat} (hf : c.slot abi (.method f) = some off) (ctr : Nat) :
    ∃ w', apiStep P w (.touch m (.meth off ctr)) = .done (w', .unit) := by
  have hsz : (P.cls k.cls).size = (c.table abi).length := by
    have := hc.size
    rw [C52_table_size_partial abi c hs he h] at this
    exact (R.done.inj this).symm
  have hlt : off < (P.cls k.cls).size := by
    simp only [CppClass.slot, List.findIdx?_eq_some_iff_getElem] at hf
    rw [hsz]; exact hf.1
  have hkk : w.mocks[m]? = some k ∧ k.alive = true := by
    unfold World.mock? at hk
    split at hk
    · next k' hk' =>
      split at hk
      · next ha => cases hk; exact ⟨hk', ha⟩
      · cases hk
    · cases hk
  obtain ⟨h1, -, -⟩ := lt_mocks (hw.wf hP) hkk.1 hkk.2 hlt
  simp only [apiStep, touch, hk]
  rw [List.getElem?_eq_getElem h1]
  cases k.mocks[off] with
  | some b => exact ⟨_, rfl⟩
  | none => exact ⟨_, rfl⟩

/-- **C52** (negation). If the hierarchy has a virtual method `void endOfVt()`, mentioning it or a method with a later slot is undefined behaviour, and so
is calling it on the mock. (If the virtual destructor has a later slot, too, already the constructor of the mock writes beyond the table,
include/fakeit/MockImpl.hpp 289-291; the machine leaves this write out.) -/
theorem C52_methods_after_endOfVt_are_undefined (hP : P.Named nm) {w : World V E} (hw : Reach P nm w) {m : MockId} {k : Mock V E}
    (hk : w.mock? m = some k) {abi : Abi} {c : CppClass} (hc : Measured abi c (P.cls k.cls)) (hs : isSimpleInheritanceLayout c = true)
    (he : ∃ b, InHierarchy c b ∧ some endOfVt ∈ b.decls) (h : (c.table abi).length ≤ 1000)
    {e f off : Nat} (hend : c.slot abi (.method endOfVt) = some e) (_hf : c.slot abi (.method f) = some off) (hlate : e ≤ off) (ctr : Nat) :
    apiStep P w (.touch m (.meth off ctr)) = .ub ∧ ∀ fuel args, opStep P (fuel + 1) w (.call m off args) = .ub := by
  obtain ⟨n, h1, h2, -⟩ := C52_endOfVt_cuts_the_table abi c hs he h
  have hsz : (P.cls k.cls).size = e := by
    have := hc.size
    rw [h1] at this
    rw [hend] at h2
    cases h2
    exact (R.done.inj this).symm
  have hkk : w.mocks[m]? = some k ∧ k.alive = true := by
    unfold World.mock? at hk
    split at hk
    · next k' hk' =>
      split at hk
      · next ha => cases hk; exact ⟨hk', ha⟩
      · cases hk
    · cases hk
  have t := (hw.wf hP).steady.1.1 m k hkk.1
  have hlm : k.mocks[off]? = none := by
    rw [List.getElem?_eq_none_iff, (t.mlen hkk.2).1, t.orig_length, hsz]; exact hlate
  have hlv : k.vt[off]? = none := by
    rw [List.getElem?_eq_none_iff, t.vtlen, t.orig_length, hsz]; exact hlate
  constructor
  · simp only [apiStep, touch, hk, hlm]; rfl
  · intro fuel args
    simp only [opStep, callSlot, hkk.1, hkk.2, hlv]
    simp

namespace Demo

/-- A program that mocks two classes: 0 is `leafClass`, 1 is `lexerClass`. -/
def lexerClass : CppClass := .mk [some 1, some endOfVt, some 2] []
def measuredProg : Prog Nat Nat where
  fn _ _ := .done (.ret 0)
  cls c := if c = 0 then ⟨6, some 1, fun _ => .value 0, fun _ => 0, 0⟩ else ⟨1, none, fun _ => .value 0, fun _ => 0, 0⟩
  void := 0
  dfltExc := 0
  movedFrom := id

example : Measured .itanium leafClass (measuredProg.cls 0) ∧ leafClass.slot .itanium (.method 3) = some 5 :=
  ⟨⟨by decide +kernel, by decide +kernel⟩, by decide +kernel⟩
example : Measured .itanium lexerClass (measuredProg.cls 1) ∧ (∃ b, InHierarchy lexerClass b ∧ some endOfVt ∈ b.decls) ∧
    lexerClass.slot .itanium (.method endOfVt) = some 1 ∧ lexerClass.slot .itanium (.method 2) = some 2 :=
  ⟨⟨by decide +kernel, by decide +kernel⟩, ⟨_, .refl _, by decide⟩, by decide +kernel, by decide +kernel⟩
example : isSimpleInheritanceLayout lexerClass = true := by simp [isSimpleInheritanceLayout, lexerClass, CppClass.bases, hasOneBase]

/-- After making a mock of each class. -/
def bothMocks : World Nat Nat :=
  { (World.start (fun _ => 0) : World Nat Nat) with mocks := [Mock.mk' 0 (measuredProg.cls 0) true, Mock.mk' 1 (measuredProg.cls 1) true] }
example : Reach measuredProg (fun _ off => off) bothMocks :=
  .step (fuel := 0) (op := .api (.newMock 1)) (.step (fuel := 0) (op := .api (.newMock 0)) (.start _) (by simp [Op.Within, Api.Named, Api.slots]) rfl) (by simp [Op.Within, Api.Named, Api.slots]) rfl
example : ∃ k, bothMocks.mock? 1 = some k ∧ k.cls = 1 := ⟨_, rfl, rfl⟩

end Demo
end FakeIt
