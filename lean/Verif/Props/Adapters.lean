import Verif.Model.Adapters
import Verif.Props.Format
/-!
# C58: what the testing framework is told
-/
namespace FakeIt
variable {V : Type}

/-! ## Specification -/

/-- `file:line` or `file(line)`. -/
def Spec.IsLocation (p : Position) (t : Text) : Prop :=
  t = p.file ++ (':' :: integer p.line) ∨ t = p.file ++ ('(' :: integer p.line) ++ [')']

/-- The text the user expects for an event: that of the custom formatter, if one is set. -/
def Spec.wanted (dflt : EventText V) (custom : Option (EventText V)) (e : Event V) : Text := (custom.getD dflt) e

/-- No NUL character. -/
def Spec.Printable (t : Text) : Prop := Char.ofNat 0 ∉ t

/-- The text a delivery should have: the wanted one, possibly after the position. -/
def Spec.TellsOf (p : Position) (w t : Text) : Prop := t = w ∨ ∃ loc, IsLocation p loc ∧ t = loc ++ [':', ' '] ++ w

/-- Frameworks whose adapter drops the position. -/
def Spec.positionless : List Framework := [.mstest, .nunit, .qtest]

open Spec

/-! ## Proofs -/

private theorem cText_eq {t : Text} (h : Printable t) : cText t = t := by
  have := List.takeWhile_append_of_pos (p := fun x : Char => decide (x ≠ Char.ofNat 0)) (l₁ := t) (l₂ := []) (by
    intro c hc
    simp only [ne_eq, decide_eq_true_eq]
    rintro rfl
    exact h hc)
  simpa [cText] using this

private theorem decimal_printable (n : Nat) : Printable (decimal n) := by
  have hd : ∀ d, d < 10 → Char.ofNat 0 ≠ digitChar d := by decide
  induction n using Nat.strongRecOn with
  | _ n ih =>
    unfold decimal
    split
    · simpa [Printable] using hd n (by assumption)
    · have := ih (n / 10) (by omega)
      simp only [Printable, List.mem_append, List.mem_singleton, not_or] at this ⊢
      exact ⟨this, hd _ (by omega)⟩

private theorem decimalInt_printable (n : Int) : Printable (decimalInt n) := by
  unfold decimalInt
  split
  · have := decimal_printable n.natAbs
    simp only [Printable, List.mem_cons, not_or] at this ⊢
    exact ⟨by decide, this⟩
  · exact decimal_printable _

private theorem lineNumber_location (gnu : Bool) (p : Position) : IsLocation p (lineNumber gnu p) := by
  unfold lineNumber IsLocation
  rw [← decimalInt_eq]
  cases gnu
  · right; simp
  · left; simp

private theorem lineNumber_printable (gnu : Bool) (p : Position) (h : Printable p.file) : Printable (lineNumber gnu p) := by
  have hd := decimalInt_printable p.line
  unfold lineNumber
  unfold Printable at *
  cases gnu <;> simp [h, hd] <;> decide

private theorem located_printable (gnu : Bool) (p : Position) {w : Text} (h : Printable p.file) (hw : Printable w) :
    Printable (lineNumber gnu p ++ [':', ' '] ++ w) := by
  have hl := lineNumber_printable gnu p h
  unfold Printable at *
  simp only [List.append_assoc, List.mem_append, List.mem_cons, not_or, List.not_mem_nil]
  exact ⟨hl, ⟨by decide, by decide, not_false⟩, hw⟩

private theorem formatter_wanted {dflt : EventText V} {custom : Option (EventText V)} {fw : Framework} (h : fw ≠ .catch2 ∨ custom = none) (e : Event V) :
    fw.formatter dflt custom e = wanted dflt custom e := by
  cases custom <;> cases fw <;> simp_all [Framework.formatter, wanted]

/-- **C58** (failed verifications, as far as it holds). In every configuration a failed verification is handed to the framework exactly once, with the
text of the event made by the custom formatter if one is set, possibly after the position of the statement; the position is handed over beside or in the
text; the statement ends normally only if it is the framework's failure function that is called and that function returns. What is missing: a custom
formatter under Catch (`C58_catch_ignores_the_custom_formatter`), the position under three frameworks (`C58_position_is_dropped`), texts with NUL characters
(`C58_text_is_cut`), verification statements not written with the macros (`C58_unset_position_is_undefined`). -/
theorem C58_failed_verification_is_reported_partial (fw : Framework) (gnu : Bool) (throws : Delivery → Bool) (dflt : EventText V)
    (custom : Option (EventText V)) (p : Position) (e : Event V) (hfw : fw ≠ .catch2 ∨ custom = none) (hw : Printable (wanted dflt custom e))
    (hp : Printable p.file) :
    ∃ d ending, reportVerification fw gnu throws dflt custom (some p) e = .done ([d], ending) ∧ TellsOf p (wanted dflt custom e) d.message ∧
      (fw ∉ positionless → d.position = some p ∨ ∃ loc, IsLocation p loc ∧ d.message = loc ++ [':', ' '] ++ wanted dflt custom e) ∧
      (ending = .returns ↔ (∃ m q, d = .calls m q) ∧ throws d = false) ∧ (ending ≠ .returns → ending = .thrown) := by
  have hloc := lineNumber_location gnu p
  have hpr := located_printable gnu p hp hw
  generalize hd : fw.handle gnu (wanted dflt custom e) (some p) = d
  have htext : TellsOf p (wanted dflt custom e) d.message ∧
      (fw ∉ positionless → d.position = some p ∨ ∃ loc, IsLocation p loc ∧ d.message = loc ++ [':', ' '] ++ wanted dflt custom e) := by
    subst hd
    cases fw <;> simp only [Framework.handle, cText_eq hw, cText_eq hpr] <;> refine ⟨?_, ?_⟩ <;>
      first
      | exact .inl rfl
      | exact .inr ⟨_, hloc, rfl⟩
      | exact fun _ => .inl rfl
      | exact fun _ => .inr ⟨_, hloc, rfl⟩
      | (intro h; exact absurd h (by simp [positionless]))
  unfold reportVerification
  rw [R.ofOption_some, R.bind_done]
  simp only [formatter_wanted hfw, hd]
  cases d with
  | throws m q => exact ⟨_, _, rfl, htext.1, htext.2, by simp, fun _ => rfl⟩
  | calls m q =>
    refine ⟨_, _, rfl, htext.1, htext.2, ?_, ?_⟩ <;> cases throws (.calls m q) <;> simp

/-- **C58** (unexpected calls, as far as it holds): handed to the framework exactly once with the wanted text; and whatever the framework does, the mocked
call does not return: it ends with the adapter's or framework's exception, or with an `UnexpectedMethodCallException` with the wanted text. -/
theorem C58_unexpected_call_is_reported_partial (fw : Framework) (gnu : Bool) (throws : Delivery → Bool) (dflt : EventText V)
    (custom : Option (EventText V)) (ty : UnexpectedType) (inv : Invocation V) :
    ∃ d ending, reportUnexpected fw gnu throws dflt custom ty inv = ([d], ending) ∧ ending ≠ .returns ∧
      ((∃ m q, d = .calls m q) → throws d = false → ending = .unexpected (wanted dflt custom (.unexpectedCall ty inv))) ∧
      (fw ≠ .catch2 ∨ custom = none → Printable (wanted dflt custom (.unexpectedCall ty inv)) → d.message = wanted dflt custom (.unexpectedCall ty inv)) := by
  have hc : contextFormat dflt custom (.unexpectedCall ty inv) = wanted dflt custom (.unexpectedCall ty inv) := by cases custom <;> rfl
  generalize hd : fw.handle gnu (fw.formatter dflt custom (.unexpectedCall ty inv)) none = d
  have htext : fw ≠ .catch2 ∨ custom = none → Printable (wanted dflt custom (.unexpectedCall ty inv)) →
      d.message = wanted dflt custom (.unexpectedCall ty inv) := by
    intro hfw hw
    subst hd
    rw [formatter_wanted hfw]
    cases fw <;> simp only [Framework.handle, cText_eq hw, Delivery.message]
  unfold reportUnexpected
  simp only [hc, hd]
  cases d with
  | throws m q => exact ⟨_, _, rfl, by simp, (by rintro ⟨_, _, h⟩; cases h), htext⟩
  | calls m q =>
    refine ⟨_, _, rfl, ?_, ?_, htext⟩ <;> cases throws (.calls m q) <;> simp

/-- **C58** is false under Catch: a custom formatter has no influence on what the framework is told. -/
theorem C58_catch_ignores_the_custom_formatter (gnu : Bool) (throws : Delivery → Bool) (dflt : EventText V) (custom custom' : Option (EventText V))
    (p : Option Position) (e : Event V) :
    reportVerification .catch2 gnu throws dflt custom p e = reportVerification .catch2 gnu throws dflt custom' p e := rfl

/-- **C58** is false for MSTest, NUnit and QTest: the position of the verification has no influence on what the framework is told. -/
theorem C58_position_is_dropped (fw : Framework) (h : fw ∈ positionless) (gnu : Bool) (throws : Delivery → Bool) (dflt : EventText V)
    (custom : Option (EventText V)) (p p' : Position) (e : Event V) :
    reportVerification fw gnu throws dflt custom (some p) e = reportVerification fw gnu throws dflt custom (some p') e := by
  simp only [positionless, List.mem_cons, List.not_mem_nil, or_false] at h
  rcases h with rfl | rfl | rfl <;> rfl

/-- **C58** is false for texts with a NUL character (an argument of type `char` can put one there) under GoogleTest, MSTest, NUnit, QTest: everything
after it is missing. -/
theorem C58_text_is_cut (fw : Framework) (h : fw ∈ Framework.gtest :: positionless) (gnu : Bool) (throws : Delivery → Bool) (dflt : EventText V)
    (custom : Option (EventText V)) (p : Position) (e : Event V) (before after : Text) (hb : Printable before)
    (hw : wanted dflt custom e = before ++ Char.ofNat 0 :: after) :
    ∃ d ending, reportVerification fw gnu throws dflt custom (some p) e = .done ([d], ending) ∧ d.message = before := by
  have hne : fw ≠ .catch2 := by rintro rfl; simp [positionless] at h
  have hcut : cText (before ++ Char.ofNat 0 :: after) = before := by
    unfold cText
    rw [List.takeWhile_append_of_pos]
    · simp
    · intro c hc
      simp only [ne_eq, decide_eq_true_eq]
      rintro rfl
      exact hb hc
  unfold reportVerification
  rw [R.ofOption_some, R.bind_done]
  simp only [formatter_wanted (.inl hne), hw]
  simp only [positionless, List.mem_cons, List.not_mem_nil, or_false] at h
  rcases h with rfl | rfl | rfl | rfl <;> simp only [Framework.handle, hcut] <;> exact ⟨_, _, rfl, rfl⟩

/-- **C58** is false for verification statements that do not go through the macros: if they fail, behaviour is undefined. -/
theorem C58_unset_position_is_undefined (fw : Framework) (gnu : Bool) (throws : Delivery → Bool) (dflt : EventText V)
    (custom : Option (EventText V)) (e : Event V) : reportVerification fw gnu throws dflt custom none e = .ub := rfl

namespace Demo

/-- GoogleTest, whose failure function returns: the test goes on; the message has a custom text. -/
example : reportVerification (V := Nat) .gtest true (fun _ => false) (fun _ => str "default") (some fun _ => str "mine") (some ⟨str "t.cpp", 12⟩)
    (.noMoreInvocations [] []) = .done ([.calls (str "mine") (some ⟨str "t.cpp", 12⟩)], .returns) := by decide +kernel
/-- Catch: the custom text is ignored. -/
example : reportVerification (V := Nat) .catch2 true (fun _ => true) (fun _ => str "default") (some fun _ => str "mine") (some ⟨str "t.cpp", 12⟩)
    (.noMoreInvocations [] []) = .done ([.calls (str "t.cpp:12: default") (some ⟨str "t.cpp", 12⟩)], .thrown) := by decide +kernel
example : wanted (V := Nat) (fun _ => str "default") (some fun _ => str "mine") (.noMoreInvocations [] []) = str "mine" ∧
    Printable (str "mine") ∧ Printable (str "t.cpp") := ⟨rfl, by unfold Printable; decide, by unfold Printable; decide⟩
/-- A message cut in the middle: the argument was `'\0'`. -/
example : reportVerification (V := Nat) .qtest true (fun _ => false) (fun _ => str "m.f('" ++ Char.ofNat 0 :: str "')") none (some ⟨str "t.cpp", 12⟩)
    (.noMoreInvocations [] []) = .done ([.calls (str "m.f('") none], .returns) := by decide +kernel
example (inv : Invocation Nat) : reportUnexpected (V := Nat) .qtest true (fun _ => false) (fun _ => str "default") none .unmatched inv =
    ([.calls (str "default") none], .unexpected (str "default")) := rfl

end Demo
end FakeIt
