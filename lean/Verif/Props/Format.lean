import Verif.Model.Format
/-!
# C44: failure messages list the true history
-/
namespace FakeIt
variable {L V : Type}

/-! ## Specification: messages as lines -/

/-- Lines put together with line feeds in between. -/
def Spec.joinLines : List Text → Text
  | [] => []
  | [t] => t
  | t :: ts => t ++ '\n' :: Spec.joinLines ts

/-- Reading a text line by line. -/
def Spec.splitLines : Text → List Text
  | [] => [[]]
  | c :: cs =>
    if c = '\n' then [] :: splitLines cs
    else match splitLines cs with
      | [] => [[c]]
      | l :: ls => (c :: l) :: ls

/-- A number as it is usually written. -/
def Spec.number (n : Nat) : Text := n.repr.toList

/-- A number with sign. -/
def Spec.integer (n : Int) : Text := if n < 0 then '-' :: number n.natAbs else number n.toNat

/-- The lines that show a history: the first fifty invocations, and an ellipsis if there are more. -/
def Spec.shown (invs : List Text) : List Text :=
  (invs.take 50).map ([' ', ' '] ++ ·) ++ if 50 < invs.length then [str "  ..."] else []

/-- A count with its kind. -/
def Spec.countText : VerificationType → Int → Text
  | .exact, n => str "exactly " ++ integer n
  | .atLeast, n => str "at least " ++ integer n
  | .noMoreInvocations, n => integer n

/-- The lines of the message of a failed `Verify`. -/
def Spec.failureLines (pattern : Text) (ty : VerificationType) (expected actual : Int) (invs : List Text) : List Text :=
  [str "Verification error", str "Expected pattern: " ++ pattern, str "Expected matches: " ++ countText ty expected,
    str "Actual matches  : " ++ integer actual,
    str "Actual sequence : total of " ++ number invs.length ++ str " actual invocations" ++ (if invs = [] then ['.'] else [':'])] ++ shown invs

/-- The lines of the message for an unexpected call. -/
def Spec.unexpectedLines (inv : Text) : UnexpectedType → List Text
  | .unmatched => [str "Unexpected method invocation: " ++ inv, str "  Could not find any recorded behavior to support this method call."]
  | .unmocked => [str "Unexpected method invocation: " ++ inv, str "  An unmocked method was invoked. All used virtual methods must be stubbed!"]

/-- The lines of the message of a failed `VerifyNoOtherInvocations`. -/
def Spec.noMoreLines (invs : List Text) : List Text :=
  [str "Verification error", str "Expected no more invocations!! but the following unverified invocations were found:"] ++ shown invs

open Spec

private theorem decimal_eq (n : Nat) : decimal n = number n := by
  rw [number, Nat.toList_repr]
  induction n using Nat.strongRecOn with
  | _ n ih =>
    have hd : ∀ d, d < 10 → digitChar d = Nat.digitChar d := by decide
    rw [decimal, Nat.toDigits_eq_if (by decide)]
    split
    · rw [hd n (by assumption)]
    · rw [ih _ (by omega), hd _ (by omega)]

theorem decimalInt_eq (n : Int) : decimalInt n = integer n := by
  simp only [decimalInt, integer, decimal_eq]

private theorem joinLines_cons {t : Text} {ts : List Text} (h : ts ≠ []) : joinLines (t :: ts) = t ++ '\n' :: joinLines ts := by
  cases ts with
  | nil => exact absurd rfl h
  | cons a as => rfl

private theorem joinLines_append {as bs : List Text} (ha : as ≠ []) (hb : bs ≠ []) :
    joinLines (as ++ bs) = joinLines as ++ '\n' :: joinLines bs := by
  induction as with
  | nil => exact absurd rfl ha
  | cons a as ih =>
    cases as with
    | nil => rw [List.singleton_append, joinLines_cons hb]; rfl
    | cons x xs =>
      rw [List.cons_append, joinLines_cons (by simp), ih (by simp), joinLines_cons (t := a) (ts := x :: xs) (by simp)]; simp

private theorem listLoop (max : Nat) (ts : List Text) (i : Nat) (h : max ≤ i + ts.length) :
    formatListLoop max i ts = joinLines ((ts.take (max - i)).map ([' ', ' '] ++ ·)) := by
  induction ts generalizing i with
  | nil => simp [formatListLoop, joinLines]
  | cons t ts ih =>
    by_cases hi : i < max
    · simp only [formatListLoop, if_pos hi]
      rw [ih (i + 1) (by simpa [Nat.add_assoc, Nat.add_comm 1] using h)]
      obtain ⟨d, hd⟩ : ∃ d, max - i = d + 1 := ⟨max - i - 1, by omega⟩
      have hd' : max - (i + 1) = d := by omega
      rw [hd, hd', List.take_succ_cons, List.map_cons]
      by_cases h1 : i < max - 1
      · rw [if_pos h1, joinLines_cons]
        · simp [endl]
        · obtain ⟨e, he⟩ : ∃ e, d = e + 1 := ⟨d - 1, by omega⟩
          cases ts with
          | nil => simp at h; omega
          | cons x xs => simp [he]
      · have : d = 0 := by omega
        subst this
        rw [if_neg h1]; simp [joinLines]
    · have : max - i = 0 := by omega
      rw [this]; simp [formatListLoop, hi, joinLines]

private theorem list_eq (ts : List Text) : formatInvocationList ts = joinLines (shown ts) := by
  unfold formatInvocationList shown
  by_cases h : ts.length > 50
  · simp only [show 50 < ts.length from h, if_true]
    rw [listLoop 50 ts 0 (by omega), joinLines_append (by cases ts <;> simp at h ⊢) (by simp)]
    simp [endl, joinLines]
  · simp only [show ¬ 50 < ts.length from h, if_false, Nat.lt_irrefl, gt_iff_lt, List.append_nil]
    rw [listLoop ts.length ts 0 (by omega), Nat.sub_zero, List.take_length, List.take_of_length_le (by omega)]

private theorem shown_ne {ts : List Text} (h : ts ≠ []) : shown ts ≠ [] := by
  cases ts with
  | nil => exact absurd rfl h
  | cons t ts => simp [shown]

/-- **C44**. The message of a failed `Verify` consists of exactly these lines: the pattern, the expected and the actual count, the length of the actual
sequence and its first fifty invocations in order, followed by an ellipsis iff there are more. -/
theorem C44_failure_message (text : L → Text) (pat : List (Seq L)) (invText : Invocation V → Text) (ty : VerificationType) (expected : Int)
    (actual : Nat) (invs : List (Invocation V)) :
    formatEvent text pat invText (.sequence ty expected actual invs) =
      joinLines (failureLines (formatPattern text pat) ty expected actual (invs.map invText)) := by
  simp only [formatEvent, formatSequenceEvent, list_eq]
  generalize invs.map invText = ts
  simp only [decimal_eq, decimalInt_eq]
  have hc : formatExpectedCount ty expected = countText ty expected := by cases ty <;> simp [formatExpectedCount, countText, decimalInt_eq]
  by_cases h : ts = []
  · subst h
    simp only [failureLines, shown, List.length_nil, if_true, hc, endl, List.take_nil, List.map_nil, List.nil_append]
    simp
    rfl
  · have hl : ¬ ts.length = 0 := by simpa using h
    rw [failureLines, joinLines_append (by simp) (shown_ne h)]
    simp [joinLines, hl, h, hc, endl]

/-- **C44**, `VerifyNoOtherInvocations`. -/
theorem C44_no_more_message (text : L → Text) (pat : List (Seq L)) (invText : Invocation V → Text) (all unverified : List (Invocation V))
    (h : unverified ≠ []) :
    formatEvent text pat invText (.noMoreInvocations all unverified) = joinLines (noMoreLines (unverified.map invText)) := by
  simp only [formatEvent, formatNoMoreEvent, list_eq]
  rw [noMoreLines, joinLines_append (by simp) (shown_ne (by simpa using h))]
  simp [joinLines, endl]

/-- **C44**, unexpected calls: the message shows the call and says whether the method has no stubbing at all or none that accepts the arguments. -/
theorem C44_unexpected_message (text : L → Text) (pat : List (Seq L)) (invText : Invocation V → Text) (ty : UnexpectedType) (inv : Invocation V) :
    formatEvent text pat invText (.unexpectedCall ty inv) = joinLines (unexpectedLines (invText inv) ty) := by
  cases ty <;> simp [formatEvent, formatUnexpectedEvent, unexpectedLines, joinLines, endl]

private theorem split_append {t u : Text} (h : '\n' ∉ t) : splitLines (t ++ '\n' :: u) = t :: splitLines u := by
  induction t with
  | nil => simp [splitLines]
  | cons c cs ih =>
    simp only [List.mem_cons, not_or] at h
    simp [splitLines, Ne.symm h.1, ih h.2]

private theorem split_one {t : Text} (h : '\n' ∉ t) : splitLines t = [t] := by
  induction t with
  | nil => rfl
  | cons c cs ih =>
    simp only [List.mem_cons, not_or] at h
    simp [splitLines, Ne.symm h.1, ih h.2]

private theorem split_join {ls : List Text} (hne : ls ≠ []) (h : ∀ l ∈ ls, '\n' ∉ l) : splitLines (joinLines ls) = ls := by
  induction ls with
  | nil => exact absurd rfl hne
  | cons l ls ih =>
    cases ls with
    | nil => exact split_one (h l (by simp))
    | cons x xs =>
      rw [joinLines_cons (by simp), split_append (h l (by simp)), ih (by simp) (fun y hy => h y (by simp [hy]))]

private theorem decimal_no_nl (n : Nat) : '\n' ∉ decimal n := by
  induction n using Nat.strongRecOn with
  | _ n ih =>
    have hd : ∀ d, d < 10 → '\n' ≠ digitChar d := by decide
    unfold decimal
    split
    · simp only [List.mem_singleton]; exact hd n (by assumption)
    · simp only [List.mem_append, List.mem_singleton, not_or]
      exact ⟨ih _ (by omega), hd _ (by omega)⟩

private theorem decimalInt_no_nl (n : Int) : '\n' ∉ decimalInt n := by
  unfold decimalInt
  split
  · simp only [List.mem_cons, not_or]; exact ⟨by decide, decimal_no_nl _⟩
  · exact decimal_no_nl _

private theorem number_no_nl (n : Nat) : '\n' ∉ number n := decimal_eq n ▸ decimal_no_nl n
private theorem integer_no_nl (n : Int) : '\n' ∉ integer n := decimalInt_eq n ▸ decimalInt_no_nl n

/-- **C44**, read from the message: if what invocations and the pattern print contains no line feed, the lines of the message are exactly those; so the
message determines the counts' texts and the texts of the first fifty invocations. -/
theorem C44_message_can_be_read (text : L → Text) (pat : List (Seq L)) (invText : Invocation V → Text) (ty : VerificationType) (expected : Int)
    (actual : Nat) (invs : List (Invocation V)) (hp : '\n' ∉ formatPattern text pat) (hi : ∀ i ∈ invs, '\n' ∉ invText i) :
    splitLines (formatEvent text pat invText (.sequence ty expected actual invs)) =
      failureLines (formatPattern text pat) ty expected actual (invs.map invText) := by
  rw [C44_failure_message]
  apply split_join (by simp [failureLines])
  intro l hl
  simp only [failureLines, List.mem_append, List.mem_cons, List.not_mem_nil, or_false, shown, List.mem_map] at hl
  rcases hl with (rfl | rfl | rfl | rfl | rfl) | ⟨t, ht, rfl⟩ | hl
  · decide +kernel
  · simp only [List.mem_append, not_or]; exact ⟨by decide +kernel, hp⟩
  · cases ty <;> simp only [countText, List.mem_append, not_or]
    · exact ⟨by decide +kernel, by decide +kernel, integer_no_nl _⟩
    · exact ⟨by decide +kernel, by decide +kernel, integer_no_nl _⟩
    · exact ⟨by decide +kernel, integer_no_nl _⟩
  · simp only [List.mem_append, not_or]; exact ⟨by decide +kernel, integer_no_nl _⟩
  · simp only [List.mem_append, not_or]
    refine ⟨⟨⟨by decide +kernel, number_no_nl _⟩, by decide +kernel⟩, ?_⟩
    split <;> decide +kernel
  · have := List.mem_of_mem_take ht
    obtain ⟨i, hi', rfl⟩ := List.mem_map.1 this
    simp only [List.mem_append, not_or]; exact ⟨by decide, hi i hi'⟩
  · split at hl
    · simp only [List.mem_singleton] at hl; subst hl; decide +kernel
    · simp at hl

namespace Demo

private def inv3 (n : Nat) : Invocation Nat := { uid := n, ordinal := n, method := 1, args := [.val n], verified := false, matcher := none }
private def invText3 (i : Invocation Nat) : Text := str "m.f(" ++ decimal i.uid ++ [')']

/-- Two calls, expected exactly three. -/
example : formatEvent (fun _ : Unit => str "m.f(7)") [.rep (.cat (.leaf ()) (.leaf ())) 2] invText3 (.sequence .exact 3 0 [inv3 5, inv3 12]) =
  str "Verification error\nExpected pattern: (m.f(7) + m.f(7)) * 2\nExpected matches: exactly 3\nActual matches  : 0\nActual sequence : total of 2 actual invocations:\n  m.f(5)\n  m.f(12)" := by
  decide +kernel

example : formatEvent (fun _ : Unit => []) [] invText3 (.unexpectedCall .unmatched (inv3 5)) =
  str "Unexpected method invocation: m.f(5)\n  Could not find any recorded behavior to support this method call." := by
  decide +kernel

/-- Fifty-one calls: fifty lines and an ellipsis. -/
example : (shown (List.replicate 51 ['x'])).length = 51 ∧ (shown (List.replicate 51 ['x'])).getLast? = some (str "  ...") := by
  decide +kernel

end Demo
end FakeIt
