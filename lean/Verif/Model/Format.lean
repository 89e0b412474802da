import Verif.Model.Sequence
import Verif.Model.Types
/-!
# Messages (include/fakeit/DefaultEventFormatter.hpp)

Text is a list of characters. How a method name or an argument prints is a parameter of the model (`text`), what is modelled is how the formatter puts
the pieces together.
-/
namespace FakeIt

/-- Text (`std::string`, `std::ostringstream`) (used throughout include/fakeit/DefaultEventFormatter.hpp 18-146). -/
abbrev Text := List Char

/-- A string literal (used throughout include/fakeit/DefaultEventFormatter.hpp 18-146). -/
def str (s : String) : Text := s.toList

/-- `std::endl` / `'\n'` (used throughout include/fakeit/DefaultEventFormatter.hpp 18-146). -/
def endl : Text := ['\n']

/-- The character of a decimal digit (used throughout include/fakeit/DefaultEventFormatter.hpp 18-146). -/
def digitChar (d : Nat) : Char := Char.ofNat (48 + d)

/-- `out << n` for an unsigned number: decimal, no leading zeros (standard library, not in /repo) (used throughout include/fakeit/DefaultEventFormatter.hpp 18-146). -/
def decimal (n : Nat) : Text := if n < 10 then [digitChar n] else decimal (n / 10) ++ [digitChar (n % 10)]
termination_by n

/-- `out << n` for an `int` (standard library, not in /repo) (used throughout include/fakeit/DefaultEventFormatter.hpp 18-146). -/
def decimalInt (n : Int) : Text := if n < 0 then '-' :: decimal n.natAbs else decimal n.toNat

section
variable {L : Type} (text : L → Text)

/-- `dynamic_cast<const ConcatenatedSequence *>` or `dynamic_cast<const RepeatedSequence *>` succeeds
(include/fakeit/DefaultEventFormatter.hpp 136-137). -/
def Seq.isCompound : Seq L → Bool
  | .leaf _ => false
  | .cat _ _ => true
  | .rep _ _ => true

/-- `formatSequence` with `format(ConcatenatedSequence)` and `format(RepeatedSequence)` (include/fakeit/DefaultEventFormatter.hpp 84-98, 128-146).
`text` is `Invocation::Matcher::format` of a method expression (include/fakeit/MethodMockingContext.hpp 107-111). -/
def formatSequence : Seq L → Text
  | .leaf l => text l
  | .cat s1 s2 => formatSequence s1 ++ [' ', '+', ' '] ++ formatSequence s2
  | .rep s times =>
    (if s.isCompound then ['('] else []) ++ formatSequence s ++ (if s.isCompound then [')'] else []) ++ [' ', '*', ' '] ++ decimalInt times

/-- The loop of `formatExpectedPattern` (include/fakeit/DefaultEventFormatter.hpp 71-80): a separator after every sequence but the last. -/
def formatPattern : List (Seq L) → Text
  | [] => []
  | [s] => formatSequence text s
  | s :: ss => formatSequence text s ++ [' ', '.', '.', '.', ' '] ++ formatPattern ss

end

/-- What the method expression's matcher prints (include/fakeit/invocation_matchers.hpp 43-53, 133-135, 157-159); `argTexts` are what the argument matchers
print. -/
inductive MatcherText where
  | any
  | args (argTexts : List Text)
  | user

/-- The loop of `ArgumentsMatcherInvocationMatcher::format` (include/fakeit/invocation_matchers.hpp 46-50). -/
def commaSeparated : List Text → Text
  | [] => []
  | [t] => t
  | t :: ts => t ++ [',', ' '] ++ commaSeparated ts

/-- `Invocation::Matcher::format` of a method expression (include/fakeit/MethodMockingContext.hpp 107-111): method name, then the matcher. -/
def leafText (name : Text) : MatcherText → Text
  | .any => name ++ str "( Any arguments )"
  | .args ts => name ++ ['('] ++ commaSeparated ts ++ [')']
  | .user => name ++ str "( user defined matcher )"

/-- `ActualInvocation::format` with `TuplePrinter` (include/fakeit/ActualInvocation.hpp 57-62, include/mockutils/TuplePrinter.hpp 19-51); `argTexts` are what
the arguments print. -/
def invocationText (name : Text) (argTexts : List Text) : Text := name ++ ['('] ++ commaSeparated argTexts ++ [')']

/-- The loop of `formatInvocationList` (include/fakeit/DefaultEventFormatter.hpp 116-122): `i` counts up to `maxSize`. -/
def formatListLoop (maxSize : Nat) : (i : Nat) → List Text → Text
  | _, [] => []
  | i, t :: ts =>
    if i < maxSize then [' ', ' '] ++ t ++ (if i < maxSize - 1 then endl else []) ++ formatListLoop maxSize (i + 1) ts else []

/-- `formatInvocationList` (include/fakeit/DefaultEventFormatter.hpp 111-126). -/
def formatInvocationList (ts : List Text) : Text :=
  let maxSize := if ts.length > 50 then 50 else ts.length
  formatListLoop maxSize 0 ts ++ (if ts.length > maxSize then endl ++ str "  ..." else [])

/-- `formatExpectedCount` (include/fakeit/DefaultEventFormatter.hpp 100-109). -/
def formatExpectedCount (vt : VerificationType) (n : Int) : Text :=
  (match vt with | .exact => str "exactly " | .atLeast => str "at least " | .noMoreInvocations => []) ++ decimalInt n

/-- `format(SequenceVerificationEvent)` (include/fakeit/DefaultEventFormatter.hpp 37-61). -/
def formatSequenceEvent {L : Type} (text : L → Text) (pat : List (Seq L)) (vt : VerificationType) (expected actual : Int) (invs : List Text) : Text :=
  str "Verification error" ++ endl ++
  (str "Expected pattern: " ++ formatPattern text pat ++ endl) ++
  (str "Expected matches: " ++ formatExpectedCount vt expected ++ endl) ++
  (str "Actual matches  : " ++ decimalInt actual ++ endl) ++
  (str "Actual sequence : total of " ++ decimal invs.length ++ str " actual invocations") ++
  (if invs.length = 0 then ['.'] else [':'] ++ endl) ++
  formatInvocationList invs

/-- `format(NoMoreInvocationsVerificationEvent)` (include/fakeit/DefaultEventFormatter.hpp 63-69). -/
def formatNoMoreEvent (invs : List Text) : Text :=
  str "Verification error" ++ endl ++
  (str "Expected no more invocations!! but the following unverified invocations were found:" ++ endl) ++
  formatInvocationList invs

/-- `format(UnexpectedMethodCallEvent)` (include/fakeit/DefaultEventFormatter.hpp 18-28). -/
def formatUnexpectedEvent (ty : UnexpectedType) (inv : Text) : Text :=
  str "Unexpected method invocation: " ++ inv ++ endl ++
  (if ty = .unmatched then str "  Could not find any recorded behavior to support this method call."
   else str "  An unmocked method was invoked. All used virtual methods must be stubbed!")

/-- The three `format` overloads by event (include/fakeit/DefaultEventFormatter.hpp 18-69). `invText` is `Invocation::format`; the expected pattern is the one
of the verification that fired the event. -/
def formatEvent {L V : Type} (text : L → Text) (pat : List (Seq L)) (invText : Invocation V → Text) : Event V → Text
  | .unexpectedCall ty inv => formatUnexpectedEvent ty (invText inv)
  | .sequence ty expected actual actualSeq => formatSequenceEvent text pat ty expected actual (actualSeq.map invText)
  | .noMoreInvocations _ unverified => formatNoMoreEvent (unverified.map invText)

end FakeIt
