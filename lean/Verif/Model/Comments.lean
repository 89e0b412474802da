/-!
# Removal of comments by the single-header generator (generate_fakeit_single_header.py 14-17, 64-81)
-/
namespace FakeIt.Comments

/-- Characters, by what the regular expression and the rules for C++ comments distinguish. `blank` are spaces, tabs and other white space except line ends (`[^\S\n]`; white space
outside of ASCII is not modelled) (generate_fakeit_single_header.py 14-17). -/
inductive Ch where
  | slash
  | star
  | newline
  | blank (c : Char)
  | dquote
  | squote
  | backslash
  | other (c : Char)
  deriving DecidableEq

/-- `[^\S\n]` (generate_fakeit_single_header.py 15). -/
def Ch.isBlank : Ch → Bool
  | .blank _ => true
  | _ => false

/-- `(.*?)\*/`: up to the first `*/`; what is before and what is behind (generate_fakeit_single_header.py 15). -/
def blockEnd : List Ch → Option (List Ch × List Ch)
  | .star :: .slash :: r => some ([], r)
  | c :: r => (blockEnd r).map fun (m, a) => (c :: m, a)
  | [] => none

/-- `$` with `re.MULTILINE` (generate_fakeit_single_header.py 14-17). -/
def atEnd : List Ch → Bool
  | [] => true
  | .newline :: _ => true
  | _ => false

/-- A match: groups 1, 2, 3 of the regular expression (group 1 and 3 matched or not) and the text behind it (generate_fakeit_single_header.py 64-77). -/
structure Found where
  start : Bool
  mid : Option (List Ch)
  end_ : Bool
  rest : List Ch

/-- A match of `(^)?[^\S\n]*/(?:\*(.*?)\*/[^\S\n]*|/[^\n]*)($)?` at the beginning of the text; `lineStart`: `^` matches here (generate_fakeit_single_header.py 14-17). The optional
groups are greedy and what follows a starred class cannot begin with a member of the class, so there is only one way to match. -/
def matchAt (lineStart : Bool) (t : List Ch) : Option Found :=
  match t.dropWhile Ch.isBlank with
  | .slash :: .star :: r =>
    match blockEnd r with
    | none => none
    | some (mid, a) => some ⟨lineStart, some mid, atEnd (a.dropWhile Ch.isBlank), a.dropWhile Ch.isBlank⟩
  | .slash :: .slash :: r => some ⟨lineStart, none, atEnd (r.dropWhile (· != .newline)), r.dropWhile (· != .newline)⟩
  | _ => none

/-- `comment_replacer` (generate_fakeit_single_header.py 64-77). -/
def replacement (f : Found) : List Ch :=
  match f.mid with
  | none => []
  | some mid => if f.start || f.end_ then [] else if mid.contains .newline then [.newline] else [.blank ' ']

/-- `comment_matcher.sub(comment_replacer, text)`: the leftmost match is replaced, then the search goes on behind it (generate_fakeit_single_header.py 80-81). The first argument
bounds the number of steps; the length of the text suffices. -/
def removeFrom : Nat → Bool → List Ch → List Ch
  | 0, _, _ => []
  | _ + 1, _, [] => []
  | n + 1, lineStart, c :: r =>
    match matchAt lineStart (c :: r) with
    | some f => replacement f ++ removeFrom n false f.rest
    | none => c :: removeFrom n (c == .newline) r

/-- `remove_comments` (generate_fakeit_single_header.py 80-81). -/
def removeComments (t : List Ch) : List Ch := removeFrom t.length true t

end FakeIt.Comments
