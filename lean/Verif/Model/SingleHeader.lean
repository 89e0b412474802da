import Verif.Model.Result
/-!
# The generator of the single header files (generate_fakeit_single_header.py)

The file the users are told to include, single_header/<config>/fakeit.hpp, is written by this script out of the files under include and config/<config>.
-/
namespace FakeIt.SingleHeader

/-- A header name as it is spelled between the quotes of an `#include` line, split at the slashes: `a//b` is `["a", "", "b"]` (plumbing) (generate_fakeit_single_header.py 26-47). -/
abbrev Spelling := List String

/-- A path below the root of the repository (plumbing) (generate_fakeit_single_header.py 26-47). -/
abbrev Path := List String

/-- The lines of the source files that matter to the generator and to the preprocessor. Comments are whole lines here; blocks comments spanning lines, comments
after code and the `//` and `/*` that the expression of generate_fakeit_single_header.py 14-17 would find inside of string literals are not modelled. Of the
conditional directives `#ifdef`, `#else` and `#endif` are modelled, with `c` standing for any controlling condition (include/mockutils/VirtualTable.hpp 3-8). -/
inductive Line where
  /-- `#include "..."` (12) -/
  | incl (h : Spelling)
  /-- `#pragma once` (13) -/
  | once
  /-- a comment (14-17) -/
  | comment (t : String)
  /-- `#ifdef c`, `#if c` -/
  | ifdef (c : String)
  /-- `#else` -/
  | els
  /-- `#endif` -/
  | endif
  /-- anything else -/
  | text (t : String)
  deriving DecidableEq, Repr

/-- What parse_file writes (generate_fakeit_single_header.py 26-47): the line that names the header (36), and the lines of the files (47). -/
inductive Out where
  | mark (h : Spelling)
  | line (l : Line)
  deriving DecidableEq, Repr

/-- The files of the repository (plumbing) (generate_fakeit_single_header.py 60-61). -/
abbrev Files := Path → Option (List Line)

/-- The path the operating system finds below directory `dir` under a name: empty components are ignored (`os.path.join`, generate_fakeit_single_header.py
29-32). The components `.` and `..` do not occur in the repository and are not modelled. -/
def join (dir : Path) (h : Spelling) : Path := dir ++ h.filter (· ≠ "")

/-- Where parse_file looks for a header (generate_fakeit_single_header.py 29-34). -/
def locate (fs : Files) (cfg : String) (h : Spelling) : Option Path :=
  -- 29-30
  if (fs (join ["config", cfg] h)).isSome then some (join ["config", cfg] h)
  -- 31-32
  else if (fs (join ["include"] h)).isSome then some (join ["include"] h)
  -- 33-34
  else none

/-- The loop over the lines of a file (generate_fakeit_single_header.py 39-47). `sub` is the recursive call of line 45; `done` is `processed_headers`. -/
def parseLines (sub : List Spelling → Spelling → Option (List Out × List Spelling)) : List Spelling → List Line → Option (List Out × List Spelling)
  | done, [] => some ([], done)
  | done, .incl h :: ls =>
    -- 43
    if h ∈ done then parseLines sub done ls
    else do
      -- 44-45
      let (o₁, done₁) ← sub (h :: done) h
      let (o₂, done₂) ← parseLines sub done₁ ls
      some (o₁ ++ o₂, done₂)
  | done, l :: ls => do
    -- 47
    let (o, done') ← parseLines sub done ls
    some (.line l :: o, done')

/-- `parse_file` (generate_fakeit_single_header.py 26-47). The first argument bounds the depth of the recursion. -/
def parseFile (fs : Files) (cfg : String) : Nat → List Spelling → Spelling → Option (List Out × List Spelling)
  | 0, _, _ => none
  | n + 1, done, h =>
    -- 29-34
    match locate fs cfg h with
    | none => some ([], done)
    | some p =>
      match fs p with
      | none => some ([], done)
      | some ls => do
        -- 36-47
        let (o, done') ← parseLines (parseFile fs cfg n) done ls
        some (.mark h :: o, done')

/-- `remove_comments`, `remove_pragma_once` (generate_fakeit_single_header.py 64-85) on one line: the lines that name the headers are comments. -/
def finishLine : Out → Option Line
  | .mark _ => none
  | .line (.comment _) => none
  | .line .once => none
  | .line l => some l

/-- The name of the file the generator starts with (generate_fakeit_single_header.py 60-61). -/
def rootName : Spelling := ["fakeit.hpp"]

/-- `create_fakeit_file_for_config`, `create_fakeit_file_text`, `create_fakeit_file` (generate_fakeit_single_header.py 60-61, 88-112): `processed_headers` is
cleared (110), the text is put behind `#pragma once` and a comment (103-105). -/
def singleHeader (fs : Files) (cfg : String) (n : Nat) : Option (List Line) := do
  let (o, _) ← parseFile fs cfg n [] rootName
  some (.once :: .comment "FakeIt - A Simplified C++ Mocking Framework" :: o.filterMap finishLine)

end FakeIt.SingleHeader
