import Verif.Model.Comments
/-!
# C66: removing comments does not change the program
-/
namespace FakeIt.Comments

/-! ## Specification: how C++ reads a text -/

/-- Phase 2 of translation: a backslash at the end of a line joins it with the next one. -/
def phase2 : List Ch → List Ch
  | .backslash :: .newline :: r => phase2 r
  | c :: r => c :: phase2 r
  | [] => []

/-- Characters of code, and of string and character literals. -/
inductive Tag where
  | code (c : Ch)
  | lit (c : Ch)
  deriving DecidableEq

/-- Where in a text: in code, in a comment `/* */`, in a comment `//`, in a literal (string: true). -/
inductive Mode where
  | code
  | block
  | line
  | lit (string : Bool)

/-- The quote that delimits a literal. -/
def quote : Bool → Ch
  | true => .dquote
  | false => .squote

/-- Phase 3 of translation: a comment is a space; there are no comments in literals. -/
def phase3 : Mode → List Ch → List Tag
  | _, [] => []
  | .code, .slash :: .star :: r => .code (.blank ' ') :: phase3 .block r
  | .code, .slash :: .slash :: r => .code (.blank ' ') :: phase3 .line r
  | .code, .dquote :: r => .lit .dquote :: phase3 (.lit true) r
  | .code, .squote :: r => .lit .squote :: phase3 (.lit false) r
  | .code, c :: r => .code c :: phase3 .code r
  | .block, .star :: .slash :: r => phase3 .code r
  | .block, _ :: r => phase3 .block r
  | .line, .newline :: r => .code .newline :: phase3 .code r
  | .line, _ :: r => phase3 .line r
  | .lit q, .backslash :: c :: r => .lit .backslash :: .lit c :: phase3 (.lit q) r
  | .lit q, c :: r => .lit c :: phase3 (if c = quote q then .code else .lit q) r

/-- End of a word. -/
def closeWord (word : List Tag) (line : List (List Tag)) : List (List Tag) := if word = [] then line else line ++ [word]

/-- End of a line; empty lines do not count. -/
def closeLine (line : List (List Tag)) : List (List (List Tag)) := if line = [] then [] else [line]

/-- The words of each line (`lines = false`: of the whole text as if it were one line). White space separates words and has no other meaning. -/
def read (lines : Bool) : List Tag → List (List Tag) → List Tag → List (List (List Tag))
  | word, line, [] => closeLine (closeWord word line)
  | word, line, .code .newline :: r => if lines then closeLine (closeWord word line) ++ read lines [] [] r else read lines [] (closeWord word line) r
  | word, line, .code (.blank _) :: r => read lines [] (closeWord word line) r
  | word, line, x :: r => read lines (word ++ [x]) line r

/-- What the compiler reads: words, by lines if preprocessing directives matter. -/
def meaning (lines : Bool) (t : List Ch) : List (List (List Tag)) := read lines [] [] (phase3 .code (phase2 t))

/-- Does a comment begin here? -/
def commentNext : List Ch → Bool
  | .slash :: .star :: _ => true
  | .slash :: .slash :: _ => true
  | _ => false

/-- Does a comment `/* */` begin here? -/
def blockNext : List Ch → Bool
  | .slash :: .star :: _ => true
  | _ => false

/-- The scanner's place for `plain`. `block nl`: in a comment, a line end has been seen. -/
inductive Place where
  | code
  | block (nl : Bool)
  | line
  | lit (string : Bool)

/-- Texts the generator handles well: literals and comments are closed, no `//` or `/*` in literals; a backslash outside of literals is at the end of a line, not behind a `/`, and the next line
does not begin with a comment `/* */`; no line is continued in a comment or a literal. If lines matter, a comment that spans lines has no code both before and behind it. `b`:
there has been no code on this line. -/
def plain (lines : Bool) : Place → Bool → List Ch → Bool
  | .code, _, [] => true
  | .code, b, .slash :: .star :: r => plain lines (.block false) b r
  | .code, b, .slash :: .slash :: r => plain lines .line b r
  | .code, _, .slash :: .backslash :: _ => false
  | .code, b, .backslash :: .newline :: r => !blockNext (r.dropWhile Ch.isBlank) && plain lines .code b r
  | .code, _, .backslash :: _ => false
  | .code, _, .dquote :: r => plain lines (.lit true) false r
  | .code, _, .squote :: r => plain lines (.lit false) false r
  | .code, _, .newline :: r => plain lines .code true r
  | .code, b, .blank _ :: r => plain lines .code b r
  | .code, _, _ :: r => plain lines .code false r
  | .block _, _, [] => false
  | .block nl, b, .star :: .slash :: r => (!lines || !nl || b || atEnd (r.dropWhile Ch.isBlank)) && plain lines .code b r
  | .block _, _, .backslash :: .newline :: _ => false
  | .block _, b, .newline :: r => plain lines (.block true) b r
  | .block nl, b, _ :: r => plain lines (.block nl) b r
  | .line, _, [] => true
  | .line, _, .backslash :: .newline :: _ => false
  | .line, _, .newline :: r => plain lines .code true r
  | .line, b, _ :: r => plain lines .line b r
  | .lit _, _, [] => false
  | .lit _, _, .newline :: _ => false
  | .lit q, b, .backslash :: c :: r => c != .newline && !commentNext (c :: r) && plain lines (.lit q) b r
  | .lit q, b, c :: r => !commentNext (c :: r) && plain lines (if c = quote q then .code else .lit q) b r

/-! ## Proof -/

private theorem dropWhile_length (p : Ch → Bool) (t : List Ch) : (t.dropWhile p).length ≤ t.length := (List.dropWhile_sublist p).length_le

private theorem blockEnd_length : ∀ {t m a : List Ch}, blockEnd t = some (m, a) → a.length < t.length
  | [], m, a, h => by simp [blockEnd] at h
  | c :: r, m, a, h => by
    rw [blockEnd.eq_def] at h
    split at h
    · rename_i r' he
      cases he; cases h
      simp only [List.length_cons]; omega
    · rename_i he
      cases he
      simp only [Option.map_eq_some_iff] at h
      obtain ⟨⟨m', a'⟩, h, he⟩ := h
      cases he
      have := blockEnd_length h
      simp only [List.length_cons]; omega
    · rename_i he; cases he

private theorem matchAt_length {ls : Bool} {t : List Ch} {f : Found} (h : matchAt ls t = some f) : f.rest.length < t.length := by
  have hd := dropWhile_length Ch.isBlank t
  unfold matchAt at h
  split at h
  · rename_i r he
    rw [he] at hd
    split at h
    · cases h
    · rename_i mid a hb
      cases h
      have h1 := blockEnd_length hb
      have h2 := dropWhile_length Ch.isBlank a
      simp only [List.length_cons] at hd ⊢; omega
  · rename_i r he
    rw [he] at hd
    cases h
    have h2 := dropWhile_length (· != .newline) r
    simp only [List.length_cons] at hd ⊢; omega
  · cases h

/-- Text that is not affected by joining of lines. -/
private theorem phase2_cons {c : Ch} (h : c ≠ .backslash) (r : List Ch) : phase2 (c :: r) = c :: phase2 r := by
  cases c <;> first | (exact absurd rfl h) | simp [phase2]

private theorem phase2_splice (r : List Ch) : phase2 (.backslash :: .newline :: r) = phase2 r := by simp [phase2]

private theorem phase2_escape {c : Ch} (h : c ≠ .newline) (r : List Ch) : phase2 (.backslash :: c :: r) = .backslash :: phase2 (c :: r) := by
  rw [phase2.eq_def]
  split
  · rename_i he; cases he; exact absurd rfl h
  · rename_i he; cases he; rfl
  · rename_i he; cases he

private theorem read_blank (l : Bool) (w : List Tag) (n : List (List Tag)) (c : Char) (r : List Tag) :
    read l w n (.code (.blank c) :: r) = read l [] (closeWord w n) r := by simp [read]

private theorem closeWord_nil (n : List (List Tag)) : closeWord [] n = n := by simp [closeWord]

/-- White space before the end of a line does not matter. -/
private theorem read_atEnd (l : Bool) (w : List Tag) (n : List (List Tag)) {t : List Ch} (h : atEnd t = true) :
    read l [] (closeWord w n) (phase3 .code (phase2 t)) = read l w n (phase3 .code (phase2 t)) := by
  cases t with
  | nil => simp [phase2, phase3, read, closeWord_nil]
  | cons c r =>
    cases c <;> simp [atEnd] at h
    rw [phase2_cons (by simp)]
    simp [phase3, read, closeWord_nil]

/-- White space is read as white space. -/
private theorem read_dropWhile (l : Bool) (w : List Tag) (n : List (List Tag)) : ∀ (t : List Ch),
    read l [] (closeWord w n) (phase3 .code (phase2 (t.dropWhile Ch.isBlank))) = read l [] (closeWord w n) (phase3 .code (phase2 t))
  | [] => rfl
  | c :: r => by
    cases c <;> try rfl
    rename_i c
    show read l [] (closeWord w n) (phase3 .code (phase2 (r.dropWhile Ch.isBlank))) = _
    rw [phase2_cons (by simp), read_dropWhile l w n r]
    simp [phase3, read, closeWord_nil]

private theorem plain_dropWhile (l b : Bool) : ∀ (t : List Ch), plain l .code b (t.dropWhile Ch.isBlank) = plain l .code b t
  | [] => rfl
  | c :: r => by
    cases c <;> try rfl
    show plain l .code b (r.dropWhile Ch.isBlank) = _
    rw [plain_dropWhile l b r]
    simp [plain]

private theorem phase3_block {c : Ch} {r : List Ch} (h : ∀ r', c :: r ≠ .star :: .slash :: r') : phase3 .block (c :: r) = phase3 .block r := by
  cases c <;> first | (simp [phase3]; done) | skip
  cases r with
  | nil => simp [phase3]
  | cons d r => cases d <;> first | (simp [phase3]; done) | (exact absurd rfl (h r))

private theorem phase3_line {c : Ch} {r : List Ch} (h : c ≠ .newline) : phase3 .line (c :: r) = phase3 .line r := by
  cases c <;> first | (simp [phase3]; done) | (exact absurd rfl h)

/-- The end of a comment. -/
private theorem block_step (l b : Bool) : ∀ {t : List Ch} {nl : Bool}, plain l (.block nl) b t = true →
    ∃ m a, blockEnd t = some (m, a) ∧ phase3 .block (phase2 t) = phase3 .code (phase2 a) ∧ plain l .code b a = true ∧
      (l = true → (nl || m.contains .newline) = true → b = true ∨ atEnd (a.dropWhile Ch.isBlank) = true)
  | [], nl, h => by simp [plain] at h
  | c :: r, nl, h => by
    by_cases hend : ∃ r', c :: r = .star :: .slash :: r'
    · obtain ⟨r', he⟩ := hend
      cases he
      simp only [plain, Bool.and_eq_true, Bool.or_eq_true, Bool.not_eq_true'] at h
      refine ⟨[], r', by simp [blockEnd], ?_, h.2, ?_⟩
      · rw [phase2_cons (by simp), phase2_cons (by simp)]; simp [phase3]
      · intro hl hn
        simp only [List.contains_nil, Bool.or_false] at hn
        rcases h.1 with ((h1 | h1) | h1) | h1
        · simp [hl] at h1
        · simp [hn] at h1
        · exact Or.inl h1
        · exact Or.inr h1
    · have hb : blockEnd (c :: r) = (blockEnd r).map fun (m, a) => (c :: m, a) := by
        rw [blockEnd.eq_def]
        split
        · rename_i r' he; exact absurd ⟨r', he⟩ hend
        · rename_i he; cases he; rfl
        · rename_i he; cases he
      have hsp : ¬ ∃ r', c :: r = .backslash :: .newline :: r' := by
        rintro ⟨r', he⟩
        cases he
        simp [plain] at h
      have h2 : phase2 (c :: r) = c :: phase2 r := by
        rw [phase2.eq_def]
        split
        · rename_i r' he; exact absurd ⟨r', he⟩ hsp
        · rename_i he; cases he; rfl
        · rename_i he; cases he
      have hp : plain l (.block (nl || c == .newline)) b r = true := by
        by_cases hc : c = .newline
        · subst hc
          simpa [plain] using h
        · have : (c == Ch.newline) = false := by simpa using hc
          rw [this, Bool.or_false]
          cases c <;> first | (exact absurd rfl hc) | (cases r <;> first | (simp_all [plain]; done) | (rename_i d r; cases d <;> first | (simp_all [plain]; done) | (exact absurd ⟨_, rfl⟩ hend) | (exact absurd ⟨_, rfl⟩ hsp)))
      obtain ⟨m, a, h3, h4, h5, h6⟩ := block_step l b hp
      refine ⟨c :: m, a, by rw [hb, h3]; rfl, ?_, h5, ?_⟩
      · rw [h2, ← h4]
        refine phase3_block ?_
        · intro r' he
          injection he with h7 h8
          subst h7
          cases r with
          | nil => simp [phase2] at h8
          | cons d r =>
            by_cases hd : d = .backslash
            · subst hd
              cases r with
              | nil => simp [phase2] at h8
              | cons e r =>
                by_cases he : e = .newline
                · subst he; simp [plain] at hp
                · rw [phase2_escape he] at h8; cases h8
            · rw [phase2_cons hd] at h8
              cases h8
              exact hend ⟨r, rfl⟩
      · intro hl hn
        refine h6 hl ?_
        rw [← hn]
        simp only [List.contains_cons, Bool.or_assoc]
        cases c <;> rfl

/-- The end of a comment that extends to the end of the line. -/
private theorem line_step (l b : Bool) : ∀ {t : List Ch}, plain l .line b t = true →
    phase3 .line (phase2 t) = phase3 .code (phase2 (t.dropWhile (· != .newline))) ∧ atEnd (t.dropWhile (· != .newline)) = true ∧
      plain l .code false (t.dropWhile (· != .newline)) = true
  | [], h => by simp [phase2, phase3, atEnd, plain]
  | c :: r, h => by
    by_cases hc : c = .newline
    · subst hc
      simp only [plain] at h
      simp [phase2, phase3, atEnd, plain, h]
    · have hsp : ¬ ∃ r', c :: r = .backslash :: .newline :: r' := by
        rintro ⟨r', he⟩
        cases he
        simp [plain] at h
      have h2 : phase2 (c :: r) = c :: phase2 r := by
        rw [phase2.eq_def]
        split
        · rename_i r' he; exact absurd ⟨r', he⟩ hsp
        · rename_i he; cases he; rfl
        · rename_i he; cases he
      have hp : plain l .line b r = true := by
        cases c <;> first | (exact absurd rfl hc) | (simpa [plain] using h) | skip
        cases r with
        | nil => simp [plain]
        | cons d r => cases d <;> first | (simpa [plain] using h) | (exact absurd ⟨_, rfl⟩ hsp)
      have hd : (c :: r).dropWhile (· != .newline) = r.dropWhile (· != .newline) := by
        rw [List.dropWhile_cons, if_pos]
        simpa using hc
      rw [hd, h2, phase3_line hc]
      exact line_step l b hp

/-- No match begins in a literal. -/
private theorem lit_no_match (l b q ls : Bool) : ∀ {t : List Ch}, plain l (.lit q) b t = true → matchAt ls t = none
  | [], _ => rfl
  | c :: r, h => by
    cases c <;> try rfl
    · cases r with
      | nil => rfl
      | cons d r => cases d <;> first | rfl | (simp [plain, commentNext] at h; done)
    · have h1 : plain l (.lit q) b r = true := by
        cases q <;> simpa [plain, commentNext, quote] using h
      have := lit_no_match l b q ls h1
      exact this

private theorem removeFrom_none {n : Nat} {ls : Bool} {c : Ch} {r : List Ch} (h : matchAt ls (c :: r) = none) :
    removeFrom (n + 1) ls (c :: r) = c :: removeFrom n (c == .newline) r := by
  rw [removeFrom, h]

private theorem removeFrom_some {n : Nat} {ls : Bool} {c : Ch} {r : List Ch} {f : Found} (h : matchAt ls (c :: r) = some f) :
    removeFrom (n + 1) ls (c :: r) = replacement f ++ removeFrom n false f.rest := by
  rw [removeFrom, h]

private theorem atEnd_dropWhile : ∀ (t : List Ch), atEnd (t.dropWhile (· != .newline)) = true
  | [] => rfl
  | c :: r => by
    rw [List.dropWhile_cons]
    split
    · exact atEnd_dropWhile r
    · rename_i h
      simp at h
      subst h
      rfl

/-- How what is left begins. -/
private theorem removeFrom_head {n : Nat} {t : List Ch} (hn : t.length ≤ n) :
    removeFrom n false t = [] ∨ (∃ y, removeFrom n false t = .newline :: y) ∨ (∃ y, removeFrom n false t = .blank ' ' :: y) ∨
      ∃ c r y, t = c :: r ∧ removeFrom n false t = c :: y ∧ matchAt false t = none := by
  cases n with
  | zero => left; rfl
  | succ n =>
    cases t with
    | nil => left; rfl
    | cons c r =>
      cases hm : matchAt false (c :: r) with
      | none => exact Or.inr (Or.inr (Or.inr ⟨c, r, _, rfl, removeFrom_none hm, rfl⟩))
      | some f =>
        have hl := matchAt_length hm
        rw [removeFrom_some hm]
        have hend : f.end_ = true → removeFrom n false f.rest = [] ∨ ∃ y, removeFrom n false f.rest = .newline :: y := by
          intro he
          have : f.end_ = atEnd f.rest := by
            unfold matchAt at hm
            split at hm
            · split at hm
              · cases hm
              · cases hm; rfl
            · cases hm; rfl
            · cases hm
          rw [this] at he
          cases n with
          | zero => left; rfl
          | succ n =>
            cases hr : f.rest with
            | nil => left; rfl
            | cons d r' =>
              rw [hr] at he
              cases d <;> simp [atEnd] at he
              right
              exact ⟨_, removeFrom_none rfl⟩
        have hs : f.start = false ∧ (f.mid = none → f.end_ = true) := by
          unfold matchAt at hm
          split at hm
          · split at hm
            · cases hm
            · cases hm; exact ⟨rfl, fun h => by cases h⟩
          · rename_i r' _
            cases hm
            refine ⟨rfl, fun _ => ?_⟩
            exact atEnd_dropWhile r'
          · cases hm
        unfold replacement
        split
        · rename_i hmid
          rcases hend (hs.2 hmid) with h | ⟨y, h⟩
          · left; simpa using h
          · right; left; exact ⟨y, by simpa using h⟩
        · split
          · rename_i he
            rw [hs.1] at he
            rcases hend (by simpa using he) with h | ⟨y, h⟩
            · left; simpa using h
            · right; left; exact ⟨y, by simpa using h⟩
          · split
            · right; left; exact ⟨_, rfl⟩
            · right; right; left; exact ⟨_, rfl⟩

private theorem phase3_code {c : Ch} {r : List Ch} (h1 : c ≠ .dquote) (h2 : c ≠ .squote) (h3 : commentNext (c :: r) = false) :
    phase3 .code (c :: r) = .code c :: phase3 .code r := by
  cases c <;> first | (exact absurd rfl h1) | (exact absurd rfl h2) | (simp [phase3]; done) | skip
  cases r with
  | nil => simp [phase3]
  | cons d r => cases d <;> first | (simp [phase3]; done) | (simp [commentNext] at h3)

private theorem phase3_lit {q : Bool} {c : Ch} {r : List Ch} (h : c ≠ .backslash) :
    phase3 (.lit q) (c :: r) = .lit c :: phase3 (if c = quote q then .code else .lit q) r := by
  cases c <;> first | (exact absurd rfl h) | (simp [phase3]; done)

/-- A comment is white space. -/
private theorem read_comment_block (l : Bool) : ∀ (w : List Tag) (line : List (List Tag)) {t r : List Ch}, t.dropWhile Ch.isBlank = .slash :: .star :: r →
    read l w line (phase3 .code (phase2 t)) = read l [] (closeWord w line) (phase3 .block (phase2 r))
  | _, _, [], _, h => by simp at h
  | w, line, c :: t, r, h => by
    by_cases hc : c.isBlank = true
    · cases c <;> simp [Ch.isBlank] at hc
      rename_i c
      have h' : t.dropWhile Ch.isBlank = .slash :: .star :: r := h
      rw [phase2_cons (by simp)]
      simp only [phase3, read]
      rw [read_comment_block l [] _ h', closeWord_nil]
    · rw [List.dropWhile_cons, if_neg hc] at h
      cases h
      rw [phase2_cons (by simp), phase2_cons (by simp)]
      simp only [phase3, read]

private theorem read_comment_line (l : Bool) : ∀ (w : List Tag) (line : List (List Tag)) {t r : List Ch}, t.dropWhile Ch.isBlank = .slash :: .slash :: r →
    read l w line (phase3 .code (phase2 t)) = read l [] (closeWord w line) (phase3 .line (phase2 r))
  | _, _, [], _, h => by simp at h
  | w, line, c :: t, r, h => by
    by_cases hc : c.isBlank = true
    · cases c <;> simp [Ch.isBlank] at hc
      rename_i c
      have h' : t.dropWhile Ch.isBlank = .slash :: .slash :: r := h
      rw [phase2_cons (by simp)]
      simp only [phase3, read]
      rw [read_comment_line l [] _ h', closeWord_nil]
    · rw [List.dropWhile_cons, if_neg hc] at h
      cases h
      rw [phase2_cons (by simp), phase2_cons (by simp)]
      simp only [phase3, read]

/-- Where `plain` is, as a mode. -/
private def modeOf (q : Option Bool) : Mode := match q with
  | none => .code
  | some s => .lit s

private def placeOf (q : Option Bool) : Place := match q with
  | none => .code
  | some s => .lit s

private theorem preserved (l : Bool) : ∀ (n : Nat) (q : Option Bool) (ls b : Bool) (w : List Tag) (line : List (List Tag)) (t : List Ch), t.length ≤ n →
    plain l (placeOf q) b t = true → (q = none → ls = true → w = [] ∨ blockNext (t.dropWhile Ch.isBlank) = false) →
    (l = true → b = true → q = none ∧ w = [] ∧ line = []) →
    read l w line (phase3 (modeOf q) (phase2 (removeFrom n ls t))) = read l w line (phase3 (modeOf q) (phase2 t)) := by
  intro n
  induction n using Nat.strongRecOn with
  | ind n ih =>
    intro q ls b w line t hn hp hls hb
    cases t with
    | nil => cases n <;> rfl
    | cons c r =>
      cases n with
      | zero => simp at hn
      | succ n =>
        replace hn : r.length ≤ n := by simpa using hn
        have hread : ∀ w x, read l w line (.lit c :: x) = read l (w ++ [.lit c]) line x := fun w x => by simp [read]
        cases q with
        | some q =>
          have hm := lit_no_match l b q ls hp
          rw [removeFrom_none hm]
          change plain l (.lit q) b (c :: r) = true at hp
          show read l w line (phase3 (.lit q) _) = read l w line (phase3 (.lit q) _)
          have hbf : l = true → b = true → False := fun h1 h2 => by cases (hb h1 h2).1
          by_cases hc : c = .backslash
          · subst hc
            cases r with
            | nil => simp [plain, commentNext, quote] at hp; cases q <;> simp [plain] at hp
            | cons d r =>
              simp only [plain, Bool.and_eq_true, bne_iff_ne, ne_eq, Bool.not_eq_true'] at hp
              obtain ⟨⟨hd, hcm⟩, hp⟩ := hp
              have hm2 : matchAt false (d :: r) = none := by
                cases d <;> try rfl
                · cases r with
                  | nil => rfl
                  | cons e r => cases e <;> first | rfl | (simp [commentNext] at hcm)
                · exact lit_no_match (t := r) l b q false hp
              cases n with
              | zero => simp at hn
              | succ n =>
                have hdn : (d == .newline) = false := by simpa using hd
                rw [show ((Ch.backslash : Ch) == .newline) = false from rfl, removeFrom_none hm2, phase2_escape hd, phase2_escape hd, hdn]
                have h1 : phase2 (d :: r) = d :: phase2 r := by
                  by_cases hdb : d = .backslash
                  · subst hdb
                    cases r with
                    | nil => simp [plain] at hp
                    | cons e r => exact phase2_escape (fun he => by subst he; simp [plain] at hp) r
                  · exact phase2_cons hdb r
                have h2 : phase2 (d :: removeFrom n false r) = d :: phase2 (removeFrom n false r) := by
                  by_cases hdb : d = .backslash
                  · subst hdb
                    cases r with
                    | nil => simp [plain] at hp
                    | cons e r =>
                      cases n with
                      | zero => simp at hn
                      | succ n =>
                        rw [removeFrom_none (lit_no_match l b q false hp)]
                        exact phase2_escape (fun he => by subst he; simp [plain] at hp) _
                  · exact phase2_cons hdb _
                rw [h1, h2]
                have h3 : ∀ x, read l w line (phase3 (.lit q) (.backslash :: d :: x)) = read l (w ++ [.lit .backslash] ++ [.lit d]) line (phase3 (.lit q) x) :=
                  fun x => by simp [phase3, read]
                rw [h3, h3]
                exact ih n (by omega) (some q) _ b _ _ r (by simpa using hn) hp (fun h => by cases h) (fun h1 h2 => (hbf h1 h2).elim)
          · rw [phase2_cons hc, phase2_cons hc, phase3_lit hc, phase3_lit hc, hread, hread]
            have hp' : plain l (if c = quote q then .code else .lit q) b r = true := by
              cases c <;> first | (exact absurd rfl hc) | (simp [plain] at hp; done) | (simp only [plain, Bool.and_eq_true] at hp; exact hp.2)
            have hnl : (c == .newline) = false := by
              cases c <;> first | rfl | (simp [plain] at hp)
            rw [hnl]
            by_cases hq : c = quote q
            · rw [if_pos hq] at hp'
              rw [if_pos hq]
              exact ih n (by omega) none _ b _ _ r hn hp' (fun _ h => by cases h) (fun h1 h2 => (hbf h1 h2).elim)
            · rw [if_neg hq] at hp'
              rw [if_neg hq]
              exact ih n (by omega) (some q) _ b _ _ r hn hp' (fun h => by cases h) (fun h1 h2 => (hbf h1 h2).elim)
        | none =>
          change plain l .code b (c :: r) = true at hp
          replace hls := hls rfl
          show read l w line (phase3 .code _) = read l w line (phase3 .code _)
          cases hm : matchAt ls (c :: r) with
          | some f => 
            have hlen := matchAt_length hm
            simp only [List.length_cons] at hlen
            rw [removeFrom_some hm]
            rw [← plain_dropWhile] at hp
            unfold matchAt at hm
            split at hm
            · rename_i r' he
              rw [he] at hp hls
              rw [read_comment_block l w line he]
              simp only [plain] at hp
              obtain ⟨m, a, h3, h4, h5, h6⟩ := block_step l b hp
              rw [h3] at hm
              cases hm
              rw [h4, ← read_dropWhile]
              rw [← plain_dropWhile] at h5
              generalize a.dropWhile Ch.isBlank = rest at *
              have hb' : l = true → b = true → (none : Option Bool) = none ∧ ([] : List Tag) = [] ∧ closeWord w line = [] := fun h1 h2 => by
                obtain ⟨_, hw, hli⟩ := hb h1 h2
                subst hw; subst hli
                exact ⟨rfl, rfl, rfl⟩
              have ih' := fun w line => ih n (by omega) none false b w line rest (by simp at hlen; omega) h5 (fun _ h => by cases h)
              simp only [replacement]
              split
              · rename_i hse
                show read l w line (phase3 .code (phase2 (removeFrom n false rest))) = _
                refine (ih' w line hb).trans ?_
                cases hls' : ls with
                | true =>
                  rcases hls hls' with hw | hw
                  · subst hw; rw [closeWord_nil]; rfl
                  · cases hw
                | false =>
                  rw [hls'] at hse
                  exact (read_atEnd l w line (by simpa using hse)).symm
              · rename_i hse
                split
                · rename_i hnl
                  show read l w line (phase3 .code (phase2 (.newline :: removeFrom n false rest))) = _
                  rw [phase2_cons (by simp)]
                  simp only [phase3, read]
                  split
                  · rename_i hl
                    rcases h6 hl (by simpa using hnl) with h7 | h7
                    · obtain ⟨_, hw, hli⟩ := hb hl h7
                      subst hw; subst hli
                      exact ih' [] [] hb
                    · simp [h7] at hse
                  · exact ih' [] (closeWord w line) hb'
                · show read l w line (phase3 .code (phase2 (.blank ' ' :: removeFrom n false rest))) = _
                  rw [phase2_cons (by simp)]
                  simp only [phase3, read]
                  exact ih' [] (closeWord w line) hb'
            · rename_i r' he
              rw [he] at hp
              rw [read_comment_line l w line he]
              simp only [plain] at hp
              obtain ⟨h4, h5, h6⟩ := line_step l b hp
              cases hm
              rw [h4, read_atEnd l w line h5]
              simp only [replacement, List.nil_append]
              exact ih n (by omega) none false false w line _ (by simp at hlen; omega) h6 (fun _ h => by cases h) (fun _ h => by cases h)
            · cases hm
          | none =>
            rw [removeFrom_none hm]
            have hstep : ∀ b', c ≠ .dquote → c ≠ .squote → c ≠ .backslash → c ≠ .slash → c ≠ .newline → plain l .code b' r = true →
                (c.isBlank = true → b' = b) → (c.isBlank = false → b' = false) →
                read l w line (phase3 .code (phase2 (c :: removeFrom n (c == .newline) r))) = read l w line (phase3 .code (phase2 (c :: r))) := by
              intro b' h1 h2 h3 h4 h5 h6 h7 h8
              have hcm : ∀ x, commentNext (c :: x) = false := by
                intro x
                cases c <;> first | rfl | (exact absurd rfl h4)
              have hnl : (c == .newline) = false := by simpa using h5
              rw [phase2_cons h3, phase2_cons h3, phase3_code h1 h2 (hcm _), phase3_code h1 h2 (hcm _), hnl]
              by_cases hbl : c.isBlank = true
              · cases c <;> simp [Ch.isBlank] at hbl
                rw [read_blank, read_blank]
                have := h7 rfl
                subst this
                refine ih n (by omega) none false b' _ _ r hn h6 (fun _ h => by cases h) (fun h1 h2 => ?_)
                obtain ⟨_, hw, hli⟩ := hb h1 h2
                subst hw; subst hli
                exact ⟨rfl, rfl, rfl⟩
              · have h9 : ∀ x, read l w line (.code c :: x) = read l (w ++ [.code c]) line x := by
                  intro x
                  cases c <;> first | (simp [read]; done) | (exact absurd rfl h5) | (exact absurd rfl hbl)
                rw [h9, h9]
                have := h8 (by simpa using hbl)
                subst this
                exact ih n (by omega) none false false _ _ r hn h6 (fun _ h => by cases h) (fun _ h => by cases h)
            cases c with
            | star => exact hstep false (by simp) (by simp) (by simp) (by simp) (by simp) (by simpa [plain] using hp) (fun h => by cases h) (fun _ => rfl)
            | other c => exact hstep false (by simp) (by simp) (by simp) (by simp) (by simp) (by simpa [plain] using hp) (fun h => by cases h) (fun _ => rfl)
            | blank c => exact hstep b (by simp) (by simp) (by simp) (by simp) (by simp) (by simpa [plain] using hp) (fun _ => rfl) (fun h => by cases h)
            | dquote =>
              rw [phase2_cons (by simp), phase2_cons (by simp)]
              simp only [phase3]
              rw [hread, hread]
              exact ih n (by omega) (some true) _ false _ _ r hn (by simpa [plain, placeOf] using hp) (fun h => by cases h) (fun _ h => by cases h)
            | squote =>
              rw [phase2_cons (by simp), phase2_cons (by simp)]
              simp only [phase3]
              rw [hread, hread]
              exact ih n (by omega) (some false) _ false _ _ r hn (by simpa [plain, placeOf] using hp) (fun h => by cases h) (fun _ h => by cases h)
            | newline =>
              rw [phase2_cons (by simp), phase2_cons (by simp)]
              simp only [phase3, read]
              have hp' : plain l .code true r = true := by simpa [plain] using hp
              split
              · congr 1
                exact ih n (by omega) none _ true _ _ r hn hp' (fun _ _ => Or.inl rfl) (fun _ _ => ⟨rfl, rfl, rfl⟩)
              · rename_i hl
                exact ih n (by omega) none _ true _ _ r hn hp' (fun _ _ => Or.inl rfl) (fun h => absurd h hl)
            | backslash =>
              cases r with
              | nil => simp [plain] at hp
              | cons d r =>
                cases d <;> first | (simp [plain] at hp; done) | skip
                simp only [plain, Bool.and_eq_true, Bool.not_eq_true'] at hp
                cases n with
                | zero => simp at hn
                | succ n =>
                  rw [removeFrom_none (c := .newline) rfl, phase2_splice, phase2_splice]
                  exact ih n (by omega) none _ b _ _ r (by simpa using hn) hp.2 (fun _ _ => Or.inr hp.1) hb
            | slash =>
              have hr : commentNext (.slash :: r) = false ∧ (∀ r', r ≠ .backslash :: r') ∧ plain l .code false r = true := by
                cases r with
                | nil => exact ⟨rfl, by simp, by simp [plain]⟩
                | cons d r =>
                  cases d <;> first | (simp [plain] at hp; done) | (exact ⟨rfl, (fun _ h => by cases h), by simpa [plain] using hp⟩) | skip
                  · cases hm
                  · simp only [plain] at hp
                    obtain ⟨m, a, h3, _⟩ := block_step l b hp
                    simp [matchAt, Ch.isBlank, h3] at hm
              have hy : commentNext (.slash :: phase2 (removeFrom n false r)) = false := by
                rcases removeFrom_head hn with h | ⟨y, h⟩ | ⟨y, h⟩ | ⟨d, r', y, h1, h2, h3⟩
                · rw [h]; rfl
                · rw [h, phase2_cons (by simp)]; rfl
                · rw [h, phase2_cons (by simp)]; rfl
                · rw [h2, phase2_cons (fun h => hr.2.1 r' (by rw [h1, h]))]
                  have := hr.1
                  rw [h1] at this
                  cases d <;> first | rfl | (cases this)
              have hr' : commentNext (.slash :: phase2 r) = false := by
                cases r with
                | nil => rfl
                | cons d r =>
                  rw [phase2_cons (fun h => hr.2.1 r (by rw [h]))]
                  have := hr.1
                  cases d <;> first | rfl | (cases this)
              rw [show ((Ch.slash : Ch) == .newline) = false from rfl, phase2_cons (by simp), phase2_cons (by simp),
                phase3_code (by simp) (by simp) hy, phase3_code (by simp) (by simp) hr']
              have h9 : ∀ x, read l w line (.code .slash :: x) = read l (w ++ [.code .slash]) line x := fun x => by simp [read]
              rw [h9, h9]
              exact ih n (by omega) none false false _ _ r hn hr.2.2 (fun _ h => by cases h) (fun _ h => by cases h)

/-! ## The property -/

/-- **C66.** Removing comments leaves what the compiler reads: the same words in the same order, and, if `lines`, distributed over lines in the same way, so that preprocessing directives
are the same as well. For texts that are `plain`; the theorems below show what happens to others. -/
theorem C66_removing_comments_keeps_the_program_partial (lines : Bool) (t : List Ch) (h : plain lines .code true t = true) :
    meaning lines (removeComments t) = meaning lines t :=
  preserved lines t.length none true true [] [] t (Nat.le_refl _) h (fun _ _ => Or.inl rfl) (fun _ _ => ⟨rfl, rfl, rfl⟩)

/-- Texts, for examples. -/
def chars (s : String) : List Ch := s.toList.map fun c =>
  if c = '/' then .slash else if c = '*' then .star else if c = '\n' then .newline else if c = ' ' ∨ c = '\t' then .blank c
  else if c = '"' then .dquote else if c = '\'' then .squote else if c = '\\' then .backslash else .other c

-- A macro over two lines with a comment, a string with an escaped quote, a division, comments before and behind code.
example : plain true .code true (chars "/* one\n two */ int a/**/b; // x\n#define M(x) \\\n x /* y */ + \"q\\\"/\" \\\n / 2\n") = true := by decide +kernel
example : removeComments (chars "/* one\n two */ int a/**/b; // x\n#define M(x) \\\n x /* y */ + \"q\\\"/\" \\\n / 2\n") =
    chars "int a b;\n#define M(x) \\\n x + \"q\\\"/\" \\\n / 2\n" := by decide +kernel

/-- A string with `//` is cut. -/
theorem C66_strings_may_be_cut : ∃ t, plain true .code true t = false ∧ removeComments t = chars "url = \"http:\n" ∧ meaning false (removeComments t) ≠ meaning false t :=
  ⟨chars "url = \"http://x\";\n", by decide +kernel⟩

/-- A comment over several lines in a directive ends the directive. -/
theorem C66_directives_may_be_cut : ∃ t, removeComments t = chars "#define A 1\n+ 2\n" ∧ meaning false (removeComments t) = meaning false t ∧
    meaning true (removeComments t) ≠ meaning true t :=
  ⟨chars "#define A 1 /* one\n */ + 2\n", by decide +kernel⟩

/-- A comment at the beginning of a continuation line no longer separates words. -/
theorem C66_words_may_be_joined : ∃ t, removeComments t = chars "int\\\nx;" ∧ meaning false (removeComments t) ≠ meaning false t :=
  ⟨chars "int\\\n/* x */x;", by decide +kernel⟩

/-- A comment `//` that goes on in the next line because of a backslash becomes code there. -/
theorem C66_continued_comments_may_become_code : ∃ t, removeComments t = chars "\nint x;" ∧ meaning false t = [] ∧ meaning false (removeComments t) ≠ [] :=
  ⟨chars "// a \\\nint x;", by decide +kernel⟩

end FakeIt.Comments
