import Verif.Model.ArgText
import Verif.Props.Format
/-!
# C59: printed calls and printed matchers can be told apart
-/
namespace FakeIt

/-! ## Specification -/

/-- Values whose text can be told from every other text of the type, in a list of texts. -/
def Spec.Legible (mem : Nat → Option Text) : TextVal → Prop
  | .bool _ => True
  | .char _ => True
  | .cstring p => p = 0 ∨ ∃ s, mem p = some s ∧ '"' ∉ s
  | .opaque _ => False
  | .int _ => True
  | .byte _ => True
  | .string s => ',' ∉ s ∧ ')' ∉ s

/-- Two values a reader has no reason to tell apart: equal, or C strings with equal contents. -/
def Spec.Alike (mem : Nat → Option Text) : TextVal → TextVal → Prop
  | .cstring p, .cstring q => (p = 0 ↔ q = 0) ∧ (p ≠ 0 → mem p = mem q)
  | v, w => v = w

/-- Element by element. -/
inductive Spec.AllAlike (mem : Nat → Option Text) : List TextVal → List TextVal → Prop where
  | nil : AllAlike mem [] []
  | cons {v w : TextVal} {vs ws : List TextVal} : Alike mem v w → AllAlike mem vs ws → AllAlike mem (v :: vs) (w :: ws)

open Spec

/-! ## Proofs -/

/-- What follows a text in a list of texts. -/
private def Ender (t : Text) : Prop := ∃ c t', t = c :: t' ∧ (c = ',' ∨ c = ')')

private theorem span_unique {p : Char → Bool} {a b x y : Text} (ha : ∀ c ∈ a, p c = true) (hb : ∀ c ∈ b, p c = true)
    (hx : ∃ c t, x = c :: t ∧ p c = false) (hy : ∃ c t, y = c :: t ∧ p c = false) (h : a ++ x = b ++ y) : a = b ∧ x = y := by
  obtain ⟨c, x', rfl, hc⟩ := hx
  obtain ⟨d, y', rfl, hd⟩ := hy
  induction a generalizing b with
  | nil =>
    cases b with
    | nil => exact ⟨rfl, by simpa using h⟩
    | cons e b =>
      simp only [List.nil_append, List.cons_append, List.cons.injEq] at h
      have := hb e (by simp)
      rw [← h.1, hc] at this; cases this
  | cons e a ih =>
    cases b with
    | nil =>
      simp only [List.nil_append, List.cons_append, List.cons.injEq] at h
      have := ha e (by simp)
      rw [h.1, hd] at this; cases this
    | cons f b =>
      simp only [List.cons_append, List.cons.injEq] at h
      obtain ⟨g1, g2⟩ := ih (b := b) (fun c hc => ha c (by simp [hc])) (fun c hc => hb c (by simp [hc])) h.2
      exact ⟨by rw [h.1, g1], g2⟩

private theorem decimal_digits (n : Nat) : ∀ c ∈ decimal n, c.isDigit = true := by
  have hd : ∀ d, d < 10 → (digitChar d).isDigit = true := by decide
  induction n using Nat.strongRecOn with
  | _ n ih =>
    unfold decimal
    split
    · simpa using hd n (by assumption)
    · intro c hc
      rcases List.mem_append.1 hc with hc | hc
      · exact ih _ (by omega) c hc
      · rw [List.mem_singleton.1 hc]; exact hd _ (by omega)

/-- Value of a string of digits. -/
private def value (t : Text) : Nat := t.foldl (fun n c => 10 * n + (c.toNat - 48)) 0

private theorem value_decimal (n : Nat) : value (decimal n) = n := by
  have hd : ∀ d, d < 10 → (digitChar d).toNat - 48 = d := by decide
  induction n using Nat.strongRecOn with
  | _ n ih =>
    unfold decimal
    split
    · simpa [value] using hd n (by assumption)
    · have h1 := ih (n / 10) (by omega)
      unfold value at h1 ⊢
      rw [List.foldl_append, h1]
      simp only [List.foldl_cons, List.foldl_nil]
      rw [hd _ (by omega)]
      omega

private theorem decimal_ne_nil (n : Nat) : decimal n ≠ [] := by
  unfold decimal; split <;> simp

private theorem decimalInt_inj {a b : Int} (h : decimalInt a = decimalInt b) : a = b := by
  unfold decimalInt at h
  have hmin : ∀ n t, decimal n ≠ '-' :: t := fun n t h => by
    have := decimal_digits n '-' (by rw [h]; simp)
    revert this; decide
  split at h <;> split at h
  · have := congrArg value (List.cons.inj h).2
    rw [value_decimal, value_decimal] at this
    omega
  · exact absurd h.symm (hmin _ _)
  · exact absurd h (hmin _ _)
  · have := congrArg value h
    rw [value_decimal, value_decimal] at this
    omega

private def intChar (c : Char) : Bool := c.isDigit || c == '-'

private theorem decimalInt_chars (n : Int) : ∀ c ∈ decimalInt n, intChar c = true := by
  intro c hc
  unfold decimalInt at hc
  split at hc
  · rcases List.mem_cons.1 hc with rfl | hc
    · rfl
    · simp [intChar, decimal_digits _ c hc]
  · simp [intChar, decimal_digits _ c hc]

private theorem Ender.not {p : Char → Bool} (h1 : p ',' = false) (h2 : p ')' = false) {t : Text} (h : Ender t) : ∃ c t', t = c :: t' ∧ p c = false := by
  obtain ⟨c, t', rfl, rfl | rfl⟩ := h
  · exact ⟨_, _, rfl, h1⟩
  · exact ⟨_, _, rfl, h2⟩

private theorem one_text {mem : Nat → Option Text} {v w : TextVal} {a b x y : Text} (ht : v.type = w.type) (hv : Legible mem v) (hw : Legible mem w)
    (ha : v.format mem = .done a) (hb : w.format mem = .done b) (hx : Ender x) (hy : Ender y) (h : a ++ x = b ++ y) : Alike mem v w ∧ x = y := by
  cases v <;> cases w <;> first | (cases ht; done) | skip
  case bool.bool p q =>
    simp only [TextVal.format, R.done.injEq] at ha hb
    subst ha hb
    cases p <;> cases q <;> simp [str] at h ⊢ <;> simp_all [Alike]
  case char.char p q =>
    simp only [TextVal.format, R.done.injEq] at ha hb
    subst ha hb
    simp at h
    exact ⟨by simp [Alike, h.1], h.2⟩
  case byte.byte p q =>
    simp only [TextVal.format, R.done.injEq] at ha hb
    subst ha hb
    simp at h
    exact ⟨by simp [Alike, h.1], h.2⟩
  case opaque.opaque p q => exact absurd hv id
  case int.int p q =>
    simp only [TextVal.format, R.done.injEq] at ha hb
    subst ha hb
    obtain ⟨h1, h2⟩ := span_unique (decimalInt_chars p) (decimalInt_chars q) (hx.not rfl rfl) (hy.not rfl rfl) h
    exact ⟨by simp [Alike, decimalInt_inj h1], h2⟩
  case string.string s t =>
    simp only [TextVal.format, R.done.injEq] at ha hb
    subst ha hb
    have key : ∀ s : Text, ',' ∉ s ∧ ')' ∉ s → ∀ c ∈ s, (c != ',' && c != ')') = true := by
      intro s hs c hc
      simp only [bne_iff_ne, ne_eq, Bool.and_eq_true]
      exact ⟨fun h => hs.1 (h ▸ hc), fun h => hs.2 (h ▸ hc)⟩
    obtain ⟨h1, h2⟩ := span_unique (p := fun c => c != ',' && c != ')') (key s hv) (key t hw) (hx.not rfl rfl) (hy.not rfl rfl) h
    exact ⟨by simp [Alike, h1], h2⟩
  case cstring.cstring p q =>
    have key : ∀ s : Text, '"' ∉ s → ∀ c ∈ s, (c != '"') = true := by
      intro s hs c hc
      simp only [bne_iff_ne, ne_eq]
      exact fun h => hs (h ▸ hc)
    by_cases hp : p = 0 <;> by_cases hq : q = 0
    · subst hp hq
      simp [TextVal.format] at ha hb
      subst ha hb
      exact ⟨by simp [Alike], by simpa using h⟩
    · subst hp
      rcases hw with hw | ⟨t, hw, -⟩
      · exact absurd hw hq
      simp [TextVal.format, hq, hw, str] at ha hb
      subst ha hb
      simp at h
    · subst hq
      rcases hv with hv | ⟨t, hv, -⟩
      · exact absurd hv hp
      simp [TextVal.format, hp, hv, str] at ha hb
      subst ha hb
      simp at h
    · rcases hv with hv | ⟨s, hv, hs⟩
      · exact absurd hv hp
      rcases hw with hw | ⟨t, hw, ht⟩
      · exact absurd hw hq
      simp [TextVal.format, hp, hq, hv, hw] at ha hb
      subst ha hb
      simp only [List.cons_append, List.append_assoc, List.cons.injEq, true_and, List.nil_append] at h
      obtain ⟨h1, h2⟩ := span_unique (p := fun c => c != '"') (key s hs) (key t ht) ⟨'"', x, rfl, rfl⟩ ⟨'"', y, rfl, rfl⟩ h
      exact ⟨⟨by simp [hp, hq], fun _ => by rw [hv, hw, h1]⟩, by simpa using h2⟩

private theorem all_text {mem : Nat → Option Text} : ∀ {vs ws : List TextVal} {as bs : List Text} , vs.map TextVal.type = ws.map TextVal.type →
    (∀ v ∈ vs, Legible mem v) → (∀ w ∈ ws, Legible mem w) → formatAll mem vs = .done as → formatAll mem ws = .done bs →
    commaSeparated as ++ [')'] = commaSeparated bs ++ [')'] → AllAlike mem vs ws
  | [], [], _, _, _, _, _, _, _, _ => .nil
  | [], _ :: _, _, _, ht, _, _, _, _, _ => by cases ht
  | _ :: _, [], _, _, ht, _, _, _, _, _ => by cases ht
  | v :: vs, w :: ws, as, bs, ht, hv, hw, ha, hb, h => by
    simp only [List.map_cons, List.cons.injEq] at ht
    simp only [formatAll, R.bind_eq_done] at ha hb
    obtain ⟨a, ha1, as', ha2, ha3⟩ := ha
    obtain ⟨b, hb1, bs', hb2, hb3⟩ := hb
    cases ha3; cases hb3
    have len : ∀ {vs : List TextVal} {as : List Text}, formatAll mem vs = .done as → as.length = vs.length := by
      intro vs
      induction vs with
      | nil => intro as h; cases h; rfl
      | cons v vs ih =>
        intro as h
        simp only [formatAll, R.bind_eq_done] at h
        obtain ⟨_, _, _, h2, h3⟩ := h
        cases h3
        simp [ih h2]
    have hl : as'.length = bs'.length := by
      rw [len ha2, len hb2, ← List.length_map (f := TextVal.type), ht.2, List.length_map]
    have split : ∀ (t : Text) (ts : List Text), ∃ x, commaSeparated (t :: ts) ++ [')'] = t ++ x ∧ Ender x ∧
        x = if ts = [] then [')'] else [',', ' '] ++ (commaSeparated ts ++ [')']) := by
      intro t ts
      cases ts with
      | nil => exact ⟨_, rfl, ⟨_, _, rfl, .inr rfl⟩, rfl⟩
      | cons u us => exact ⟨[',', ' '] ++ (commaSeparated (u :: us) ++ [')']), by simp [commaSeparated], ⟨_, _, rfl, .inl rfl⟩, rfl⟩
    obtain ⟨x, hx1, hx2, hx3⟩ := split a as'
    obtain ⟨y, hy1, hy2, hy3⟩ := split b bs'
    rw [hx1, hy1] at h
    obtain ⟨h1, h2⟩ := one_text ht.1 (hv v (by simp)) (hw w (by simp)) ha1 hb1 hx2 hy2 h
    refine .cons h1 (all_text ht.2 (fun u hu => hv u (by simp [hu])) (fun u hu => hw u (by simp [hu])) ha2 hb2 ?_)
    rw [hx3, hy3] at h2
    cases as' with
    | nil =>
      cases bs' with
      | nil => rfl
      | cons _ _ => cases hl
    | cons _ _ =>
      cases bs' with
      | nil => cases hl
      | cons _ _ => simpa using h2

/-- **C59** (calls, as far as it holds). If two calls of one method print the same and their arguments are legible then the arguments are alike. What is
missing: `std::string`s with commas or parentheses, C strings with quotes, types that cannot be printed (`C59_calls_that_print_the_same`), and that C strings
are read when the message is made (`C59_strings_are_read_late`). -/
theorem C59_printed_call_identifies_the_arguments_partial {mem : Nat → Option Text} {name t : Text} {vs ws : List TextVal}
    (hty : vs.map TextVal.type = ws.map TextVal.type) (hv : ∀ v ∈ vs, Legible mem v) (hw : ∀ w ∈ ws, Legible mem w)
    (h1 : callText mem name vs = .done t) (h2 : callText mem name ws = .done t) : AllAlike mem vs ws := by
  simp only [callText, R.bind_eq_done] at h1 h2
  obtain ⟨as, ha, h1⟩ := h1
  obtain ⟨bs, hb, h2⟩ := h2
  rw [← h2] at h1
  simp only [R.done.injEq, invocationText, List.append_assoc, List.append_cancel_left_eq] at h1
  exact all_text hty hv hw ha hb h1

private theorem format_total {mem : Nat → Option Text} {v : TextVal} (h : Legible mem v) : ∃ t, v.format mem = .done t := by
  cases v with
  | cstring p =>
    rcases h with h | ⟨s, h, -⟩
    · exact ⟨str "[nullptr]", by simp [TextVal.format, h]⟩
    · by_cases hp : p = 0
      · exact ⟨str "[nullptr]", by simp [TextVal.format, hp]⟩
      · exact ⟨['"'] ++ s ++ ['"'], by simp [TextVal.format, hp, h]⟩
  | _ => exact ⟨_, rfl⟩

/-- **C59**: printing a call with legible arguments has no undefined behaviour. -/
theorem C59_legible_calls_print {mem : Nat → Option Text} (name : Text) {vs : List TextVal} (h : ∀ v ∈ vs, Legible mem v) :
    ∃ t, callText mem name vs = .done t := by
  suffices hs : ∃ ts, formatAll mem vs = .done ts by
    obtain ⟨ts, hs⟩ := hs
    exact ⟨invocationText name ts, by rw [callText, hs, R.bind_done]⟩
  induction vs with
  | nil => exact ⟨[], rfl⟩
  | cons v vs ih =>
    obtain ⟨t, ht⟩ := format_total (h v (by simp))
    obtain ⟨ts, hts⟩ := ih fun w hw => h w (by simp [hw])
    exact ⟨t :: ts, by rw [formatAll, ht, R.bind_done, hts, R.bind_done]⟩

/-- **C59** (what is printed): the words `true` and `false`, characters in single quotes, C strings in double quotes, `[nullptr]`, `?` for what cannot be printed, numbers in decimal, strings and
bytes as they are; a call is the name of the method and the texts of its arguments in order, in parentheses and with commas in between. -/
theorem C59_texts_of_values (mem : Nat → Option Text) (name : Text) :
    (TextVal.bool true).format mem = .done ['t', 'r', 'u', 'e'] ∧ (TextVal.bool false).format mem = .done ['f', 'a', 'l', 's', 'e'] ∧
    (∀ c, (TextVal.char c).format mem = .done ['\'', c, '\'']) ∧
    (TextVal.cstring 0).format mem = .done ['[', 'n', 'u', 'l', 'l', 'p', 't', 'r', ']'] ∧
    (∀ p s, p ≠ 0 → mem p = some s → (TextVal.cstring p).format mem = .done ('"' :: s ++ ['"'])) ∧
    (∀ x, (TextVal.opaque x).format mem = .done ['?']) ∧ (∀ n, (TextVal.int n).format mem = .done (Spec.integer n)) ∧
    (∀ c, (TextVal.byte c).format mem = .done [c]) ∧ (∀ s, (TextVal.string s).format mem = .done s) ∧
    callText mem name [] = .done (name ++ ['(', ')']) ∧
    (∀ v t, v.format mem = .done t → callText mem name [v] = .done (name ++ ['('] ++ t ++ [')'])) ∧
    (∀ v w t u, v.format mem = .done t → w.format mem = .done u → callText mem name [v, w] = .done (name ++ ['('] ++ t ++ [',', ' '] ++ u ++ [')'])) := by
  refine ⟨rfl, rfl, fun _ => rfl, rfl, ?_, fun _ => rfl, fun n => by rw [TextVal.format, decimalInt_eq], fun _ => rfl, fun _ => rfl, ?_, ?_, ?_⟩
  · intro p s hp h; simp [TextVal.format, hp, h, R.ofOption]
  · simp [callText, formatAll, invocationText, commaSeparated]
  · intro v t h; simp [callText, formatAll, h, invocationText, commaSeparated]
  · intro v w t u h h'; simp [callText, formatAll, h, h', invocationText, commaSeparated]

/-- **C59** (matchers on integers): the printed text tells which matcher it is and with which values. -/
theorem C59_printed_matcher_identifies_the_matcher_partial {mem : Nat → Option Text} {m k : ArgMatcher} {t : Text}
    (hm : m = .any ∨ (∃ c n, m = .cmp c (.int n)) ∨ ∃ n d, m = .approx (.int n) (.int d))
    (hk : k = .any ∨ (∃ c n, k = .cmp c (.int n)) ∨ ∃ n d, k = .approx (.int n) (.int d))
    (h1 : m.format mem = .done t) (h2 : k.format mem = .done t) : m = k := by
  have hnot : ∀ (n : Int) (c : Char) (t : Text), intChar c = false → decimalInt n ≠ c :: t := by
    intro n c t hc h
    have := decimalInt_chars n c (by rw [h]; simp)
    rw [hc] at this; cases this
  have hplus : ∀ (n : Int), '+' ∉ decimalInt n := fun n h => by have := decimalInt_chars n _ h; revert this; decide
  have hA : ∀ (n : Int), 'A' ∉ decimalInt n := fun n h => by have := decimalInt_chars n _ h; revert this; decide
  have hgt : ∀ n t, decimalInt n ≠ '>' :: t := fun n t => hnot n _ t rfl
  have hlt : ∀ n t, decimalInt n ≠ '<' :: t := fun n t => hnot n _ t rfl
  have hbang : ∀ n t, decimalInt n ≠ '!' :: t := fun n t => hnot n _ t rfl
  have heq : ∀ n t, decimalInt n ≠ '=' :: t := fun n t => hnot n _ t rfl
  have anyIn : 'A' ∈ str "Any" := by decide
  have cmpText : ∀ c n, (ArgMatcher.cmp c (.int n)).format mem = .done t → 'A' ∉ t ∧ '+' ∉ t := by
    intro c n h
    simp only [ArgMatcher.format, TextVal.format, R.bind_done, R.done.injEq] at h
    subst h
    cases c <;> simp [hA, hplus] <;> decide
  have approxText : ∀ n d, (ArgMatcher.approx (.int n) (.int d)).format mem = .done t → 'A' ∉ t ∧ '+' ∈ t := by
    intro n d h
    simp only [ArgMatcher.format, TextVal.format, R.bind_done, R.done.injEq] at h
    subst h
    simp [hA]
  have anyText : ArgMatcher.any.format mem = .done t → 'A' ∈ t := by
    intro h
    simp only [ArgMatcher.format, R.done.injEq] at h
    subst h
    exact anyIn
  rcases hm with rfl | ⟨c, n, rfl⟩ | ⟨n, d, rfl⟩ <;> rcases hk with rfl | ⟨c', n', rfl⟩ | ⟨n', d', rfl⟩
  · rfl
  · exact absurd (anyText h1) (cmpText _ _ h2).1
  · exact absurd (anyText h1) (approxText _ _ h2).1
  · exact absurd (anyText h2) (cmpText _ _ h1).1
  · rw [← h2] at h1
    simp only [ArgMatcher.format, TextVal.format, R.bind_done, R.done.injEq] at h1
    cases c <;> cases c' <;>
      simp only [List.nil_append, List.cons_append, List.cons.injEq, true_and, false_and, (by decide : ('>' = '<') = False),
        (by decide : ('<' = '>') = False), (by decide : ('>' = '!') = False), (by decide : ('!' = '>') = False), (by decide : ('<' = '!') = False),
        (by decide : ('!' = '<') = False)] at h1 <;>
      first
      | rw [decimalInt_inj h1]
      | exact absurd h1 (hgt _ _)
      | exact absurd h1.symm (hgt _ _)
      | exact absurd h1 (hlt _ _)
      | exact absurd h1.symm (hlt _ _)
      | exact absurd h1 (hbang _ _)
      | exact absurd h1.symm (hbang _ _)
      | exact absurd h1 (heq _ _)
      | exact absurd h1.symm (heq _ _)
  · exact absurd (approxText _ _ h2).2 (cmpText _ _ h1).2
  · exact absurd (anyText h2) (approxText _ _ h1).1
  · exact absurd (approxText _ _ h1).2 (cmpText _ _ h2).2
  · rw [← h2] at h1
    simp only [ArgMatcher.format, TextVal.format, R.bind_done, R.done.injEq, List.append_assoc] at h1
    obtain ⟨g1, g2⟩ := span_unique (decimalInt_chars n) (decimalInt_chars n') ⟨'+', _, rfl, rfl⟩ ⟨'+', _, rfl, rfl⟩ h1
    have g2 : decimalInt d = decimalInt d' := by
      have : '+' :: '/' :: '-' :: decimalInt d = '+' :: '/' :: '-' :: decimalInt d' := g2
      simpa using this
    rw [decimalInt_inj g1, decimalInt_inj g2]

/-- **C59** is false for arguments that cannot be printed and for strings: different calls print the same. -/
theorem C59_calls_that_print_the_same (mem : Nat → Option Text) (name : Text) :
    (∀ a b, callText mem name [.opaque a] = callText mem name [.opaque b]) ∧
    callText mem name [.string (str "a, b"), .string (str "c")] = callText mem name [.string (str "a"), .string (str "b, c")] ∧
    (∀ p q r s, p ≠ 0 → q ≠ 0 → r ≠ 0 → s ≠ 0 → mem p = some (str "a") → mem q = some (str "b\", \"c") → mem r = some (str "a\", \"b") → mem s = some (str "c") →
      callText mem name [.cstring p, .cstring q] = callText mem name [.cstring r, .cstring s]) := by
  refine ⟨fun a b => rfl, rfl, ?_⟩
  intro p q r s hp hq hr hs h1 h2 h3 h4
  simp [callText, formatAll, TextVal.format, hp, hq, hr, hs, h1, h2, h3, h4, invocationText, commaSeparated, str]

/-- **C59** is false for C strings: what is printed is what is at the address when the message is made; if it has been freed, printing is undefined. -/
theorem C59_strings_are_read_late (name : Text) (p : Nat) (hp : p ≠ 0) (s : Text) (mem : Nat → Option Text) :
    (mem p = some s → callText mem name [.cstring p] = .done (name ++ str "(\"" ++ s ++ str "\")")) ∧
    (mem p = none → callText mem name [.cstring p] = .ub) := by
  constructor <;> intro h <;> simp [callText, formatAll, TextVal.format, hp, h, invocationText, commaSeparated, str]

/-- **C59** is false for matchers on strings: `Eq(">a")` and `Gt("a")` print the same, and so do `Eq("Any")` and `Any()`. -/
theorem C59_matchers_that_print_the_same (mem : Nat → Option Text) (s : Text) :
    (ArgMatcher.cmp .eq (.string ('>' :: s))).format mem = (ArgMatcher.cmp .gt (.string s)).format mem ∧
    (ArgMatcher.cmp .eq (.string (str "Any"))).format mem = ArgMatcher.any.format mem := ⟨rfl, rfl⟩

namespace Demo

/-- A call with an integer, a character and two C strings, one of them null. -/
example : callText (fun p => if p = 7 then some (str "x, y") else none) (str "m.f") [.int (-3), .char ',', .cstring 7, .cstring 0, .bool true] =
    .done (str "m.f(-3, ',', \"x, y\", [nullptr], true)") := by decide +kernel
example : ∀ v ∈ [TextVal.int (-3), .char ',', .cstring 7, .cstring 0, .bool true], Legible (fun p => if p = 7 then some (str "x, y") else none) v := by
  intro v hv
  simp only [List.mem_cons, List.not_mem_nil, or_false] at hv
  rcases hv with rfl | rfl | rfl | rfl | rfl
  · trivial
  · trivial
  · exact .inr ⟨str "x, y", rfl, by decide⟩
  · exact .inl rfl
  · trivial
example : (ArgMatcher.cmp .ge (.int 5)).format (fun _ => none) = .done (str ">=5") ∧
    (ArgMatcher.approx (.int 5) (.int 1)).format (fun _ => none) = .done (str "5+/-1") := by decide +kernel

end Demo
end FakeIt
