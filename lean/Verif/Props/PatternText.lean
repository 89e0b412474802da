import Verif.Props.Format
import Verif.Spec.Writable
/-!
# C45: does the printed pattern identify the verified pattern?
-/
namespace FakeIt
variable {L : Type}

/-! ## Specification -/

/-- How deep the parentheses are before position `i`. -/
def Spec.depthAt (t : Text) (i : Nat) : Int := ((t.take i).count '(' : Int) - ((t.take i).count ')' : Int)

/-- What a method expression must print for patterns to be readable: it does not begin with a parenthesis, its parentheses are balanced, and outside
parentheses no blank is followed by `+`, `*` or `.`. A method name without blanks followed by parenthesised arguments is like that as soon as the
parentheses inside the arguments are balanced. -/
structure Spec.Readable (t : Text) : Prop where
  start : ∃ c cs, t = c :: cs ∧ c ≠ '('
  nonneg : ∀ i, 0 ≤ depthAt t i
  balanced : depthAt t t.length = 0
  plain : ∀ i, t[i]? = some ' ' → depthAt t i = 0 → t[i + 1]? ≠ some '+' ∧ t[i + 1]? ≠ some '*' ∧ t[i + 1]? ≠ some '.'

open Spec

/-! ## A reader for printed patterns (used only in the proof) -/

/-- The longest prefix that can be the text of a method expression. -/
private def spanText : Nat → Text → Text × Text
  | _, [] => ([], [])
  | d, c :: cs =>
    if c = '(' then ((c :: (spanText (d + 1) cs).1), (spanText (d + 1) cs).2)
    else if c = ')' then
      match d with
      | 0 => ([], c :: cs)
      | d + 1 => ((c :: (spanText d cs).1), (spanText d cs).2)
    else if c = ' ' ∧ d = 0 ∧ (cs.head? = some '+' ∨ cs.head? = some '*' ∨ cs.head? = some '.') then ([], c :: cs)
    else ((c :: (spanText d cs).1), (spanText d cs).2)

/-- Ends the text of a method expression. -/
private def Stops (rest : Text) : Prop :=
  rest = [] ∨ (∃ r, rest = ')' :: r) ∨ ∃ c r, rest = ' ' :: c :: r ∧ (c = '+' ∨ c = '*' ∨ c = '.')

private theorem span_stops {rest : Text} (h : Stops rest) : spanText 0 rest = ([], rest) := by
  rcases h with rfl | ⟨r, rfl⟩ | ⟨c, r, rfl, hc⟩
  · rfl
  · simp [spanText]
  · rw [spanText, if_neg (by decide), if_neg (by decide), if_pos ⟨rfl, rfl, by rcases hc with rfl | rfl | rfl <;> simp⟩]

/-- Reading the text of a method expression stops at its end. `d` is the depth reached so far. -/
private theorem span_text (t : Text) (d : Nat) (rest : Text) (hr : Stops rest)
    (hn : ∀ i, 0 ≤ (d : Int) + depthAt t i) (hb : (d : Int) + depthAt t t.length = 0)
    (hp : ∀ i, t[i]? = some ' ' → (d : Int) + depthAt t i = 0 → t[i + 1]? ≠ some '+' ∧ t[i + 1]? ≠ some '*' ∧ t[i + 1]? ≠ some '.') :
    spanText d (t ++ rest) = (t, rest) := by
  induction t generalizing d with
  | nil =>
    have : d = 0 := by simp [depthAt] at hb; omega
    subst this; exact span_stops hr
  | cons c cs ih =>
    have key : ∀ i, depthAt (c :: cs) (i + 1) = depthAt cs i + (if c = '(' then 1 else 0) - (if c = ')' then 1 else 0) := by
      intro i
      unfold depthAt
      rw [List.take_succ_cons, List.count_cons, List.count_cons]
      by_cases h1 : c = '('
      · subst h1; simp; omega
      · by_cases h2 : c = ')'
        · subst h2; simp; omega
        · simp [h1, h2]
    rw [List.cons_append, spanText.eq_def]
    dsimp only
    by_cases h1 : c = '('
    · have := ih (d + 1) (fun i => by have := hn (i + 1); rw [key] at this; simp [h1] at this; omega)
        (by have := hb; rw [List.length_cons, key] at this; simp [h1] at this; omega)
        (fun i hi h0 => by
          have := hp (i + 1) (by simpa using hi) (by rw [key]; simp [h1]; omega)
          simpa using this)
      rw [if_pos h1, this]
    · rw [if_neg h1]
      by_cases h2 : c = ')'
      · rw [if_pos h2]
        cases d with
        | zero => have := hn 1; rw [key 0] at this; simp [h2, depthAt] at this
        | succ d =>
          have := ih d (fun i => by have := hn (i + 1); rw [key] at this; simp [h2] at this; omega)
            (by have := hb; rw [List.length_cons, key] at this; simp [h2] at this; omega)
            (fun i hi h0 => by
              have := hp (i + 1) (by simpa using hi) (by rw [key]; simp [h2]; omega)
              simpa using this)
          simp only [this]
      · have hrec := ih d (fun i => by have := hn (i + 1); rw [key] at this; simpa [h1, h2] using this)
          (by have := hb; rw [List.length_cons, key] at this; simpa [h1, h2] using this)
          (fun i hi h0 => by
            have := hp (i + 1) (by simpa using hi) (by rw [key]; simpa [h1, h2] using h0)
            simpa using this)
        rw [if_neg h2, if_neg, hrec]
        rintro ⟨hc, hd, hh⟩
        have h0 := hp 0 (by simp [hc]) (by simp [depthAt, hd])
        cases cs with
        | nil =>
          simp only [List.nil_append] at hh
          rcases hr with rfl | ⟨r, rfl⟩ | ⟨x, r, rfl, -⟩ <;> simp at hh
        | cons y ys =>
          simp only [List.cons_append, List.head?_cons, Option.some.injEq] at hh
          simp only [List.getElem?_cons_succ, List.getElem?_cons_zero, ne_eq, Option.some.injEq] at h0
          rcases hh with rfl | rfl | rfl <;> simp at h0

/-! Decimal numbers -/

private def isDig (c : Char) : Bool := 48 ≤ c.toNat && c.toNat ≤ 57

private def spanDigits : Nat → Text → Nat × Text
  | acc, [] => (acc, [])
  | acc, c :: cs => if isDig c then spanDigits (acc * 10 + (c.toNat - 48)) cs else (acc, c :: cs)

private theorem dig_facts : ∀ d, d < 10 → isDig (digitChar d) = true ∧ (digitChar d).toNat - 48 = d := by decide

private theorem span_decimal (n : Nat) (rest : Text) : spanDigits 0 (decimal n ++ rest) = spanDigits n rest := by
  have key : ∀ n, ∀ rest, spanDigits 0 (decimal n ++ rest) = spanDigits n rest := by
    intro n
    induction n using Nat.strongRecOn with
    | _ n ih =>
      intro rest
      unfold decimal
      split
      · rename_i h
        simp [spanDigits, dig_facts n h]
      · rw [List.append_assoc, ih (n / 10) (by omega), List.singleton_append, spanDigits]
        have := dig_facts (n % 10) (by omega)
        rw [if_pos this.1, this.2, show n / 10 * 10 + n % 10 = n by omega]
  exact key n rest

private theorem span_digits_stop {rest : Text} (h : Stops rest) (n : Nat) : spanDigits n rest = (n, rest) := by
  rcases h with rfl | ⟨r, rfl⟩ | ⟨c, r, rfl, -⟩
  · rfl
  · rw [spanDigits, if_neg (by decide)]
  · rw [spanDigits, if_neg (by decide)]

/-- State of the reader: finished sequences, items already read in each open group, items read in the current group, the last item. -/
private structure RState where
  out : List (List Text)
  stack : List (List Text)
  cur : List Text
  last : List Text
  /-- an item comes next -/
  item : Bool

/-- One step of the reader: the result, or the new state and the remaining text. -/
private def rstep (st : RState) (t : Text) : Option (List (List Text)) ⊕ (RState × Text) :=
  if st.item then
    match t with
    | '(' :: cs => .inr ({ st with stack := st.cur :: st.stack, cur := [] }, cs)
    | t => .inr ({ st with last := [(spanText 0 t).1], item := false }, (spanText 0 t).2)
  else
    match t with
    | [] => .inl (some (st.out ++ [st.cur ++ st.last]))
    | ')' :: cs =>
      match st.stack with
      | [] => .inl none
      | c :: stack => .inr ({ st with stack := stack, cur := c, last := st.cur ++ st.last }, cs)
    | ' ' :: '+' :: ' ' :: cs => .inr ({ st with cur := st.cur ++ st.last, last := [], item := true }, cs)
    | ' ' :: '*' :: ' ' :: cs =>
      .inr ({ st with last := (List.replicate (spanDigits 0 cs).1 st.last).flatten }, (spanDigits 0 cs).2)
    | ' ' :: '.' :: '.' :: '.' :: ' ' :: cs => .inr ({ st with out := st.out ++ [st.cur ++ st.last], cur := [], last := [], item := true }, cs)
    | _ => .inl none

/-- The reader. -/
private def read : Nat → RState → Text → Option (List (List Text))
  | 0, _, _ => none
  | fuel + 1, st, t =>
    match rstep st t with
    | .inl r => r
    | .inr (st', t') => read fuel st' t'

private theorem read_step {f : Nat} {st st' : RState} {t t' : Text} (h : rstep st t = .inr (st', t')) : read (f + 1) st t = read f st' t' := by
  rw [read, h]

private def cost : Seq L → Nat
  | .leaf _ => 1
  | .cat a b => cost a + 1 + cost b
  | .rep s _ => cost s + 3

/-- Expansions in terms of texts. -/
private def texts (text : L → Text) (s : Seq L) : List Text := s.expected.map text

private theorem read_leaf {text : L → Text} {l : L} (hl : Readable (text l)) {rest : Text} (hr : Stops rest) (f : Nat) (st : RState) (hi : st.item = true) :
    read (f + 1) st (text l ++ rest) = read f { st with last := [text l], item := false } rest := by
  obtain ⟨c, cs, ht, hc⟩ := hl.start
  have hs := span_text (text l) 0 rest hr (by simpa using hl.nonneg) (by simpa using hl.balanced) (by simpa using hl.plain)
  apply read_step
  unfold rstep
  rw [if_pos hi]
  split
  · rename_i cs' heq
    rw [ht, List.cons_append, List.cons.injEq] at heq
    exact absurd heq.1 hc
  · rw [hs]

private theorem read_seq {text : L → Text} {s : Seq L} (hw : Writable s) (hl : ∀ l ∈ s.expected, Readable (text l)) :
    ∀ (f : Nat) (st : RState) (rest : Text), st.item = true → Stops rest → ∃ cur last n, n ≤ cost s ∧ cur ++ last = st.cur ++ texts text s ∧
      read (f + n) st (formatSequence text s ++ rest) = read f { st with cur := cur, last := last, item := false } rest := by
  induction hw with
  | method l =>
    intro f st rest hi hr
    exact ⟨st.cur, [text l], 1, Nat.le_refl _, by simp [texts, Seq.expected], read_leaf (hl l (by simp [Seq.expected])) hr f st hi⟩
  | @plus a b ha hb iha ihb =>
    intro f st rest hi hr
    have hla : ∀ l ∈ a.expected, Readable (text l) := fun l h => hl l (by simp [Seq.opPlus, Seq.expected, h])
    have hlb : ∀ l ∈ b.expected, Readable (text l) := fun l h => hl l (by simp [Seq.opPlus, Seq.expected, h])
    obtain ⟨cur2, last2, n2, hn2, he2, hr2⟩ := ihb hlb f { st with cur := st.cur ++ texts text a, last := [], item := true } rest rfl hr
    obtain ⟨cur1, last1, n1, hn1, he1, hr1⟩ := iha hla (f + n2 + 1) st ([' ', '+', ' '] ++ (formatSequence text b ++ rest)) hi
      (.inr (.inr ⟨'+', _, rfl, .inl rfl⟩))
    refine ⟨cur2, last2, n2 + 1 + n1, by simp only [Seq.opPlus, cost]; omega, ?_, ?_⟩
    · rw [he2]; simp [texts, Seq.opPlus, Seq.expected]
    · have e1 : formatSequence text (a.opPlus b) ++ rest = formatSequence text a ++ ([' ', '+', ' '] ++ (formatSequence text b ++ rest)) := by
        simp [Seq.opPlus, formatSequence]
      rw [e1, show f + (n2 + 1 + n1) = f + n2 + 1 + n1 by omega, hr1]
      have e2 : read (f + n2 + 1) { st with cur := cur1, last := last1, item := false } ([' ', '+', ' '] ++ (formatSequence text b ++ rest)) =
          read (f + n2) { st with cur := cur1 ++ last1, last := [], item := true } (formatSequence text b ++ rest) := by
        exact read_step rfl
      rw [e2, he1, hr2]
  | @star s r n hs hstar ih =>
    intro f st rest hi hr
    simp only [Seq.opStar] at hstar
    split at hstar
    · cases hstar
    · rename_i hn
      cases hstar
      have hpos : 0 < n := by omega
      have hls : ∀ l ∈ s.expected, Readable (text l) := by
        intro l h
        apply hl
        simp only [Seq.expected, List.mem_flatten, List.mem_replicate]
        exact ⟨s.expected, ⟨by omega, rfl⟩, h⟩
      have hdec : decimalInt n = decimal n.toNat := by simp [decimalInt, show ¬ n < 0 by omega]
      have hexp : texts text (s.rep n) = (List.replicate n.toNat (texts text s)).flatten := by
        simp only [texts, Seq.expected, List.map_flatten, List.map_replicate]
      have hstop : Stops ([' ', '*', ' '] ++ (decimal n.toNat ++ rest)) := .inr (.inr ⟨'*', _, rfl, .inr (.inl rfl)⟩)
      have hmul : ∀ (f : Nat) (st : RState), st.item = false → read (f + 1) st ([' ', '*', ' '] ++ (decimal n.toNat ++ rest)) =
          read f { st with last := (List.replicate n.toNat st.last).flatten } rest := by
        intro f st hi
        apply read_step
        have : rstep st ([' ', '*', ' '] ++ (decimal n.toNat ++ rest)) =
            .inr ({ st with last := (List.replicate (spanDigits 0 (decimal n.toNat ++ rest)).1 st.last).flatten },
              (spanDigits 0 (decimal n.toNat ++ rest)).2) := by
          unfold rstep; rw [if_neg (by simp [hi])]; rfl
        rw [this, span_decimal, span_digits_stop hr]
      by_cases hc : s.isCompound = true
      · have e1 : formatSequence text (s.rep n) ++ rest =
            '(' :: (formatSequence text s ++ (')' :: ([' ', '*', ' '] ++ (decimal n.toNat ++ rest)))) := by
          simp [formatSequence, hc, hdec]
        obtain ⟨cur1, last1, n1, hn1, he1, hr1⟩ := ih hls (f + 2) { st with stack := st.cur :: st.stack, cur := [] }
          (')' :: ([' ', '*', ' '] ++ (decimal n.toNat ++ rest))) hi (.inr (.inl ⟨_, rfl⟩))
        refine ⟨st.cur, texts text (s.rep n), n1 + 3, by simp only [cost]; omega, rfl, ?_⟩
        rw [e1, show f + (n1 + 3) = (f + 2 + n1) + 1 by omega]
        have e2 : read (f + 2 + n1 + 1) st ('(' :: (formatSequence text s ++ (')' :: ([' ', '*', ' '] ++ (decimal n.toNat ++ rest))))) =
            read (f + 2 + n1) { st with stack := st.cur :: st.stack, cur := [] }
              (formatSequence text s ++ (')' :: ([' ', '*', ' '] ++ (decimal n.toNat ++ rest)))) := by
          apply read_step
          unfold rstep; rw [if_pos hi]; rfl
        rw [e2, hr1]
        have e3 : read (f + 2) { st with stack := st.cur :: st.stack, cur := cur1, last := last1, item := false }
            (')' :: ([' ', '*', ' '] ++ (decimal n.toNat ++ rest))) =
            read (f + 1) { st with cur := st.cur, last := cur1 ++ last1, item := false } ([' ', '*', ' '] ++ (decimal n.toNat ++ rest)) := by
          exact read_step rfl
        rw [e3, hmul f _ rfl]
        simp only [he1, List.nil_append, hexp]
      · cases s with
        | cat a b => simp [Seq.isCompound] at hc
        | rep a b => simp [Seq.isCompound] at hc
        | leaf l =>
          have e1 : formatSequence text ((Seq.leaf l).rep n) ++ rest = text l ++ ([' ', '*', ' '] ++ (decimal n.toNat ++ rest)) := by
            simp [formatSequence, hdec, Seq.isCompound]
          refine ⟨st.cur, texts text ((Seq.leaf l).rep n), 2, by simp only [cost]; omega, rfl, ?_⟩
          rw [e1, read_leaf (hls l (by simp [Seq.expected])) hstop (f + 1) st hi, hmul f _ rfl]
          rw [hexp]; rfl

private theorem read_mono {f : Nat} {st : RState} {t : Text} {x : List (List Text)} (h : read f st t = some x) (g : Nat) : read (f + g) st t = some x := by
  induction f generalizing st t with
  | zero => simp [read] at h
  | succ f ih =>
    rw [show f + 1 + g = (f + g) + 1 by omega]
    rw [read] at h ⊢
    split at h
    · exact h
    · exact ih h

private theorem read_pattern {text : L → Text} (pat : List (Seq L)) (hw : WritablePattern pat)
    (hl : ∀ s ∈ pat, ∀ l ∈ s.expected, Readable (text l)) (out : List (List Text)) :
    ∃ f, read f { out := out, stack := [], cur := [], last := [], item := true } (formatPattern text pat) = some (out ++ pat.map (texts text)) := by
  obtain ⟨hne, hw⟩ := hw
  induction pat generalizing out with
  | nil => exact absurd rfl hne
  | cons s ss ih =>
    cases ss with
    | nil =>
      obtain ⟨cur, last, n, -, he, hr⟩ := read_seq (hw s (by simp)) (hl s (by simp)) 1
        { out := out, stack := [], cur := [], last := [], item := true } [] rfl (.inl rfl)
      refine ⟨1 + n, ?_⟩
      rw [List.append_nil] at hr
      rw [formatPattern, hr]
      rw [read]
      simp only [rstep, Bool.false_eq_true, if_false, he, List.nil_append, List.map_cons, List.map_nil]
    | cons s' ss' =>
      obtain ⟨f, hf⟩ := ih (fun x hx => hl x (by simp at hx ⊢; exact .inr hx)) (out ++ [texts text s]) (by simp)
        (fun x hx => hw x (by simp at hx ⊢; exact .inr hx))
      obtain ⟨cur, last, n, -, he, hr⟩ := read_seq (hw s (by simp)) (hl s (by simp)) (f + 1)
        { out := out, stack := [], cur := [], last := [], item := true } ([' ', '.', '.', '.', ' '] ++ formatPattern text (s' :: ss')) rfl
        (.inr (.inr ⟨'.', _, rfl, .inr (.inr rfl)⟩))
      refine ⟨f + 1 + n, ?_⟩
      have e : formatPattern text (s :: s' :: ss') = formatSequence text s ++ ([' ', '.', '.', '.', ' '] ++ formatPattern text (s' :: ss')) := by
        simp [formatPattern]
      rw [e, hr]
      have e2 : read (f + 1) { out := out, stack := [], cur := cur, last := last, item := false }
          ([' ', '.', '.', '.', ' '] ++ formatPattern text (s' :: ss')) =
          read f { out := out ++ [cur ++ last], stack := [], cur := [], last := [], item := true } (formatPattern text (s' :: ss')) := by
        exact read_step rfl
      rw [e2, he, List.nil_append, hf]
      simp

/-- **C45** (partial: method expressions must print readably and differently). If every method expression prints a readable text and different expressions
print differently, two patterns that print identically consist of the same number of sequences with the same expansions. -/
theorem C45_printed_pattern_identifies_expansion_partial {text : L → Text} {pat pat' : List (Seq L)} (hw : WritablePattern pat)
    (hw' : WritablePattern pat') (hl : ∀ s ∈ pat, ∀ l ∈ s.expected, Readable (text l)) (hl' : ∀ s ∈ pat', ∀ l ∈ s.expected, Readable (text l))
    (hinj : ∀ l l', text l = text l' → l = l') (h : formatPattern text pat = formatPattern text pat') :
    pat.map Seq.expected = pat'.map Seq.expected := by
  obtain ⟨f, hf⟩ := read_pattern pat hw hl []
  obtain ⟨f', hf'⟩ := read_pattern pat' hw' hl' []
  have h1 := read_mono hf f'
  have h2 := read_mono hf' f
  rw [h, Nat.add_comm, h2] at h1
  simp only [List.nil_append, Option.some.injEq] at h1
  have hm : ∀ {p p' : List (Seq L)}, p'.map (texts text) = p.map (texts text) → p.map Seq.expected = p'.map Seq.expected := by
    intro p
    induction p with
    | nil => intro p' h; cases p' with
      | nil => rfl
      | cons a as => simp at h
    | cons s ss ih =>
      intro p' h
      cases p' with
      | nil => simp at h
      | cons a as =>
        simp only [List.map_cons, List.cons.injEq] at h ⊢
        refine ⟨?_, ih h.2⟩
        have : ∀ (x y : List L), y.map text = x.map text → x = y := by
          intro x
          induction x with
          | nil => intro y h; simpa using h.symm
          | cons u us ihu =>
            intro y h
            cases y with
            | nil => simp at h
            | cons v vs =>
              simp only [List.map_cons, List.cons.injEq] at h
              rw [ihu vs h.2, hinj u v h.1.symm]
        exact this _ _ h.1
  exact hm h1

/-! ## Real method expressions print readably -/

/-- Balanced parentheses. -/
def Spec.Balanced (t : Text) : Prop := (∀ i, 0 ≤ depthAt t i) ∧ depthAt t t.length = 0

private theorem depth_append (a b : Text) (i : Nat) : depthAt (a ++ b) i = depthAt a i + depthAt b (i - a.length) := by
  simp only [depthAt, List.take_append, List.count_append]; omega

private theorem depth_end {a : Text} {i : Nat} (h : a.length ≤ i) : depthAt a i = depthAt a a.length := by
  simp [depthAt, List.take_of_length_le h]

private theorem depth_none {a : Text} (h1 : '(' ∉ a) (h2 : ')' ∉ a) (i : Nat) : depthAt a i = 0 := by
  have h3 : (a.take i).count '(' = 0 := List.count_eq_zero.2 fun h => h1 (List.mem_of_mem_take h)
  have h4 : (a.take i).count ')' = 0 := List.count_eq_zero.2 fun h => h2 (List.mem_of_mem_take h)
  simp [depthAt, h3, h4]

private theorem balanced_append {a b : Text} (ha : Balanced a) (hb : Balanced b) : Balanced (a ++ b) := by
  refine ⟨fun i => ?_, ?_⟩
  · rw [depth_append]; have := ha.1 i; have := hb.1 (i - a.length); omega
  · rw [depth_append, depth_end (by simp), List.length_append, show a.length + b.length - a.length = b.length by omega]
    have := ha.2; have := hb.2; omega

private theorem balanced_plain {a : Text} (h1 : '(' ∉ a) (h2 : ')' ∉ a) : Balanced a := ⟨fun i => by rw [depth_none h1 h2]; omega, depth_none h1 h2 _⟩

private theorem balanced_comma {ts : List Text} (h : ∀ t ∈ ts, Balanced t) : Balanced (commaSeparated ts) := by
  induction ts with
  | nil => exact balanced_plain (by simp [commaSeparated]) (by simp [commaSeparated])
  | cons t ts ih =>
    cases ts with
    | nil => exact h t (by simp)
    | cons x xs =>
      exact balanced_append (balanced_append (h t (by simp)) (balanced_plain (by decide) (by decide))) (ih fun y hy => h y (by simp at hy ⊢; exact .inr hy))

private theorem readable_method {name body : Text} (hne : name ≠ []) (h1 : '(' ∉ name) (h2 : ')' ∉ name) (h3 : ' ' ∉ name) (hb : Balanced body) :
    Readable (name ++ ('(' :: (body ++ [')']))) := by
  have hd : ∀ i, depthAt (name ++ ('(' :: (body ++ [')']))) i =
      if i ≤ name.length then 0 else if i ≤ name.length + 1 + body.length then 1 + depthAt body (i - name.length - 1) else 0 := by
    intro i
    rw [depth_append, depth_none h1 h2]
    split
    · rename_i h; rw [show i - name.length = 0 by omega]; simp [depthAt]
    · rename_i h
      obtain ⟨j, hj⟩ : ∃ j, i - name.length = j + 1 := ⟨i - name.length - 1, by omega⟩
      have e : depthAt ('(' :: (body ++ [')'])) (j + 1) = 1 + depthAt (body ++ [')']) j := by
        simp [depthAt]; omega
      rw [hj, e, depth_append, show j + 1 - 1 = j by omega]
      split
      · rw [show j - body.length = 0 by omega]; simp [depthAt]
      · have hend := depth_end (a := body) (i := j) (by omega)
        rw [hend, hb.2]
        obtain ⟨x, hx⟩ : ∃ x, j - body.length = x + 1 := ⟨j - body.length - 1, by omega⟩
        rw [hx]; simp [depthAt]
  refine ⟨?_, fun i => ?_, ?_, fun i hi h0 => ?_⟩
  · cases name with
    | nil => exact absurd rfl hne
    | cons c cs => exact ⟨c, _, rfl, fun e => h1 (by simp [e])⟩
  · rw [hd]; split
    · omega
    · split
      · have := hb.1 (i - name.length - 1); omega
      · omega
  · rw [hd]; simp only [List.length_append, List.length_cons, List.length_nil]
    rw [if_neg (by omega), if_neg (by omega)]
  · rw [hd] at h0
    by_cases c1 : i < name.length
    · rw [List.getElem?_append_left c1] at hi
      exact absurd (List.mem_of_getElem? hi) h3
    · by_cases c2 : i = name.length
      · subst c2; rw [List.getElem?_append_right (Nat.le_refl _)] at hi; simp at hi
      · rw [if_neg (by omega)] at h0
        split at h0
        · have := hb.1 (i - name.length - 1); omega
        · have : (name ++ '(' :: (body ++ [')']))[i]? = none := by
            rw [List.getElem?_eq_none]; simp only [List.length_append, List.length_cons, List.length_nil]; omega
          rw [this] at hi; cases hi

/-- **C45**: what method expressions print is readable if the method name has no blanks or parentheses and the parentheses in what the arguments print are
balanced. -/
theorem C45_method_expressions_are_readable {name : Text} (hne : name ≠ []) (h1 : '(' ∉ name) (h2 : ')' ∉ name) (h3 : ' ' ∉ name) :
    Readable (leafText name .any) ∧ Readable (leafText name .user) ∧ ∀ ts : List Text, (∀ t ∈ ts, Balanced t) → Readable (leafText name (.args ts)) := by
  refine ⟨?_, ?_, fun ts hts => ?_⟩
  · have := readable_method (body := str " Any arguments ") hne h1 h2 h3 (balanced_plain (by decide +kernel) (by decide +kernel))
    have e : str "( Any arguments )" = '(' :: (str " Any arguments " ++ [')']) := by decide +kernel
    simpa [leafText, e] using this
  · have := readable_method (body := str " user defined matcher ") hne h1 h2 h3 (balanced_plain (by decide +kernel) (by decide +kernel))
    have e : str "( user defined matcher )" = '(' :: (str " user defined matcher " ++ [')']) := by decide +kernel
    simpa [leafText, e] using this
  · have := readable_method (body := commaSeparated ts) hne h1 h2 h3 (balanced_comma hts)
    simpa [leafText] using this

/-! ## Where the claim fails -/

/-- **C45** is false: different method expressions can print the same text (two `Matching` predicates do), so two patterns that print the same can
expand differently. -/
theorem C45_predicates_print_the_same (name : Text) (p q : List Nat → Bool) (h : p ≠ q) :
    ∃ pat pat' : List (Seq (List Nat → Bool)), formatPattern (fun _ => leafText name .user) pat = formatPattern (fun _ => leafText name .user) pat' ∧
      pat.map Seq.expected ≠ pat'.map Seq.expected :=
  ⟨[.leaf p], [.leaf q], rfl, by simpa [Seq.expected] using h⟩

private theorem rep_writable {s : Seq L} {n : Int} (hs : Writable s) (h : 0 < n) : Writable (.rep s n) :=
  .star (n := n) hs (if_neg (by omega))

/-- Texts of three method expressions; the third has an argument that prints as an unbalanced parenthesis. -/
private def abText (n : Fin 3) : Text := if n = 0 then ['b'] else if n = 1 then ['a'] else ['a', ')']

/-- **C45** is false even if all method expressions print differently: with unbalanced parentheses (which an argument can print) the printed pattern is
ambiguous. -/
theorem C45_unbalanced_texts_are_ambiguous :
    ∃ (text : Fin 3 → Text) (s s' : Seq (Fin 3)), (∀ l l', text l = text l' → l = l') ∧ Writable s ∧ Writable s' ∧
      formatPattern text [s] = formatPattern text [s'] ∧ s.expected ≠ s'.expected := by
  refine ⟨abText, .rep (.rep (.cat (.leaf 0) (.cat (.rep (.leaf 2) 2) (.leaf 1))) 3) 4,
    .rep (.cat (.rep (.cat (.leaf 0) (.leaf 1)) 2) (.rep (.leaf 2) 3)) 4, by decide, ?_, ?_, by decide +kernel, by decide +kernel⟩
  · exact rep_writable (rep_writable (.plus (.method 0) (.plus (rep_writable (.method 2) (by decide)) (.method 1))) (by decide)) (by decide)
  · exact rep_writable (.plus (rep_writable (.plus (.method 0) (.method 1)) (by decide)) (rep_writable (.method 2) (by decide))) (by decide)

namespace Demo

private def mText (n : Nat) : Text := leafText (str "mock.f") (.args [decimal n])

/-- Associativity does not show, and does not matter. -/
example : formatPattern mText [.cat (.cat (.leaf 1) (.leaf 2)) (.leaf 3)] = formatPattern mText [.cat (.leaf 1) (.cat (.leaf 2) (.leaf 3))] := by
  decide +kernel
example : formatPattern mText [.rep (.cat (.leaf 1) (.leaf 12)) 3, .leaf 4] = str "(mock.f(1) + mock.f(12)) * 3 ... mock.f(4)" := by decide +kernel
example : Readable (mText 12) :=
  (C45_method_expressions_are_readable (by decide +kernel) (by decide +kernel) (by decide +kernel) (by decide +kernel)).2.2 _ fun t ht => by
    simp only [List.mem_singleton] at ht; subst ht
    exact balanced_plain (by decide +kernel) (by decide +kernel)

end Demo
end FakeIt
